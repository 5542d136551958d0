import Verif.Props.Rounding

/-! # Property C129 : round trips in floating point -/

namespace Aerokit.Props
open Real Isentropic MassFlow ShockWave
open Rounded (Arith Close)

section
variable {F : Arith} {M γ : ℝ}

/-- `(T - 1) * 2 / (gamma - 1)`, square root, from a ratio `T` known up to `d` roundings -/
theorem back_close {d T' : ℝ} (hu : F.u ≤ 1 / 64) (hγ : 1 < γ) (hM : 0 < M) (hd : 0 ≤ d)
    (hs : (1 + 4 / ((γ - 1) * M ^ 2)) * d * F.u ≤ 5 / 64) (h : Close F d (tt M γ) T') :
    ∃ v, (do
      let q ← F.div (F.mul (F.sub T' 1) 2) (F.sub γ 1)
      F.sqrt q) = .ok v ∧ Close F ((1 + 4 / ((γ - 1) * M ^ 2)) * d + 3) M v := by
  have g1 : 0 < γ - 1 := by linarith
  have hκ1 : 1 ≤ 1 + 4 / ((γ - 1) * M ^ 2) := by
    have : 0 ≤ 4 / ((γ - 1) * M ^ 2) := by positivity
    linarith
  have hκ : tt M γ + 1 ≤ (1 + 4 / ((γ - 1) * M ^ 2)) * (tt M γ - 1) := by
    unfold tt
    have : (1 + 4 / ((γ - 1) * M ^ 2)) * (1 + (γ - 1) / 2 * M ^ 2 - 1) = (γ - 1) / 2 * M ^ 2 + 2 := by field_simp; ring
    rw [this]; linarith
  obtain ⟨κ, hκe⟩ : ∃ κ, κ = 1 + 4 / ((γ - 1) * M ^ 2) := ⟨_, rfl⟩
  rw [← hκe] at hκ hκ1 hs ⊢
  have hL := Rounded.L_le hu
  have hu0 := F.u_nonneg
  have du : 0 ≤ d * F.u := by positivity
  have hs1 : d * F.u ≤ 5 / 64 := by nlinarith
  have hs2 : d * F.L ≤ 1 / 12 := by nlinarith
  have hs3 : κ * (d * F.L) ≤ 1 / 3 := by
    have : κ * (d * F.L) ≤ κ * (d * (64 / 63 * F.u)) := by
      apply mul_le_mul_of_nonneg_left _ (by linarith)
      exact mul_le_mul_of_nonneg_left hL hd
    nlinarith
  have hT : 1 < tt M γ := by
    unfold tt
    have : 0 < (γ - 1) / 2 * M ^ 2 := by positivity
    linarith
  have h1 := Close.sub (κ := κ) hu hd hT hκ1 hκ hs3 hs2 h ((Close.refl (F := F) one_pos).mono hu hd)
  obtain ⟨q, hq, hcq⟩ := (h1.mul hu (Close.refl (F := F) two_pos)).div hu (Close.sub_exact hu hγ)
  obtain ⟨v, hv, hcv⟩ := hcq.sqrt hu
  refine ⟨v, ?_, ?_⟩
  · rw [hq, Py.ok_bind]; exact hv
  · have e : √((tt M γ - 1) * 2 / (γ - 1)) = M := by
      have : (tt M γ - 1) * 2 / (γ - 1) = M ^ 2 := by unfold tt; field_simp; ring
      rw [this, sqrt_sq hM.le]
    rw [e] at hcv
    exact hcv.mono hu (by linarith)

/-- **C129** (temperature ratio; partial: Mach numbers that are not too small for the precision,
`M² ≫ u`, see `C129_low_Mach_false`): `Mach_TtTs (TtTs_Mach M)` is `M` up to `8 + 20/((γ-1) M²)` roundings. -/
theorem C129_temperature_partial (F : Arith) (hu : F.u ≤ 1 / 64) (M γ : ℝ) (hγ : 1 < γ) (hM : 0 < M)
    (hs : (1 + 4 / ((γ - 1) * M ^ 2)) * F.u ≤ 1 / 64) :
    Accurate F (8 + 20 / ((γ - 1) * M ^ 2)) (do let T ← Rounded.TtTs_Mach F M γ; Rounded.Mach_TtTs F T γ) (.ok M) := by
  obtain ⟨T, hT, hc⟩ := TtTs_close (F := F) hu hγ hM
  obtain ⟨v, hv, hcv⟩ := back_close hu hγ hM (by norm_num) (by linarith) hc
  have g1 : 0 < γ - 1 := by linarith
  have : 0 ≤ 20 / ((γ - 1) * M ^ 2) := by positivity
  refine accurate_of hu (by linarith) rfl ⟨v, ?_, hcv.mono hu (le_of_eq ?_)⟩
  · rw [hT, Py.ok_bind]
    unfold Rounded.Mach_TtTs; lits
    exact hv
  · ring

/-- **C129** (pressure ratio; partial for the same reason): `Mach_PtPs (PtPs_Mach M)`. -/
theorem C129_pressure_partial (F : Arith) (hu : F.u ≤ 1 / 64) (M γ : ℝ) (hγ : 1 < γ) (hM : 0 < M)
    (hs : (1 + 4 / ((γ - 1) * M ^ 2)) * (9 + 6 * log (1 + (γ - 1) / 2 * M ^ 2)) * F.u ≤ 5 / 64) :
    Accurate F ((1 + 4 / ((γ - 1) * M ^ 2)) * (9 + 6 * log (1 + (γ - 1) / 2 * M ^ 2)) + 3)
      (do let P ← Rounded.PtPs_Mach F M γ; Rounded.Mach_PtPs F P γ) (.ok M) := by
  have g1 : 0 < γ - 1 := by linarith
  have g0 : 0 < γ := by linarith
  have t1 := one_le_tt (M := M) hγ
  have l0 := log_nonneg t1
  change (1 + 4 / ((γ - 1) * M ^ 2)) * (9 + 6 * log (tt M γ)) * F.u ≤ 5 / 64 at hs
  show Accurate F ((1 + 4 / ((γ - 1) * M ^ 2)) * (9 + 6 * log (tt M γ)) + 3) _ _
  obtain ⟨P, hP, hcP⟩ := PtPs_close (F := F) hu hγ le_rfl (Close.refl hM)
  obtain ⟨e', he, hce⟩ := (Close.sub_exact (F := F) hu hγ).div hu (Close.refl g0)
  have hr := exp_rel hu (by norm_num) (by norm_num) hce
  have e0 : 0 < (γ - 1) / γ := by positivity
  have e1 : (γ - 1) / γ < 1 := by rw [div_lt_one g0]; linarith
  have f0 : 0 < γ / (γ - 1) := by positivity
  have fe : (γ - 1) / γ * (γ / (γ - 1)) = 1 := by field_simp
  obtain ⟨t, ht, hct⟩ := hcP.pow hu (by positivity) (by norm_num) (by norm_num) hr
  have hval : (tt M γ ^ (γ / (γ - 1))) ^ ((γ - 1) / γ) = tt M γ := by
    rw [← rpow_mul (by linarith), mul_comm, fe, rpow_one]
  rw [hval] at hct
  have hd : Close F (9 + 6 * log (tt M γ)) (tt M γ) t := by
    refine hct.mono hu ?_
    have l1 : (γ - 1) / γ * |log (tt M γ ^ (γ / (γ - 1)))| = log (tt M γ) := by
      rw [log_rpow (by linarith), abs_of_nonneg (by positivity), ← mul_assoc, fe, one_mul]
    rw [abs_of_pos e0, l1]
    have l2 : (γ - 1) / γ * (12 / 11 * (γ / (γ - 1) * (2 * 0 + 5)) + 13 / 6 * (γ / (γ - 1) * log (tt M γ)) + 1) =
        ((γ - 1) / γ * (γ / (γ - 1))) * (60 / 11 + 13 / 6 * log (tt M γ)) + (γ - 1) / γ := by ring
    rw [l2, fe]
    linarith
  obtain ⟨v, hv, hcv⟩ := back_close hu hγ hM (by positivity) hs hd
  have : 0 ≤ (1 + 4 / ((γ - 1) * M ^ 2)) * (9 + 6 * log (tt M γ)) := by positivity
  refine accurate_of hu (by linarith) rfl ⟨v, ?_, hcv⟩
  rw [hP, Py.ok_bind]
  unfold Rounded.Mach_PtPs; lits
  rw [he, Py.ok_bind, ht, Py.ok_bind]
  exact hv


set_option maxHeartbeats 1000000 in
theorem shock_back (hu : F.u ≤ 1 / 1024) (hγ : 1 < γ) (hM : 1 ≤ M) :
    ∃ v, (do let P ← Rounded.Ps_ratio F M γ; Rounded.Mn_Ps_ratio F P γ) = .ok v ∧ Close F 24 M v := by
  have hu64 : F.u ≤ 1 / 64 := by linarith
  obtain ⟨P', hP', hcP⟩ := Ps_close (F := F) hu64 hγ hM
  obtain ⟨κ, hκ⟩ : ∃ κ, κ = 2 * γ / (γ + 1) := ⟨_, rfl⟩
  obtain ⟨s, hs⟩ : ∃ s, s = M ^ 2 := ⟨_, rfl⟩
  have s1 : 1 ≤ s := by rw [hs]; exact one_le_pow₀ hM
  have k1 : 1 < κ := by rw [hκ, lt_div_iff₀ (by linarith)]; linarith
  have p1 : psr M γ = 1 + κ * (s - 1) := by unfold psr; rw [← hκ, ← hs]
  obtain ⟨P, hP⟩ : ∃ P, P = psr M γ := ⟨_, rfl⟩
  rw [← hP] at hcP p1
  have P1 : 1 ≤ P := by nlinarith
  have Ps : P ≤ κ * s := by nlinarith
  obtain ⟨u, hu'⟩ : ∃ u, u = F.u := ⟨_, rfl⟩
  have u0 : 0 ≤ u := hu' ▸ F.u_nonneg
  have u1 : u ≤ 1 / 1024 := hu' ▸ hu
  have hL := Rounded.L_le hu64
  have hL0 := Rounded.L_nonneg hu64
  rw [← hu'] at hL
  -- error of the ratio
  have b1 : |P' - P| ≤ 18 * u * P := by
    have t0 : 0 ≤ 16 * F.L := by linarith
    have t1 : 16 * F.L ≤ 1 / 12 := by linarith
    obtain ⟨e1, -⟩ := Rounded.exp_small t0 t1
    have e0 : 1 ≤ exp (16 * F.L) := one_le_exp t0
    obtain ⟨a, b⟩ := hcP.bounds
    have hy := hcP.2.1
    have E : exp (16 * F.L) ≤ 1 + 18 * u := by linarith
    rw [abs_le]
    constructor
    · by_cases h : P' ≤ P
      · nlinarith
      · have : 0 ≤ 18 * u * P := by positivity
        linarith
    · nlinarith
  -- P - 1
  obtain ⟨z, hz⟩ : ∃ z, z = F.sub P' 1 := ⟨_, rfl⟩
  have uP : 0 ≤ u * P := by positivity
  have uP1 : u * P ≤ 1 / 1024 * P := mul_le_mul_of_nonneg_right u1 (by linarith)
  have b2 : |z - (P - 1)| ≤ 20 * u * P := by
    have h := F.rnd_rel (P' - 1)
    rw [← hu'] at h
    have e : F.rnd (P' - 1) = z := by rw [hz]; rfl
    rw [e] at h
    obtain ⟨c1, c2⟩ := abs_le.1 b1
    have h3 : |P' - 1| ≤ 11 / 10 * P := by
      rw [abs_le]; constructor <;> linarith
    have h4 : u * |P' - 1| ≤ u * (11 / 10 * P) := mul_le_mul_of_nonneg_left h3 u0
    obtain ⟨d1, d2⟩ := abs_le.1 h
    rw [abs_le]; constructor <;> linarith
  -- times (gamma + 1)
  have g0 : 0 < γ := by linarith
  obtain ⟨g, hg⟩ : ∃ g, g = F.add γ 1 := ⟨_, rfl⟩
  have bg : |g - (γ + 1)| ≤ u * (γ + 1) := by
    have h := F.rnd_rel (γ + 1)
    rw [← hu', abs_of_pos (by linarith : 0 < γ + 1)] at h
    rw [hg]; exact h
  obtain ⟨n, hn⟩ : ∃ n, n = F.mul z g := ⟨_, rfl⟩
  have b3 : |z * g - (P - 1) * (γ + 1)| ≤ 22 * u * P * (γ + 1) := by
    have g2 : |g| ≤ 11 / 10 * (γ + 1) := by
      obtain ⟨c1, c2⟩ := abs_le.1 bg
      rw [abs_le]; constructor <;> nlinarith
    calc |z * g - (P - 1) * (γ + 1)| = |(z - (P - 1)) * (γ + 1) + z * (g - (γ + 1))| := by ring_nf
      _ ≤ _ := abs_add_le _ _
      _ = |z - (P - 1)| * (γ + 1) + |z| * |g - (γ + 1)| := by rw [abs_mul, abs_mul, abs_of_pos (by linarith : 0 < γ + 1)]
      _ ≤ (20 * u * P) * (γ + 1) + (11 / 10 * P) * (u * (γ + 1)) := by
          have z2 : |z| ≤ 11 / 10 * P := by
            obtain ⟨c1, c2⟩ := abs_le.1 b2
            rw [abs_le]; constructor <;> linarith
          have : 0 < γ + 1 := by linarith
          gcongr
      _ ≤ _ := by nlinarith [mul_nonneg uP (by linarith : 0 ≤ γ + 1)]
  have b4 : |n - (P - 1) * (γ + 1)| ≤ 24 * u * P * (γ + 1) := by
    have h := F.rnd_rel (z * g)
    rw [← hu'] at h
    have e : F.rnd (z * g) = n := by rw [hn]; rfl
    rw [e] at h
    have gp : 0 < γ + 1 := by linarith
    have q0 : 0 ≤ u * P * (γ + 1) := by positivity
    have q1 : u * P * (γ + 1) ≤ 1 / 1024 * P * (γ + 1) := mul_le_mul_of_nonneg_right uP1 gp.le
    have h3 : |z * g| ≤ 11 / 10 * P * (γ + 1) := by
      obtain ⟨c1, c2⟩ := abs_le.1 b3
      have : 0 ≤ P * (γ + 1) := by positivity
      have : 0 ≤ (P - 1) * (γ + 1) := mul_nonneg (by linarith) gp.le
      rw [abs_le]; constructor <;> nlinarith
    have h4 : u * |z * g| ≤ u * (11 / 10 * P * (γ + 1)) := mul_le_mul_of_nonneg_left h3 u0
    obtain ⟨d1, d2⟩ := abs_le.1 h
    obtain ⟨d3, d4⟩ := abs_le.1 b3
    rw [abs_le]; constructor <;> linarith
  -- divided by 2 gamma
  have h2 := (Close.refl (F := F) two_pos).mul hu64 (Close.refl g0)
  have h2r := h2.rel hu64 (by norm_num) (by norm_num)
  obtain ⟨m, hm⟩ : ∃ m, m = F.mul 2 γ := ⟨_, rfl⟩
  rw [← hm] at h2 h2r
  have hm0 := h2.2.1
  have b5 : |m - 2 * γ| ≤ 12 / 10 * u * (2 * γ) := by
    refine h2r.trans (mul_le_mul_of_nonneg_right ?_ (by linarith))
    linarith
  obtain ⟨m1, m2⟩ := abs_le.1 b5
  have m3 : 2 * γ * (1 - 12 / 10 * u) ≤ m := by linarith
  have inv1 : |1 / m - 1 / (2 * γ)| ≤ 13 / 10 * u * (1 / (2 * γ)) := by
    have e : 1 / m - 1 / (2 * γ) = (2 * γ - m) / m * (1 / (2 * γ)) := by field_simp
    rw [e, abs_mul, abs_of_pos (by positivity : 0 < 1 / (2 * γ)), abs_div, abs_of_pos hm0]
    apply mul_le_mul_of_nonneg_right _ (by positivity)
    rw [div_le_iff₀ hm0, abs_sub_comm]
    refine b5.trans ?_
    nlinarith
  have hκi : (γ + 1) * (1 / (2 * γ)) = 1 / κ := by rw [hκ]; field_simp
  obtain ⟨i, hi⟩ : ∃ i, i = 1 / (2 * γ) := ⟨_, rfl⟩
  rw [← hi] at inv1 hκi
  have i0 : 0 < i := by rw [hi]; positivity
  have gp : 0 < γ + 1 := by linarith
  have ku : P * ((γ + 1) * i) ≤ s := by
    rw [hκi, mul_one_div, div_le_iff₀ (by linarith)]; linarith
  have us0 : 0 ≤ u * s := by positivity
  have us1 : u * s ≤ 1 / 1024 * s := mul_le_mul_of_nonneg_right u1 (by linarith)
  have exq : (P - 1) * (γ + 1) * i = s - 1 := by
    rw [mul_assoc, hκi, p1]; field_simp; ring
  have b6 : |n / m - (s - 1)| ≤ 26 * u * s := by
    have j : |1 / m| ≤ 11 / 10 * i := by
      obtain ⟨c1, c2⟩ := abs_le.1 inv1
      rw [abs_le]; constructor <;> nlinarith
    have e : n / m - (s - 1) = (n - (P - 1) * (γ + 1)) * (1 / m) + (P - 1) * (γ + 1) * (1 / m - i) := by
      rw [← exq]; ring
    rw [e]
    have j' : |1 / m| ≤ (1 + 13 / 10 * u) * i := by
      obtain ⟨c1, c2⟩ := abs_le.1 inv1
      rw [abs_of_pos (by positivity)]; linarith
    calc _ ≤ _ := abs_add_le _ _
      _ = |n - (P - 1) * (γ + 1)| * |1 / m| + (P - 1) * (γ + 1) * |1 / m - i| := by
          rw [abs_mul, abs_mul, abs_of_nonneg (mul_nonneg (by linarith) gp.le : 0 ≤ (P - 1) * (γ + 1))]
      _ ≤ (24 * u * P * (γ + 1)) * ((1 + 13 / 10 * u) * i) + (P - 1) * (γ + 1) * (13 / 10 * u * i) := by
          have : 0 ≤ (P - 1) * (γ + 1) := mul_nonneg (by linarith) gp.le
          gcongr
      _ = 24 * (1 + 13 / 10 * u) * u * (P * ((γ + 1) * i)) + 13 / 10 * u * ((P - 1) * (γ + 1) * i) := by ring
      _ ≤ 24 * (1 + 13 / 10 * u) * u * s + 13 / 10 * u * (s - 1) := by
          rw [exq]
          have := mul_le_mul_of_nonneg_left ku (by positivity : 0 ≤ 24 * (1 + 13 / 10 * u) * u)
          linarith
      _ ≤ _ := by nlinarith
  obtain ⟨q, hq⟩ : ∃ q, q = F.rnd (n / m) := ⟨_, rfl⟩
  have b7 : |q - (s - 1)| ≤ 28 * u * s := by
    have h := F.rnd_rel (n / m)
    rw [← hu', ← hq] at h
    obtain ⟨c1, c2⟩ := abs_le.1 b6
    have h3 : |n / m| ≤ 11 / 10 * s := by
      rw [abs_le]; constructor <;> linarith
    have h4 : u * |n / m| ≤ u * (11 / 10 * s) := mul_le_mul_of_nonneg_left h3 u0
    obtain ⟨d1, d2⟩ := abs_le.1 h
    rw [abs_le]; constructor <;> linarith
  have b8 : |(1 + q) - s| ≤ 28 * F.u * s := by
    rw [← hu']
    have : 1 + q - s = q - (s - 1) := by ring
    rw [this]; exact b7
  have hc := (Close.of_abs hu64 (by norm_num) (by linarith) (by linarith : 0 < s) b8).rnd hu64
  obtain ⟨v, hv, hcv⟩ := hc.sqrt hu64
  refine ⟨v, ?_, ?_⟩
  · rw [hP', Py.ok_bind]
    unfold Rounded.Mn_Ps_ratio; lits
    have : F.div n m = .ok q := by unfold Arith.div; rw [if_neg hm0.ne', hq]
    rw [← hz, ← hg, ← hn, ← hm, this, Py.ok_bind]
    exact hv
  · rw [hs, sqrt_sq (by linarith)] at hcv
    exact hcv.mono hu64 (by norm_num)

/-- **C129** (shock strength): `Mn_Ps_ratio (Ps_ratio M)` is `M` up to 24 roundings, for every shock, however
weak. -/
theorem C129_shock (F : Arith) (hu : F.u ≤ 1 / 1024) (M γ : ℝ) (hγ : 1 < γ) (hM : 1 ≤ M) :
    Accurate F 24 (do let P ← Rounded.Ps_ratio F M γ; Rounded.Mn_Ps_ratio F P γ) (.ok M) :=
  accurate_of (by linarith) (by norm_num) rfl (shock_back hu hγ hM)

end

/-! ### low Mach numbers -/

theorem fl_zero (p : ℕ) : Rounded.fl p 0 = 0 := by simp [Rounded.fl]

/-- `1 + z` rounds to 1 when `z` is below half a unit in the last place -/
theorem fl_one_add {p : ℕ} {z : ℝ} (hp : 1 ≤ p) (h0 : 0 ≤ z) (h1 : z < (2 : ℝ)⁻¹ ^ p) : Rounded.fl p (1 + z) = 1 := by
  have hp1 : (2 : ℝ)⁻¹ ^ p ≤ 1 := pow_le_one₀ (by norm_num) (by norm_num)
  have hl : Int.log 2 |1 + z| = 0 := by
    rw [abs_of_pos (by linarith)]
    have h2 : (2 : ℝ) ^ (0 : ℤ) ≤ 1 + z := by simpa using h0
    have h3 : 1 + z < (2 : ℝ) ^ ((0 : ℤ) + 1) := by norm_num; linarith
    apply le_antisymm
    · have := (Int.lt_zpow_iff_log_lt (R := ℝ) (b := 2) (by norm_num) (x := 1) (r := 1 + z) (by linarith)).1 (by simpa using h3)
      omega
    · exact (Int.zpow_le_iff_le_log (R := ℝ) (b := 2) (by norm_num) (x := 0) (r := 1 + z) (by linarith)).1 (by simpa using h0)
  unfold Rounded.fl
  rw [if_neg (by linarith), hl]
  have e : (2 : ℝ) ^ ((0 : ℤ) - p + 1) = 2 * (2 : ℝ)⁻¹ ^ p := by
    rw [zpow_add₀ (by norm_num), zpow_sub₀ (by norm_num), zpow_natCast, inv_pow]; simp; ring
  rw [e]
  obtain ⟨k, rfl⟩ : ∃ k, p = k + 1 := ⟨p - 1, by omega⟩
  have e2 : 2 * (2 : ℝ)⁻¹ ^ (k + 1) = (2 : ℝ)⁻¹ ^ k := by rw [pow_succ]; ring
  rw [e2]
  have q : (0 : ℝ) < (2 : ℝ)⁻¹ ^ k := by positivity
  have hN : (1 : ℝ) / (2 : ℝ)⁻¹ ^ k = ((2 ^ k : ℤ) : ℝ) := by push_cast; rw [inv_pow, one_div, inv_inv]
  have hr : round ((1 + z) / (2 : ℝ)⁻¹ ^ k) = 2 ^ k := by
    rw [add_div, hN, round_eq, Int.floor_eq_iff]
    have z0 : 0 ≤ z / (2 : ℝ)⁻¹ ^ k := by positivity
    have z1 : z / (2 : ℝ)⁻¹ ^ k < 1 / 2 := by
      rw [div_lt_iff₀ q]; linarith
    constructor <;> linarith
  rw [hr, ← hN]
  field_simp

/-- **C129 is false for small Mach numbers**: in binary floating point with `p` digits (53 for float64),
when `(γ-1) M² ≤ 2⁻ᵖ` (for air and float64: `M ≤ 1.6·10⁻⁸`) the temperature ratio of `M` is 1 and the Mach
number recovered from it is 0: the relative error is total. -/
theorem C129_low_Mach_false (p : ℕ) (hp : 6 ≤ p) (M γ : ℝ) (hγ : 1 < γ) (hM : 0 < M) (h : (γ - 1) * M ^ 2 ≤ (2 : ℝ)⁻¹ ^ p) :
    Rounded.TtTs_Mach (Rounded.binary p) M γ = .ok 1 ∧ Rounded.Mach_TtTs (Rounded.binary p) 1 γ = .ok 0 := by
  have hu : (Rounded.binary p).u ≤ 1 / 64 := by
    have : (Rounded.binary p).u = (2 : ℝ)⁻¹ ^ p := rfl
    rw [this]
    calc (2 : ℝ)⁻¹ ^ p ≤ (2 : ℝ)⁻¹ ^ 6 := pow_le_pow_of_le_one (by norm_num) (by norm_num) hp
      _ = _ := by norm_num
  obtain ⟨F, hF⟩ : ∃ F, F = Rounded.binary p := ⟨_, rfl⟩
  have hrnd : ∀ x, F.rnd x = Rounded.fl p x := by rw [hF]; exact fun _ => rfl
  rw [← hF] at hu ⊢
  constructor
  · have h1 := (Close.refl (F := F) (show (0 : ℝ) < 1 / 2 by norm_num)).mul hu (Close.sub_exact hu hγ)
    have h2 := (h1.mul hu ((Close.refl (F := F) hM).sq hu)).mono hu (show 0 + 1 + 1 + (2 * 0 + 1) + 1 ≤ (5 : ℝ) by norm_num)
    have h3 := h2.rel hu (by norm_num) le_rfl
    have hL := Rounded.L_le' hu
    have hL0 := Rounded.L_nonneg hu
    unfold Rounded.TtTs_Mach
    simp only [Py.pure_eq]
    lits
    obtain ⟨z, hz⟩ : ∃ z, z = F.mul (F.mul (1 / 2) (F.sub γ 1)) (F.sq M) := ⟨_, rfl⟩
    rw [← hz] at h2 h3 ⊢
    have z0 := h2.2.1
    have q0 := h2.1
    have z1 : z < (2 : ℝ)⁻¹ ^ p := by
      have := (abs_le.1 h3).2
      have e : 1 / 2 * (γ - 1) * M ^ 2 = 1 / 2 * ((γ - 1) * M ^ 2) := by ring
      have q1 : 13 / 12 * (5 * F.L) * (1 / 2 * (γ - 1) * M ^ 2) ≤ 13 / 12 * (5 * (1 / 63)) * (1 / 2 * (γ - 1) * M ^ 2) := by
        apply mul_le_mul_of_nonneg_right _ q0.le; linarith
      have : 0 < (2 : ℝ)⁻¹ ^ p := by positivity
      rw [e] at *
      linarith
    unfold Arith.add
    rw [hrnd, fl_one_add (by omega) z0.le z1]
  · unfold Rounded.Mach_TtTs
    lits
    have e1 : F.sub 1 1 = 0 := by unfold Arith.sub; rw [hrnd, sub_self, fl_zero]
    have e2 : F.mul 0 2 = 0 := by unfold Arith.mul; rw [hrnd, zero_mul, fl_zero]
    have hg := (Close.sub_exact (F := F) hu hγ).2.1
    have e3 : F.div 0 (F.sub γ 1) = .ok 0 := by unfold Arith.div; rw [if_neg hg.ne', hrnd, zero_div, fl_zero]
    rw [e1, e2, e3, Py.ok_bind]
    unfold Arith.sqrt
    rw [if_neg (lt_irrefl _), hrnd, sqrt_zero, fl_zero]

/-- the hypotheses are met: float64, air; Mach 1/10 for the positive results, `10⁻⁸` for the negative one -/
example : (1 + 4 / ((1.4 - 1) * (1 / 10 : ℝ) ^ 2)) * (Rounded.binary 53).u ≤ 1 / 64 ∧ (Rounded.binary 53).u ≤ 1 / 1024 ∧
    ((1.4 : ℝ) - 1) * (10 ^ (-8 : ℤ)) ^ 2 ≤ (2 : ℝ)⁻¹ ^ 53 ∧
    (1 + 4 / ((1.4 - 1) * (1 / 10 : ℝ) ^ 2)) * (9 + 6 * log (1 + (1.4 - 1) / 2 * (1 / 10) ^ 2)) * (Rounded.binary 53).u ≤ 5 / 64 := by
  have : (Rounded.binary 53).u = (2 : ℝ)⁻¹ ^ 53 := rfl
  rw [this]
  refine ⟨by norm_num, by norm_num, by norm_num, ?_⟩
  have l := log_le_sub_one_of_pos (show (0 : ℝ) < 1 + (1.4 - 1) / 2 * (1 / 10) ^ 2 by norm_num)
  have l' : 9 + 6 * log (1 + (1.4 - 1) / 2 * (1 / 10) ^ 2) ≤ 10 := by norm_num at l ⊢; linarith
  calc _ ≤ (1 + 4 / ((1.4 - 1) * (1 / 10 : ℝ) ^ 2)) * 10 * (2 : ℝ)⁻¹ ^ 53 := by gcongr
    _ ≤ _ := by norm_num

end Aerokit.Props
