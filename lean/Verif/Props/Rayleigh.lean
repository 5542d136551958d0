import Verif.Model.Rayleigh
import Verif.Lemmas.MassFlow

/-! # Properties C24–C27 : Rayleigh flow, `aerokit/aero/Rayleigh.py` -/

namespace Aerokit.Props
open Isentropic MassFlow Real

theorem ray_den_pos {M γ : ℝ} (h : 1 < γ) : 0 < 1 + γ * M ^ 2 := by
  have : 0 < γ := by linarith
  positivity

theorem Ray_Ps_ok {M γ : ℝ} (h : 1 < γ) :
    Rayleigh.Ps_Pscri M γ = .ok ((γ + 1) / (1 + γ * M ^ 2)) := by
  unfold Rayleigh.Ps_Pscri; rw [Py.div_ok (ray_den_pos h).ne']

theorem Ray_Ts_ok {M γ : ℝ} (h : 1 < γ) :
    Rayleigh.Ts_Tscri M γ = .ok (M ^ 2 * ((γ + 1) / (1 + γ * M ^ 2)) ^ 2) := by
  unfold Rayleigh.Ts_Tscri; simp only []; rw [Py.div_ok (ray_den_pos h).ne']; rfl

theorem Ray_Ti_ok {M γ : ℝ} (h : 1 < γ) :
    Rayleigh.Ti_Ticri M γ = .ok (1 - ((1 - M ^ 2) / (1 + γ * M ^ 2)) ^ 2) := by
  have hd := ray_den_pos (M := M) h
  unfold Rayleigh.Ti_Ticri
  simp only []
  rw [Py.div_ok (by positivity), Py.ok_bind]
  simp only [Py.pure_eq]; congr 1
  field_simp; ring

theorem Ray_Rho_ok {M γ : ℝ} (h : 1 < γ) (hM : 0 < M) :
    Rayleigh.Rho_Rhocri M γ = .ok ((1 + γ * M ^ 2) / ((γ + 1) * M ^ 2)) := by
  unfold Rayleigh.Rho_Rhocri
  have : (γ + 1) * M ^ 2 ≠ 0 := mul_ne_zero (by linarith) (by positivity)
  simp only [Py.div_ok this]

theorem Ray_V_ok {M γ : ℝ} (h : 1 < γ) :
    Rayleigh.V_Vcri M γ = .ok (M ^ 2 * (γ + 1) / (1 + γ * M ^ 2)) := by
  unfold Rayleigh.V_Vcri
  simp only [Py.div_ok (ray_den_pos (M := M) h).ne']

theorem Ray_Pi_ok {M γ : ℝ} (h : 1 < γ) :
    Rayleigh.Pi_Picri M γ = .ok ((γ + 1) / (1 + γ * M ^ 2) * (2 / (γ + 1) * tt M γ) ^ (γ / (γ - 1))) := by
  unfold Rayleigh.Pi_Picri
  simp only []
  rw [Py.div_ok (ray_den_pos h).ne', Py.ok_bind, Py.div_ok (by linarith), Py.ok_bind,
    Py.div_ok (by linarith), Py.ok_bind]
  change (do let w ← Py.pow (2 / (γ + 1) * tt M γ) (γ / (γ - 1)); return (γ + 1) / (1 + γ * M ^ 2) * w) = _
  rw [Py.pow_ok _ (base_pos h)]; rfl

/-- entropy as a function of `x = M²` -/
noncomputable def rent (γ x : ℝ) : ℝ := log x + (γ + 1) / γ * (log (γ + 1) - log (1 + γ * x))

theorem Ray_dS_ok {M γ : ℝ} (h : 1 < γ) (hM : 0 < M) :
    Rayleigh.NormdS M γ = .ok (rent γ (M ^ 2)) := by
  have hd := ray_den_pos (M := M) h
  have hg : 0 < γ + 1 := by linarith
  have hq : 0 < (γ + 1) / (1 + γ * M ^ 2) := by positivity
  have p2 := Real.rpow_pos_of_pos hq ((γ + 1) / γ)
  unfold Rayleigh.NormdS
  simp only []
  rw [Py.div_ok hd.ne', Py.ok_bind, Py.div_ok (by linarith), Py.ok_bind, Py.pow_ok _ hq, Py.ok_bind,
    Py.log_ok (by positivity), Real.log_mul (by positivity) p2.ne', Real.log_rpow hq,
    Real.log_div hg.ne' hd.ne']
  rfl

/-- C24: mutual consistency of the Rayleigh ratios. -/
theorem C24_consistent (M γ : ℝ) (hγ : 1 < γ) (hM : 0 < M) :
    ∃ p T ρ V Ti P s t t1 q q1, Rayleigh.Ps_Pscri M γ = Except.ok p ∧
      Rayleigh.Ts_Tscri M γ = Except.ok T ∧ Rayleigh.Rho_Rhocri M γ = Except.ok ρ ∧
      Rayleigh.V_Vcri M γ = Except.ok V ∧ Rayleigh.Ti_Ticri M γ = Except.ok Ti ∧
      Rayleigh.Pi_Picri M γ = Except.ok P ∧ Rayleigh.NormdS M γ = Except.ok s ∧
      TtTs_Mach M γ = Except.ok t ∧ TtTs_Mach 1 γ = Except.ok t1 ∧
      PtPs_Mach M γ = Except.ok q ∧ PtPs_Mach 1 γ = Except.ok q1 ∧
      p = ρ * T ∧ ρ * V = 1 ∧ p * (1 + γ * M ^ 2) = 1 + γ ∧ V = M * Real.sqrt T ∧
      Ti = T * t / t1 ∧ P = p * q / q1 ∧ s = Real.log T - (γ - 1) / γ * Real.log p := by
  have hd := ray_den_pos (M := M) hγ
  have hg : 0 < γ + 1 := by linarith
  have hγ0 : 0 < γ := by linarith
  have p1 := tt_pos (M := 1) hγ
  have pM := tt_pos (M := M) hγ
  have hq : 0 < (γ + 1) / (1 + γ * M ^ 2) := by positivity
  refine ⟨_, _, _, _, _, _, _, _, _, _, _, Ray_Ps_ok hγ, Ray_Ts_ok hγ, Ray_Rho_ok hγ hM,
    Ray_V_ok hγ, Ray_Ti_ok hγ, Ray_Pi_ok hγ, Ray_dS_ok hγ hM, TtTs_Mach_ok _ _, TtTs_Mach_ok _ _,
    PtPs_Mach_ok hγ, PtPs_Mach_ok hγ, ?_, ?_, ?_, ?_, ?_, ?_, ?_⟩
  · field_simp
  · field_simp
  · field_simp; ring
  · rw [Real.sqrt_mul (by positivity), Real.sqrt_sq hM.le, Real.sqrt_sq hq.le]; ring
  · have e : tt 1 γ = (γ + 1) / 2 := by unfold tt; ring
    rw [e]; unfold tt; field_simp; ring
  · have : 2 / (γ + 1) = (tt 1 γ)⁻¹ := eq_inv_of_mul_eq_one_left (tt_one hγ)
    rw [this, ← div_eq_inv_mul, Real.div_rpow pM.le p1.le]; ring
  · rw [Real.log_mul (by positivity) (by positivity), Real.log_pow ((γ + 1) / (1 + γ * M ^ 2)),
      Real.log_div hg.ne' hd.ne']
    unfold rent; field_simp; push_cast; ring

/-- C24: all ratios are 1 at the critical point. -/
theorem C24_critical_point (γ : ℝ) (hγ : 1 < γ) :
    Rayleigh.Ps_Pscri 1 γ = Except.ok 1 ∧ Rayleigh.Ts_Tscri 1 γ = Except.ok 1 ∧
    Rayleigh.Rho_Rhocri 1 γ = Except.ok 1 ∧ Rayleigh.V_Vcri 1 γ = Except.ok 1 ∧
    Rayleigh.Ti_Ticri 1 γ = Except.ok 1 ∧ Rayleigh.Pi_Picri 1 γ = Except.ok 1 ∧
    Rayleigh.NormdS 1 γ = Except.ok 0 := by
  have hg : γ + 1 ≠ 0 := by linarith
  have e : 1 + γ * (1:ℝ) ^ 2 = γ + 1 := by ring
  refine ⟨?_, ?_, ?_, ?_, ?_, ?_, ?_⟩
  · rw [Ray_Ps_ok hγ, e, div_self hg]
  · rw [Ray_Ts_ok hγ, e, div_self hg]; simp
  · rw [Ray_Rho_ok hγ one_pos, e]; simp [hg]
  · rw [Ray_V_ok hγ, e]; simp [hg]
  · rw [Ray_Ti_ok hγ]; simp
  · rw [Ray_Pi_ok hγ, e, tt_one hγ, div_self hg]; simp
  · rw [Ray_dS_ok hγ one_pos]; unfold rent
    rw [show 1 + γ * ((1:ℝ) ^ 2) = γ + 1 by ring]; simp

example : (1:ℝ) < 1.4 ∧ (0:ℝ) < 0.5 := by norm_num

/-- `(1-M²)/(1+γM²)` strictly decreases with `M ≥ 0` -/
theorem ray_h_anti {M N γ : ℝ} (h : 1 < γ) (hM : 0 ≤ M) (hMN : M < N) :
    (1 - N ^ 2) / (1 + γ * N ^ 2) < (1 - M ^ 2) / (1 + γ * M ^ 2) := by
  rw [div_lt_div_iff₀ (ray_den_pos h) (ray_den_pos h)]
  have : M ^ 2 < N ^ 2 := by nlinarith
  nlinarith

/-- C25: `Ti/Ti_cri ≤ 1`, equal to 1 exactly at `M = 1`. -/
theorem C25_choking (M γ : ℝ) (hγ : 1 < γ) (hM : 0 ≤ M) :
    ∃ t, Rayleigh.Ti_Ticri M γ = Except.ok t ∧ t ≤ 1 ∧ (t = 1 ↔ M = 1) := by
  have hd := ray_den_pos (M := M) hγ
  refine ⟨_, Ray_Ti_ok hγ, by nlinarith [sq_nonneg ((1 - M ^ 2) / (1 + γ * M ^ 2))], ?_⟩
  constructor
  · intro h
    have h0 : ((1 - M ^ 2) / (1 + γ * M ^ 2)) ^ 2 = 0 := by linarith
    have h1 := pow_eq_zero_iff (two_ne_zero) |>.1 h0
    rw [div_eq_zero_iff] at h1
    rcases h1 with h1 | h1
    · have : (M - 1) * (M + 1) = 0 := by linarith
      rcases mul_eq_zero.1 this with h | h <;> linarith
    · linarith
  · rintro rfl; simp

/-- C25: total temperature ratio strictly increases up to `M = 1` and strictly decreases after. -/
theorem C25_monotone (M N γ : ℝ) (hγ : 1 < γ) (hM : 0 ≤ M) (hMN : M < N) :
    ∃ t t', Rayleigh.Ti_Ticri M γ = Except.ok t ∧ Rayleigh.Ti_Ticri N γ = Except.ok t' ∧
      (N ≤ 1 → t < t') ∧ (1 ≤ M → t' < t) := by
  have h := ray_h_anti hγ hM hMN
  refine ⟨_, _, Ray_Ti_ok hγ, Ray_Ti_ok hγ, ?_, ?_⟩
  · intro h1
    have h0 : 0 ≤ (1 - N ^ 2) / (1 + γ * N ^ 2) := by
      apply div_nonneg _ (ray_den_pos hγ).le; nlinarith
    nlinarith
  · intro h1
    have h0 : (1 - M ^ 2) / (1 + γ * M ^ 2) ≤ 0 := by
      apply div_nonpos_of_nonpos_of_nonneg _ (ray_den_pos hγ).le; nlinarith
    nlinarith

theorem hasDerivAt_rent {γ x : ℝ} (h : 1 < γ) (hx : 0 < x) :
    HasDerivAt (rent γ) ((1 - x) / (x * (1 + γ * x))) x := by
  have hγ : 0 < γ := by linarith
  have hE : 0 < 1 + γ * x := by positivity
  have d2 : HasDerivAt (fun x : ℝ => 1 + γ * x) γ x := by
    simpa using ((hasDerivAt_id x).const_mul γ).const_add 1
  have d := (Real.hasDerivAt_log hx.ne').add
    (((d2.log hE.ne').const_sub (log (γ + 1))).const_mul ((γ + 1) / γ))
  refine d.congr_deriv ?_
  field_simp; ring

/-- C25: the entropy is maximal at `M = 1`. -/
theorem C25_entropy_max (M γ : ℝ) (hγ : 1 < γ) (hM : 0 < M) :
    ∃ s, Rayleigh.NormdS M γ = Except.ok s ∧ s ≤ 0 ∧ (s = 0 ↔ M = 1) := by
  have hγ0 : 0 < γ := by linarith
  have r1 : rent γ 1 = 0 := by unfold rent; rw [show 1 + γ * 1 = γ + 1 by ring]; simp
  have hmono : StrictMonoOn (rent γ) (Set.Ioc 0 1) := by
    apply strictMonoOn_of_deriv_pos (convex_Ioc 0 1)
    · intro x hx; exact (hasDerivAt_rent hγ hx.1).continuousAt.continuousWithinAt
    · intro x hx
      rw [interior_Ioc] at hx
      have hx0 : 0 < x := hx.1
      rw [(hasDerivAt_rent hγ hx.1).deriv]
      exact div_pos (by linarith [hx.2]) (by positivity)
  have hanti : StrictAntiOn (rent γ) (Set.Ici 1) := by
    apply strictAntiOn_of_deriv_neg (convex_Ici 1)
    · intro x hx
      exact (hasDerivAt_rent hγ (lt_of_lt_of_le one_pos hx)).continuousAt.continuousWithinAt
    · intro x hx
      rw [interior_Ici] at hx
      have hx1 : 1 < x := hx
      have hx0 : 0 < x := by linarith
      rw [(hasDerivAt_rent hγ hx0).deriv]
      exact div_neg_of_neg_of_pos (by linarith) (by positivity)
  have key : M ≠ 1 → rent γ (M ^ 2) < 0 := by
    intro hne
    rcases lt_or_gt_of_ne hne with h | h
    · have := hmono ⟨by positivity, by nlinarith⟩ ⟨one_pos, le_rfl⟩ (by nlinarith : M ^ 2 < 1)
      rwa [r1] at this
    · have := hanti (Set.mem_Ici.2 le_rfl) (Set.mem_Ici.2 (by nlinarith)) (by nlinarith : 1 < M ^ 2)
      rwa [r1] at this
  refine ⟨_, Ray_dS_ok hγ hM, ?_, ?_⟩
  · by_cases h : M = 1
    · rw [h, one_pow, r1]
    · exact (key h).le
  · constructor
    · intro h; by_contra hne; have := key hne; linarith
    · rintro rfl; rw [one_pow, r1]

/-- C25: the static temperature ratio is at most `(γ+1)²/(4γ)`, reached exactly at `M = 1/√γ`. -/
theorem C25_static_temperature_peak (M γ : ℝ) (hγ : 1 < γ) (hM : 0 ≤ M) :
    ∃ t, Rayleigh.Ts_Tscri M γ = Except.ok t ∧ t ≤ (γ + 1) ^ 2 / (4 * γ) ∧
      (t = (γ + 1) ^ 2 / (4 * γ) ↔ M = 1 / Real.sqrt γ) := by
  have hγ0 : 0 < γ := by linarith
  have hd := ray_den_pos (M := M) hγ
  have hg : 0 < γ + 1 := by linarith
  have e : (γ + 1) ^ 2 / (4 * γ) - M ^ 2 * ((γ + 1) / (1 + γ * M ^ 2)) ^ 2
      = (γ + 1) ^ 2 * (1 - γ * M ^ 2) ^ 2 / (4 * γ * (1 + γ * M ^ 2) ^ 2) := by
    field_simp; ring
  have hs : 0 < √γ := Real.sqrt_pos.2 hγ0
  have hs2 : √γ ^ 2 = γ := Real.sq_sqrt hγ0.le
  refine ⟨_, Ray_Ts_ok hγ, ?_, ?_⟩
  · have : 0 ≤ (γ + 1) ^ 2 * (1 - γ * M ^ 2) ^ 2 / (4 * γ * (1 + γ * M ^ 2) ^ 2) := by positivity
    linarith
  · rw [eq_comm, ← sub_eq_zero, e, div_eq_zero_iff, mul_eq_zero]
    constructor
    · rintro ((h | h) | h)
      · exact absurd h (by positivity)
      · have h1 := (pow_eq_zero_iff two_ne_zero).1 h
        rw [eq_div_iff hs.ne']
        have h2 : (M * √γ) ^ 2 = 1 ^ 2 := by rw [mul_pow, hs2]; linarith
        exact (pow_left_inj₀ (by positivity) zero_le_one (by norm_num)).1 h2
      · exact absurd h (by positivity)
    · rintro rfl
      left; right
      rw [div_pow, hs2]; field_simp; ring

/-- C26: `SubMach_TiTicri` inverts `Ti_Ticri` on the subsonic branch … -/
theorem C26_sub_left_inverse (M γ : ℝ) (hγ : 1 < γ) (hM : 0 ≤ M) (h1 : M ≤ 1) :
    (do let t ← Rayleigh.Ti_Ticri M γ; Rayleigh.SubMach_TiTicri t γ) = Except.ok M := by
  have hd := ray_den_pos (M := M) hγ
  have hγ0 : 0 < γ := by linarith
  have h0 : 0 ≤ (1 - M ^ 2) / (1 + γ * M ^ 2) := by
    apply div_nonneg _ hd.le; nlinarith
  rw [Ray_Ti_ok hγ, Py.ok_bind]
  unfold Rayleigh.SubMach_TiTicri; lits
  rw [sub_sub_cancel, Py.sqrt_ok (sq_nonneg _), Py.ok_bind, Real.sqrt_sq h0]
  have hden : 0 < (1 - M ^ 2) / (1 + γ * M ^ 2) * γ + 1 := by positivity
  have hv : (1 - (1 - M ^ 2) / (1 + γ * M ^ 2)) / ((1 - M ^ 2) / (1 + γ * M ^ 2) * γ + 1) = M ^ 2 := by
    rw [div_eq_iff hden.ne']; field_simp; ring
  rw [Py.div_ok hden.ne', Py.ok_bind, hv, Py.sqrt_ok (sq_nonneg _), Real.sqrt_sq hM]

/-- C26: … and `SupMach_TiTicri` on the supersonic branch. -/
theorem C26_sup_left_inverse (M γ : ℝ) (hγ : 1 < γ) (h1 : 1 ≤ M) :
    (do let t ← Rayleigh.Ti_Ticri M γ; Rayleigh.SupMach_TiTicri t γ) = Except.ok M := by
  have hd := ray_den_pos (M := M) hγ
  have hγ0 : 0 < γ := by linarith
  have h0 : 0 ≤ -((1 - M ^ 2) / (1 + γ * M ^ 2)) := by
    rw [neg_nonneg]; apply div_nonpos_of_nonpos_of_nonneg _ hd.le; nlinarith
  rw [Ray_Ti_ok hγ, Py.ok_bind]
  unfold Rayleigh.SupMach_TiTicri; lits
  rw [sub_sub_cancel, Py.sqrt_ok (sq_nonneg _), Py.ok_bind, ← neg_sq, Real.sqrt_sq h0]
  have hv0 : 1 - -((1 - M ^ 2) / (1 + γ * M ^ 2)) * γ = (γ + 1) / (1 + γ * M ^ 2) := by
    field_simp; ring
  have hden : 0 < 1 - -((1 - M ^ 2) / (1 + γ * M ^ 2)) * γ := by
    rw [hv0]; apply div_pos _ hd; linarith
  have hv : (1 + -((1 - M ^ 2) / (1 + γ * M ^ 2))) / (1 - -((1 - M ^ 2) / (1 + γ * M ^ 2)) * γ) = M ^ 2 := by
    rw [div_eq_iff hden.ne', hv0]; field_simp; ring
  rw [Py.div_ok hden.ne', Py.ok_bind, hv, Py.sqrt_ok (sq_nonneg _), Real.sqrt_sq (by linarith)]

/-- C26: for every ratio in `[0, 1]`, `SubMach_TiTicri` returns the unique Mach number in `[0, 1]`
with that ratio. -/
theorem C26_sub_right_inverse (t γ : ℝ) (hγ : 1 < γ) (h0 : 0 ≤ t) (h1 : t ≤ 1) :
    ∃ M, Rayleigh.SubMach_TiTicri t γ = Except.ok M ∧ 0 ≤ M ∧ M ≤ 1 ∧
      Rayleigh.Ti_Ticri M γ = Except.ok t ∧
      ∀ N, 0 ≤ N → N ≤ 1 → Rayleigh.Ti_Ticri N γ = Except.ok t → N = M := by
  have hγ0 : 0 < γ := by linarith
  obtain ⟨α, hα⟩ : ∃ α, α = √(1 - t) := ⟨_, rfl⟩
  have ha0 : 0 ≤ α := by rw [hα]; exact Real.sqrt_nonneg _
  have ha2 : α ^ 2 = 1 - t := by rw [hα]; exact Real.sq_sqrt (by linarith)
  have ha1 : α ≤ 1 := by nlinarith
  have hden : 0 < α * γ + 1 := by positivity
  have hq0 : 0 ≤ (1 - α) / (α * γ + 1) := div_nonneg (by linarith) hden.le
  have hsub : Rayleigh.SubMach_TiTicri t γ = Except.ok (√((1 - α) / (α * γ + 1))) := by
    unfold Rayleigh.SubMach_TiTicri; lits
    rw [Py.sqrt_ok (by linarith), Py.ok_bind, ← hα, Py.div_ok hden.ne', Py.ok_bind, Py.sqrt_ok hq0]
  refine ⟨_, hsub, Real.sqrt_nonneg _, ?_, ?_, ?_⟩
  · rw [Real.sqrt_le_left (by norm_num), one_pow, div_le_one hden]; nlinarith
  · rw [Ray_Ti_ok hγ, Real.sq_sqrt hq0]; congr 1
    have : (1 - (1 - α) / (α * γ + 1)) / (1 + γ * ((1 - α) / (α * γ + 1))) = α := by
      have hx : 1 + γ * ((1 - α) / (α * γ + 1)) = (1 + γ) / (α * γ + 1) := by field_simp; ring
      have hy : 1 - (1 - α) / (α * γ + 1) = α * (1 + γ) / (α * γ + 1) := by field_simp; ring
      have : 1 + γ ≠ 0 := by linarith
      rw [hx, hy]; field_simp
    rw [this, ha2]; ring
  · intro N n0 n1 hN
    have := C26_sub_left_inverse N γ hγ n0 n1
    rw [hN, Py.ok_bind, hsub] at this
    injection this with h; exact h.symm

/-- C26: for every ratio above the asymptotic one `1 - 1/γ²` and up to 1, `SupMach_TiTicri` returns
the unique supersonic Mach number; at or below the asymptotic ratio there is none (NaN/inf). -/
theorem C26_sup_right_inverse (t γ : ℝ) (hγ : 1 < γ) (h1 : t ≤ 1) :
    (1 - 1 / γ ^ 2 < t →
      ∃ M, Rayleigh.SupMach_TiTicri t γ = Except.ok M ∧ 1 ≤ M ∧ Rayleigh.Ti_Ticri M γ = Except.ok t ∧
        ∀ N, 1 ≤ N → Rayleigh.Ti_Ticri N γ = Except.ok t → N = M) ∧
    (t ≤ 1 - 1 / γ ^ 2 → Rayleigh.SupMach_TiTicri t γ = Except.error .nonFinite) := by
  have hγ0 : 0 < γ := by linarith
  obtain ⟨α, hα⟩ : ∃ α, α = √(1 - t) := ⟨_, rfl⟩
  have ha0 : 0 ≤ α := by rw [hα]; exact Real.sqrt_nonneg _
  have ha2 : α ^ 2 = 1 - t := by rw [hα]; exact Real.sq_sqrt (by linarith)
  have hcmp : 1 - 1 / γ ^ 2 < t ↔ α * γ < 1 := by
    have e1 : 1 - 1 / γ ^ 2 < t ↔ α ^ 2 < 1 / γ ^ 2 := by rw [ha2]; constructor <;> intro h <;> linarith
    rw [e1, lt_div_iff₀ (by positivity), ← mul_pow, ← one_pow 2 (M := ℝ)]
    constructor
    · intro h; have := lt_of_pow_lt_pow_left₀ 2 (by norm_num) h; simpa using this
    · intro h; exact pow_lt_pow_left₀ (by simpa using h) (by positivity) (by norm_num)
  constructor
  · intro ht
    rw [hcmp] at ht
    have hden : 0 < 1 - α * γ := by linarith
    have hq0 : 0 ≤ (1 + α) / (1 - α * γ) := div_nonneg (by linarith) hden.le
    have hsup : Rayleigh.SupMach_TiTicri t γ = Except.ok (√((1 + α) / (1 - α * γ))) := by
      unfold Rayleigh.SupMach_TiTicri; lits
      rw [Py.sqrt_ok (by linarith), Py.ok_bind, ← hα, Py.div_ok hden.ne', Py.ok_bind, Py.sqrt_ok hq0]
    refine ⟨_, hsup, ?_, ?_, ?_⟩
    · rw [Real.one_le_sqrt, le_div_iff₀ hden]; nlinarith
    · rw [Ray_Ti_ok hγ, Real.sq_sqrt hq0]; congr 1
      have : (1 - (1 + α) / (1 - α * γ)) / (1 + γ * ((1 + α) / (1 - α * γ))) = -α := by
        have hx : 1 + γ * ((1 + α) / (1 - α * γ)) = (1 + γ) / (1 - α * γ) := by
          rw [eq_div_iff hden.ne', add_mul, mul_assoc, div_mul_cancel₀ _ hden.ne']; ring
        have hy : 1 - (1 + α) / (1 - α * γ) = -α * (1 + γ) / (1 - α * γ) := by
          rw [eq_div_iff hden.ne', sub_mul, div_mul_cancel₀ _ hden.ne']; ring
        have h1g : 1 + γ ≠ 0 := by linarith
        rw [hx, hy, div_div_div_cancel_right₀ hden.ne', mul_div_assoc, div_self h1g, mul_one]
      rw [this, neg_sq, ha2]; ring
    · intro N n1 hN
      have := C26_sup_left_inverse N γ hγ n1
      rw [hN, Py.ok_bind, hsup] at this
      injection this with h; exact h.symm
  · intro ht
    have hn : ¬ α * γ < 1 := fun h => absurd (hcmp.2 h) (not_lt.2 ht)
    push Not at hn
    unfold Rayleigh.SupMach_TiTicri; lits
    rw [Py.sqrt_ok (by linarith), Py.ok_bind, ← hα]
    rcases hn.eq_or_lt with h | h
    · rw [← h, sub_self, Py.div_err]; rfl
    · rw [Py.div_ok (by linarith), Py.ok_bind, Py.sqrt_err]
      exact div_neg_of_pos_of_neg (by linarith) (by linarith)

example : (1:ℝ) < 1.4 ∧ (0:ℝ) ≤ 0.8 ∧ (0.8:ℝ) ≤ 1 ∧ 1 - 1 / (1.4:ℝ) ^ 2 < 0.8 := by norm_num

/-- C27, the part that holds: at `gamma = 1.4` the maximum heating ratio is `1/(Ti/Ti_cri)`.
Missing: every other gamma (see `C27_false_otherwise`). -/
theorem C27_default_gas_partial (M : ℝ) (hM : 0 < M) :
    ∃ r t, Rayleigh.maxTiratio_Mach M 1.4 = Except.ok r ∧ Rayleigh.Ti_Ticri M 1.4 = Except.ok t ∧
      r * t = 1 := by
  have hγ : (1:ℝ) < 1.4 := by norm_num
  have hd := ray_den_pos (M := M) hγ
  have ht : 0 < 1 - ((1 - M ^ 2) / (1 + 1.4 * M ^ 2)) ^ 2 := by
    rw [div_pow, sub_pos, div_lt_one (by positivity)]
    have : 0 < M ^ 2 := by positivity
    nlinarith
  refine ⟨1 / (1 - ((1 - M ^ 2) / (1 + 1.4 * M ^ 2)) ^ 2), _, ?_, Ray_Ti_ok hγ, ?_⟩
  · unfold Rayleigh.maxTiratio_Mach
    rw [Ray_Ti_ok hγ, Py.ok_bind, Py.div_ok ht.ne', l1_0]
  · exact div_mul_cancel₀ _ ht.ne'

/-- C27 is false of the code: for every `gamma ≠ 1.4` and every `M ≠ 1` the product of the maximum
heating ratio and of the heating ratio at that gamma is not 1 (the argument gamma is ignored). -/
theorem C27_false_otherwise (M γ : ℝ) (hγ : 1 < γ) (hne : γ ≠ 1.4) (hM : 0 < M) (hM1 : M ≠ 1) :
    ∃ r t, Rayleigh.maxTiratio_Mach M γ = Except.ok r ∧ Rayleigh.Ti_Ticri M γ = Except.ok t ∧
      r * t ≠ 1 := by
  have h14 : (1:ℝ) < 1.4 := by norm_num
  obtain ⟨r, t0, hr, ht0, hrt⟩ := C27_default_gas_partial M hM
  refine ⟨r, _, hr, Ray_Ti_ok hγ, ?_⟩
  rw [Ray_Ti_ok h14] at ht0
  have ht0' : 1 - ((1 - M ^ 2) / (1 + 1.4 * M ^ 2)) ^ 2 = t0 := by injection ht0
  intro h
  have hr0 : r ≠ 0 := by rintro rfl; simp at hrt
  have heq := mul_left_cancel₀ hr0 (h.trans hrt.symm)
  rw [← ht0'] at heq
  have hd := ray_den_pos (M := M) hγ
  have hd' := ray_den_pos (M := M) h14
  have h2 : (1 - M ^ 2) ≠ 0 := by
    intro h0
    have : (M - 1) * (M + 1) = 0 := by linarith
    rcases mul_eq_zero.1 this with h | h
    · exact hM1 (by linarith)
    · linarith
  have h3 : ((1 - M ^ 2) / (1 + γ * M ^ 2)) ^ 2 = ((1 - M ^ 2) / (1 + 1.4 * M ^ 2)) ^ 2 := by linarith
  rw [div_pow, div_pow, div_eq_div_iff (by positivity) (by positivity)] at h3
  have h4 := mul_left_cancel₀ (pow_ne_zero 2 h2) h3
  have h5 := (pow_left_inj₀ hd'.le hd.le (by norm_num)).1 h4
  have hM2 : M ^ 2 ≠ 0 := by positivity
  have : (1.4:ℝ) = γ := mul_right_cancel₀ hM2 (by linarith)
  exact hne this.symm

example : (1:ℝ) < 5 / 3 ∧ (5 / 3 : ℝ) ≠ 1.4 ∧ (0:ℝ) < 2 ∧ (2:ℝ) ≠ 1 := by norm_num

end Aerokit.Props
