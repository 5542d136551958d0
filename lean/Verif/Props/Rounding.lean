import Verif.Lemmas.Rounding
import Verif.Lemmas.ShockWave
import Verif.Props.Fanno
import Verif.Props.Rayleigh

/-! # Property C128 : rounding errors of the explicit flow functions -/

namespace Aerokit.Props
open Real Isentropic MassFlow ShockWave
open Rounded (Arith Close)

/-- the rounded evaluation returns, and its relative error with respect to the exact function is at most
that of `K` roundings, `K u / (1 - K u)` -/
def Accurate (F : Arith) (K : ℝ) (rounded exact : Py ℝ) : Prop :=
  ∃ v x, rounded = .ok v ∧ exact = .ok x ∧ (K * F.u < 1 → |v - x| ≤ K * F.u / (1 - K * F.u) * |x|)

theorem accurate_of {F : Arith} {K x : ℝ} {r e : Py ℝ} (hu : F.u ≤ 1 / 64) (hK : 1 ≤ K) (he : e = .ok x)
    (h : ∃ v, r = .ok v ∧ Close F K x v) : Accurate F K r e := by
  obtain ⟨v, hr, hc⟩ := h
  refine ⟨v, x, hr, he, fun hKu => ?_⟩
  have h0 := F.u_nonneg
  obtain ⟨a, b⟩ := hc.bounds
  have h1 : exp (K * F.L) = ((1 - F.u) ^ K)⁻¹ := by
    rw [rpow_def_of_pos (by linarith), ← exp_neg]; unfold Arith.L; ring_nf
  have h2 : 1 - K * F.u ≤ (1 - F.u) ^ K := by
    have := one_add_mul_self_le_rpow_one_add (s := -F.u) (by linarith) hK
    rw [show 1 + -F.u = 1 - F.u by ring] at this
    linarith
  have h3 : 0 < 1 - K * F.u := by linarith
  have h4 : 0 < (1 - F.u) ^ K := by linarith
  rw [h1, ← div_eq_mul_inv] at a b
  have hx := hc.1
  have hv := hc.2.1
  rw [abs_of_pos hx]
  have a' : v * (1 - K * F.u) ≤ x := by
    rw [le_div_iff₀ h4] at a
    nlinarith
  have b' : x * (1 - K * F.u) ≤ v := by
    rw [le_div_iff₀ h4] at b
    nlinarith
  have hKu0 : 0 ≤ K * F.u := by positivity
  rw [abs_le, div_mul_eq_mul_div]
  constructor
  · rw [neg_le, neg_sub, le_div_iff₀ h3]
    nlinarith
  · rw [le_div_iff₀ h3]
    nlinarith

section
variable {F : Arith} {M M' d γ : ℝ}

/-- `1 + 0.5 (gamma - 1) Mach²` -/
theorem tt_close (hu : F.u ≤ 1 / 64) (hγ : 1 < γ) (hd : 0 ≤ d) (hM : Close F d M M') :
    Close F (2 * d + 5) (tt M γ) (F.add 1 (F.mul (F.mul (1 / 2) (F.sub γ 1)) (F.sq M'))) := by
  have h1 := (Close.refl (F := F) (show (0 : ℝ) < 1 / 2 by norm_num)).mul hu (Close.sub_exact hu hγ)
  have h2 := h1.mul hu (hM.sq hu)
  have h3 := ((Close.refl (F := F) one_pos).mono hu (show (0 : ℝ) ≤ 0 + 1 + 1 + (2 * d + 1) + 1 by linarith)).add hu h2
  have e : tt M γ = 1 + 1 / 2 * (γ - 1) * M ^ 2 := by unfold tt; ring
  rw [e]
  exact h3.mono hu (by linarith)

theorem add_exact {x z : ℝ} (hu : F.u ≤ 1 / 64) (hx : 0 < x) (hz : 0 < z) : Close F 1 (x + z) (F.add x z) :=
  ((Close.refl (F := F) hx).add hu (Close.refl hz)).mono hu (by norm_num)

/-- exponents: `|e' - e|` -/
theorem exp_rel {j e e' : ℝ} (hu : F.u ≤ 1 / 64) (hj : 0 ≤ j) (hj5 : j ≤ 5) (h : Close F j e e') : |e' - e| ≤ 13 / 12 * (j * F.L) * |e| := by
  rw [abs_of_pos h.1]; exact h.rel hu hj hj5

theorem TtTs_close (hu : F.u ≤ 1 / 64) (hγ : 1 < γ) (hM : 0 < M) : ∃ v, Rounded.TtTs_Mach F M γ = .ok v ∧ Close F 5 (tt M γ) v := by
  refine ⟨_, rfl, ?_⟩
  lits
  have := tt_close hu hγ le_rfl (Close.refl (F := F) hM)
  exact this.mono hu (by norm_num)

theorem PtPs_close (hu : F.u ≤ 1 / 64) (hγ : 1 < γ) (hd : 0 ≤ d) (hM : Close F d M M') :
    ∃ v, Rounded.PtPs_Mach F M' γ = .ok v ∧
      Close F (12 / 11 * (γ / (γ - 1) * (2 * d + 5)) + 13 / 6 * (γ / (γ - 1) * log (tt M γ)) + 1) (tt M γ ^ (γ / (γ - 1))) v := by
  have h1 := tt_close hu hγ hd hM
  obtain ⟨e', he, hc⟩ := (Close.refl (F := F) (show 0 < γ by linarith)).div hu (Close.sub_exact hu hγ)
  have e0 : 0 < γ / (γ - 1) := by apply div_pos <;> linarith
  have hr := exp_rel hu (by norm_num) (by norm_num) hc
  obtain ⟨v, hv, hc'⟩ := h1.pow hu (by linarith) (by norm_num) (by norm_num) hr
  refine ⟨v, ?_, hc'.mono hu ?_⟩
  · unfold Rounded.PtPs_Mach; lits
    rw [he, Py.ok_bind]; exact hv
  · rw [abs_of_pos e0, abs_of_nonneg (log_nonneg (one_le_tt hγ))]
    linarith

theorem Mach_TtTs_close {T : ℝ} (hu : F.u ≤ 1 / 64) (hγ : 1 < γ) (hT : 1 < T) :
    ∃ v, Rounded.Mach_TtTs F T γ = .ok v ∧ Close F 4 (√((T - 1) * 2 / (γ - 1))) v := by
  have h1 := (Close.sub_exact (F := F) hu hT).mul hu (Close.refl (F := F) two_pos)
  obtain ⟨q, hq, hc⟩ := h1.div hu (Close.sub_exact hu hγ)
  obtain ⟨v, hv, hc'⟩ := hc.sqrt hu
  refine ⟨v, ?_, hc'.mono hu (by norm_num)⟩
  unfold Rounded.Mach_TtTs; lits
  rw [hq, Py.ok_bind]; exact hv

theorem Velocity_close {T r : ℝ} (hu : F.u ≤ 1 / 64) (hγ : 1 < γ) (hM : 0 < M) (hT : 0 < T) (hr : 0 < r) :
    ∃ v, Rounded.Velocity_MachTt F M T r γ = .ok v ∧ Close F 6 (M * √(γ * r * T / tt M γ)) v := by
  obtain ⟨t, ht, hc⟩ := TtTs_close (F := F) hu hγ hM
  have h1 := ((Close.refl (F := F) (show 0 < γ by linarith)).mul hu (Close.refl hr)).mul hu (Close.refl hT)
  obtain ⟨q, hq, hc1⟩ := h1.div hu hc
  obtain ⟨s, hs, hc2⟩ := hc1.sqrt hu
  refine ⟨_, ?_, ((Close.refl (F := F) hM).mul hu hc2).mono hu (by norm_num)⟩
  unfold Rounded.Velocity_MachTt
  rw [ht, Py.ok_bind, hq, Py.ok_bind, hs, Py.ok_bind]; rfl

theorem Weight_close {r : ℝ} (hu : F.u ≤ 1 / 64) (hγ : 1 < γ) (hM : 0 < M) :
    ∃ v, Rounded.WeightMassFlow F M r γ = .ok v ∧
      Close F (4 + (γ + 1) / (2 * (γ - 1)) * (6 + 5 * log (tt M γ))) (√γ * M * tt M γ ^ (-(γ + 1) / (2 * (γ - 1)))) v := by
  have h1 := tt_close hu hγ le_rfl (Close.refl (F := F) hM)
  obtain ⟨s, hs, hcs⟩ := (Close.refl (F := F) (show 0 < γ by linarith)).sqrt hu
  -- the exponent is negative
  have a1 : Close F 1 (1 / 2 * (γ + 1)) (1 / 2 * F.add γ 1) := by
    have := add_exact (F := F) hu (show 0 < γ by linarith) one_pos
    refine ⟨mul_pos (by norm_num) this.1, mul_pos (by norm_num) this.2.1, ?_⟩
    rw [log_mul (by norm_num) this.1.ne', log_mul (by norm_num) this.2.1.ne', add_sub_add_left_eq_sub]
    exact this.2.2
  have a2 := a1.rnd_neg hu
  have a3 := Close.sub_exact (F := F) hu hγ
  have a4 : Close F 3 (1 / 2 * (γ + 1) / (γ - 1)) (-(F.rnd (-(1 / 2 * F.add γ 1))) / F.sub γ 1) := by
    refine ⟨div_pos a2.1 a3.1, div_pos a2.2.1 a3.2.1, ?_⟩
    rw [log_div a2.1.ne' a3.1.ne', log_div a2.2.1.ne' a3.2.1.ne']
    calc _ = |(log (-(F.rnd (-(1 / 2 * F.add γ 1)))) - log (1 / 2 * (γ + 1))) - (log (F.sub γ 1) - log (γ - 1))| := by ring_nf
      _ ≤ _ := abs_sub _ _
      _ ≤ 3 * F.L := by linarith [a2.2.2, a3.2.2]
  have a5 := a4.rnd_neg hu
  have hr := exp_rel hu (by norm_num) (by norm_num) a5
  obtain ⟨e', he'⟩ : ∃ e', e' = F.rnd (-(-(F.rnd (-(1 / 2 * F.add γ 1))) / F.sub γ 1)) := ⟨_, rfl⟩
  rw [← he'] at hr
  have e0 : 0 < (γ + 1) / (2 * (γ - 1)) := by apply div_pos <;> linarith
  have ee : 1 / 2 * (γ + 1) / (γ - 1) = (γ + 1) / (2 * (γ - 1)) := by field_simp
  rw [ee] at hr
  have hr2 : |e' - -((γ + 1) / (2 * (γ - 1)))| ≤ 13 / 12 * ((3 + 1) * F.L) * |-((γ + 1) / (2 * (γ - 1)))| := by
    rw [abs_neg]
    refine le_trans (le_of_eq ?_) hr
    rw [← abs_neg]; ring_nf
  obtain ⟨v, hv, hc'⟩ := h1.pow hu (by linarith) (by norm_num) (by norm_num) hr2
  have hdiv : F.div (F.mul (-(1 / 2)) (F.add γ 1)) (F.sub γ 1) = .ok e' := by
    unfold Arith.div
    rw [if_neg a3.2.1.ne', he']
    unfold Arith.mul
    congr 2
    rw [neg_div, neg_neg, neg_mul]
  refine ⟨F.mul (F.mul s M) v, ?_, ?_⟩
  · unfold Rounded.WeightMassFlow
    have l : (-0.5 : ℝ) = -(1 / 2) := by norm_num
    rw [hs, Py.ok_bind, l]
    lits
    rw [hdiv, Py.ok_bind, hv]; rfl
  · have := (hcs.mul hu (Close.refl hM)).mul hu hc'
    rw [neg_div]
    refine this.mono hu ?_
    have l0 := log_nonneg (one_le_tt (M := M) hγ)
    rw [abs_neg, abs_of_pos e0, abs_of_nonneg l0]
    have := mul_nonneg e0.le l0
    nlinarith

/-- `2 / (gamma + 1) * (1 + (gamma - 1) / 2 * Mach²)`, coefficients rounded either way -/
theorem Sigma_close (hu : F.u ≤ 1 / 64) (hγ : 1 < γ) (hM : 0 < M) :
    ∃ v, Rounded.Sigma_Mach F M γ = .ok v ∧ Close F (2 + (γ + 1) / (2 * (γ - 1)) * (9 + 5 * |log (2 / (γ + 1) * tt M γ)|)) (sig M γ) v := by
  have h1 := tt_close hu hγ le_rfl (Close.refl (F := F) hM)
  have g1 := add_exact (F := F) hu (show 0 < γ by linarith) one_pos
  obtain ⟨c, hc, hcc⟩ := (Close.refl (F := F) two_pos).div hu g1
  obtain ⟨e', he, hce⟩ := ((Close.refl (F := F) (show (0 : ℝ) < 1 / 2 by norm_num)).mul hu g1).div hu (Close.sub_exact hu hγ)
  have e0 : 0 < (γ + 1) / (2 * (γ - 1)) := by apply div_pos <;> linarith
  have ee : 1 / 2 * (γ + 1) / (γ - 1) = (γ + 1) / (2 * (γ - 1)) := by field_simp
  rw [ee] at hce
  have hr := exp_rel hu (by norm_num) (by norm_num) hce
  obtain ⟨w, hw, hcw⟩ := (hcc.mul hu h1).pow hu (by norm_num) (by norm_num) (by norm_num) hr
  obtain ⟨v, hv, hcv⟩ := hcw.div hu (Close.refl hM)
  refine ⟨v, ?_, hcv.mono hu ?_⟩
  · unfold Rounded.Sigma_Mach; lits
    rw [hc, Py.ok_bind, he, Py.ok_bind, hw, Py.ok_bind, hv]
  · rw [abs_of_pos e0]
    have := mul_nonneg e0.le (abs_nonneg (log (2 / (γ + 1) * tt M γ)))
    nlinarith

/-! ### shocks -/

theorem Rho_close (hu : F.u ≤ 1 / 64) (hγ : 1 < γ) (hM : 0 < M) : ∃ v, Rounded.Rho_ratio F M γ = .ok v ∧ Close F 8 (rhr M γ) v := by
  have g1 := add_exact (F := F) hu (show 0 < γ by linarith) one_pos
  have m2 := (Close.refl (F := F) hM).sq hu
  have h1 := g1.mul hu m2
  have h2 := (Close.sub_exact (F := F) hu hγ).mul hu m2
  have h3 := ((Close.refl (F := F) two_pos).mono hu (show (0 : ℝ) ≤ 1 + (2 * 0 + 1) + 1 by norm_num)).add hu h2
  obtain ⟨v, hv, hc⟩ := h1.div hu h3
  refine ⟨v, ?_, hc.mono hu (by norm_num)⟩
  unfold Rounded.Rho_ratio; lits
  exact hv

theorem Mn_Ps_close {P : ℝ} (hu : F.u ≤ 1 / 64) (hγ : 1 < γ) (hP : 1 < P) :
    ∃ v, Rounded.Mn_Ps_ratio F P γ = .ok v ∧ Close F 4 (√(1 + (P - 1) * (γ + 1) / (2 * γ))) v := by
  have g1 := add_exact (F := F) hu (show 0 < γ by linarith) one_pos
  have h1 := (Close.sub_exact (F := F) hu hP).mul hu g1
  have h2 := (Close.refl (F := F) two_pos).mul hu (Close.refl (show 0 < γ by linarith))
  obtain ⟨q, hq, hc⟩ := h1.div hu h2
  have h3 := ((Close.refl (F := F) one_pos).mono hu (show (0 : ℝ) ≤ 1 + 1 + 1 + (0 + 0 + 1) + 1 by norm_num)).add hu hc
  obtain ⟨v, hv, hc'⟩ := h3.sqrt hu
  refine ⟨v, ?_, hc'.mono hu (by norm_num)⟩
  unfold Rounded.Mn_Ps_ratio; lits
  rw [hq, Py.ok_bind, hv]

set_option maxHeartbeats 1000000 in
/-- `1 + k (M² - 1)`: `M² - 1` may have a large relative error, its absolute error is small -/
theorem Ps_close (hu : F.u ≤ 1 / 64) (hγ : 1 < γ) (hM : 1 ≤ M) : ∃ v, Rounded.Ps_ratio F M γ = .ok v ∧ Close F 16 (psr M γ) v := by
  have g1 := add_exact (F := F) hu (show 0 < γ by linarith) one_pos
  have h2 := (Close.refl (F := F) two_pos).mul hu (Close.refl (show 0 < γ by linarith))
  obtain ⟨k, hk, hck⟩ := h2.div hu g1
  obtain ⟨u, hu'⟩ : ∃ u, u = F.u := ⟨_, rfl⟩
  have u0 : 0 ≤ u := hu' ▸ F.u_nonneg
  have u1 : u ≤ 1 / 64 := hu' ▸ hu
  have k0 : 0 < 2 * γ / (γ + 1) := by apply div_pos <;> linarith
  have k2 : 2 * γ / (γ + 1) < 2 := by rw [div_lt_iff₀ (by linarith)]; linarith
  have k1 : 1 < 2 * γ / (γ + 1) := by rw [lt_div_iff₀ (by linarith)]; linarith
  have hkr : |k - 2 * γ / (γ + 1)| ≤ 7 / 2 * u * (2 * γ / (γ + 1)) := by
    have := hck.rel hu (by norm_num) (by norm_num)
    refine this.trans (mul_le_mul_of_nonneg_right ?_ k0.le)
    have := Rounded.L_le hu
    rw [← hu'] at this
    norm_num at this ⊢
    linarith
  obtain ⟨κ, hκ⟩ : ∃ κ, κ = 2 * γ / (γ + 1) := ⟨_, rfl⟩
  obtain ⟨s, hs⟩ : ∃ s, s = M ^ 2 := ⟨_, rfl⟩
  have s1 : 1 ≤ s := by rw [hs]; exact one_le_pow₀ hM
  rw [← hκ] at hkr k0 k1 k2
  -- M²
  obtain ⟨s', hs'⟩ : ∃ s', s' = F.sq M := ⟨_, rfl⟩
  have b1 : |s' - s| ≤ u * s := by
    have := F.rnd_rel (M ^ 2)
    rw [← hu', ← hs, abs_of_pos (by linarith : 0 < s)] at this
    rw [hs']; unfold Arith.sq; rwa [← hs]
  -- M² - 1
  obtain ⟨t, ht⟩ : ∃ t, t = F.sub s' 1 := ⟨_, rfl⟩
  have b2 : |t - (s - 1)| ≤ 3 * u * s := by
    have h := F.rnd_rel (s' - 1)
    rw [← hu'] at h
    have e : F.rnd (s' - 1) = t := by rw [ht]; rfl
    rw [e] at h
    obtain ⟨c1, c2⟩ := abs_le.1 b1
    have h3 : |s' - 1| ≤ 2 * s := by
      rw [abs_le]; constructor <;> nlinarith
    have h4 : u * |s' - 1| ≤ u * (2 * s) := mul_le_mul_of_nonneg_left h3 u0
    obtain ⟨d1, d2⟩ := abs_le.1 h
    rw [abs_le]; constructor <;> linarith
  -- product
  obtain ⟨w, hw⟩ : ∃ w, w = F.mul k t := ⟨_, rfl⟩
  have us : u * s ≤ 1 / 64 * s := mul_le_mul_of_nonneg_right u1 (by linarith)
  have us0 : 0 ≤ u * s := mul_nonneg u0 (by linarith)
  have b3' : |k * t - κ * (s - 1)| ≤ 4 * u * κ * (s - 1) + 33 / 10 * u * κ * s := by
    have hk' : |k| ≤ 11 / 10 * κ := by
      have : |k| ≤ |k - κ| + κ := by
        calc |k| = |(k - κ) + κ| := by ring_nf
          _ ≤ |k - κ| + |κ| := abs_add_le _ _
          _ = _ := by rw [abs_of_pos k0]
      nlinarith
    calc |k * t - κ * (s - 1)| = |(k - κ) * (s - 1) + k * (t - (s - 1))| := by ring_nf
      _ ≤ _ := abs_add_le _ _
      _ = |k - κ| * (s - 1) + |k| * |t - (s - 1)| := by rw [abs_mul, abs_mul, abs_of_nonneg (by linarith : 0 ≤ s - 1)]
      _ ≤ (7 / 2 * u * κ) * (s - 1) + (11 / 10 * κ) * (3 * u * s) := by
          have : 0 ≤ s - 1 := by linarith
          gcongr
      _ ≤ _ := by nlinarith [mul_nonneg (mul_nonneg u0 k0.le) (by linarith : 0 ≤ s - 1)]
  have ks : κ * (s - 1) ≤ psr M γ := by unfold psr; rw [← hκ, ← hs]; linarith
  have sp : s ≤ psr M γ := by unfold psr; rw [← hκ, ← hs]; nlinarith
  have p1 : psr M γ = 1 + κ * (s - 1) := by unfold psr; rw [← hκ, ← hs]
  obtain ⟨P, hP⟩ : ∃ P, P = psr M γ := ⟨_, rfl⟩
  rw [← hP] at ks sp p1
  have P1 : 1 ≤ P := by linarith
  have uP : 0 ≤ u * P := by nlinarith
  have b3 : |k * t - κ * (s - 1)| ≤ 21 / 2 * u * P + 1 / 10 * u * P := by
    refine b3'.trans ?_
    have e1 : 4 * u * κ * (s - 1) ≤ 4 * u * P := by nlinarith
    have e2 : 33 / 10 * u * κ * s ≤ 66 / 10 * u * P := by
      have : κ * s ≤ 2 * P := by nlinarith
      nlinarith
    nlinarith
  have b4 : |w - κ * (s - 1)| ≤ 119 / 10 * u * P := by
    have h := F.rnd_rel (k * t)
    rw [← hu'] at h
    have e : F.rnd (k * t) = w := by rw [hw]; rfl
    rw [e] at h
    have h3 : |k * t| ≤ 12 / 10 * P := by
      have : |k * t| ≤ |k * t - κ * (s - 1)| + κ * (s - 1) := by
        calc |k * t| = |(k * t - κ * (s - 1)) + κ * (s - 1)| := by ring_nf
          _ ≤ _ := abs_add_le _ _
          _ = _ := by rw [abs_of_nonneg (mul_nonneg k0.le (by linarith) : 0 ≤ κ * (s - 1))]
      nlinarith
    have h4 : u * |k * t| ≤ u * (12 / 10 * P) := mul_le_mul_of_nonneg_left h3 u0
    obtain ⟨d1, d2⟩ := abs_le.1 h
    obtain ⟨d3, d4⟩ := abs_le.1 b3
    rw [abs_le]; constructor <;> linarith only [d1, d2, d3, d4, h4, uP]
  have b5 : |(1 + w) - P| ≤ 12 * F.u * P := by
    rw [p1, ← hu']
    obtain ⟨d3, d4⟩ := abs_le.1 b4
    rw [p1] at d3 d4 uP
    rw [abs_le]; constructor <;> linarith
  have hc := Close.of_abs hu (by norm_num) (by linarith) (by linarith : 0 < P) b5
  refine ⟨F.add 1 w, ?_, ?_⟩
  · unfold Rounded.Ps_ratio; lits
    rw [hk, Py.ok_bind, ← hs', ← ht, ← hw]; rfl
  · rw [← hP]
    exact (hc.rnd hu).mono hu (by norm_num)

theorem Ts_close (hu : F.u ≤ 1 / 64) (hγ : 1 < γ) (hM : 1 ≤ M) :
    ∃ v, Rounded.Ts_ratio F M γ = .ok v ∧ Close F 25 (psr M γ / rhr M γ) v := by
  obtain ⟨p, hp, hcp⟩ := Ps_close (F := F) hu hγ hM
  obtain ⟨r, hr, hcr⟩ := Rho_close (F := F) hu hγ (by linarith : 0 < M)
  obtain ⟨v, hv, hc⟩ := hcp.div hu hcr
  refine ⟨v, ?_, hc.mono hu (by norm_num)⟩
  unfold Rounded.Ts_ratio
  rw [hp, Py.ok_bind, hr, Py.ok_bind, hv]

theorem downstream_close (hu : F.u ≤ 1 / 64) (hγ : 1 < γ) (hM : 1 ≤ M) :
    ∃ v, Rounded.downstream_Mn F M γ = .ok v ∧ Close F (21 / 2) (√(mn2 M γ)) v := by
  have hM0 : 0 < M := by linarith
  have h1 := tt_close hu hγ le_rfl (Close.refl (F := F) hM0)
  have g0 : 0 < γ := by linarith
  have h2 := ((Close.refl (F := F) g0).mul hu ((Close.refl (F := F) hM0).sq hu)).mono hu (show 0 + (2 * 0 + 1) + 1 ≤ (2 : ℝ) by norm_num)
  have h3 := ((Close.refl (F := F) (show (0 : ℝ) < 1 / 2 by norm_num)).mul hu (Close.sub_exact hu hγ)).mono hu (show 0 + 1 + 1 ≤ (2 : ℝ) by norm_num)
  have m1 : 1 ≤ M ^ 2 := one_le_pow₀ hM
  have hL' := Rounded.L_le' hu
  have h4 := Close.sub (κ := 3) hu (by norm_num) (by nlinarith) (by norm_num) (by nlinarith) (by linarith) (by linarith) h2 h3
  obtain ⟨q, hq, hc⟩ := h1.div hu h4
  obtain ⟨v, hv, hc'⟩ := hc.sqrt hu
  refine ⟨v, ?_, ?_⟩
  · unfold Rounded.downstream_Mn; lits
    rw [hq, Py.ok_bind, hv]
  · have e : mn2 M γ = tt M γ / (γ * M ^ 2 - 1 / 2 * (γ - 1)) := by
      unfold mn2 tt; congr 1; ring
    rw [e]
    exact hc'.mono hu (by norm_num)

/-- exact value of `Pt_ratio` (for any gamma; the downstream isentropic ratio is that of the default gas) -/
theorem Pt_ratio_value (hγ : 1 < γ) (hM : 1 ≤ M) : ShockWave.Pt_ratio M γ =
    .ok (psr M γ * tt (√(mn2 M γ)) DefaultGas.gamma0 ^ (DefaultGas.gamma0 / (DefaultGas.gamma0 - 1)) / tt M γ ^ (γ / (γ - 1))) := by
  unfold ShockWave.Pt_ratio
  rw [Ps_ratio_ok hγ, Py.ok_bind, downstream_Mn_ok hγ (dom_of_one_le hγ hM), Py.ok_bind, PtPs_Mach_ok one_lt_gamma0, Py.ok_bind,
    PtPs_Mach_ok hγ, Py.ok_bind, Py.div_ok (rpow_pos_of_pos (tt_pos hγ) _).ne']

theorem Pt_close (hu : F.u ≤ 1 / 64) (hγ : 1 < γ) (hM : 1 ≤ M) :
    ∃ v, Rounded.Pt_ratio F M γ = .ok v ∧ Close F (121 + γ / (γ - 1) * (6 + 3 * log (tt M γ)))
      (psr M γ * tt (√(mn2 M γ)) DefaultGas.gamma0 ^ (DefaultGas.gamma0 / (DefaultGas.gamma0 - 1)) / tt M γ ^ (γ / (γ - 1))) v := by
  obtain ⟨p, hp, hcp⟩ := Ps_close (F := F) hu hγ hM
  obtain ⟨m, hm, hcm⟩ := downstream_close (F := F) hu hγ hM
  obtain ⟨a, ha, hca⟩ := PtPs_close (F := F) (γ := DefaultGas.gamma0) hu one_lt_gamma0 (by norm_num) hcm
  obtain ⟨b, hb, hcb⟩ := PtPs_close (F := F) hu hγ le_rfl (Close.refl (by linarith : 0 < M))
  obtain ⟨v, hv, hc⟩ := (hcp.mul hu hca).div hu hcb
  refine ⟨v, ?_, hc.mono hu ?_⟩
  · unfold Rounded.Pt_ratio
    rw [hp, Py.ok_bind, hm, Py.ok_bind, ha, Py.ok_bind, hb, Py.ok_bind, hv]
  · have e0 : 0 < γ / (γ - 1) := by apply div_pos <;> linarith
    have l0 := mul_nonneg e0.le (log_nonneg (one_le_tt (M := M) hγ))
    have g : DefaultGas.gamma0 / (DefaultGas.gamma0 - 1) = 7 / 2 := by rw [gamma0_eq]; norm_num
    have m2 : √(mn2 M γ) ^ 2 ≤ 1 := by
      have hd := (dom_iff hγ).1 (dom_of_one_le hγ hM)
      have m1 : 1 ≤ M ^ 2 := one_le_pow₀ hM
      have n0 : 0 ≤ mn2 M γ := by
        unfold mn2
        apply div_nonneg _ hd.le
        have : 0 < γ - 1 := by linarith
        positivity
      rw [sq_sqrt n0]
      unfold mn2
      rw [div_le_one hd]
      nlinarith
    have t1 : tt (√(mn2 M γ)) DefaultGas.gamma0 ≤ 6 / 5 := by
      unfold tt; rw [gamma0_eq]; linarith
    have l1 : log (tt (√(mn2 M γ)) DefaultGas.gamma0) ≤ 1 / 5 := by
      have := log_le_sub_one_of_pos (tt_pos (M := √(mn2 M γ)) one_lt_gamma0)
      linarith
    rw [g]
    nlinarith

/-! ### Fanno and Rayleigh flows -/

theorem half_close (hu : F.u ≤ 1 / 64) (hγ : 1 < γ) : ∃ h, F.div (F.sub γ 1) 2 = .ok h ∧ Close F 2 ((γ - 1) / 2) h := by
  obtain ⟨h, hh, hc⟩ := (Close.sub_exact (F := F) hu hγ).div hu (Close.refl (F := F) two_pos)
  exact ⟨h, hh, hc.mono hu (by norm_num)⟩

theorem tt_close' {h : ℝ} (hu : F.u ≤ 1 / 64) (hM : 0 < M) (hh : Close F 2 ((γ - 1) / 2) h) :
    Close F 5 (tt M γ) (F.add 1 (F.mul h (F.sq M))) := by
  have h2 := hh.mul hu ((Close.refl (F := F) hM).sq hu)
  have h3 := ((Close.refl (F := F) one_pos).mono hu (show (0 : ℝ) ≤ 2 + (2 * 0 + 1) + 1 by norm_num)).add hu h2
  exact h3.mono hu (by norm_num)

theorem gp1_close (hu : F.u ≤ 1 / 64) (hγ : 1 < γ) : Close F 1 (γ + 1) (F.add γ 1) := add_exact hu (by linarith) one_pos

theorem fannoT_close (hu : F.u ≤ 1 / 64) (hγ : 1 < γ) (hM : 0 < M) : ∃ v, Rounded.fannoT F M γ = .ok v ∧ Close F 8 (fb M γ) v := by
  obtain ⟨c, hc, hcc⟩ := (Close.refl (F := F) two_pos).div hu (gp1_close hu hγ)
  obtain ⟨h, hh, hch⟩ := half_close (F := F) hu hγ
  refine ⟨F.mul c (F.add 1 (F.mul h (F.sq M))), ?_, (hcc.mul hu (tt_close' hu hM hch)).mono hu (by norm_num)⟩
  unfold Rounded.fannoT
  rw [hc, Py.ok_bind, hh, Py.ok_bind]; rfl

theorem fanno_Ps_close (hu : F.u ≤ 1 / 64) (hγ : 1 < γ) (hM : 0 < M) :
    ∃ v, Rounded.fanno_Ps_Pscri F M γ = .ok v ∧ Close F 7 (1 / (M * √(fb M γ))) v := by
  obtain ⟨t, ht, hct⟩ := fannoT_close (F := F) hu hγ hM
  obtain ⟨s, hs, hcs⟩ := hct.sqrt hu
  obtain ⟨v, hv, hc⟩ := (Close.refl (F := F) one_pos).div hu ((Close.refl (F := F) hM).mul hu hcs)
  refine ⟨v, ?_, hc.mono hu (by norm_num)⟩
  unfold Rounded.fanno_Ps_Pscri; lits
  rw [ht, Py.ok_bind, hs, Py.ok_bind, hv]

theorem fanno_Ts_close (hu : F.u ≤ 1 / 64) (hγ : 1 < γ) (hM : 0 < M) :
    ∃ v, Rounded.fanno_Ts_Tscri F M γ = .ok v ∧ Close F 8 (1 / fb M γ) v := by
  obtain ⟨n, hn, hcn⟩ := (gp1_close (F := F) hu hγ).div hu (Close.refl (F := F) two_pos)
  obtain ⟨h, hh, hch⟩ := half_close (F := F) hu hγ
  obtain ⟨v, hv, hc⟩ := hcn.div hu (tt_close' hu hM hch)
  refine ⟨v, ?_, ?_⟩
  · unfold Rounded.fanno_Ts_Tscri
    rw [hn, Py.ok_bind, hh, Py.ok_bind, hv]
  · have e : 1 / fb M γ = (γ + 1) / 2 / tt M γ := by
      unfold fb
      have := tt_pos (M := M) hγ
      have : 0 < γ + 1 := by linarith
      field_simp
    rw [e]
    exact hc.mono hu (by norm_num)

theorem fanno_Rho_close (hu : F.u ≤ 1 / 64) (hγ : 1 < γ) (hM : 0 < M) :
    ∃ v, Rounded.fanno_Rho_Rhocri F M γ = .ok v ∧ Close F 7 (1 / M * √(fb M γ)) v := by
  obtain ⟨i, hi, hci⟩ := (Close.refl (F := F) one_pos).div hu (Close.refl (F := F) hM)
  obtain ⟨t, ht, hct⟩ := fannoT_close (F := F) hu hγ hM
  obtain ⟨s, hs, hcs⟩ := hct.sqrt hu
  refine ⟨F.mul i s, ?_, (hci.mul hu hcs).mono hu (by norm_num)⟩
  unfold Rounded.fanno_Rho_Rhocri; lits
  rw [hi, Py.ok_bind, ht, Py.ok_bind, hs]; rfl

theorem fanno_V_close (hu : F.u ≤ 1 / 64) (hγ : 1 < γ) (hM : 0 < M) :
    ∃ v, Rounded.fanno_V_Vcri F M γ = .ok v ∧ Close F 6 (M / √(fb M γ)) v := by
  obtain ⟨t, ht, hct⟩ := fannoT_close (F := F) hu hγ hM
  obtain ⟨s, hs, hcs⟩ := hct.sqrt hu
  obtain ⟨v, hv, hc⟩ := (Close.refl (F := F) hM).div hu hcs
  refine ⟨v, ?_, hc.mono hu (by norm_num)⟩
  unfold Rounded.fanno_V_Vcri
  rw [ht, Py.ok_bind, hs, Py.ok_bind, hv]

theorem fanno_Pi_close (hu : F.u ≤ 1 / 64) (hγ : 1 < γ) (hM : 0 < M) :
    ∃ v, Rounded.fanno_Pi_Picri F M γ = .ok v ∧ Close F (3 + (γ + 1) / (2 * (γ - 1)) * (9 + 5 * |log (fb M γ)|)) (sig M γ) v := by
  obtain ⟨i, hi, hci⟩ := (Close.refl (F := F) one_pos).div hu (Close.refl (F := F) hM)
  obtain ⟨t, ht, hct⟩ := fannoT_close (F := F) hu hγ hM
  obtain ⟨n, hn, hcn⟩ := (gp1_close (F := F) hu hγ).div hu (Close.refl (F := F) two_pos)
  obtain ⟨e', he, hce⟩ := hcn.div hu (Close.sub_exact hu hγ)
  have e0 : 0 < (γ + 1) / (2 * (γ - 1)) := by apply div_pos <;> linarith
  rw [div_div] at hce
  have hr := exp_rel hu (by norm_num) (by norm_num) hce
  obtain ⟨w, hw, hcw⟩ := hct.pow hu (by norm_num) (by norm_num) (by norm_num) hr
  have := hci.mul hu hcw
  refine ⟨F.mul i w, ?_, ?_⟩
  · unfold Rounded.fanno_Pi_Picri; lits
    rw [hi, Py.ok_bind, ht, Py.ok_bind, hn, Py.ok_bind, he, Py.ok_bind, hw]; rfl
  · have e : sig M γ = 1 / M * fb M γ ^ ((γ + 1) / (2 * (γ - 1))) := by unfold sig fb; ring
    rw [e]
    refine this.mono hu ?_
    rw [abs_of_pos e0]
    have := mul_nonneg e0.le (abs_nonneg (log (fb M γ)))
    nlinarith

theorem rayden_close (hu : F.u ≤ 1 / 64) (hγ : 1 < γ) (hM : 0 < M) : Close F 3 (1 + γ * M ^ 2) (F.add 1 (F.mul γ (F.sq M))) := by
  have h2 := (Close.refl (F := F) (show 0 < γ by linarith)).mul hu ((Close.refl (F := F) hM).sq hu)
  have h3 := ((Close.refl (F := F) one_pos).mono hu (show (0 : ℝ) ≤ 0 + (2 * 0 + 1) + 1 by norm_num)).add hu h2
  exact h3.mono hu (by norm_num)

theorem rayleigh_Ps_close (hu : F.u ≤ 1 / 64) (hγ : 1 < γ) (hM : 0 < M) :
    ∃ v, F.div (F.add γ 1) (F.add 1 (F.mul γ (F.sq M))) = .ok v ∧ Close F 5 ((γ + 1) / (1 + γ * M ^ 2)) v := by
  obtain ⟨v, hv, hc⟩ := (gp1_close (F := F) hu hγ).div hu (rayden_close hu hγ hM)
  exact ⟨v, hv, hc.mono hu (by norm_num)⟩

theorem rayleigh_Ts_close (hu : F.u ≤ 1 / 64) (hγ : 1 < γ) (hM : 0 < M) :
    ∃ v, Rounded.rayleigh_Ts_Tscri F M γ = .ok v ∧ Close F 13 (M ^ 2 * ((γ + 1) / (1 + γ * M ^ 2)) ^ 2) v := by
  obtain ⟨q, hq, hcq⟩ := rayleigh_Ps_close (F := F) hu hγ hM
  refine ⟨F.mul (F.sq M) (F.sq q), ?_, (((Close.refl (F := F) hM).sq hu).mul hu (hcq.sq hu)).mono hu (by norm_num)⟩
  unfold Rounded.rayleigh_Ts_Tscri
  simp only [hq, Py.ok_bind, Py.pure_eq]

theorem rayleigh_Ti_close (hu : F.u ≤ 1 / 64) (hγ : 1 < γ) (hM : 0 < M) :
    ∃ v, Rounded.rayleigh_Ti_Ticri F M γ = .ok v ∧ Close F 18 (1 - ((1 - M ^ 2) / (1 + γ * M ^ 2)) ^ 2) v := by
  have h1 := ((Close.refl (F := F) two_pos).mul hu (gp1_close hu hγ)).mul hu ((Close.refl (F := F) hM).sq hu)
  obtain ⟨q, hq, hcq⟩ := h1.div hu ((rayden_close hu hγ hM).sq hu)
  obtain ⟨h, hh, hch⟩ := half_close (F := F) hu hγ
  have := hcq.mul hu (tt_close' hu hM hch)
  refine ⟨F.mul q (F.add 1 (F.mul h (F.sq M))), ?_, ?_⟩
  · unfold Rounded.rayleigh_Ti_Ticri
    simp only [hq, Py.ok_bind, hh, Py.pure_eq]
  · have e : 1 - ((1 - M ^ 2) / (1 + γ * M ^ 2)) ^ 2 = 2 * (γ + 1) * M ^ 2 / (1 + γ * M ^ 2) ^ 2 * tt M γ := by
      have := ray_den_pos (M := M) hγ
      unfold tt; field_simp; ring
    rw [e]
    exact this.mono hu (by norm_num)

theorem rayleigh_Rho_close (hu : F.u ≤ 1 / 64) (hγ : 1 < γ) (hM : 0 < M) :
    ∃ v, Rounded.rayleigh_Rho_Rhocri F M γ = .ok v ∧ Close F 7 ((1 + γ * M ^ 2) / ((γ + 1) * M ^ 2)) v := by
  obtain ⟨v, hv, hc⟩ := (rayden_close (F := F) hu hγ hM).div hu ((gp1_close hu hγ).mul hu ((Close.refl (F := F) hM).sq hu))
  exact ⟨v, hv, hc.mono hu (by norm_num)⟩

theorem rayleigh_V_close (hu : F.u ≤ 1 / 64) (hγ : 1 < γ) (hM : 0 < M) :
    ∃ v, Rounded.rayleigh_V_Vcri F M γ = .ok v ∧ Close F 7 (M ^ 2 * (γ + 1) / (1 + γ * M ^ 2)) v := by
  obtain ⟨v, hv, hc⟩ := ((((Close.refl (F := F) hM).sq hu)).mul hu (gp1_close hu hγ)).div hu (rayden_close (F := F) hu hγ hM)
  exact ⟨v, hv, hc.mono hu (by norm_num)⟩

theorem rayleigh_Pi_close (hu : F.u ≤ 1 / 64) (hγ : 1 < γ) (hM : 0 < M) :
    ∃ v, Rounded.rayleigh_Pi_Picri F M γ = .ok v ∧ Close F (7 + γ / (γ - 1) * (9 + 3 * |log (2 / (γ + 1) * tt M γ)|))
      ((γ + 1) / (1 + γ * M ^ 2) * (2 / (γ + 1) * tt M γ) ^ (γ / (γ - 1))) v := by
  obtain ⟨q, hq, hcq⟩ := rayleigh_Ps_close (F := F) hu hγ hM
  obtain ⟨c, hc, hcc⟩ := (Close.refl (F := F) two_pos).div hu (gp1_close hu hγ)
  obtain ⟨h, hh, hch⟩ := half_close (F := F) hu hγ
  obtain ⟨e', he, hce⟩ := (Close.refl (F := F) (show 0 < γ by linarith)).div hu (Close.sub_exact hu hγ)
  have e0 : 0 < γ / (γ - 1) := by apply div_pos <;> linarith
  have hr := exp_rel hu (by norm_num) (by norm_num) hce
  obtain ⟨w, hw, hcw⟩ := (hcc.mul hu (tt_close' hu hM hch)).pow hu (by norm_num) (by norm_num) (by norm_num) hr
  refine ⟨F.mul q w, ?_, (hcq.mul hu hcw).mono hu ?_⟩
  · unfold Rounded.rayleigh_Pi_Picri
    simp only [hq, hc, hh, he, hw, Py.ok_bind, Py.pure_eq]
  · rw [abs_of_pos e0]
    have := mul_nonneg e0.le (abs_nonneg (log (2 / (γ + 1) * tt M γ)))
    nlinarith

end

theorem fac_le {γ L a b : ℝ} (hγ : 1 < γ) (hL : 0 ≤ L) (ha : 0 ≤ a) (hb : 0 ≤ b) : 0 ≤ γ / (γ - 1) * (a + b * L) := by
  have : 0 < γ - 1 := by linarith
  have : 0 < γ := by linarith
  positivity

/-- **C128** (link): without rounding, the rounded model is the exact model. -/
theorem C128_exact (M γ T r : ℝ) :
    Rounded.TtTs_Mach Rounded.exact M γ = Isentropic.TtTs_Mach M γ ∧
    Rounded.PtPs_Mach Rounded.exact M γ = Isentropic.PtPs_Mach M γ ∧
    Rounded.Mach_TtTs Rounded.exact T γ = Isentropic.Mach_TtTs T γ ∧
    Rounded.Mach_PtPs Rounded.exact T γ = Isentropic.Mach_PtPs T γ ∧
    Rounded.Velocity_MachTt Rounded.exact M T r γ = Isentropic.Velocity_MachTt M T r γ ∧
    Rounded.WeightMassFlow Rounded.exact M r γ = MassFlow.WeightMassFlow M r γ ∧
    Rounded.Sigma_Mach Rounded.exact M γ = MassFlow.Sigma_Mach M γ ∧
    Rounded.Ps_ratio Rounded.exact M γ = ShockWave.Ps_ratio M γ ∧
    Rounded.Mn_Ps_ratio Rounded.exact T γ = ShockWave.Mn_Ps_ratio T γ ∧
    Rounded.Rho_ratio Rounded.exact M γ = ShockWave.Rho_ratio M γ ∧
    Rounded.Ts_ratio Rounded.exact M γ = ShockWave.Ts_ratio M γ ∧
    Rounded.downstream_Mn Rounded.exact M γ = ShockWave.downstream_Mn M γ ∧
    Rounded.Pt_ratio Rounded.exact M γ = ShockWave.Pt_ratio M γ ∧
    (1 < γ → Rounded.fanno_Ps_Pscri Rounded.exact M γ = Fanno.Ps_Pscri M γ ∧
      Rounded.fanno_Ts_Tscri Rounded.exact M γ = Fanno.Ts_Tscri M γ ∧
      Rounded.fanno_Rho_Rhocri Rounded.exact M γ = Fanno.Rho_Rhocri M γ ∧
      Rounded.fanno_Pi_Picri Rounded.exact M γ = Fanno.Pi_Picri M γ ∧
      Rounded.fanno_V_Vcri Rounded.exact M γ = Fanno.V_Vcri M γ ∧
      Rounded.rayleigh_Pi_Picri Rounded.exact M γ = Rayleigh.Pi_Picri M γ) ∧
    Rounded.rayleigh_Ps_Pscri Rounded.exact M γ = Rayleigh.Ps_Pscri M γ ∧
    Rounded.rayleigh_Ts_Tscri Rounded.exact M γ = Rayleigh.Ts_Tscri M γ ∧
    Rounded.rayleigh_Ti_Ticri Rounded.exact M γ = Rayleigh.Ti_Ticri M γ ∧
    Rounded.rayleigh_Rho_Rhocri Rounded.exact M γ = Rayleigh.Rho_Rhocri M γ ∧
    Rounded.rayleigh_V_Vcri Rounded.exact M γ = Rayleigh.V_Vcri M γ := by
  have hd : ∀ a b, Arith.div Rounded.exact a b = Py.div a b := fun _ _ => rfl
  have hs : ∀ a, Arith.sqrt Rounded.exact a = Py.sqrt a := fun _ => rfl
  have hp : ∀ a b, Arith.pow Rounded.exact a b = Py.pow a b := fun _ _ => rfl
  have ha : ∀ a b, Arith.add Rounded.exact a b = a + b := fun _ _ => rfl
  have hb : ∀ a b, Arith.sub Rounded.exact a b = a - b := fun _ _ => rfl
  have hm : ∀ a b, Arith.mul Rounded.exact a b = a * b := fun _ _ => rfl
  have hq : ∀ a, Arith.sq Rounded.exact a = a ^ 2 := fun _ => rfl
  have h2 : ∀ a : ℝ, Py.div a 2 = .ok (a / 2) := fun a => Py.div_ok two_ne_zero
  have e1 : ∀ M γ, Rounded.TtTs_Mach Rounded.exact M γ = Isentropic.TtTs_Mach M γ := fun _ _ => rfl
  have e2 : ∀ M γ, Rounded.PtPs_Mach Rounded.exact M γ = Isentropic.PtPs_Mach M γ := fun _ _ => rfl
  refine ⟨rfl, rfl, rfl, rfl, rfl, ?_, rfl, rfl, rfl, rfl, rfl, rfl, rfl, fun hγ => ⟨?_, ?_, ?_, ?_, ?_, ?_⟩, rfl, rfl, ?_, rfl, rfl⟩
  · rfl
  · have hg : γ + 1 ≠ 0 := by linarith
    simp only [Rounded.fanno_Ps_Pscri, Rounded.fannoT, Fanno.Ps_Pscri, hd, hs, ha, hb, hm, hq, h2, Py.ok_bind, Py.pure_eq, Py.div_ok hg]
  · simp only [Rounded.fanno_Ts_Tscri, Fanno.Ts_Tscri, hd, ha, hb, hm, hq, h2, Py.ok_bind]
  · have hg : γ + 1 ≠ 0 := by linarith
    simp only [Rounded.fanno_Rho_Rhocri, Rounded.fannoT, Fanno.Rho_Rhocri, hd, hs, ha, hb, hm, hq, h2, Py.ok_bind, Py.pure_eq, Py.div_ok hg]
  · have hg : γ + 1 ≠ 0 := by linarith
    simp only [Rounded.fanno_Pi_Picri, Rounded.fannoT, Fanno.Pi_Picri, hd, hp, ha, hb, hm, hq, h2, Py.ok_bind, Py.pure_eq, Py.div_ok hg]
  · have hg : γ + 1 ≠ 0 := by linarith
    simp only [Rounded.fanno_V_Vcri, Rounded.fannoT, Fanno.V_Vcri, hd, hs, ha, hb, hm, hq, h2, Py.ok_bind, Py.pure_eq, Py.div_ok hg]
  · simp only [Rounded.rayleigh_Pi_Picri, Rayleigh.Pi_Picri, hd, hp, ha, hb, hm, hq, h2, Py.ok_bind, Py.pure_eq]
  · simp only [Rounded.rayleigh_Ti_Ticri, Rayleigh.Ti_Ticri, hd, ha, hb, hm, hq, h2, Py.ok_bind, Py.pure_eq]

/-- **C128**: isentropic and mass flow functions.  In every arithmetic with unit roundoff `u ≤ 1/64`, for
every gas and every Mach number, the computed value has the relative error of at most `K` roundings. -/
theorem C128_isentropic (F : Arith) (hu : F.u ≤ 1 / 64) (M γ : ℝ) (hγ : 1 < γ) (hM : 0 < M) :
    Accurate F 5 (Rounded.TtTs_Mach F M γ) (Isentropic.TtTs_Mach M γ) ∧
    Accurate F (1 + γ / (γ - 1) * (6 + 3 * log (1 + (γ - 1) / 2 * M ^ 2))) (Rounded.PtPs_Mach F M γ) (Isentropic.PtPs_Mach M γ) ∧
    (∀ T, 1 < T → Accurate F 4 (Rounded.Mach_TtTs F T γ) (Isentropic.Mach_TtTs T γ)) ∧
    (∀ Tt r, 0 < Tt → 0 < r → Accurate F 6 (Rounded.Velocity_MachTt F M Tt r γ) (Isentropic.Velocity_MachTt M Tt r γ)) ∧
    (∀ r, Accurate F (4 + (γ + 1) / (2 * (γ - 1)) * (6 + 5 * log (1 + (γ - 1) / 2 * M ^ 2)))
      (Rounded.WeightMassFlow F M r γ) (MassFlow.WeightMassFlow M r γ)) ∧
    Accurate F (2 + (γ + 1) / (2 * (γ - 1)) * (9 + 5 * |log (2 / (γ + 1) * (1 + (γ - 1) / 2 * M ^ 2))|))
      (Rounded.Sigma_Mach F M γ) (MassFlow.Sigma_Mach M γ) := by
  have l0 := log_nonneg (one_le_tt (M := M) hγ)
  have e0 : 0 < γ / (γ - 1) := by apply div_pos <;> linarith
  have e1 : 0 < (γ + 1) / (2 * (γ - 1)) := by apply div_pos <;> linarith
  have a0 := abs_nonneg (log (2 / (γ + 1) * tt M γ))
  refine ⟨accurate_of hu (by norm_num) (TtTs_Mach_ok M γ) (TtTs_close hu hγ hM), ?_,
    fun T hT => accurate_of hu (by norm_num) (Mach_TtTs_ok hγ hT.le) (Mach_TtTs_close hu hγ hT),
    fun Tt r hT hr => accurate_of hu (by norm_num) (Velocity_MachTt_ok hγ hr hT.le) (Velocity_close hu hγ hM hT hr),
    fun r => accurate_of hu ?_ (WeightMassFlow_ok hγ) (Weight_close hu hγ hM),
    accurate_of hu ?_ (Sigma_Mach_ok hγ hM.ne') (Sigma_close hu hγ hM)⟩
  · obtain ⟨v, hv, hc⟩ := PtPs_close (F := F) hu hγ le_rfl (Close.refl hM)
    have := mul_nonneg e0.le l0
    refine accurate_of hu ?_ (PtPs_Mach_ok hγ) ⟨v, hv, hc.mono hu ?_⟩
    · show 1 ≤ 1 + γ / (γ - 1) * (6 + 3 * log (tt M γ))
      have : 0 ≤ γ / (γ - 1) * (6 + 3 * log (tt M γ)) := by positivity
      linarith
    · show _ ≤ 1 + γ / (γ - 1) * (6 + 3 * log (tt M γ))
      nlinarith
  · show 1 ≤ 4 + (γ + 1) / (2 * (γ - 1)) * (6 + 5 * log (tt M γ))
    have : 0 ≤ (γ + 1) / (2 * (γ - 1)) * (6 + 5 * log (tt M γ)) := by positivity
    linarith
  · show 1 ≤ 2 + (γ + 1) / (2 * (γ - 1)) * (9 + 5 * |log (2 / (γ + 1) * tt M γ)|)
    have : 0 ≤ (γ + 1) / (2 * (γ - 1)) * (9 + 5 * |log (2 / (γ + 1) * tt M γ)|) := by positivity
    linarith

/-- **C128**: shock functions, for every gas and every upstream Mach number `≥ 1`. -/
theorem C128_shock (F : Arith) (hu : F.u ≤ 1 / 64) (M γ : ℝ) (hγ : 1 < γ) (hM : 1 ≤ M) :
    Accurate F 16 (Rounded.Ps_ratio F M γ) (ShockWave.Ps_ratio M γ) ∧
    Accurate F 8 (Rounded.Rho_ratio F M γ) (ShockWave.Rho_ratio M γ) ∧
    Accurate F 25 (Rounded.Ts_ratio F M γ) (ShockWave.Ts_ratio M γ) ∧
    Accurate F 11 (Rounded.downstream_Mn F M γ) (ShockWave.downstream_Mn M γ) ∧
    Accurate F (121 + γ / (γ - 1) * (6 + 3 * log (1 + (γ - 1) / 2 * M ^ 2))) (Rounded.Pt_ratio F M γ) (ShockWave.Pt_ratio M γ) ∧
    (∀ P, 1 < P → Accurate F 4 (Rounded.Mn_Ps_ratio F P γ) (ShockWave.Mn_Ps_ratio P γ)) := by
  have hM0 : 0 < M := by linarith
  refine ⟨accurate_of hu (by norm_num) (Ps_ratio_ok hγ) (Ps_close hu hγ hM),
    accurate_of hu (by norm_num) (Rho_ratio_ok hγ) (Rho_close hu hγ hM0),
    accurate_of hu (by norm_num) (Ts_ratio_ok hγ hM0.ne') (Ts_close hu hγ hM), ?_, ?_,
    fun P hP => accurate_of hu (by norm_num) ?_ (Mn_Ps_close hu hγ hP)⟩
  · obtain ⟨v, hv, hc⟩ := downstream_close (F := F) hu hγ hM
    exact accurate_of hu (by norm_num) (downstream_Mn_ok hγ (dom_of_one_le hγ hM)) ⟨v, hv, hc.mono hu (by norm_num)⟩
  · refine accurate_of hu ?_ (Pt_ratio_value hγ hM) (Pt_close hu hγ hM)
    have := fac_le (a := 6) (b := 3) hγ (log_nonneg (one_le_tt (M := M) hγ)) (by norm_num) (by norm_num)
    show 1 ≤ 121 + γ / (γ - 1) * (6 + 3 * log (tt M γ))
    linarith
  · unfold ShockWave.Mn_Ps_ratio; lits
    rw [Py.div_ok (by linarith), Py.ok_bind, Py.sqrt_ok]
    have : 0 < P - 1 := by linarith
    have : 0 < γ := by linarith
    positivity

/-- **C128**: Fanno and Rayleigh ratios, for every gas and every Mach number. -/
theorem C128_lines (F : Arith) (hu : F.u ≤ 1 / 64) (M γ : ℝ) (hγ : 1 < γ) (hM : 0 < M) :
    Accurate F 7 (Rounded.fanno_Ps_Pscri F M γ) (Fanno.Ps_Pscri M γ) ∧
    Accurate F 8 (Rounded.fanno_Ts_Tscri F M γ) (Fanno.Ts_Tscri M γ) ∧
    Accurate F 7 (Rounded.fanno_Rho_Rhocri F M γ) (Fanno.Rho_Rhocri M γ) ∧
    Accurate F 6 (Rounded.fanno_V_Vcri F M γ) (Fanno.V_Vcri M γ) ∧
    Accurate F (3 + (γ + 1) / (2 * (γ - 1)) * (9 + 5 * |log (2 / (γ + 1) * (1 + (γ - 1) / 2 * M ^ 2))|))
      (Rounded.fanno_Pi_Picri F M γ) (Fanno.Pi_Picri M γ) ∧
    Accurate F 5 (Rounded.rayleigh_Ps_Pscri F M γ) (Rayleigh.Ps_Pscri M γ) ∧
    Accurate F 13 (Rounded.rayleigh_Ts_Tscri F M γ) (Rayleigh.Ts_Tscri M γ) ∧
    Accurate F 18 (Rounded.rayleigh_Ti_Ticri F M γ) (Rayleigh.Ti_Ticri M γ) ∧
    Accurate F 7 (Rounded.rayleigh_Rho_Rhocri F M γ) (Rayleigh.Rho_Rhocri M γ) ∧
    Accurate F 7 (Rounded.rayleigh_V_Vcri F M γ) (Rayleigh.V_Vcri M γ) ∧
    Accurate F (7 + γ / (γ - 1) * (9 + 3 * |log (2 / (γ + 1) * (1 + (γ - 1) / 2 * M ^ 2))|))
      (Rounded.rayleigh_Pi_Picri F M γ) (Rayleigh.Pi_Picri M γ) := by
  have e1 : 0 < (γ + 1) / (2 * (γ - 1)) := by apply div_pos <;> linarith
  refine ⟨accurate_of hu (by norm_num) (Fanno_Ps_ok hγ hM) (fanno_Ps_close hu hγ hM),
    accurate_of hu (by norm_num) (Fanno_Ts_ok hγ) (fanno_Ts_close hu hγ hM),
    accurate_of hu (by norm_num) (Fanno_Rho_ok hγ hM) (fanno_Rho_close hu hγ hM),
    accurate_of hu (by norm_num) (Fanno_V_ok hγ) (fanno_V_close hu hγ hM),
    accurate_of hu ?_ (Fanno_Pi_ok hγ hM) (fanno_Pi_close hu hγ hM),
    accurate_of hu (by norm_num) (Ray_Ps_ok hγ) (rayleigh_Ps_close hu hγ hM),
    accurate_of hu (by norm_num) (Ray_Ts_ok hγ) (rayleigh_Ts_close hu hγ hM),
    accurate_of hu (by norm_num) (Ray_Ti_ok hγ) (rayleigh_Ti_close hu hγ hM),
    accurate_of hu (by norm_num) (Ray_Rho_ok hγ hM) (rayleigh_Rho_close hu hγ hM),
    accurate_of hu (by norm_num) (Ray_V_ok hγ) (rayleigh_V_close hu hγ hM),
    accurate_of hu ?_ (Ray_Pi_ok hγ) (rayleigh_Pi_close hu hγ hM)⟩
  · show 1 ≤ 3 + (γ + 1) / (2 * (γ - 1)) * (9 + 5 * |log (fb M γ)|)
    have : 0 ≤ (γ + 1) / (2 * (γ - 1)) * (9 + 5 * |log (fb M γ)|) := by positivity
    linarith
  · have := fac_le (a := 9) (b := 3) hγ (abs_nonneg (log (2 / (γ + 1) * tt M γ))) (by norm_num) (by norm_num)
    show 1 ≤ 7 + γ / (γ - 1) * (9 + 3 * |log (2 / (γ + 1) * tt M γ)|)
    linarith

/-- the hypotheses are met by binary64 (53 digits): its unit roundoff is `2⁻⁵³`, below 1/64; and the bound
of `TtTs_Mach` is then effective: `5 u < 1`, relative error below `10⁻¹⁵` -/
example : (Rounded.binary 53).u ≤ 1 / 64 ∧ 5 * (Rounded.binary 53).u < 1 ∧
    5 * (Rounded.binary 53).u / (1 - 5 * (Rounded.binary 53).u) < 10 ^ (-15 : ℤ) := by
  have : (Rounded.binary 53).u = (2 : ℝ)⁻¹ ^ 53 := rfl
  rw [this]
  norm_num

end Aerokit.Props
