import Mathlib.Analysis.SpecialFunctions.Sqrt
import Mathlib.Analysis.Calculus.Deriv.MeanValue
import Mathlib.Analysis.Calculus.Deriv.Inv
import Mathlib.Tactic.LinearCombination

/-! Two jets that share a power `K`, the bypass one getting the fraction `b/(2+b)`: thrust as a function of the bypass ratio. -/

namespace Aerokit.TurbofanMap

/-- velocity of the core jet -/
noncomputable def core (K s : ℝ) : ℝ := Real.sqrt (4 * K / s)
/-- velocity of the bypass jet -/
noncomputable def byp (V K F s : ℝ) : ℝ := Real.sqrt (V ^ 2 + 2 * (1 + F) * K / s)
/-- thrust -/
noncomputable def thr (V K F s : ℝ) : ℝ := (1 + F) * core K s - V + (s - 2) * (byp V K F s - V)

variable {V K F s : ℝ}

theorem core_gt (hV : 0 < V) (hs : 0 < s) (h : s * V ^ 2 < 4 * K) : V < core K s := by
  apply Real.lt_sqrt_of_sq_lt
  rw [lt_div_iff₀ hs]; linarith

theorem byp_gt (hV : 0 < V) (hs : 0 < s) (hK : 0 < K) (hF : 0 ≤ F) : V < byp V K F s := by
  apply Real.lt_sqrt_of_sq_lt
  have : 0 < 2 * (1 + F) * K / s := by positivity
  linarith

theorem thr_pos (hV : 0 < V) (hs : 2 ≤ s) (hK : 0 < K) (hF : 0 ≤ F) (h : s * V ^ 2 < 4 * K) : 0 < thr V K F s := by
  have h1 := core_gt hV (by linarith) h
  have h2 := byp_gt (F := F) (s := s) hV (by linarith) hK hF
  unfold thr
  have : 0 ≤ (s - 2) * (byp V K F s - V) := mul_nonneg (by linarith) (by linarith)
  nlinarith

theorem thr_mono (hV : 0 < V) (hK : 0 < K) (hF : 0 ≤ F) {S : ℝ} (h : S * V ^ 2 ≤ 2 * K * (1 - F)) :
    StrictMonoOn (thr V K F) (Set.Icc 2 S) := by
  have hd : ∀ s, 2 ≤ s → HasDerivAt (thr V K F)
      ((1 + F) * ((-(4 * K) / s ^ 2) / (2 * Real.sqrt (4 * K / s))) + ((byp V K F s - V) +
        (s - 2) * ((-(2 * (1 + F) * K) / s ^ 2) / (2 * byp V K F s)))) s := by
    intro s hs
    have s0 : s ≠ 0 := by linarith
    have sp : 0 < s := by linarith
    have i1 : HasDerivAt (fun x : ℝ => 4 * K / x) (-(4 * K) / s ^ 2) s := by
      have := (hasDerivAt_inv s0).const_mul (4 * K)
      refine (this.congr_deriv ?_).congr_of_eventuallyEq (Filter.Eventually.of_forall fun x => by simp [div_eq_mul_inv])
      field_simp
    have i2 : HasDerivAt (fun x : ℝ => V ^ 2 + 2 * (1 + F) * K / x) (-(2 * (1 + F) * K) / s ^ 2) s := by
      have := ((hasDerivAt_inv s0).const_mul (2 * (1 + F) * K)).const_add (V ^ 2)
      refine (this.congr_deriv ?_).congr_of_eventuallyEq (Filter.Eventually.of_forall fun x => by simp [div_eq_mul_inv])
      field_simp
    have c := (i1.sqrt (by positivity)).const_mul (1 + F)
    have b := i2.sqrt (by positivity)
    have b' := ((hasDerivAt_id s).sub_const 2).mul (b.sub_const V)
    have := (c.sub_const V).add b'
    refine (this.congr_deriv ?_).congr_of_eventuallyEq (Filter.Eventually.of_forall fun x => by simp [thr, core, byp])
    simp only [byp, id]
    ring
  apply strictMonoOn_of_deriv_pos (convex_Icc _ _)
  · exact fun s hs => (hd s hs.1).continuousAt.continuousWithinAt
  · intro s hs
    rw [interior_Icc] at hs
    have hs2 := hs.1
    have sp : 0 < s := by linarith
    rw [(hd s hs2.le).deriv]
    have hw := byp_gt (s := s) hV sp hK hF
    have w2 : byp V K F s ^ 2 = V ^ 2 + 2 * (1 + F) * K / s := Real.sq_sqrt (by positivity)
    have hu : 0 < Real.sqrt (4 * K / s) := Real.sqrt_pos.2 (by positivity)
    have u2 : Real.sqrt (4 * K / s) ^ 2 = 4 * K / s := Real.sq_sqrt (by positivity)
    have huw : byp V K F s ≤ Real.sqrt (4 * K / s) := by
      unfold byp
      apply Real.sqrt_le_sqrt
      rw [← sub_nonneg]
      have : 4 * K / s - (V ^ 2 + 2 * (1 + F) * K / s) = (2 * K * (1 - F) - s * V ^ 2) / s := by field_simp; ring
      rw [this]
      apply div_nonneg _ sp.le
      nlinarith [mul_le_mul_of_nonneg_right hs.2.le (sq_nonneg V)]
    generalize Real.sqrt (4 * K / s) = u at *
    generalize byp V K F s = w at *
    have eK : 4 * K / s ^ 2 = u ^ 2 / s := by rw [u2]; field_simp
    have eF : 2 * (1 + F) * K / s ^ 2 = (w ^ 2 - V ^ 2) / s := by rw [w2]; field_simp; ring
    have eFu : (w ^ 2 - V ^ 2) = (1 + F) * u ^ 2 / 2 := by rw [w2, u2]; field_simp; ring
    have w0 : 0 < w := by linarith
    rw [neg_div (s ^ 2) (4 * K), neg_div (s ^ 2) (2 * (1 + F) * K), eK, eF]
    have e : (1 + F) * (-(u ^ 2 / s) / (2 * u)) + (w - V + (s - 2) * (-((w ^ 2 - V ^ 2) / s) / (2 * w))) =
        (w - V) ^ 2 / (2 * w) + (1 + F) * u * (u - w) / (2 * s * w) := by
      have : (1 + F) * u * (u - w) = 2 * (w ^ 2 - V ^ 2) - (1 + F) * u * w := by rw [eFu]; ring
      rw [this]
      field_simp
      ring
    rw [e]
    have : 0 < (w - V) ^ 2 / (2 * w) := by
      have : 0 < w - V := by linarith
      positivity
    have : 0 ≤ (1 + F) * u * (u - w) / (2 * s * w) := by
      have : 0 ≤ u - w := by linarith
      positivity
    linarith

theorem spec_anti (hV : 0 < V) (hK : 0 < K) (hF : 0 ≤ F) {S : ℝ} (h : S * V ^ 2 ≤ 2 * K * (1 - F)) {s t : ℝ} (hs : 2 < s) (hst : s < t) (ht : t ≤ S) :
    thr V K F t / (t - 1) < thr V K F s / (s - 1) := by
  have sp : 0 < s := by linarith
  have tp : 0 < t := by linarith
  have hc : core K t < core K s := by
    apply Real.sqrt_lt_sqrt (by positivity)
    exact div_lt_div_of_pos_left (by positivity) sp hst
  have hb : byp V K F t < byp V K F s := by
    apply Real.sqrt_lt_sqrt (by positivity)
    have : 2 * (1 + F) * K / t < 2 * (1 + F) * K / s := div_lt_div_of_pos_left (by positivity) sp hst
    linarith
  have hw : byp V K F s ≤ core K s := by
    apply Real.sqrt_le_sqrt
    rw [← sub_nonneg]
    have : 4 * K / s - (V ^ 2 + 2 * (1 + F) * K / s) = (2 * K * (1 - F) - s * V ^ 2) / s := by field_simp; ring
    rw [this]
    apply div_nonneg _ sp.le
    nlinarith [mul_le_mul_of_nonneg_right (hst.le.trans ht) (sq_nonneg V)]
  have hc0 : 0 ≤ core K s := Real.sqrt_nonneg _
  rw [div_lt_div_iff₀ (by linarith) (by linarith)]
  unfold thr
  generalize core K s = a at *
  generalize core K t = a' at *
  generalize byp V K F s = w at *
  generalize byp V K F t = w' at *
  have h1 : ((1 + F) * a' - V + (t - 2) * (w' - V)) * (s - 1) < ((1 + F) * a - V + (t - 2) * (w - V)) * (s - 1) := by
    apply mul_lt_mul_of_pos_right _ (by linarith)
    have : (1 + F) * a' < (1 + F) * a := mul_lt_mul_of_pos_left hc (by linarith)
    have : (t - 2) * (w' - V) ≤ (t - 2) * (w - V) := mul_le_mul_of_nonneg_left (by linarith) (by linarith)
    linarith
  have h2 : ((1 + F) * a - V + (s - 2) * (w - V)) * (t - 1) - ((1 + F) * a - V + (t - 2) * (w - V)) * (s - 1) = (t - s) * ((1 + F) * a - w) := by ring
  have h3 : 0 ≤ (t - s) * ((1 + F) * a - w) := mul_nonneg (by linarith) (by nlinarith)
  linarith

end Aerokit.TurbofanMap
