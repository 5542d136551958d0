import Verif.Model.MinNozzle
import Verif.Props.SecantUses
import Verif.Props.Hypersonic
import Mathlib.Analysis.Real.Pi.Bounds

/-! # The Newton iteration of `Minimum_length_nozzle.py` on the Prandtl–Meyer function -/

namespace Aerokit.Props
open Real MinNozzle

theorem mn_gamma_one_lt : 1 < gamma := by unfold gamma; norm_num
theorem mn_gamma_eq : gamma = 127 / 100 := by unfold gamma; norm_num

/-- the Prandtl–Meyer function of the script, in radians -/
noncomputable def npm (M : ℝ) : ℝ := pmRad (pmC gamma) (√(M ^ 2 - 1))

/-- its derivative -/
noncomputable def nsl (M : ℝ) : ℝ := pmSlope gamma M

/-- its supremum -/
noncomputable def npmMax : ℝ := π / 2 * (pmC gamma - 1)

theorem npm_ok {M : ℝ} (hM : 1 ≤ M ^ 2) : pmeyer M = .ok (npm M) := by
  unfold pmeyer
  rw [mn_gamma_eq]
  lits
  have e : ((127 / 100 - 1) / (127 / 100 + 1) : ℝ) = 27 / 227 := by norm_num
  rw [Py.div_ok (by norm_num), Py.ok_bind, e, Py.div_ok (by norm_num), Py.ok_bind,
    Py.sqrt_ok (by norm_num), Py.ok_bind, Py.sqrt_ok (by linarith), Py.ok_bind,
    Py.sqrt_ok (by linarith), Py.ok_bind, Py.pure_eq]
  unfold npm pmRad pmC
  rw [mn_gamma_eq]
  have e1 : ((127 / 100 + 1) / (127 / 100 - 1) : ℝ) = 227 / 27 := by norm_num
  have e2 : (1 / (27 / 227) : ℝ) = 227 / 27 := by norm_num
  rw [e1, e2, Real.sqrt_mul (by norm_num), show (27 / 227 : ℝ) = (227 / 27)⁻¹ by norm_num, Real.sqrt_inv]
  congr 4
  ring

theorem npm_err {M : ℝ} (hM : M ^ 2 < 1) : pmeyer M = .error .nonFinite := by
  unfold pmeyer
  rw [mn_gamma_eq]
  lits
  have e : ((127 / 100 - 1) / (127 / 100 + 1) : ℝ) = 27 / 227 := by norm_num
  rw [Py.div_ok (by norm_num), Py.ok_bind, e, Py.div_ok (by norm_num), Py.ok_bind,
    Py.sqrt_ok (by norm_num), Py.ok_bind, Py.sqrt_err (by linarith)]
  rfl

theorem nsl_ok {M : ℝ} (hM : 1 < M) : pmeyer_prime M = .ok (nsl M) := by
  unfold pmeyer_prime
  have hB : 0 < M ^ 2 - 1 := by nlinarith
  have hs : √(M ^ 2 - 1) ≠ 0 := (Real.sqrt_pos.2 hB).ne'
  have hss : √(M ^ 2 - 1) ^ 2 = M ^ 2 - 1 := Real.sq_sqrt hB.le
  rw [if_neg hM.ne', mn_gamma_eq]
  have e : ((127 / 100 - 1) / (127 / 100 + 1) : ℝ) = 27 / 227 := by norm_num
  rw [Py.div_ok (by norm_num), Py.ok_bind, e, Py.div_ok (by positivity), Py.ok_bind,
    Py.div_ok (by linarith), Py.ok_bind, Py.sqrt_ok hB.le, Py.ok_bind, Py.div_ok hs]
  unfold nsl pmSlope
  rw [mn_gamma_eq]
  congr 1
  have h1 : (1 + 27 / 227 * (M ^ 2 - 1)) = 200 / 227 * (1 + (127 / 100 - 1) / 2 * M ^ 2) := by ring
  rw [h1]
  obtain ⟨D, hD⟩ : ∃ D, D = 1 + (127 / 100 - 1) / 2 * M ^ 2 := ⟨_, rfl⟩
  have hD0 : 0 < D := by rw [hD]; positivity
  obtain ⟨s, hsd⟩ : ∃ s, s = √(M ^ 2 - 1) := ⟨_, rfl⟩
  rw [← hD, ← hsd]
  rw [← hsd] at hs hss
  have hM0 : M ≠ 0 := by linarith
  field_simp
  rw [hss, hD]; ring

theorem npm_hasDeriv {M : ℝ} (hM : 1 < M) : HasDerivAt npm (nsl M) M := by
  have h := (hasDerivAt_pmDeg mn_gamma_one_lt hM).mul_const (π / 180)
  have e : (fun y => pmDeg gamma y * (π / 180)) = npm := by
    funext y; unfold pmDeg npm Py.degrees; field_simp
  rw [e] at h
  refine h.congr_deriv ?_
  unfold nsl; field_simp

theorem npm_continuous : Continuous npm := by
  unfold npm pmRad; fun_prop

theorem npm_strictMono : StrictMonoOn npm (Set.Ici 1) := by
  intro M hM N hN hMN
  have h1 : (1:ℝ) ≤ M := hM
  exact pmRad_strictMono (one_lt_pmC mn_gamma_one_lt) (Set.mem_Ici.2 (Real.sqrt_nonneg _))
    (Set.mem_Ici.2 (Real.sqrt_nonneg _)) (Real.sqrt_lt_sqrt (by nlinarith) (by nlinarith))

theorem npm_le {M N : ℝ} (hM : 1 ≤ M) (hMN : M ≤ N) : npm M ≤ npm N :=
  npm_strictMono.monotoneOn (Set.mem_Ici.2 hM) (Set.mem_Ici.2 (hM.trans hMN)) hMN

theorem npm_lt {M N : ℝ} (hM : 1 ≤ M) (hMN : M < N) : npm M < npm N :=
  npm_strictMono (Set.mem_Ici.2 hM) (Set.mem_Ici.2 (hM.trans hMN.le)) hMN

theorem npm_le_iff {M N : ℝ} (hM : 1 ≤ M) (hN : 1 ≤ N) : npm M ≤ npm N ↔ M ≤ N :=
  npm_strictMono.le_iff_le (Set.mem_Ici.2 hM) (Set.mem_Ici.2 hN)

theorem npm_one : npm 1 = 0 := by unfold npm; norm_num [pmRad_zero]

theorem npm_nonneg {M : ℝ} : 0 ≤ npm M := by
  have := (pmRad_strictMono (one_lt_pmC mn_gamma_one_lt)).monotoneOn (Set.mem_Ici.2 le_rfl)
    (Set.mem_Ici.2 (Real.sqrt_nonneg (M ^ 2 - 1))) (Real.sqrt_nonneg _)
  rwa [pmRad_zero] at this

theorem npm_lt_max (M : ℝ) : npm M < npmMax := pmRad_lt (one_lt_pmC mn_gamma_one_lt) (Real.sqrt_nonneg _)

theorem npm_surj {v : ℝ} (h0 : 0 < v) (h1 : v < npmMax) : ∃ r, 1 < r ∧ npm r = v := by
  have hl := pm_lim mn_gamma_one_lt
  have hv : Py.degrees v < 90 * (pmC gamma - 1) := by
    have : Py.degrees npmMax = 90 * (pmC gamma - 1) := by
      unfold npmMax Py.degrees; field_simp; ring
    rw [← this, Py.degrees_lt]; exact h1
  obtain ⟨N, hN, hN1⟩ := ((hl.eventually (lt_mem_nhds hv)).and (Filter.eventually_ge_atTop 1)).exists
  rw [Py.degrees_lt] at hN
  have hN' : v < npm N := hN
  obtain ⟨r, hr, hrv⟩ := intermediate_value_Icc hN1 npm_continuous.continuousOn
    (show v ∈ Set.Icc (npm 1) (npm N) by rw [npm_one]; exact ⟨h0.le, hN'.le⟩)
  refine ⟨r, lt_of_le_of_ne hr.1 ?_, hrv⟩
  rintro rfl
  rw [npm_one] at hrv; linarith

theorem nsl_pos {M : ℝ} (hM : 1 < M) : 0 < nsl M := by
  unfold nsl pmSlope
  rw [mn_gamma_eq]
  have : 0 < √(M ^ 2 - 1) := Real.sqrt_pos.2 (by nlinarith)
  have : 0 < M := by linarith
  positivity

theorem npm_mvt {a b : ℝ} (ha : 1 ≤ a) (hab : a < b) : ∃ c, a < c ∧ c < b ∧ npm b - npm a = nsl c * (b - a) := by
  obtain ⟨c, hc, hs⟩ := exists_hasDerivAt_eq_slope npm nsl hab npm_continuous.continuousOn
    (fun x hx => npm_hasDeriv (lt_of_le_of_lt ha hx.1))
  refine ⟨c, hc.1, hc.2, ?_⟩
  rw [hs, div_mul_cancel₀]; linarith

/-! ### shape of the slope -/

/-- comparison polynomial of two squared slopes -/
noncomputable def slKey (t u : ℝ) : ℝ :=
  2 * (27/200) * u * t + (27/200) ^ 2 * u * t * (u + t)
    - (1 + 2 * (27/200) * (u + t) + (27/200) ^ 2 * (u ^ 2 + u * t + t ^ 2))

theorem slKey_mono {t t' u : ℝ} (ht : 1 ≤ t) (htt : t ≤ t') (hu : 1 ≤ u) : slKey t u ≤ slKey t' u := by
  have e : slKey t' u - slKey t u
      = (t' - t) * ((27/100) * (u - 1) + (27/200) ^ 2 * ((t + t') * (u - 1) + u * (u - 1))) := by
    unfold slKey; ring
  have : 0 ≤ (t' - t) * ((27/100) * (u - 1) + (27/200) ^ 2 * ((t + t') * (u - 1) + u * (u - 1))) := by
    have h1 : 0 ≤ u - 1 := by linarith
    have h2 : 0 ≤ t' - t := by linarith
    have h3 : 0 ≤ t + t' := by linarith
    have h4 : 0 ≤ u := by linarith
    positivity
  linarith

theorem slKey_comm (t u : ℝ) : slKey t u = slKey u t := by unfold slKey; ring

/-- square of the Mach number of steepest slope -/
noncomputable def tStar : ℝ := (3 * (27/200) + √(9 * (27/200) ^ 2 + 8 * (27/200))) / (4 * (27/200))

/-- the Mach number of steepest slope, about 1.678 -/
noncomputable def mStar : ℝ := √tStar

theorem tStar_root : 2 * (27/200) * tStar ^ 2 - 3 * (27/200) * tStar - 1 = 0 := by
  have h : √(9 * (27/200 : ℝ) ^ 2 + 8 * (27/200)) ^ 2 = 9 * (27/200) ^ 2 + 8 * (27/200) := Real.sq_sqrt (by norm_num)
  unfold tStar
  obtain ⟨w, hw⟩ : ∃ w, w = √(9 * (27/200 : ℝ) ^ 2 + 8 * (27/200)) := ⟨_, rfl⟩
  rw [← hw] at h ⊢
  field_simp
  norm_num at h ⊢
  linarith

theorem tStar_bounds : 2.8 < tStar ∧ tStar < 2.84 := by
  have h1 : (1.11 : ℝ) < √(9 * (27/200 : ℝ) ^ 2 + 8 * (27/200)) := by
    apply Real.lt_sqrt_of_sq_lt; norm_num
  have h2 : √(9 * (27/200 : ℝ) ^ 2 + 8 * (27/200)) < 1.12 := by
    rw [Real.sqrt_lt' (by norm_num)]; norm_num
  unfold tStar
  constructor
  · rw [lt_div_iff₀ (by norm_num)]; norm_num at h1 ⊢; linarith
  · rw [div_lt_iff₀ (by norm_num)]; norm_num at h2 ⊢; linarith

theorem mStar_sq : mStar ^ 2 = tStar := Real.sq_sqrt (by linarith [tStar_bounds.1, show (0:ℝ) < 2.8 by norm_num])

theorem mStar_bounds : 1.6 < mStar ∧ mStar < 1.7 := by
  obtain ⟨h1, h2⟩ := tStar_bounds
  unfold mStar
  constructor
  · apply Real.lt_sqrt_of_sq_lt; norm_num at h1 ⊢; linarith
  · rw [Real.sqrt_lt' (by norm_num)]; norm_num at h2 ⊢; linarith

theorem slKey_star : slKey tStar tStar = 0 := by
  have h := tStar_root
  have : slKey tStar tStar = (1 + 27/200 * tStar) * (2 * (27/200) * tStar ^ 2 - 3 * (27/200) * tStar - 1) := by
    unfold slKey; ring
  rw [this, h, mul_zero]

/-- the slopes are ordered by the sign of the key -/
theorem nsl_le_of {M N : ℝ} (hM : 1 < M) (hN : 1 < N) (h : 0 ≤ (N ^ 2 - M ^ 2) * slKey (M ^ 2) (N ^ 2)) :
    nsl N ≤ nsl M := by
  have hM0 : 0 < M := by linarith
  have hN0 : 0 < N := by linarith
  unfold nsl pmSlope
  rw [mn_gamma_eq, show ((127 / 100 - 1) / 2 : ℝ) = 27/200 by norm_num]
  rw [div_le_div_iff₀ (by positivity) (by positivity)]
  refine (pow_le_pow_iff_left₀ (by positivity) (by positivity) two_ne_zero).1 ?_
  rw [mul_pow, mul_pow, mul_pow, mul_pow, Real.sq_sqrt (by nlinarith), Real.sq_sqrt (by nlinarith)]
  unfold slKey at h
  nlinarith only [h]

theorem nsl_anti {M N : ℝ} (hM : mStar ≤ M) (hMN : M ≤ N) : nsl N ≤ nsl M := by
  have hm := mStar_bounds.1
  norm_num at hm
  have h1 : tStar ≤ M ^ 2 := by rw [← mStar_sq]; exact pow_le_pow_left₀ (by linarith) hM 2
  have h2 : M ^ 2 ≤ N ^ 2 := pow_le_pow_left₀ (by linarith) hMN 2
  have ht := tStar_bounds.1
  norm_num at ht
  refine nsl_le_of (by linarith) (by linarith) (mul_nonneg (by linarith) ?_)
  rw [← slKey_star]
  refine (slKey_mono (by linarith) h1 (by linarith)).trans ?_
  rw [slKey_comm (M ^ 2) tStar, slKey_comm (M ^ 2) (N ^ 2)]
  exact slKey_mono (by linarith) (h1.trans h2) (by nlinarith)

theorem nsl_mono {M N : ℝ} (hM : 1 < M) (hMN : M ≤ N) (hN : N ≤ mStar) : nsl M ≤ nsl N := by
  have h1 : N ^ 2 ≤ tStar := by rw [← mStar_sq]; exact pow_le_pow_left₀ (by linarith) hN 2
  have h2 : M ^ 2 ≤ N ^ 2 := pow_le_pow_left₀ (by linarith) hMN 2
  have h3 : 1 ≤ M ^ 2 := by nlinarith
  refine nsl_le_of (by linarith) (by linarith) (mul_nonneg_of_nonpos_of_nonpos (by linarith) ?_)
  rw [← slKey_star]
  refine (slKey_mono (by linarith) h1 (by linarith)).trans ?_
  rw [slKey_comm tStar (M ^ 2)]
  exact slKey_mono (by linarith) (h2.trans h1) (by linarith)

theorem nsl_le_top {M : ℝ} (hM : 1 < M) : nsl M ≤ nsl mStar := by
  rcases le_total M mStar with h | h
  · exact nsl_mono hM h le_rfl
  · exact nsl_anti le_rfl h

theorem nsl_sq {M : ℝ} (hM : 1 < M) : nsl M ^ 2 = (M ^ 2 - 1) / (M ^ 2 * (1 + 27/200 * M ^ 2) ^ 2) := by
  unfold nsl pmSlope
  rw [mn_gamma_eq, show ((127 / 100 - 1) / 2 : ℝ) = 27/200 by norm_num, div_pow, mul_pow, Real.sq_sqrt (by nlinarith)]

theorem nsl_star : nsl mStar ≤ 0.584 := by
  have hm := mStar_bounds.1
  norm_num at hm
  have h1 : 1 < mStar := by linarith
  refine (pow_le_pow_iff_left₀ (nsl_pos h1).le (by norm_num) two_ne_zero).1 ?_
  have hr := tStar_root
  obtain ⟨ht, ht'⟩ := tStar_bounds
  norm_num at ht ht'
  rw [nsl_sq h1, mStar_sq, div_le_iff₀ (by nlinarith)]
  norm_num
  nlinarith

theorem nsl_le (M : ℝ) (hM : 1 < M) : nsl M ≤ 0.584 := (nsl_le_top hM).trans nsl_star

theorem nsl_ge {M : ℝ} (h1 : 1.065 ≤ M) (h3 : M ≤ 3) : 0.298 ≤ nsl M := by
  have ha : (0.298 : ℝ) ≤ nsl 1.065 := by
    refine (pow_le_pow_iff_left₀ (by norm_num) (nsl_pos (by norm_num)).le two_ne_zero).1 ?_
    rw [nsl_sq (by norm_num), le_div_iff₀ (by norm_num)]; norm_num
  have hb : (0.298 : ℝ) ≤ nsl 3 := by
    refine (pow_le_pow_iff_left₀ (by norm_num) (nsl_pos (by norm_num)).le two_ne_zero).1 ?_
    rw [nsl_sq (by norm_num), le_div_iff₀ (by norm_num)]; norm_num
  rcases le_total M mStar with h | h
  · exact ha.trans (nsl_mono (by norm_num) h1 h)
  · exact hb.trans (nsl_anti h h3)

/-! ### numerical bounds -/

theorem arctan_le_poly {x : ℝ} (hx : 0 ≤ x) : arctan x ≤ x - x ^ 3 / 3 + x ^ 5 / 5 := by
  have hd : ∀ y : ℝ, HasDerivAt (fun y => y - y ^ 3 / 3 + y ^ 5 / 5 - arctan y)
      (1 - y ^ 2 + y ^ 4 - 1 / (1 + y ^ 2)) y := by
    intro y
    have h3 := (hasDerivAt_pow 3 y).div_const 3
    have h5 := (hasDerivAt_pow 5 y).div_const 5
    refine ((((hasDerivAt_id y).fun_sub h3).fun_add h5).fun_sub (Real.hasDerivAt_arctan y)).congr_deriv ?_
    norm_num
  have hm : MonotoneOn (fun y => y - y ^ 3 / 3 + y ^ 5 / 5 - arctan y) (Set.Ici 0) := by
    refine monotoneOn_of_deriv_nonneg (convex_Ici 0)
      (fun y _ => (hd y).continuousAt.continuousWithinAt)
      (fun y _ => (hd y).differentiableAt.differentiableWithinAt) ?_
    intro y _
    rw [(hd y).deriv]
    have : 1 - y ^ 2 + y ^ 4 - 1 / (1 + y ^ 2) = y ^ 6 / (1 + y ^ 2) := by field_simp; ring
    rw [this]; positivity
  have := hm (Set.mem_Ici.2 le_rfl) (Set.mem_Ici.2 hx) hx
  simp at this
  linarith

theorem npm_two : npm 2 ≤ 0.5232 := by
  unfold npm pmRad
  obtain ⟨K, hK⟩ : ∃ K, K = pmC gamma := ⟨_, rfl⟩
  have hK1 : 1 < K := by rw [hK]; exact one_lt_pmC mn_gamma_one_lt
  have hK2 : K ^ 2 = 227 / 27 := by
    rw [hK, pmC, Real.sq_sqrt (by rw [mn_gamma_eq]; norm_num), mn_gamma_eq]; norm_num
  have e3 : √((2:ℝ) ^ 2 - 1) = √3 := by norm_num
  have hat : arctan (√3) = π / 3 := by
    rw [← Real.tan_pi_div_three]
    exact Real.arctan_tan (by linarith [Real.pi_pos]) (by linarith [Real.pi_pos])
  rw [← hK, e3, hat]
  have hb := arctan_le_poly (x := √3 / K) (by positivity)
  have h3 : √3 ^ 2 = (3 : ℝ) := Real.sq_sqrt (by norm_num)
  have hb' : K * arctan (√3 / K) ≤ √3 * (1 - 3 / (K ^ 2) / 3 + 9 / (K ^ 2) ^ 2 / 5) := by
    have hK0 : 0 < K := by linarith
    refine (mul_le_mul_of_nonneg_left hb hK0.le).trans (le_of_eq ?_)
    field_simp
    have h5 : √3 ^ 4 = (9:ℝ) := by
      calc √3 ^ 4 = (√3 ^ 2) ^ 2 := by ring
        _ = 9 := by rw [h3]; norm_num
    rw [h3, h5]; ring
  rw [hK2] at hb'
  have hs : √3 ≤ (1.7321 : ℝ) := by
    rw [Real.sqrt_le_left (by norm_num)]; norm_num
  have hp := Real.pi_gt_d4
  norm_num at hb' hs hp ⊢
  linarith

theorem nsl_two : 0.5623 ≤ nsl 2 := by
  refine (pow_le_pow_iff_left₀ (by norm_num) (nsl_pos (by norm_num)).le two_ne_zero).1 ?_
  rw [nsl_sq (by norm_num), le_div_iff₀ (by norm_num)]; norm_num

/-! ### the iteration -/

/-- one Newton step -/
noncomputable def nstep (v M : ℝ) : ℝ := M + (v - npm M) / nsl M

theorem newton_stop {v M : ℝ} (hM : 1 ≤ M ^ 2) (h : |v - npm M| ≤ 0.00001) (fuel : ℕ) : newton v fuel M = .ok M := by
  unfold newton f
  rw [npm_ok hM, Py.ok_bind, Py.pure_eq, Py.ok_bind, if_neg (not_lt.2 h), Py.pure_eq]

theorem newton_more {v M : ℝ} (hM : 1 < M) (h : ¬ |v - npm M| ≤ 0.00001) (fuel : ℕ) :
    newton v (fuel + 1) M = newton v fuel (nstep v M) := by
  have hM2 : 1 ≤ M ^ 2 := by nlinarith
  rw [newton]
  unfold f f_prime
  rw [npm_ok hM2, Py.ok_bind, Py.pure_eq, Py.ok_bind, if_pos (not_le.1 h)]
  simp only []
  rw [nsl_ok hM, Py.ok_bind, Py.pure_eq, Py.ok_bind, Py.div_ok (by linarith [nsl_pos hM]), Py.ok_bind]
  congr 1
  unfold nstep
  have := (nsl_pos hM).ne'
  field_simp
  ring

/-- fuel does not matter once the loop has stopped -/
theorem newton_mono {v : ℝ} {n m : ℕ} {M x : ℝ} (h : newton v n M = .ok x) (hnm : n ≤ m) : newton v m M = .ok x := by
  induction n generalizing m M with
  | zero =>
    unfold newton at h ⊢
    revert h
    cases f v M with
    | error e => intro h; cases h
    | ok r =>
      rw [Py.ok_bind, Py.ok_bind]
      by_cases hr : |r| > 0.00001
      · rw [if_pos hr]; intro h; cases h
      · rw [if_neg hr, if_neg hr]; exact id
  | succ n ih =>
    obtain ⟨m, rfl⟩ : ∃ k, m = k + 1 := ⟨m - 1, by omega⟩
    unfold newton at h ⊢
    revert h
    cases f v M with
    | error e => intro h; cases h
    | ok r =>
      rw [Py.ok_bind, Py.ok_bind]
      by_cases hr : |r| > 0.00001
      · rw [if_pos hr, if_pos hr]
        simp only []
        cases f_prime M with
        | error e => intro h; cases h
        | ok d =>
          rw [Py.ok_bind, Py.ok_bind]
          cases Py.div r d with
          | error e => intro h; cases h
          | ok q =>
            rw [Py.ok_bind, Py.ok_bind]
            intro h
            exact ih h (by omega)
      · rw [if_neg hr, if_neg hr]; exact id

/-- what is returned satisfies the stopping criterion -/
theorem newton_sound {v : ℝ} {n : ℕ} {M x : ℝ} (h : newton v n M = .ok x) :
    ∃ p, pmeyer x = .ok p ∧ |v - p| ≤ 0.00001 := by
  induction n generalizing M with
  | zero =>
    unfold newton f at h
    revert h
    cases hp : pmeyer M with
    | error e => intro h; cases h
    | ok p =>
      rw [Py.ok_bind, Py.pure_eq, Py.ok_bind]
      by_cases hr : |v - p| > 0.00001
      · rw [if_pos hr]; intro h; cases h
      · rw [if_neg hr]; intro h
        have := Except.ok.inj h
        subst this
        exact ⟨p, hp, not_lt.1 hr⟩
  | succ n ih =>
    unfold newton f at h
    revert h
    cases hp : pmeyer M with
    | error e => intro h; cases h
    | ok p =>
      rw [Py.ok_bind, Py.pure_eq, Py.ok_bind]
      by_cases hr : |v - p| > 0.00001
      · rw [if_pos hr]
        simp only []
        cases f_prime M with
        | error e => intro h; cases h
        | ok d =>
          rw [Py.ok_bind]
          cases Py.div (v - p) d with
          | error e => intro h; cases h
          | ok q =>
            rw [Py.ok_bind]
            intro h
            exact ih h
      · rw [if_neg hr]; intro h
        have := Except.ok.inj h
        subst this
        exact ⟨p, hp, not_lt.1 hr⟩

/-- convergence in a region where the step contracts towards the root -/
theorem newton_converges {v r κ : ℝ} {R : Set ℝ} (hκ0 : 0 ≤ κ) (hκ : κ < 1)
    (hR : ∀ M ∈ R, 1 < M ∧ |v - npm M| ≤ |M - r| ∧ |nstep v M - r| ≤ κ * |M - r| ∧ nstep v M ∈ R)
    {M : ℝ} (hM : M ∈ R) : ∃ F, ∃ x ∈ R, |v - npm x| ≤ 0.00001 ∧ ∀ n, F ≤ n → newton v n M = .ok x := by
  obtain ⟨k, hk⟩ : ∃ k : ℕ, κ ^ k * |M - r| ≤ 0.00001 := by
    have ht := (tendsto_pow_atTop_nhds_zero_of_lt_one hκ0 hκ).mul_const (|M - r|)
    rw [zero_mul] at ht
    obtain ⟨k, hk⟩ := (ht.eventually (gt_mem_nhds (show (0:ℝ) < 0.00001 by norm_num))).exists
    exact ⟨k, hk.le⟩
  induction k generalizing M with
  | zero =>
    obtain ⟨h1, h2, -, -⟩ := hR M hM
    refine ⟨0, M, hM, h2.trans (by simpa using hk), fun n _ => newton_stop (by nlinarith) (h2.trans (by simpa using hk)) n⟩
  | succ k ih =>
    obtain ⟨h1, h2, h3, h4⟩ := hR M hM
    by_cases hs : |v - npm M| ≤ 0.00001
    · exact ⟨0, M, hM, hs, fun n _ => newton_stop (by nlinarith) hs n⟩
    · obtain ⟨F, x, hx, hxs, hF⟩ := ih h4 (by
        refine le_trans (mul_le_mul_of_nonneg_left h3 (pow_nonneg hκ0 k)) ?_
        rw [pow_succ, mul_assoc] at hk; exact hk)
      refine ⟨F + 1, x, hx, hxs, fun n hn => ?_⟩
      obtain ⟨n, rfl⟩ : ∃ j, n = j + 1 := ⟨n - 1, by omega⟩
      rw [newton_more h1 hs, hF n (by omega)]

theorem npm_lip {M r : ℝ} (hM : 1 ≤ M) (hr : 1 ≤ r) : |npm r - npm M| ≤ |M - r| := by
  rcases lt_trichotomy M r with h | h | h
  · obtain ⟨c, h1, h2, e⟩ := npm_mvt hM h
    have h3 := nsl_le c (by linarith)
    have h4 := nsl_pos (M := c) (by linarith)
    rw [e, abs_mul, abs_of_pos h4, abs_sub_comm M r]
    exact mul_le_of_le_one_left (abs_nonneg _) (h3.trans (by norm_num))
  · rw [h]; simp
  · obtain ⟨c, h1, h2, e⟩ := npm_mvt hr h
    have h3 := nsl_le c (by linarith)
    have h4 := nsl_pos (M := c) (by linarith)
    rw [abs_sub_comm, e, abs_mul, abs_of_pos h4]
    exact mul_le_of_le_one_left (abs_nonneg _) (h3.trans (by norm_num))

/-- error of one step: multiplied by `1 - s(c)/s(M)` for a point `c` between -/
theorem nstep_err {r M : ℝ} (hM : 1 < M) (hr : 1 < r) :
    ∃ c, min M r ≤ c ∧ c ≤ max M r ∧ nstep (npm r) M - r = (M - r) * (1 - nsl c / nsl M) := by
  have hs := (nsl_pos hM).ne'
  rcases lt_trichotomy M r with h | h | h
  · obtain ⟨c, h1, h2, e⟩ := npm_mvt hM.le h
    refine ⟨c, by rw [min_eq_left h.le]; exact h1.le, by rw [max_eq_right h.le]; exact h2.le, ?_⟩
    unfold nstep; rw [e]; field_simp; ring
  · refine ⟨M, min_le_left _ _, le_max_left _ _, ?_⟩
    unfold nstep; rw [h]; simp
  · obtain ⟨c, h1, h2, e⟩ := npm_mvt hr.le h
    refine ⟨c, by rw [min_eq_right h.le]; exact h1.le, by rw [max_eq_left h.le]; exact h2.le, ?_⟩
    have e' : npm r - npm M = - (nsl c * (M - r)) := by linarith
    unfold nstep; rw [e']; field_simp; ring

/-- from the left of the root in the concave part -/
theorem newton_left {r : ℝ} (hr : 2 ≤ r) : ∃ F, ∃ x, 2 ≤ x ∧ x ≤ r ∧ |npm r - npm x| ≤ 0.00001 ∧
    ∀ n, F ≤ n → newton (npm r) n 2 = .ok x := by
  have hm := mStar_bounds.2
  norm_num at hm
  have hsr := nsl_pos (M := r) (by linarith)
  have hs2 := nsl_pos (M := 2) (by norm_num)
  have hle : nsl r ≤ nsl 2 := nsl_anti (by linarith) hr
  obtain ⟨F, x, hx, hxs, hF⟩ := newton_converges (v := npm r) (r := r) (κ := 1 - nsl r / nsl 2) (R := Set.Icc 2 r)
    (by rw [sub_nonneg, div_le_one hs2]; exact hle) (by have := div_pos hsr hs2; linarith) (by
      intro M hM
      obtain ⟨h1, h2⟩ := hM
      have hM1 : 1 < M := by linarith
      have hsM := nsl_pos hM1
      obtain ⟨c, hc1, hc2, e⟩ := nstep_err hM1 (show 1 < r by linarith)
      rw [min_eq_left h2] at hc1
      rw [max_eq_right h2] at hc2
      have q1 : nsl c ≤ nsl M := nsl_anti (by linarith) hc1
      have q2 : nsl r ≤ nsl c := nsl_anti (by linarith) hc2
      have q3 : nsl M ≤ nsl 2 := nsl_anti (by linarith) h1
      have q4 : nsl c / nsl M ≤ 1 := (div_le_one hsM).2 q1
      have q5 : nsl r / nsl 2 ≤ nsl c / nsl M := div_le_div₀ (hsr.le.trans q2) q2 hsM q3
      have q6 : 0 ≤ nsl c / nsl M := div_nonneg (hsr.le.trans q2) hsM.le
      refine ⟨hM1, npm_lip hM1.le (by linarith), ?_, ?_, ?_⟩
      · rw [e, abs_mul, abs_of_nonneg (by linarith : 0 ≤ 1 - nsl c / nsl M), mul_comm]
        exact mul_le_mul_of_nonneg_right (by linarith) (abs_nonneg _)
      · have : (M - r) ≤ (M - r) * (1 - nsl c / nsl M) := by nlinarith
        linarith
      · have : (M - r) * (1 - nsl c / nsl M) ≤ 0 := by nlinarith
        linarith) (M := 2) ⟨le_rfl, hr⟩
  exact ⟨F, x, hx.1, hx.2, hxs, hF⟩

/-- from the right of the root in the convex part -/
theorem newton_right {r M : ℝ} (hr : 1 < r) (hrM : r ≤ M) (hMs : M ≤ mStar) :
    ∃ F, ∃ x, r ≤ x ∧ x ≤ mStar ∧ |npm r - npm x| ≤ 0.00001 ∧ ∀ n, F ≤ n → newton (npm r) n M = .ok x := by
  have hsr := nsl_pos hr
  have hs1 : 1 < mStar := by linarith
  have hs2 := nsl_pos hs1
  obtain ⟨F, x, hx, hxs, hF⟩ := newton_converges (v := npm r) (r := r) (κ := 1 - nsl r / nsl mStar)
    (R := Set.Icc r mStar)
    (by rw [sub_nonneg, div_le_one hs2]; exact nsl_le_top hr) (by have := div_pos hsr hs2; linarith) (by
      intro M hM
      obtain ⟨h1, h2⟩ := hM
      have hM1 : 1 < M := by linarith
      have hsM := nsl_pos hM1
      obtain ⟨c, hc1, hc2, e⟩ := nstep_err hM1 hr
      rw [min_eq_right h1] at hc1
      rw [max_eq_left h1] at hc2
      have q1 : nsl c ≤ nsl M := nsl_mono (by linarith) hc2 h2
      have q2 : nsl r ≤ nsl c := nsl_mono hr hc1 (by linarith)
      have q3 : nsl M ≤ nsl mStar := nsl_le_top hM1
      have q4 : nsl c / nsl M ≤ 1 := (div_le_one hsM).2 q1
      have q5 : nsl r / nsl mStar ≤ nsl c / nsl M := div_le_div₀ (hsr.le.trans q2) q2 hsM q3
      have q6 : 0 ≤ nsl c / nsl M := div_nonneg (hsr.le.trans q2) hsM.le
      refine ⟨hM1, npm_lip hM1.le hr.le, ?_, ?_, ?_⟩
      · rw [e, abs_mul, abs_of_nonneg (by linarith : 0 ≤ 1 - nsl c / nsl M), mul_comm]
        exact mul_le_mul_of_nonneg_right (by linarith) (abs_nonneg _)
      · have : 0 ≤ (M - r) * (1 - nsl c / nsl M) := by nlinarith
        linarith
      · have : (M - r) * (1 - nsl c / nsl M) ≤ M - r := by nlinarith
        linarith) (M := M) ⟨hrM, hMs⟩
  exact ⟨F, x, hx.1, hx.2, hxs, hF⟩

/-- from the left of a root below 2 -/
theorem newton_near {r M₀ : ℝ} (hM0 : 1.065 ≤ M₀) (hr : M₀ ≤ r) (hr2 : r ≤ 2) :
    ∃ F, ∃ x, 1.065 ≤ x ∧ x ≤ 3 ∧ |npm r - npm x| ≤ 0.00001 ∧ ∀ n, F ≤ n → newton (npm r) n M₀ = .ok x := by
  have hα : (1.065 : ℝ) = 213/200 := by norm_num
  rw [hα] at hM0
  obtain ⟨F, x, hx, hxs, hF⟩ := newton_converges (v := npm r) (r := r) (κ := 0.286 / 0.298)
    (R := Set.Icc M₀ (2 * r - M₀)) (by norm_num) (by norm_num) (by
      intro M hM
      obtain ⟨h1, h2⟩ := hM
      have hM1 : 1 < M := by linarith
      have hsM := nsl_pos hM1
      obtain ⟨c, hc1, hc2, e⟩ := nstep_err hM1 (show 1 < r by linarith)
      have hc3 : 213/200 ≤ c := le_trans (le_min (by linarith) (by linarith)) hc1
      have hc4 : c ≤ 3 := le_trans hc2 (max_le (by linarith) (by linarith))
      have g1 := nsl_ge (by rw [hα]; exact hc3) hc4
      have g2 := nsl_ge (M := M) (by rw [hα]; linarith) (by linarith)
      have g3 := nsl_le c (by linarith)
      have g4 := nsl_le M hM1
      have hab : |1 - nsl c / nsl M| ≤ 0.286 / 0.298 := by
        have e1 : 1 - nsl c / nsl M = (nsl M - nsl c) / nsl M := by field_simp
        rw [e1, abs_div, abs_of_pos hsM]
        refine div_le_div₀ (by norm_num) ?_ (by norm_num) g2
        rw [abs_le]; constructor <;> norm_num at * <;> linarith
      have hk : |nstep (npm r) M - r| ≤ 0.286 / 0.298 * |M - r| := by
        rw [e, abs_mul, mul_comm]
        exact mul_le_mul_of_nonneg_right hab (abs_nonneg _)
      have hd : |M - r| ≤ r - M₀ := by rw [abs_le]; constructor <;> linarith
      have hd' : |nstep (npm r) M - r| ≤ r - M₀ := by
        refine hk.trans (le_trans ?_ hd)
        have := abs_nonneg (M - r)
        norm_num; linarith
      rw [abs_le] at hd'
      exact ⟨hM1, npm_lip hM1.le (by linarith), hk, by linarith [hd'.1], by linarith [hd'.2]⟩)
    (M := M₀) ⟨le_rfl, by linarith⟩
  exact ⟨F, x, by rw [hα]; linarith [hx.1], by linarith [hx.2], hxs, hF⟩

/-- the iteration from `M = 2` finds every angle of the range; in which part it ends -/
theorem newton_total {v : ℝ} (h0 : 0 < v) (h1 : v < npmMax) : ∃ F, ∃ x, 1 < x ∧ |v - npm x| ≤ 0.00001 ∧
    (v ≤ npm x ∨ 1.065 ≤ x) ∧ ∀ n, F ≤ n → newton v n 2 = .ok x := by
  obtain ⟨r, hr, rfl⟩ := npm_surj h0 h1
  have hα : (1.065 : ℝ) = 213/200 := by norm_num
  rcases le_or_gt 2 r with h2 | h2
  · obtain ⟨F, x, hx, hx2, hxs, hF⟩ := newton_left h2
    exact ⟨F, x, by linarith, hxs, Or.inr (by rw [hα]; linarith), hF⟩
  · by_cases hstop : |npm r - npm 2| ≤ 0.00001
    · exact ⟨0, 2, by norm_num, hstop, Or.inr (by norm_num), fun n _ => newton_stop (by norm_num) hstop n⟩
    obtain ⟨M₁, hM₁⟩ : ∃ M₁, M₁ = nstep (npm r) 2 := ⟨_, rfl⟩
    have hs2 := nsl_pos (M := 2) (by norm_num)
    have hS := nsl_two
    have hP := npm_two
    have e1 : npm 2 - npm r = nsl 2 * (2 - M₁) := by rw [hM₁]; unfold nstep; field_simp; ring
    have hlow : 1.065 ≤ M₁ := by
      norm_num at hS hP ⊢
      nlinarith
    have hlow' : 213/200 ≤ M₁ := by rw [← hα]; exact hlow
    have hM12 : M₁ < 2 := by
      have := npm_lt hr.le h2
      nlinarith
    have key : mStar ≤ M₁ → M₁ ≤ r := by
      intro hm
      obtain ⟨c, hc1, hc2, e⟩ := npm_mvt (a := M₁) (b := 2) (by linarith) hM12
      have : nsl 2 ≤ nsl c := nsl_anti (by linarith) hc2.le
      have hle : npm M₁ ≤ npm r := by nlinarith
      exact (npm_le_iff (by linarith) hr.le).1 hle
    have hstep : ∀ n, newton (npm r) (n + 1) 2 = newton (npm r) n M₁ := fun n => by
      rw [newton_more (by norm_num) hstop, hM₁]
    rcases le_or_gt M₁ r with h3 | h3
    · obtain ⟨F, x, hx, hx3, hxs, hF⟩ := newton_near hlow h3 h2.le
      refine ⟨F + 1, x, by norm_num at hx; linarith, hxs, Or.inr hx, fun n hn => ?_⟩
      obtain ⟨n, rfl⟩ : ∃ j, n = j + 1 := ⟨n - 1, by omega⟩
      rw [hstep, hF n (by omega)]
    · have hm : M₁ ≤ mStar := by
        by_contra hc
        exact absurd (key (not_le.1 hc).le) (not_le.2 h3)
      obtain ⟨F, x, hx, hx3, hxs, hF⟩ := newton_right hr h3.le hm
      refine ⟨F + 1, x, by linarith, hxs, Or.inl (npm_le hr.le hx), fun n hn => ?_⟩
      obtain ⟨n, rfl⟩ : ∃ j, n = j + 1 := ⟨n - 1, by omega⟩
      rw [hstep, hF n (by omega)]

end Aerokit.Props
