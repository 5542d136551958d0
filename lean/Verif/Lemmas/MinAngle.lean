import Verif.Lemmas.MinRun

/-! # Angles of the net of `Minimum_length_nozzle.py` up to Mach 10 -/

namespace Aerokit.Props
open Real MinNozzle

theorem arctan_ge_poly {x : ℝ} (hx : 0 ≤ x) : x - x ^ 3 / 3 + x ^ 5 / 5 - x ^ 7 / 7 ≤ arctan x := by
  have hd : ∀ y : ℝ, HasDerivAt (fun y => arctan y - (y - y ^ 3 / 3 + y ^ 5 / 5 - y ^ 7 / 7))
      (1 / (1 + y ^ 2) - (1 - y ^ 2 + y ^ 4 - y ^ 6)) y := by
    intro y
    have h3 := (hasDerivAt_pow 3 y).div_const 3
    have h5 := (hasDerivAt_pow 5 y).div_const 5
    have h7 := (hasDerivAt_pow 7 y).div_const 7
    refine ((Real.hasDerivAt_arctan y).fun_sub ((((hasDerivAt_id y).fun_sub h3).fun_add h5).fun_sub h7)).congr_deriv ?_
    norm_num
  have hm : MonotoneOn (fun y => arctan y - (y - y ^ 3 / 3 + y ^ 5 / 5 - y ^ 7 / 7)) (Set.Ici 0) := by
    refine monotoneOn_of_deriv_nonneg (convex_Ici 0) (fun y _ => (hd y).continuousAt.continuousWithinAt) ?_ ?_
    · intro y _; exact (hd y).differentiableAt.differentiableWithinAt
    · intro y _
      rw [(hd y).deriv]
      have : 1 / (1 + y ^ 2) - (1 - y ^ 2 + y ^ 4 - y ^ 6) = y ^ 8 / (1 + y ^ 2) := by field_simp; ring
      rw [this]; positivity
  have := hm (Set.mem_Ici.2 le_rfl) (Set.mem_Ici.2 hx) hx
  simp at this
  linarith

theorem pmC_sq : 1 < pmC gamma ∧ pmC gamma ^ 2 = 227 / 27 := by
  refine ⟨one_lt_pmC mn_gamma_one_lt, ?_⟩
  rw [pmC, Real.sq_sqrt (by rw [mn_gamma_eq]; norm_num), mn_gamma_eq]; norm_num

theorem npm_two_ge : 0.5115 ≤ npm 2 := by
  unfold npm pmRad
  obtain ⟨hK1, hK2⟩ := pmC_sq
  obtain ⟨K, hK⟩ : ∃ K, K = pmC gamma := ⟨_, rfl⟩
  rw [← hK] at hK1 hK2
  have e3 : √((2:ℝ) ^ 2 - 1) = √3 := by norm_num
  have hat : arctan (√3) = π / 3 := by
    rw [← Real.tan_pi_div_three]
    exact Real.arctan_tan (by linarith [Real.pi_pos]) (by linarith [Real.pi_pos])
  rw [← hK, e3, hat]
  have hb := arctan_ge_poly (x := √3 / K) (by positivity)
  have h3 : √3 ^ 2 = (3 : ℝ) := Real.sq_sqrt (by norm_num)
  have hb' : √3 * (1 - 3 / (K ^ 2) / 3 + 9 / (K ^ 2) ^ 2 / 5 - 27 / (K ^ 2) ^ 3 / 7) ≤ K * arctan (√3 / K) := by
    have hK0 : 0 < K := by linarith
    refine le_trans (le_of_eq ?_) (mul_le_mul_of_nonneg_left hb hK0.le)
    field_simp
    have h5 : √3 ^ 4 = (9:ℝ) := by
      calc √3 ^ 4 = (√3 ^ 2) ^ 2 := by ring
        _ = 9 := by rw [h3]; norm_num
    have h6 : √3 ^ 6 = (27:ℝ) := by
      calc √3 ^ 6 = (√3 ^ 2) ^ 3 := by ring
        _ = 27 := by rw [h3]; norm_num
    rw [h3, h5, h6]; ring
  rw [hK2] at hb'
  have hs : (1.73205 : ℝ) ≤ √3 := by
    refine Real.le_sqrt_of_sq_le ?_; norm_num
  have hp := Real.pi_lt_d4
  norm_num at hb' hs hp ⊢
  linarith

theorem nsl_bd {a c : ℝ} (ha : 1 < a) (hc : 0 < c) (h : a ^ 2 - 1 ≤ c ^ 2 * (a ^ 2 * (1 + 27/200 * a ^ 2) ^ 2)) : nsl a ≤ c := by
  refine (pow_le_pow_iff_left₀ (nsl_pos ha).le hc.le two_ne_zero).1 ?_
  rw [nsl_sq ha, div_le_iff₀ (by positivity)]; exact h

theorem npm_step {a b c : ℝ} (ha : 17/10 ≤ a) (hab : a < b) (hc : 0 < c)
    (h : a ^ 2 - 1 ≤ c ^ 2 * (a ^ 2 * (1 + 27/200 * a ^ 2) ^ 2)) : npm b ≤ npm a + c * (b - a) := by
  obtain ⟨d, h1, h2, e⟩ := npm_mvt (a := a) (b := b) (by linarith) hab
  have hm := mStar_bounds.2
  have : nsl d ≤ c := (nsl_anti (by norm_num at hm; linarith) h1.le).trans (nsl_bd (by linarith) hc h)
  have := mul_le_mul_of_nonneg_right this (show 0 ≤ b - a by linarith)
  linarith

/-- the angle of Mach 3 is less than twice that of Mach 2 -/
theorem npm_three : npm 3 + 1/1000 ≤ 2 * npm 2 := by
  have s1 := npm_step (a := 2) (b := 11/5) (c := 5625/10000) (by norm_num) (by norm_num) (by norm_num) (by norm_num)
  have s2 := npm_step (a := 11/5) (b := 12/5) (c := 5388/10000) (by norm_num) (by norm_num) (by norm_num) (by norm_num)
  have s3 := npm_step (a := 12/5) (b := 13/5) (c := 5115/10000) (by norm_num) (by norm_num) (by norm_num) (by norm_num)
  have s4 := npm_step (a := 13/5) (b := 14/5) (c := 4827/10000) (by norm_num) (by norm_num) (by norm_num) (by norm_num)
  have s5 := npm_step (a := 14/5) (b := 3) (c := 4539/10000) (by norm_num) (by norm_num) (by norm_num) (by norm_num)
  have h2 := npm_two_ge
  norm_num at s1 s2 s3 s4 s5 h2
  linarith

theorem npm_ten : npm 10 ≤ 2267/1000 := by
  unfold npm pmRad
  obtain ⟨hK1, hK2⟩ := pmC_sq
  obtain ⟨K, hK⟩ : ∃ K, K = pmC gamma := ⟨_, rfl⟩
  rw [← hK] at hK1 hK2 ⊢
  have e : √((10:ℝ) ^ 2 - 1) = √99 := by norm_num
  rw [e]
  obtain ⟨s, hs⟩ : ∃ s, s = √99 := ⟨_, rfl⟩
  have hs2 : s ^ 2 = 99 := by rw [hs]; exact Real.sq_sqrt (by norm_num)
  have hs0 : 0 < s := by rw [hs]; exact Real.sqrt_pos.2 (by norm_num)
  rw [← hs]
  have sl : 99498/10000 ≤ s := by nlinarith
  have su : s ≤ 995/100 := by nlinarith
  have hK3 : K ≤ 29/10 := by nlinarith
  have hK0 : 0 < K := by linarith
  have e1 : arctan (s / K) = π / 2 - arctan (K / s) := by
    rw [show s / K = (K / s)⁻¹ by rw [inv_div], Real.arctan_inv_of_pos (by positivity)]
  have e2 : arctan s = π / 2 - arctan (1 / s) := by
    rw [one_div, Real.arctan_inv_of_pos hs0]; ring
  have b1 := arctan_ge_poly (x := K / s) (by positivity)
  have hy : K / s ≤ 1 := by rw [div_le_one hs0]; linarith
  have hy0 : 0 ≤ K / s := by positivity
  have b1' : K / s - (K / s) ^ 3 / 3 ≤ arctan (K / s) := by
    have : (K / s) ^ 7 ≤ (K / s) ^ 5 := pow_le_pow_of_le_one hy0 hy (by norm_num)
    have : 0 ≤ (K / s) ^ 5 := by positivity
    linarith
  have b2 : arctan (1 / s) ≤ 1 / s := by
    have := Real.le_tan (x := arctan (1 / s)) (Real.arctan_pos.2 (by positivity)).le (Real.arctan_lt_pi_div_two _)
    rwa [Real.tan_arctan] at this
  have b3 := mul_le_mul_of_nonneg_left b1' hK0.le
  have e3 : K * (K / s - (K / s) ^ 3 / 3) = K ^ 2 / s - (K ^ 2) ^ 2 / (3 * 99) / s := by
    rw [← hs2]; field_simp
  rw [e3, hK2] at b3
  have hi1 : 1 / s ≤ 10051/100000 := by rw [div_le_iff₀ hs0]; nlinarith
  have hi2 : 100/995 ≤ 1 / s := by rw [le_div_iff₀ hs0]; nlinarith
  have b4 : 227 / 27 / s - (227 / 27) ^ 2 / (3 * 99) / s = (227 / 27 - (227 / 27) ^ 2 / (3 * 99)) * (1 / s) := by ring
  rw [b4] at b3
  have b5 : (227 / 27 - (227 / 27) ^ 2 / (3 * 99) : ℝ) * (100 / 995) ≤ (227 / 27 - (227 / 27) ^ 2 / (3 * 99)) * (1 / s) :=
    mul_le_mul_of_nonneg_left hi2 (by norm_num)
  have hp := Real.pi_lt_d4
  have hpp : (K - 1) * (π / 2) ≤ (19/10) * (31416/20000) := by
    have : π / 2 ≤ 31416/20000 := by norm_num at hp; linarith
    exact mul_le_mul (by linarith) this (by positivity) (by norm_num)
  rw [e1, e2]
  have : K * (π / 2 - arctan (K / s)) - (π / 2 - arctan (1 / s)) = (K - 1) * (π / 2) - K * arctan (K / s) + arctan (1 / s) := by ring
  rw [this]
  norm_num at b5 hpp b3
  linarith

/-- the descending characteristic through the exit rises with the Mach number -/
theorem npm_add_angle {x : ℝ} (hx : 2 ≤ x) : npm 2 + π / 6 ≤ npm x + arcsin (1 / x) := by
  have hd : ∀ y : ℝ, 2 < y → HasDerivAt (fun y => npm y - arctan (√(y ^ 2 - 1))) (nsl y - 1 / (y * √(y ^ 2 - 1))) y := by
    intro y hy
    have hB : 0 < y ^ 2 - 1 := by nlinarith
    have d1 : HasDerivAt (fun M : ℝ => M ^ 2 - 1) (2 * y) y := by
      simpa using (hasDerivAt_pow 2 y).sub_const 1
    have d2 := d1.sqrt hB.ne'
    refine ((npm_hasDeriv (by linarith)).fun_sub d2.arctan).congr_deriv ?_
    have hs2 : √(y ^ 2 - 1) ^ 2 = y ^ 2 - 1 := Real.sq_sqrt hB.le
    have hs0 : 0 < √(y ^ 2 - 1) := Real.sqrt_pos.2 hB
    rw [hs2]
    have : 0 < y := by linarith
    field_simp
    ring
  have hm : MonotoneOn (fun y => npm y - arctan (√(y ^ 2 - 1))) (Set.Ici 2) := by
    refine monotoneOn_of_deriv_nonneg (convex_Ici 2) ?_ ?_ ?_
    · apply Continuous.continuousOn
      have := npm_continuous
      fun_prop
    · intro y hy
      rw [interior_Ici] at hy
      exact (hd y hy).differentiableAt.differentiableWithinAt
    · intro y hy
      rw [interior_Ici] at hy
      have hy' : (2:ℝ) < y := hy
      rw [(hd y hy').deriv]
      have hB : 0 < y ^ 2 - 1 := by nlinarith
      have hs2 : √(y ^ 2 - 1) ^ 2 = y ^ 2 - 1 := Real.sq_sqrt hB.le
      have hs0 : 0 < √(y ^ 2 - 1) := Real.sqrt_pos.2 hB
      have hn := nsl_sq (M := y) (by linarith)
      have h0 := nsl_pos (M := y) (by linarith)
      have : 1 / (y * √(y ^ 2 - 1)) ≤ nsl y := by
        refine (pow_le_pow_iff_left₀ (by positivity) h0.le two_ne_zero).1 ?_
        rw [hn, div_pow, mul_pow, hs2, div_le_div_iff₀ (by positivity) (by positivity)]
        have : 1 + 27/200 * y ^ 2 ≤ y ^ 2 - 1 := by nlinarith
        have h1 : (1 + 27/200 * y ^ 2) ^ 2 ≤ (y ^ 2 - 1) ^ 2 := pow_le_pow_left₀ (by positivity) this 2
        have := mul_le_mul_of_nonneg_left h1 (sq_nonneg y)
        nlinarith
      linarith
  have h := hm (Set.mem_Ici.2 le_rfl) (Set.mem_Ici.2 hx) hx
  have e3 : √((2:ℝ) ^ 2 - 1) = √3 := by norm_num
  have hat : arctan (√3) = π / 3 := by
    rw [← Real.tan_pi_div_three]
    exact Real.arctan_tan (by linarith [Real.pi_pos]) (by linarith [Real.pi_pos])
  simp only [e3, hat] at h
  rw [(mach_angle_eq (by linarith)).2.1]
  linarith

theorem nsl_gt {a c : ℝ} (ha : 1 < a) (hc : 0 ≤ c) (h : c ^ 2 * (a ^ 2 * (1 + 27/200 * a ^ 2) ^ 2) ≤ a ^ 2 - 1) : c ≤ nsl a := by
  refine (pow_le_pow_iff_left₀ hc (nsl_pos ha).le two_ne_zero).1 ?_
  rw [nsl_sq ha, le_div_iff₀ (by positivity)]; exact h

theorem npm_step_ge {a b c : ℝ} (ha : 17/10 ≤ a) (hab : a < b) (hc : 0 ≤ c)
    (h : c ^ 2 * (b ^ 2 * (1 + 27/200 * b ^ 2) ^ 2) ≤ b ^ 2 - 1) : npm a + c * (b - a) ≤ npm b := by
  obtain ⟨d, h1, h2, e⟩ := npm_mvt (a := a) (b := b) (by linarith) hab
  have hm := mStar_bounds.2
  have : c ≤ nsl d := (nsl_gt (by linarith) hc h).trans (nsl_anti (by norm_num at hm; linarith) h2.le)
  have := mul_le_mul_of_nonneg_right this (show 0 ≤ b - a by linarith)
  linarith

theorem below_ten {v x : ℝ} (hx : 1 < x) (hv : v ≤ npm 10) (h : |v - npm x| ≤ 0.00001) : x < 101/10 := by
  by_contra hc
  have h1 := npm_le (M := 101/10) (N := x) (by norm_num) (not_lt.1 hc)
  have h2 := npm_step_ge (a := 10) (b := 101/10) (c := 6/100) (by norm_num) (by norm_num) (by norm_num) (by norm_num)
  have := (abs_le.1 h).1
  norm_num at this h2
  linarith

theorem below_three {v x : ℝ} (hx : 1 < x) (hv : v ≤ npm 3) (h : |v - npm x| ≤ 0.00001) : x < 301/100 := by
  by_contra hc
  have h1 := npm_le (M := 301/100) (N := x) (by norm_num) (not_lt.1 hc)
  have h2 := npm_step_ge (a := 3) (b := 301/100) (c := 4/10) (by norm_num) (by norm_num) (by norm_num) (by norm_num)
  have := (abs_le.1 h).1
  norm_num at this h2
  linarith

/-- what the Newton search gives for an angle below the maximum -/
theorem angle_of {v : ℝ} (h0 : 0 < v) (hv : v < npmMax) : ∃ F, ∃ x, 1 < x ∧ |v - npm x| ≤ 0.00001 ∧
    (x < 49/20 → v + arcsin (1 / x) < π / 2) ∧ ∀ n, F ≤ n → mach_via_pmeyer n v = .ok x ∧ mu n v = .ok (arcsin (1 / x)) := by
  obtain ⟨F, x, hx, hxs, hor, hF⟩ := newton_total h0 hv
  obtain ⟨m1, m2, m3⟩ := mach_angle_eq hx
  have hab := abs_le.1 hxs
  refine ⟨F, x, hx, hxs, ?_, ?_⟩
  · intro hx2'
    rw [m2]
    have hs := shafer hx.le
    have hp := npm_le_sub (x := x)
    have hB : 0 < x ^ 2 - 1 := by nlinarith
    obtain ⟨s, hsd⟩ : ∃ s, s = √(x ^ 2 - 1) := ⟨_, rfl⟩
    have hs0 : 0 < s := by rw [hsd]; exact Real.sqrt_pos.2 hB
    have hs2 : s ^ 2 = x ^ 2 - 1 := by rw [hsd]; exact Real.sq_sqrt hB.le
    rw [← hsd] at hs hp ⊢
    rw [div_le_iff₀ (by linarith)] at hs
    have hat : 3 * s / 5.9 ≤ arctan s := by
      rw [div_le_iff₀ (by norm_num)]
      have : 0 < arctan s := Real.arctan_pos.2 hs0
      norm_num
      nlinarith
    have hat' : 30 / 59 * s ≤ arctan s := by norm_num at hat; linarith
    rcases hor with h | h
    · linarith
    · have h' : 213/200 ≤ x := by norm_num at h ⊢; exact h
      have hs3 : 3/10 ≤ s := by
        refine (pow_le_pow_iff_left₀ (by norm_num) hs0.le two_ne_zero).1 ?_
        rw [hs2]; nlinarith
      have : v ≤ npm x + 1/100000 := by
        have := hab.2; norm_num at this; linarith
      linarith
  · intro n hn
    have hn2 : newton v n 2.0 = .ok x := by rw [show (2.0 : ℝ) = 2 by norm_num]; exact hF n hn
    have h1 : mach_via_pmeyer n v = .ok x := by
      unfold mach_via_pmeyer; rw [if_neg h0.ne', hn2]
    refine ⟨h1, ?_⟩
    unfold mu; rw [h1, Py.ok_bind, m1]

theorem angle_245 {x : ℝ} (hx : 49/20 ≤ x) : arcsin (1 / x) ≤ 4346/10000 := by
  have h1 : arcsin (1 / x) ≤ arcsin (1 / (49/20)) :=
    Real.monotone_arcsin (one_div_le_one_div_of_le (by norm_num) hx)
  refine h1.trans ?_
  rw [(mach_angle_eq (x := 49/20) (by norm_num)).2.1]
  have h2 := shafer (x := 49/20) (by norm_num)
  have h3 : (22360/10000 : ℝ) ≤ √((49/20) ^ 2 - 1) := by
    refine Real.le_sqrt_of_sq_le ?_; norm_num
  have hp := Real.pi_lt_d4
  have h4 : 3 * (22360/10000 : ℝ) / (1 + 2 * (49/20)) ≤ 3 * √((49/20) ^ 2 - 1) / (1 + 2 * (49/20)) := by
    apply div_le_div_of_nonneg_right (by linarith) (by norm_num)
  norm_num at h2 h4 hp ⊢
  linarith

theorem thv_add_nuv {dth dl : ℝ} (hl : 0 < dl) {n i j : ℕ} (hi : i ≤ n) :
    thv dth dl i j + nuv dth dl i j ≤ 2 * (dth + n * dl) := by
  have hin : (i : ℝ) * dl ≤ n * dl := mul_le_mul_of_nonneg_right (by exact_mod_cast hi) hl.le
  unfold thv nuv
  split_ifs with h
  · linarith
  · linarith

/-- the directions at a node -/
theorem node_angle {dth dl x : ℝ} (hd : 0 < dth) (hl : 0 < dl) {n i j : ℕ} (h : 2 * (dth + n * dl) ≤ npm 10)
    (hi : i ≤ n) (hj : j ≤ i + 1) (hx : 1 < x) (hxs : |nuv dth dl i j - npm x| ≤ 0.00001)
    (h2 : x < 49/20 → nuv dth dl i j + arcsin (1 / x) < π / 2) :
    99/1000 < arcsin (1 / x) ∧ arcsin (1 / x) < π / 2 ∧ thv dth dl i j + arcsin (1 / x) < π / 2 ∧
    (2 * (dth + n * dl) ≤ npm 3 → thv dth dl i j < arcsin (1 / x) ∧ 33/100 < arcsin (1 / x)) := by
  have hnu := (nuv_le hd hl hi hj).trans h
  have m3 := (mach_angle_eq hx).2.2
  have hp := Real.pi_gt_d4
  have hp' : (31415/10000 : ℝ) < π := by norm_num at hp; linarith
  have hten := npm_ten
  have hth := thv_le hd hl hi (j := j)
  have hab := abs_le.1 (hxs.trans (show (0.00001 : ℝ) ≤ 1/100000 by norm_num))
  have hle : arcsin (1 / x) < π / 2 := by
    rw [(mach_angle_eq hx).2.1]
    have : 0 < arctan (√(x ^ 2 - 1)) := Real.arctan_pos.2 (Real.sqrt_pos.2 (by nlinarith))
    linarith
  refine ⟨?_, hle, ?_, ?_⟩
  · refine lt_of_lt_of_le ?_ m3
    have := below_ten hx hnu hxs
    rw [lt_div_iff₀ (by linarith)]; linarith
  · rcases lt_or_ge x (49/20) with hc | hc
    · have := thv_le_nuv hd hl (i := i) (j := j)
      have := h2 hc
      linarith
    · have := angle_245 hc
      linarith
  · intro h3
    have n3 := npm_three
    have n2 := npm_two
    have n2' : npm 2 ≤ 5232/10000 := by norm_num at n2 ⊢; exact n2
    constructor
    · rcases le_or_gt x 2 with hc | hc
      · have h1 : arcsin (1 / 2) ≤ arcsin (1 / x) :=
          Real.monotone_arcsin (one_div_le_one_div_of_le (by linarith) hc)
        have h6 : arcsin (1 / 2) = π / 6 := by
          rw [← Real.sin_pi_div_six]
          exact Real.arcsin_sin (by linarith) (by linarith)
        rw [h6] at h1
        linarith
      · have h1 := npm_add_angle hc.le
        have h4 := thv_add_nuv (dth := dth) hl hi (j := j)
        linarith [hab.1]
    · refine lt_of_lt_of_le ?_ m3
      have := below_three hx ((nuv_le hd hl hi hj).trans h3) hxs
      rw [lt_div_iff₀ (by linarith)]; linarith

theorem npm_3_10 : npm 3 ≤ npm 10 := npm_le (by norm_num) (by norm_num)

theorem steps_three {dth dl : ℝ} (hd : 0 < dth) (hl : 0 < dl) {n : ℕ} (hn : 1 ≤ n) (h : 2 * (dth + n * dl) ≤ npm 3) :
    (dth + dl) / 2 < 33/100 := by
  have n3 := npm_three
  have n2 := npm_two
  have n2' : npm 2 ≤ 5232/10000 := by norm_num at n2 ⊢; exact n2
  have : dl ≤ n * dl := by
    have : (1:ℝ) ≤ n := by exact_mod_cast hn
    nlinarith
  linarith

theorem ang_of {dth dl : ℝ} (hd : 0 < dth) (hl : 0 < dl) {n : ℕ} (hn : 1 ≤ n) (h : 2 * (dth + n * dl) ≤ npm 3) :
    ∃ F, ∀ fuel, F ≤ fuel → Ang fuel dth dl n := by
  have hst := steps_three hd hl hn h
  obtain ⟨F, hF⟩ := common_fuel (Q := fun i j m => i ≤ n → j ≤ i + 1 →
      ∃ μ, mu m (nuv dth dl i j) = .ok μ ∧ thv dth dl i j < μ ∧ thv dth dl i j + μ < π / 2 ∧ (dth + dl) / 2 < μ) (n + 1) (by
    intro i j
    by_cases hij : i ≤ n ∧ j ≤ i + 1
    · obtain ⟨F, x, hx, hxs, h2, h3⟩ := angle_of (nuv_pos hd hl (i := i) (j := j))
        (((nuv_le hd hl hij.1 hij.2).trans h).trans_lt (npm_lt_max _))
      obtain ⟨-, -, a, b⟩ := node_angle hd hl (h.trans npm_3_10) hij.1 hij.2 hx hxs h2
      have b := b h
      exact ⟨F, fun m hm => Or.inl fun _ _ => ⟨_, (h3 m hm).2, b.1, a, by linarith [b.2]⟩⟩
    · exact ⟨0, fun m _ => Or.inl fun h1 h2 => absurd ⟨h1, h2⟩ hij⟩)
  exact ⟨F, fun fuel hf i hi j hj => hF fuel hf i (by omega) j (by omega) hi hj⟩

end Aerokit.Props
