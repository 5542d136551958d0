import Verif.Props.SecantUses2
import Mathlib.Analysis.SpecialFunctions.Exp
import Mathlib.Analysis.Calculus.Deriv.MeanValue
import Mathlib.Analysis.SpecialFunctions.ExpDeriv

/-! # Slope of the total pressure ratio of a normal shock (default gas): values and variation -/

namespace Aerokit.Props
open Isentropic Supersonic ShockWave IterativeSolve Real

theorem ptExp_sq {M : ℝ} (hM : 1 ≤ M) :
    ptExp M ^ 2 = (6 * M ^ 2 / (5 + M ^ 2)) ^ 7 * (6 / (7 * M ^ 2 - 1)) ^ 5 := by
  have h2 : 1 ≤ M ^ 2 := one_le_pow₀ hM
  obtain ⟨x, hx⟩ : ∃ x, x = M ^ 2 := ⟨_, rfl⟩
  unfold ptExp lpt
  rw [gamma0_eq, ← hx]
  rw [← hx] at h2
  have e1 : (7/5 + 1) * x = 2/5 * (6 * x) := by ring
  have e2 : 2 + (7/5 - 1) * x = 2/5 * (5 + x) := by ring
  have e3 : 1 + 2 * (7/5) / (7/5 + 1) * (x - 1) = (7 * x - 1) / 6 := by ring
  have p1 : 0 < 6 * x := by linarith
  have p2 : 0 < 5 + x := by linarith
  have p3 : 0 < 7 * x - 1 := by linarith
  obtain ⟨A, hA⟩ : ∃ A, A = 6 * x := ⟨_, rfl⟩
  obtain ⟨B, hB⟩ : ∃ B, B = 5 + x := ⟨_, rfl⟩
  obtain ⟨C, hC⟩ : ∃ C, C = 7 * x - 1 := ⟨_, rfl⟩
  rw [e1, e2, e3, ← hA, ← hB, ← hC]
  rw [← hA] at p1
  rw [← hB] at p2
  rw [← hC] at p3
  have hl : Real.log ((A / B) ^ 7 * (6 / C) ^ 5) = 7 * (Real.log A - Real.log B) + 5 * (Real.log 6 - Real.log C) := by
    rw [Real.log_mul (by positivity) (by positivity), Real.log_pow, Real.log_pow, Real.log_div p1.ne' p2.ne',
      Real.log_div (by norm_num) p3.ne']
    push_cast; ring
  rw [Real.log_mul (by norm_num) p1.ne', Real.log_mul (by norm_num) p2.ne', Real.log_div p3.ne' (by norm_num),
    ← Real.exp_log (show 0 < (A / B) ^ 7 * (6 / C) ^ 5 by positivity), hl, ← Real.exp_nat_mul]
  congr 1
  push_cast
  ring

theorem ptExp_pos (M : ℝ) : 0 < ptExp M := Real.exp_pos _

theorem ptExp_lt {M q : ℝ} (hM : 1 ≤ M) (hq : 0 ≤ q)
    (h : (6 * M ^ 2 / (5 + M ^ 2)) ^ 7 * (6 / (7 * M ^ 2 - 1)) ^ 5 < q ^ 2) : ptExp M < q := by
  rw [← ptExp_sq hM] at h
  exact lt_of_pow_lt_pow_left₀ 2 hq h

theorem lt_ptExp {M q : ℝ} (hM : 1 ≤ M)
    (h : q ^ 2 < (6 * M ^ 2 / (5 + M ^ 2)) ^ 7 * (6 / (7 * M ^ 2 - 1)) ^ 5) : q < ptExp M := by
  rw [← ptExp_sq hM] at h
  exact lt_of_pow_lt_pow_left₀ 2 (ptExp_pos M).le h

/-- opposite of the derivative of the total pressure ratio -/
noncomputable def ptH (M : ℝ) : ℝ := -(ptExp M * ptSlope M)

theorem ptH_eq {M : ℝ} : ptH M = ptExp M * (35 * (M ^ 2 - 1) ^ 2 / (7 * M ^ 5 + 34 * M ^ 3 - 5 * M)) := by
  unfold ptH ptSlope; ring

theorem ptH_pos {M : ℝ} (hM : 1 < M) : 0 < ptH M := by
  rw [ptH_eq]
  have := ptDen_pos hM.le
  have h2 : 0 < M ^ 2 - 1 := by nlinarith
  have := ptExp_pos M
  positivity

theorem hasDerivAt_ptExpH {M : ℝ} (hM : 1 ≤ M) : HasDerivAt ptExp (-ptH M) M := by
  unfold ptH; rw [neg_neg]; exact hasDerivAt_ptExp hM

theorem hasDerivAt_ptH {M : ℝ} (hM : 1 ≤ M) : HasDerivAt ptH
    (-(ptExp M * (35 * (M ^ 2 - 1) * (42 * (M ^ 2) ^ 3 - 174 * (M ^ 2) ^ 2 + 18 * M ^ 2 - 30) /
      (7 * M ^ 5 + 34 * M ^ 3 - 5 * M) ^ 2))) M :=
  (hasDerivAt_ptExp' hM).fun_neg

/-- bounds of the relative variation of the slope, from a polynomial inequality -/
theorem ptH_rel {M c : ℝ} (hM : 1 ≤ M)
    (hc : 42 * (M ^ 2) ^ 3 - 174 * (M ^ 2) ^ 2 + 18 * M ^ 2 - 30 ≤ c * ((M ^ 2 - 1) * (7 * M ^ 5 + 34 * M ^ 3 - 5 * M))) :
    -(c * ptH M) ≤ -(ptExp M * (35 * (M ^ 2 - 1) * (42 * (M ^ 2) ^ 3 - 174 * (M ^ 2) ^ 2 + 18 * M ^ 2 - 30) /
      (7 * M ^ 5 + 34 * M ^ 3 - 5 * M) ^ 2)) := by
  have hD := ptDen_pos hM
  have h2 : 0 ≤ M ^ 2 - 1 := by nlinarith
  rw [ptH_eq]
  obtain ⟨D, hDd⟩ : ∃ D, D = 7 * M ^ 5 + 34 * M ^ 3 - 5 * M := ⟨_, rfl⟩
  obtain ⟨P, hP⟩ : ∃ P, P = 42 * (M ^ 2) ^ 3 - 174 * (M ^ 2) ^ 2 + 18 * M ^ 2 - 30 := ⟨_, rfl⟩
  rw [← hDd] at hD hc ⊢
  rw [← hP] at hc ⊢
  have e : c * (ptExp M * (35 * (M ^ 2 - 1) ^ 2 / D)) = ptExp M * (35 * (M ^ 2 - 1) * (c * ((M ^ 2 - 1) * D)) / D ^ 2) := by
    field_simp
  rw [e, neg_le_neg_iff]
  apply mul_le_mul_of_nonneg_left _ (ptExp_pos M).le
  apply div_le_div_of_nonneg_right _ (by positivity)
  exact mul_le_mul_of_nonneg_left hc (by positivity)

theorem ptH_rel' {M c : ℝ} (hM : 1 ≤ M)
    (hc : -(c * ((M ^ 2 - 1) * (7 * M ^ 5 + 34 * M ^ 3 - 5 * M))) ≤ 42 * (M ^ 2) ^ 3 - 174 * (M ^ 2) ^ 2 + 18 * M ^ 2 - 30) :
    -(ptExp M * (35 * (M ^ 2 - 1) * (42 * (M ^ 2) ^ 3 - 174 * (M ^ 2) ^ 2 + 18 * M ^ 2 - 30) /
      (7 * M ^ 5 + 34 * M ^ 3 - 5 * M) ^ 2)) ≤ c * ptH M := by
  have hD := ptDen_pos hM
  have h2 : 0 ≤ M ^ 2 - 1 := by nlinarith
  rw [ptH_eq]
  obtain ⟨D, hDd⟩ : ∃ D, D = 7 * M ^ 5 + 34 * M ^ 3 - 5 * M := ⟨_, rfl⟩
  obtain ⟨P, hP⟩ : ∃ P, P = 42 * (M ^ 2) ^ 3 - 174 * (M ^ 2) ^ 2 + 18 * M ^ 2 - 30 := ⟨_, rfl⟩
  rw [← hDd] at hD hc ⊢
  rw [← hP] at hc ⊢
  have e : c * (ptExp M * (35 * (M ^ 2 - 1) ^ 2 / D)) = -(ptExp M * (35 * (M ^ 2 - 1) * (-(c * ((M ^ 2 - 1) * D))) / D ^ 2)) := by
    field_simp
  rw [e, neg_le_neg_iff]
  apply mul_le_mul_of_nonneg_left _ (ptExp_pos M).le
  apply div_le_div_of_nonneg_right _ (by positivity)
  exact mul_le_mul_of_nonneg_left hc (by positivity)

/-- `h(x) e^{-c |x-y|} ≤ h(y)` on `[lo, ∞)` -/
theorem ptH_ratio {lo c : ℝ} (hlo : 1 ≤ lo)
    (h1 : ∀ M, lo ≤ M → 42 * (M ^ 2) ^ 3 - 174 * (M ^ 2) ^ 2 + 18 * M ^ 2 - 30 ≤ c * ((M ^ 2 - 1) * (7 * M ^ 5 + 34 * M ^ 3 - 5 * M)))
    (h2 : ∀ M, lo ≤ M → -(c * ((M ^ 2 - 1) * (7 * M ^ 5 + 34 * M ^ 3 - 5 * M))) ≤ 42 * (M ^ 2) ^ 3 - 174 * (M ^ 2) ^ 2 + 18 * M ^ 2 - 30)
    {x y : ℝ} (hx : lo ≤ x) (hy : lo ≤ y) : ptH x * Real.exp (-(c * |x - y|)) ≤ ptH y := by
  have dE : ∀ (k M : ℝ), HasDerivAt (fun M : ℝ => Real.exp (k * M)) (Real.exp (k * M) * k) M := fun k M => by
    simpa using ((hasDerivAt_id M).const_mul k).exp
  rcases le_total x y with h | h
  · have mono : MonotoneOn (fun M => ptH M * Real.exp (c * M)) (Set.Ici lo) := by
      have hd := fun M (hM : lo ≤ M) => (hasDerivAt_ptH (hlo.trans hM)).fun_mul (dE c M)
      refine monotoneOn_of_deriv_nonneg (convex_Ici _) (fun M hM => (hd M hM).continuousAt.continuousWithinAt)
        (fun M hM => (hd M (interior_subset hM)).differentiableAt.differentiableWithinAt) ?_
      intro M hM
      have hM' : lo ≤ M := interior_subset hM
      rw [(hd M hM').deriv]
      have := ptH_rel (hlo.trans hM') (h1 M hM')
      have e := Real.exp_pos (c * M)
      nlinarith
    have := mono hx hy h
    simp only at this
    rw [abs_of_nonpos (by linarith), show -(c * -(x - y)) = c * x - c * y by ring, Real.exp_sub]
    rw [← mul_div_assoc, div_le_iff₀ (Real.exp_pos _)]
    exact this
  · have mono : AntitoneOn (fun M => ptH M * Real.exp (-c * M)) (Set.Ici lo) := by
      have hd := fun M (hM : lo ≤ M) => (hasDerivAt_ptH (hlo.trans hM)).fun_mul (dE (-c) M)
      refine antitoneOn_of_deriv_nonpos (convex_Ici _) (fun M hM => (hd M hM).continuousAt.continuousWithinAt)
        (fun M hM => (hd M (interior_subset hM)).differentiableAt.differentiableWithinAt) ?_
      intro M hM
      have hM' : lo ≤ M := interior_subset hM
      rw [(hd M hM').deriv]
      have := ptH_rel' (hlo.trans hM') (h2 M hM')
      have e := Real.exp_pos (-c * M)
      nlinarith
    have := mono hy hx h
    simp only at this
    rw [abs_of_nonneg (by linarith), show -(c * (x - y)) = -c * x - -c * y by ring, Real.exp_sub]
    rw [← mul_div_assoc, div_le_iff₀ (Real.exp_pos _)]
    exact this

theorem ptH_ratio_near {x y : ℝ} (hx : 2997/2000 ≤ x) (hy : 2997/2000 ≤ y) :
    ptH x * Real.exp (-(2 * |x - y|)) ≤ ptH y := by
  refine ptH_ratio (lo := 2997/2000) (by norm_num) (fun M hM => ?_) (fun M hM => ?_) hx hy
  · obtain ⟨w, rfl⟩ : ∃ w, M = 2997/2000 + w := ⟨M - 2997/2000, by ring⟩
    have hw : 0 ≤ w := by linarith
    rw [← sub_nonneg]
    ring_nf
    positivity
  · obtain ⟨w, rfl⟩ : ∃ w, M = 2997/2000 + w := ⟨M - 2997/2000, by ring⟩
    have hw : 0 ≤ w := by linarith
    rw [← sub_nonneg]
    ring_nf
    positivity

theorem ptH_ratio_far {x y : ℝ} (hx : 2 ≤ x) (hy : 2 ≤ y) :
    ptH x * Real.exp (-(19/20 * |x - y|)) ≤ ptH y := by
  refine ptH_ratio (lo := 2) (by norm_num) (fun M hM => ?_) (fun M hM => ?_) hx hy
  · rcases le_total M 3 with h3 | h3
    · obtain ⟨w, rfl⟩ : ∃ w, M = 2 + w := ⟨M - 2, by ring⟩
      have hw : 0 ≤ w := by linarith
      have hw1 : w ≤ 1 := by linarith
      rw [← sub_nonneg]
      have e : 19/20 * (((2 + w) ^ 2 - 1) * (7 * (2 + w) ^ 5 + 34 * (2 + w) ^ 3 - 5 * (2 + w))) -
          (42 * ((2 + w) ^ 2) ^ 3 - 174 * ((2 + w) ^ 2) ^ 2 + 18 * (2 + w) ^ 2 - 30) =
          14391/10 + 40467/20 * w + 753/2 * w ^ 2 - 12301/20 * w ^ 3 - 455/2 * w ^ 4 + 321/4 * w ^ 5 + 511/10 * w ^ 6 + 133/20 * w ^ 7 := by
        ring
      rw [e]
      have a3 : w ^ 3 ≤ 1 := pow_le_one₀ hw hw1
      have a4 : w ^ 4 ≤ 1 := pow_le_one₀ hw hw1
      have a5 : 0 ≤ w ^ 5 := by positivity
      have a6 : 0 ≤ w ^ 6 := by positivity
      have a7 : 0 ≤ w ^ 7 := by positivity
      have a2 : 0 ≤ w ^ 2 := by positivity
      linarith
    · obtain ⟨w, rfl⟩ : ∃ w, M = 3 + w := ⟨M - 3, by ring⟩
      have hw : 0 ≤ w := by linarith
      rw [← sub_nonneg]
      have e : 19/20 * (((3 + w) ^ 2 - 1) * (7 * (3 + w) ^ 5 + 34 * (3 + w) ^ 3 - 5 * (3 + w))) -
          (42 * ((3 + w) ^ 2) ^ 3 - 174 * ((3 + w) ^ 2) ^ 2 + 18 * (3 + w) ^ 2 - 30) =
          15672/5 + 3878/5 * w - 1125 * w ^ 2 + 2661/5 * w ^ 3 + 1173 * w ^ 4 + 1053/2 * w ^ 5 + 1953/20 * w ^ 6 + 133/20 * w ^ 7 := by
        ring
      rw [e]
      have a3 : 0 ≤ w ^ 3 := by positivity
      have a5 : 0 ≤ w ^ 5 := by positivity
      have a6 : 0 ≤ w ^ 6 := by positivity
      have a7 : 0 ≤ w ^ 7 := by positivity
      have a4 : 0 ≤ (w ^ 2 - 1) ^ 2 := sq_nonneg _
      have a4' : (w ^ 2 - 1) ^ 2 = w ^ 4 - 2 * w ^ 2 + 1 := by ring
      nlinarith
  · obtain ⟨w, rfl⟩ : ∃ w, M = 2 + w := ⟨M - 2, by ring⟩
    have hw : 0 ≤ w := by linarith
    rw [← sub_nonneg]
    ring_nf
    positivity

theorem exp_lower {x : ℝ} (hx : x ≤ 8) : (1 - x / 8) ^ 8 ≤ Real.exp (-x) := by
  have := Real.one_sub_div_pow_le_exp_neg (n := 8) (t := x) (by exact_mod_cast hx)
  exact_mod_cast this

/-- the slope increases up to Mach 2.02 -/
theorem ptH_mono : MonotoneOn ptH (Set.Icc 1 (101/50)) := by
  refine monotoneOn_of_deriv_nonneg (convex_Icc _ _)
    (fun M hM => (hasDerivAt_ptH hM.1).continuousAt.continuousWithinAt)
    (fun M hM => (hasDerivAt_ptH (interior_subset hM).1).differentiableAt.differentiableWithinAt) ?_
  intro M hM
  have hM' := interior_subset hM
  rw [(hasDerivAt_ptH hM'.1).deriv]
  have h1 : 1 ≤ M ^ 2 := one_le_pow₀ hM'.1
  have h2 : M ^ 2 ≤ (101/50) ^ 2 := pow_le_pow_left₀ (by linarith [hM'.1]) hM'.2 2
  rw [neg_nonneg]
  apply mul_nonpos_of_nonneg_of_nonpos (Real.exp_pos _).le
  apply div_nonpos_of_nonpos_of_nonneg _ (by positivity)
  apply mul_nonpos_of_nonneg_of_nonpos (by nlinarith)
  obtain ⟨t, ht⟩ : ∃ t, t = M ^ 2 := ⟨_, rfl⟩
  rw [← ht] at h1 h2 ⊢
  have a : 0 ≤ (101/50) ^ 2 - t := by linarith
  nlinarith [mul_nonneg (sq_nonneg t) a, mul_nonneg (mul_nonneg (sub_nonneg.2 h1) (sub_nonneg.2 h1)) a, mul_nonneg (sub_nonneg.2 h1) a]

/-- the slope decreases from Mach 2.03 -/
theorem ptH_anti : AntitoneOn ptH (Set.Ici (203/100)) := by
  have hone : ∀ M ∈ Set.Ici (203/100 : ℝ), 1 ≤ M := fun M hM => le_trans (by norm_num) (Set.mem_Ici.1 hM)
  refine antitoneOn_of_deriv_nonpos (convex_Ici _)
    (fun M hM => (hasDerivAt_ptH (hone M hM)).continuousAt.continuousWithinAt)
    (fun M hM => (hasDerivAt_ptH (hone M (interior_subset hM))).differentiableAt.differentiableWithinAt) ?_
  intro M hM
  have hM' := interior_subset hM
  rw [(hasDerivAt_ptH (hone M hM')).deriv]
  have h2 : (203/100) ^ 2 ≤ M ^ 2 := pow_le_pow_left₀ (by norm_num) hM' 2
  rw [neg_nonpos]
  apply mul_nonneg (Real.exp_pos _).le
  apply div_nonneg _ (by positivity)
  apply mul_nonneg (by nlinarith)
  obtain ⟨w, hw⟩ : ∃ w, M ^ 2 = (203/100) ^ 2 + w := ⟨M ^ 2 - (203/100) ^ 2, by ring⟩
  have hw0 : 0 ≤ w := by linarith
  rw [hw]
  ring_nf
  positivity

theorem ptH_lt {M p q : ℝ} (hM : 1 < M) (hp : 35 * (M ^ 2 - 1) ^ 2 / (7 * M ^ 5 + 34 * M ^ 3 - 5 * M) = p) (hq : 0 ≤ q)
    (h : (6 * M ^ 2 / (5 + M ^ 2)) ^ 7 * (6 / (7 * M ^ 2 - 1)) ^ 5 * p ^ 2 < q ^ 2) : ptH M < q := by
  rw [← ptExp_sq hM.le, ← mul_pow] at h
  rw [ptH_eq, hp]
  exact lt_of_pow_lt_pow_left₀ 2 hq h

theorem lt_ptH {M p q : ℝ} (hM : 1 < M) (hp : 35 * (M ^ 2 - 1) ^ 2 / (7 * M ^ 5 + 34 * M ^ 3 - 5 * M) = p)
    (h : q ^ 2 < (6 * M ^ 2 / (5 + M ^ 2)) ^ 7 * (6 / (7 * M ^ 2 - 1)) ^ 5 * p ^ 2) : q < ptH M := by
  have h0 := ptH_pos hM
  rw [← ptExp_sq hM.le, ← mul_pow] at h
  rw [ptH_eq, hp] at h0 ⊢
  exact lt_of_pow_lt_pow_left₀ 2 h0.le h

theorem ptH_le {M : ℝ} (hM : 1 ≤ M) : ptH M ≤ 59/125 := by
  have h0 : ptH (101/50) < 4675/10000 := by
    refine ptH_lt (by norm_num) rfl (by norm_num) ?_
    norm_num
  have h3 : ptH (203/100) < 4675/10000 := by
    refine ptH_lt (by norm_num) rfl (by norm_num) ?_
    norm_num
  rcases le_total M (101/50) with h | h
  · have := ptH_mono ⟨hM, h⟩ (⟨by norm_num, le_rfl⟩ : (101/50 : ℝ) ∈ Set.Icc 1 (101/50)) h
    linarith
  · rcases le_total M (203/100) with h' | h'
    · have h1 := ptH_ratio_far (x := M) (y := 203/100) (by linarith) (by norm_num)
      have h2 := exp_lower (x := 19/20 * |M - 203/100|) (by rw [abs_of_nonpos (by linarith)]; linarith)
      have h4 : (1 - (19/20 * (1/100)) / 8 : ℝ) ^ 8 ≤ (1 - 19/20 * |M - 203/100| / 8) ^ 8 := by
        rw [abs_of_nonpos (by linarith)]
        exact pow_le_pow_left₀ (by norm_num) (by linarith) 8
      have h5 := ptH_pos (M := M) (by linarith)
      have h6 : (99/100 + 5/10000 : ℝ) ≤ (1 - (19/20 * (1/100)) / 8 : ℝ) ^ 8 := by norm_num
      nlinarith [mul_le_mul_of_nonneg_left (h6.trans (h4.trans h2)) h5.le]
    · have := ptH_anti (Set.mem_Ici.2 le_rfl) (Set.mem_Ici.2 h') h'
      linarith

/-- lower bound between two Mach numbers -/
theorem ptH_ge {M lo hi m : ℝ} (h1 : 1 ≤ lo) (hlo : lo ≤ 2) (hhi : 203/100 ≤ hi) (hM : lo ≤ M) (hM' : M ≤ hi)
    (hl : m ≤ ptH lo) (hm : m ≤ 46/100) (hh : m ≤ ptH hi) : m ≤ ptH M := by
  have h3 : 465/1000 < ptH (203/100) := by
    refine lt_ptH (by norm_num) rfl ?_
    norm_num
  rcases le_total M (101/50) with h | h
  · have := ptH_mono (⟨h1, by linarith⟩ : lo ∈ Set.Icc 1 (101/50)) ⟨h1.trans hM, h⟩ hM
    linarith
  · rcases le_total M (203/100) with h' | h'
    · have h1 := ptH_ratio_far (x := 203/100) (y := M) (by norm_num) (by linarith)
      have h2 := exp_lower (x := 19/20 * |203/100 - M|) (by rw [abs_of_nonneg (by linarith)]; linarith)
      have h4 : (1 - (19/20 * (1/100)) / 8 : ℝ) ^ 8 ≤ (1 - 19/20 * |203/100 - M| / 8) ^ 8 := by
        rw [abs_of_nonneg (by linarith)]
        exact pow_le_pow_left₀ (by norm_num) (by linarith) 8
      have h6 : (99/100 : ℝ) ≤ (1 - (19/20 * (1/100)) / 8 : ℝ) ^ 8 := by norm_num
      nlinarith [h6.trans (h4.trans h2)]
    · exact hh.trans (ptH_anti (Set.mem_Ici.2 h') (Set.mem_Ici.2 hhi) hM')

end Aerokit.Props
