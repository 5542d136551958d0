import Verif.Lemmas.CashKarp
import Verif.Props.RK4Order
import Mathlib.Analysis.Calculus.Deriv.Prod
import Mathlib.Analysis.Calculus.ContDiff.Bounds

/-! # Properties C131, C132 : accuracy and step control of `RKF45` (`aerokit/common/_ode.py`) -/

namespace Aerokit.Props
open Ode Set

section
variable {E : Type} [NormedAddCommGroup E] [NormedSpace ℝ E]

set_option maxSynthPendingDepth 5 in
theorem smooth5_of_contDiff {H : E → E} (hH : ContDiff ℝ 5 H) {M : ℝ} (hM : ∀ k ≤ 5, ∀ p, ‖iteratedFDeriv ℝ k H p‖ ≤ M) :
    Smooth5 H (fderiv ℝ H) (fderiv ℝ (fderiv ℝ H)) (fderiv ℝ (fderiv ℝ (fderiv ℝ H))) (fderiv ℝ (fderiv ℝ (fderiv ℝ (fderiv ℝ H)))) M := by
  have h1 : ContDiff ℝ 4 (fderiv ℝ H) := hH.fderiv_right (by norm_num)
  have h2 : ContDiff ℝ 3 (fderiv ℝ (fderiv ℝ H)) := h1.fderiv_right (by norm_num)
  have h3 : ContDiff ℝ 2 (fderiv ℝ (fderiv ℝ (fderiv ℝ H))) := h2.fderiv_right (by norm_num)
  have h4 : ContDiff ℝ 1 (fderiv ℝ (fderiv ℝ (fderiv ℝ (fderiv ℝ H)))) := h3.fderiv_right (by norm_num)
  refine ⟨smooth4_of_contDiff (hH.of_le (by norm_num)) (fun k hk p => hM k (by omega) p), fun y z => ?_⟩
  refine Convex.norm_image_sub_le_of_norm_hasFDerivWithin_le (s := univ)
    (fun x _ => (h4.differentiable (by norm_num) x).hasFDerivAt.hasFDerivWithinAt) (fun x _ => ?_) convex_univ (mem_univ _) (mem_univ _)
  rw [← norm_iteratedFDeriv_zero (𝕜 := ℝ), norm_iteratedFDeriv_fderiv, norm_iteratedFDeriv_fderiv, norm_iteratedFDeriv_fderiv,
      norm_iteratedFDeriv_fderiv, norm_iteratedFDeriv_fderiv]
  exact hM 5 (by norm_num) x

theorem aug_bound5 {G : ℝ × E → E} (hG : ContDiff ℝ 5 G) {M : ℝ} (hM : ∀ k ≤ 5, ∀ p, ‖iteratedFDeriv ℝ k G p‖ ≤ M) :
    ∀ k ≤ 5, ∀ p, ‖iteratedFDeriv ℝ k (aug G) p‖ ≤ max 1 M := by
  intro k hk p
  have e : aug G = fun p => ((fun _ => (1:ℝ)) p, G p) := rfl
  rw [e, iteratedFDeriv_prodMk (n := 5) (contDiffAt_const) hG.contDiffAt (by exact_mod_cast hk), ContinuousMultilinearMap.opNorm_prod]
  refine max_le_max ?_ (hM k hk p)
  rcases k with _ | k
  · rw [norm_iteratedFDeriv_zero]; simp
  · rw [iteratedFDeriv_succ_const]; simp

/-- one Cash-Karp step amplifies differences by at most `exp (3/2 L h)` -/
theorem ck_lip {H : E → E} {L : ℝ} (hL : 0 ≤ L) (hH : ∀ y z, ‖H y - H z‖ ≤ L * ‖y - z‖) (h : ℝ) (hh : 0 ≤ h) (y z : E) :
    ‖(y + h • ckSlope H y h) - (z + h • ckSlope H z h)‖ ≤ Real.exp (3 / 2 * L * h) * ‖y - z‖ := by
  obtain ⟨d, hd⟩ : ∃ d, d = ‖y - z‖ := ⟨_, rfl⟩
  have hd0 : 0 ≤ d := hd ▸ norm_nonneg _
  obtain ⟨m, hm⟩ : ∃ m, m = h * L := ⟨_, rfl⟩
  have hm0 : 0 ≤ m := hm ▸ mul_nonneg hh hL
  have st : ∀ (s t : E) (c : ℝ), ‖s - t‖ ≤ c * L * d → ‖H (y + h • s) - H (z + h • t)‖ ≤ (1 + m * c) * L * d := by
    intro s t c hc
    refine (hH _ _).trans ?_
    have : y + h • s - (z + h • t) = (y - z) + h • (s - t) := by module
    rw [this]
    have k1 : ‖(y - z) + h • (s - t)‖ ≤ d + h * (c * L * d) := (norm_add_le _ _).trans (by
      rw [norm_smul, Real.norm_of_nonneg hh, ← hd]
      gcongr)
    refine (mul_le_mul_of_nonneg_left k1 hL).trans (le_of_eq ?_)
    rw [hm]; ring
  have sm : ∀ (r : ℝ) {v : E} {c : ℝ}, ‖v‖ ≤ c * L * d → ‖r • v‖ ≤ (|r| * c) * L * d := by
    intro r v c hv
    rw [norm_smul, Real.norm_eq_abs]
    refine (mul_le_mul_of_nonneg_left hv (abs_nonneg r)).trans (le_of_eq ?_)
    ring
  have ad : ∀ {v w : E} {c e : ℝ}, ‖v‖ ≤ c * L * d → ‖w‖ ≤ e * L * d → ‖v + w‖ ≤ (c + e) * L * d := by
    intro v w c e hv hw
    refine (norm_add_le _ _).trans ((add_le_add hv hw).trans (le_of_eq ?_))
    ring
  have g1 : ‖ck1 H y h - ck1 H z h‖ ≤ (1 + m * 0) * L * d := st 0 0 0 (by simp)
  have g2 : ‖ck2 H y h - ck2 H z h‖ ≤ _ := st _ _ _ (le_trans (le_of_eq (by congr 1; module)) (sm (1 / 5) g1))
  have g3 : ‖ck3 H y h - ck3 H z h‖ ≤ _ := st _ _ _ (le_trans (le_of_eq (by congr 1; module)) (ad (sm (3 / 40) g1) (sm (9 / 40) g2)))
  have g4 : ‖ck4 H y h - ck4 H z h‖ ≤ _ := st _ _ _ (le_trans (le_of_eq (by congr 1; module)) (ad (ad (sm (3 / 10) g1) (sm (-9 / 10) g2)) (sm (6 / 5) g3)))
  have g5 : ‖ck5 H y h - ck5 H z h‖ ≤ _ := st _ _ _ (le_trans (le_of_eq (by congr 1; module))
    (ad (ad (ad (sm (-11 / 54) g1) (sm (5 / 2) g2)) (sm (-70 / 27) g3)) (sm (35 / 27) g4)))
  have g6 : ‖ck6 H y h - ck6 H z h‖ ≤ _ := st _ _ _ (le_trans (le_of_eq (by congr 1; module))
    (ad (ad (ad (ad (sm (1631 / 55296) g1) (sm (175 / 512) g2)) (sm (575 / 13824) g3)) (sm (44275 / 110592) g4)) (sm (253 / 4096) g5)))
  have gs : ‖ckSlope H y h - ckSlope H z h‖ ≤ _ := (le_trans (le_of_eq (by unfold ckSlope; congr 1; module))
    (ad (ad (ad (sm (37 / 378) g1) (sm (250 / 621) g3)) (sm (125 / 594) g4)) (sm (512 / 1771) g6)))
  have tot : y + h • ckSlope H y h - (z + h • ckSlope H z h) = (y - z) + h • (ckSlope H y h - ckSlope H z h) := by module
  rw [tot]
  refine (norm_add_le _ _).trans ?_
  rw [norm_smul, Real.norm_of_nonneg hh, ← hd]
  refine (add_le_add_right (mul_le_mul_of_nonneg_left gs hh) d).trans ?_
  have hexp := Real.sum_le_exp_of_nonneg (show 0 ≤ 3 / 2 * m by positivity) 7
  simp only [Finset.sum_range_succ, Finset.sum_range_zero, Nat.factorial] at hexp
  norm_num at hexp
  rw [show 3 / 2 * L * h = 3 / 2 * m by rw [hm]; ring]
  refine le_trans ?_ (mul_le_mul_of_nonneg_right hexp hd0)
  norm_num [abs_of_pos, abs_of_neg]
  have e : ∀ w : ℝ, d + h * (w * L * d) = (1 + m * w) * d := fun w => by rw [hm]; ring
  rw [e]
  refine mul_le_mul_of_nonneg_right ?_ hd0
  have q2 : 0 ≤ m ^ 2 := by positivity
  have q3 : 0 ≤ m ^ 3 := by positivity
  have q4 : 0 ≤ m ^ 4 := by positivity
  have q5 : 0 ≤ m ^ 5 := by positivity
  have q6 : 0 ≤ m ^ 6 := by positivity
  ring_nf
  linarith

end

section
variable {n : ℕ}

/-- `_rkf45` in terms of the autonomous stages -/
theorem rkf45_ok (hn : 0 < n) (G : ℝ × (Fin n → ℝ) → Fin n → ℝ) (x : ℝ) (y : Fin n → ℝ) (h : ℝ) :
    rkf45 (fun t v => .ok (G (t, v))) x y h = .ok (h • (ckSlope (aug G) (x, y) h).2,
      Real.sqrt ((∑ i, (h * (ckEst (aug G) (x, y) h).2 i) ^ 2) / n)) := by
  have hn' : (n:ℝ) ≠ 0 := by positivity
  obtain ⟨k1, e1⟩ : ∃ k, k = G (x, y) := ⟨_, rfl⟩
  obtain ⟨k2, e2⟩ : ∃ k, k = G (x + 1 / 5 * h, y + (1 / 5 : ℝ) • h • k1) := ⟨_, rfl⟩
  obtain ⟨k3, e3⟩ : ∃ k, k = G (x + 3 / 10 * h, y + (3 / 40 : ℝ) • h • k1 + (9 / 40 : ℝ) • h • k2) := ⟨_, rfl⟩
  obtain ⟨k4, e4⟩ : ∃ k, k = G (x + 3 / 5 * h, y + (3 / 10 : ℝ) • h • k1 - (9 / 10 : ℝ) • h • k2 + (6 / 5 : ℝ) • h • k3) := ⟨_, rfl⟩
  obtain ⟨k5, e5⟩ : ∃ k, k = G (x + h, y - (11 / 54 : ℝ) • h • k1 + (5 / 2 : ℝ) • h • k2 - (70 / 27 : ℝ) • h • k3 + (35 / 27 : ℝ) • h • k4) := ⟨_, rfl⟩
  obtain ⟨k6, e6⟩ : ∃ k, k = G (x + 7 / 8 * h, y + (1631 / 55296 : ℝ) • h • k1 + (175 / 512 : ℝ) • h • k2 + (575 / 13824 : ℝ) • h • k3
      + (44275 / 110592 : ℝ) • h • k4 + (253 / 4096 : ℝ) • h • k5) := ⟨_, rfl⟩
  have f1 : ck1 (aug G) (x, y) h = (1, k1) := by
    rw [e1]; unfold ck1 aug; simp
  have f2 : ck2 (aug G) (x, y) h = (1, k2) := by
    rw [e2]; unfold ck2; rw [f1]; unfold aug
    refine Prod.ext rfl (congrArg G (Prod.ext ?_ ?_))
    · simp only [Prod.fst_add, Prod.smul_fst, Prod.fst_zero, smul_eq_mul]; ring
    · simp only [Prod.snd_add, Prod.smul_snd, Prod.snd_zero]; module
  have f3 : ck3 (aug G) (x, y) h = (1, k3) := by
    rw [e3]; unfold ck3; rw [f1, f2]; unfold aug
    refine Prod.ext rfl (congrArg G (Prod.ext ?_ ?_))
    · simp only [Prod.fst_add, Prod.smul_fst, Prod.fst_zero, smul_eq_mul]; ring
    · simp only [Prod.snd_add, Prod.smul_snd, Prod.snd_zero]; module
  have f4 : ck4 (aug G) (x, y) h = (1, k4) := by
    rw [e4]; unfold ck4; rw [f1, f2, f3]; unfold aug
    refine Prod.ext rfl (congrArg G (Prod.ext ?_ ?_))
    · simp only [Prod.fst_add, Prod.smul_fst, Prod.fst_zero, smul_eq_mul]; ring
    · simp only [Prod.snd_add, Prod.smul_snd, Prod.snd_zero]; module
  have f5 : ck5 (aug G) (x, y) h = (1, k5) := by
    rw [e5]; unfold ck5; rw [f1, f2, f3, f4]; unfold aug
    refine Prod.ext rfl (congrArg G (Prod.ext ?_ ?_))
    · simp only [Prod.fst_add, Prod.smul_fst, Prod.fst_zero, smul_eq_mul]; ring
    · simp only [Prod.snd_add, Prod.smul_snd, Prod.snd_zero]; module
  have f6 : ck6 (aug G) (x, y) h = (1, k6) := by
    rw [e6]; unfold ck6; rw [f1, f2, f3, f4, f5]; unfold aug
    refine Prod.ext rfl (congrArg G (Prod.ext ?_ ?_))
    · simp only [Prod.fst_add, Prod.smul_fst, Prod.fst_zero, smul_eq_mul]; ring
    · simp only [Prod.snd_add, Prod.smul_snd, Prod.snd_zero]; module
  have l1 : (1.0 : ℝ) = 1 := by norm_num
  have l3 : (3.0 : ℝ) = 3 := by norm_num
  have l9 : (9.0 : ℝ) = 9 := by norm_num
  have l6 : (6.0 : ℝ) = 6 := by norm_num
  have l11 : (11.0 : ℝ) = 11 := by norm_num
  have l5 : (5.0 : ℝ) = 5 := by norm_num
  have l70 : (70.0 : ℝ) = 70 := by norm_num
  have l35 : (35.0 : ℝ) = 35 := by norm_num
  have l7 : (7.0 : ℝ) = 7 := by norm_num
  have l1631 : (1631.0 : ℝ) = 1631 := by norm_num
  have l175 : (175.0 : ℝ) = 175 := by norm_num
  have l575 : (575.0 : ℝ) = 575 := by norm_num
  have l44275 : (44275.0 : ℝ) = 44275 := by norm_num
  have l253 : (253.0 : ℝ) = 253 := by norm_num
  unfold rkf45
  simp only [Py.ok_bind, Py.pure_eq, Py.div_ok hn', l1, l3, l9, l6, l11, l5, l70, l35, l7, l1631, l175, l575, l44275, l253]
  rw [Py.sqrt_ok (div_nonneg (Finset.sum_nonneg fun _ _ => sq_nonneg _) (Nat.cast_nonneg _)), Py.ok_bind]
  rw [← e1, ← e2, ← e3, ← e4, ← e5, ← e6]
  unfold ckSlope ckEst
  rw [f1, f2, f3, f4, f5, f6]
  congr 2
  · simp only [Prod.snd_add, Prod.smul_snd, Prod.snd_zero]
    norm_num
    module
  · congr 2
    refine Finset.sum_congr rfl fun i _ => ?_
    congr 1
    simp only [Prod.snd_add, Prod.smul_snd, Prod.snd_zero, Pi.add_apply, Pi.smul_apply, smul_eq_mul, Pi.zero_apply]
    norm_num
    ring

/-- the root mean square is at most the largest component -/
theorem rms_le (hn : 0 < n) (v : Fin n → ℝ) (h : ℝ) (hh : 0 ≤ h) : Real.sqrt ((∑ i, (h * v i) ^ 2) / n) ≤ h * ‖v‖ := by
  have hn' : (0:ℝ) < n := by exact_mod_cast hn
  refine Real.sqrt_le_iff.2 ⟨by positivity, ?_⟩
  rw [div_le_iff₀ hn']
  have : ∀ i ∈ (Finset.univ : Finset (Fin n)), (h * v i) ^ 2 ≤ (h * ‖v‖) ^ 2 := by
    intro i _
    rw [mul_pow, mul_pow]
    refine mul_le_mul_of_nonneg_left ?_ (by positivity)
    rw [← sq_abs (v i)]
    exact pow_le_pow_left₀ (abs_nonneg _) (norm_le_pi_norm v i) 2
  refine (Finset.sum_le_sum this).trans (le_of_eq ?_)
  simp
  ring

/-- C131, what a run is made of: for every right-hand side, every sample returned by `RKF45` after the first is the previous one advanced by one
Cash-Karp step whose error estimate does not exceed `tol`. -/
theorem C131_accepted_steps (F : ℝ → (Fin n → ℝ) → Py (Fin n → ℝ)) (x : ℝ) (y : Fin n → ℝ) (xStop h tol : ℝ) (l : List (ℝ × (Fin n → ℝ)))
    (hl : RKF45 F x y xStop h tol = .ok l) :
    l.head? = some (x, y) ∧ List.IsChain (fun a b => ∃ k e, rkf45 F a.1 a.2 k = .ok (b.2 - a.2, e) ∧ e ≤ tol ∧ b.1 = a.1 + k) l := by
  have key : ∀ (left : ℕ) (x : ℝ) (y : Fin n → ℝ) (h : ℝ) (b : Bool) (l : List (ℝ × (Fin n → ℝ))), RKF45loop F xStop tol left x y h b = .ok l →
      List.IsChain (fun a b => ∃ k e, rkf45 F a.1 a.2 k = .ok (b.2 - a.2, e) ∧ e ≤ tol ∧ b.1 = a.1 + k) ((x, y) :: l) := by
    intro left
    induction left with
    | zero =>
      intro x y h b l hl
      simp only [RKF45loop, Except.ok.injEq] at hl
      subst hl; simp
    | succ left ih =>
      intro x y h b l hl
      rw [RKF45loop] at hl
      rcases hr : rkf45 F x y h with er | ⟨dy, e⟩
      · rw [hr] at hl; simp at hl
      rw [hr] at hl
      simp only [Py.ok_bind] at hl
      by_cases hacc : e ≤ tol
      · rw [if_pos hacc] at hl
        have hstep : ∃ k e, rkf45 F x y k = .ok (y + dy - y, e) ∧ e ≤ tol ∧ x + h = x + k := ⟨h, e, by rw [hr, add_sub_cancel_left], hacc, rfl⟩
        by_cases hb : b = true
        · rw [if_pos hb] at hl
          simp only [Py.pure_eq, Except.ok.injEq] at hl
          subst hl
          simpa using hstep
        · rw [if_neg hb] at hl
          rcases hns : nextStep xStop tol (x + h) h e b with er | ⟨h', b'⟩
          · rw [hns] at hl; simp at hl
          rw [hns] at hl
          simp only [Py.ok_bind] at hl
          rcases hrest : RKF45loop F xStop tol left (x + h) (y + dy) h' b' with er | rest
          · rw [hrest] at hl; simp at hl
          rw [hrest] at hl
          simp only [Py.ok_bind, Py.pure_eq, Except.ok.injEq] at hl
          subst hl
          exact List.IsChain.cons_cons hstep (ih _ _ _ _ _ hrest)
      · rw [if_neg hacc] at hl
        rcases hns : nextStep xStop tol x h e b with er | ⟨h', b'⟩
        · rw [hns] at hl; simp at hl
        rw [hns] at hl
        simp only [Py.ok_bind] at hl
        exact ih _ _ _ _ _ hl
  unfold RKF45 at hl
  rcases hr : RKF45loop F xStop tol 10000 x y h false with er | rest
  · rw [hr] at hl; simp at hl
  rw [hr] at hl
  simp only [Py.ok_bind, Py.pure_eq, Except.ok.injEq] at hl
  subst hl
  exact ⟨rfl, key _ _ _ _ _ _ hr⟩

/-- C131: for every right-hand side that does not fail, every run with a positive tolerance returns, whatever `x`, `xStop` and `h`. -/
theorem C131_returns (hn : 0 < n) (G : ℝ × (Fin n → ℝ) → Fin n → ℝ) (x : ℝ) (y : Fin n → ℝ) (xStop h tol : ℝ) (htol : 0 < tol) :
    ∃ l, RKF45 (fun t v => .ok (G (t, v))) x y xStop h tol = .ok l := by
  have hns : ∀ (x h e : ℝ) (b : Bool), 0 ≤ e → ∃ h' b', nextStep xStop tol x h e b = .ok (h', b') := by
    intro x h e b he
    unfold nextStep
    rw [l0_0, l0_2]
    by_cases h0 : e = 0
    · simp only [h0, ne_eq, not_true_eq_false, if_false, Py.pure_eq, Py.ok_bind]
      split_ifs <;> exact ⟨_, _, rfl⟩
    · have hq : 0 < tol / e := by positivity
      simp only [ne_eq, h0, not_false_eq_true, if_true, Py.div_ok h0, Py.ok_bind, Py.pow_ok _ hq, Py.pure_eq]
      split_ifs <;> exact ⟨_, _, rfl⟩
  have key : ∀ (left : ℕ) (x : ℝ) (y : Fin n → ℝ) (h : ℝ) (b : Bool), ∃ l, RKF45loop (fun t v => .ok (G (t, v))) xStop tol left x y h b = .ok l := by
    intro left
    induction left with
    | zero => intro x y h b; exact ⟨[], rfl⟩
    | succ left ih =>
      intro x y h b
      rw [RKF45loop, rkf45_ok hn]
      simp only [Py.ok_bind]
      obtain ⟨e, he⟩ : ∃ e, e = Real.sqrt ((∑ i, (h * (ckEst (aug G) (x, y) h).2 i) ^ 2) / n) := ⟨_, rfl⟩
      have he0 : 0 ≤ e := by rw [he]; exact Real.sqrt_nonneg _
      rw [← he]
      by_cases hacc : e ≤ tol
      · rw [if_pos hacc]
        by_cases hb : b = true
        · rw [if_pos hb]; exact ⟨_, rfl⟩
        · rw [if_neg hb]
          obtain ⟨h', b', h1⟩ := hns (x + h) h e b he0
          rw [h1]
          simp only [Py.ok_bind]
          obtain ⟨l, hl⟩ := ih (x + h) (y + h • (ckSlope (aug G) (x, y) h).2) h' b'
          rw [hl]
          exact ⟨_, rfl⟩
      · rw [if_neg hacc]
        obtain ⟨h', b', h1⟩ := hns x h e b he0
        rw [h1]
        simp only [Py.ok_bind]
        exact ih _ _ _ _
  obtain ⟨l, hl⟩ := key 10000 x y h false
  exact ⟨_, by unfold RKF45; rw [hl]; rfl⟩

/-- C131, order of one step: for every right-hand side that is five times continuously differentiable with bounded derivatives there is a constant `K`
such that, from any point of any exact solution, a step `k ≤ 1` of `_rkf45` ends within `K k⁶` of the solution and its error estimate is at most
`K k⁵`. -/
theorem C131_local_order (hn : 0 < n) (G : ℝ × (Fin n → ℝ) → Fin n → ℝ) (hG : ContDiff ℝ 5 G) (M : ℝ)
    (hM : ∀ k ≤ 5, ∀ p, ‖iteratedFDeriv ℝ k G p‖ ≤ M) :
    ∃ K, 0 < K ∧ ∀ (sol : ℝ → Fin n → ℝ) (t k : ℝ), 0 ≤ k → k ≤ 1 →
      (∀ s ∈ Icc t (t + k), HasDerivWithinAt sol (G (s, sol s)) (Icc t (t + k)) s) →
      ∃ dy e, rkf45 (fun t v => .ok (G (t, v))) t (sol t) k = .ok (dy, e) ∧ ‖sol (t + k) - (sol t + dy)‖ ≤ K * k ^ 6 ∧ e ≤ K * k ^ 5 := by
  have hA : ContDiff ℝ 5 (aug G) := contDiff_const.prodMk hG
  have S := smooth5_of_contDiff hA (aug_bound5 hG hM)
  obtain ⟨K, hK, h1⟩ := S.ck_local_error
  obtain ⟨K', hK', h2⟩ := S.est_small
  refine ⟨K + K' + 1, by positivity, fun sol t k hk hk1 hs => ⟨_, _, rkf45_ok hn G t (sol t) k, ?_, ?_⟩⟩
  · have key := h1 (fun s => (t + s, sol (t + s))) k hk hk1 (by
      intro s hs'
      have e1 : HasDerivWithinAt (fun s => t + s) 1 (Icc 0 k) s := ((hasDerivAt_id s).const_add t).hasDerivWithinAt
      have e2 : HasDerivWithinAt (fun s => sol (t + s)) (G (t + s, sol (t + s))) (Icc 0 k) s := by
        have := (hs (t + s) ⟨by linarith [hs'.1], by linarith [hs'.2]⟩).scomp s e1 (fun r hr => ⟨by linarith [hr.1], by linarith [hr.2]⟩)
        simpa [Function.comp_def] using this
      exact e1.prodMk e2)
    simp only [add_zero] at key
    refine (norm_snd_le ((t + k, sol (t + k)) - ((t, sol t) + k • ckSlope (aug G) (t, sol t) k))).trans (key.trans ?_)
    have : 0 ≤ k ^ 6 := by positivity
    nlinarith
  · refine (rms_le hn _ k hk).trans ?_
    have := (norm_snd_le _).trans (h2 (t, sol t) k hk hk1)
    have e : k * ‖(ckEst (aug G) (t, sol t) k).2‖ ≤ k * (K' * k ^ 4) := mul_le_mul_of_nonneg_left this hk
    have : 0 ≤ k ^ 5 := by positivity
    calc _ ≤ k * (K' * k ^ 4) := e
      _ = K' * k ^ 5 := by ring
      _ ≤ _ := by nlinarith

theorem aug_lip {G : ℝ × (Fin n → ℝ) → Fin n → ℝ} (hG : ContDiff ℝ 5 G) {M : ℝ} (hM : ∀ k ≤ 5, ∀ p, ‖iteratedFDeriv ℝ k G p‖ ≤ M) (p q : ℝ × (Fin n → ℝ)) :
    ‖aug G p - aug G q‖ ≤ M * ‖p - q‖ := by
  have h1 : ‖G p - G q‖ ≤ M * ‖p - q‖ := by
    refine Convex.norm_image_sub_le_of_norm_hasFDerivWithin_le (s := univ)
      (fun x _ => (hG.differentiable (by norm_num) x).hasFDerivAt.hasFDerivWithinAt) (fun x _ => ?_) convex_univ (mem_univ _) (mem_univ _)
    rw [← norm_iteratedFDeriv_zero (𝕜 := ℝ), norm_iteratedFDeriv_fderiv]
    exact hM 1 (by norm_num) x
  have e : aug G p - aug G q = (0, G p - G q) := by unfold aug; simp
  rw [e, Prod.norm_def]
  refine max_le ?_ h1
  have := (norm_nonneg _).trans h1
  simpa using this

/-- C131, order 5 of a whole run: for every right-hand side that is five times continuously differentiable with bounded derivatives, there is a constant
`K` such that whatever the interval, the tolerance, the initial step, the accepted and rejected steps, if no step taken is longer than `H ≤ 1`, then
every sample is within `K H⁵ (t - x) exp (3/2 M (t - x))` of the exact solution. -/
theorem C131_order5 (hn : 0 < n) (G : ℝ × (Fin n → ℝ) → Fin n → ℝ) (hG : ContDiff ℝ 5 G) (M : ℝ) (hM : ∀ k ≤ 5, ∀ p, ‖iteratedFDeriv ℝ k G p‖ ≤ M) :
    ∃ K, 0 < K ∧ ∀ (sol : ℝ → Fin n → ℝ) (x xStop h tol H : ℝ) (l : List (ℝ × (Fin n → ℝ))), 0 < tol → 0 < h → x + h ≤ xStop → H ≤ 1 →
      (∀ s ∈ Icc x xStop, HasDerivWithinAt sol (G (s, sol s)) (Icc x xStop) s) →
      RKF45 (fun t v => .ok (G (t, v))) x (sol x) xStop h tol = .ok l → List.IsChain (fun a b => b.1 - a.1 ≤ H) l →
      ∀ s ∈ l, ‖s.2 - sol s.1‖ ≤ K * H ^ 5 * (s.1 - x) * Real.exp (3 / 2 * M * (s.1 - x)) := by
  obtain ⟨K, hK, hloc⟩ := C131_local_order hn G hG M hM
  have hM0 : 0 ≤ M := (norm_nonneg _).trans (hM 0 (by norm_num) 0)
  refine ⟨K, hK, fun sol x xStop h tol H l htol hh hx hH hsol hl hsteps => ?_⟩
  obtain ⟨hhead, hacc⟩ := C131_accepted_steps _ _ _ _ _ _ _ hl
  obtain ⟨hinc, hrange⟩ := C33_no_overshoot _ _ _ _ _ _ htol hh hx _ hl
  have key : ∀ (l : List (ℝ × (Fin n → ℝ))) (a : ℝ × (Fin n → ℝ)),
      List.IsChain (fun a b => ∃ k e, rkf45 (fun t v => .ok (G (t, v))) a.1 a.2 k = .ok (b.2 - a.2, e) ∧ e ≤ tol ∧ b.1 = a.1 + k) (a :: l) →
      List.IsChain (fun a b : ℝ × (Fin n → ℝ) => a.1 ≤ b.1) (a :: l) → List.IsChain (fun a b : ℝ × (Fin n → ℝ) => b.1 - a.1 ≤ H) (a :: l) →
      (∀ b ∈ a :: l, x ≤ b.1 ∧ b.1 ≤ xStop) → ‖a.2 - sol a.1‖ ≤ K * H ^ 5 * (a.1 - x) * Real.exp (3 / 2 * M * (a.1 - x)) →
      ∀ s ∈ a :: l, ‖s.2 - sol s.1‖ ≤ K * H ^ 5 * (s.1 - x) * Real.exp (3 / 2 * M * (s.1 - x)) := by
    intro l
    induction l with
    | nil =>
      intro a _ _ _ _ ha s hs
      rw [List.mem_singleton] at hs
      rw [hs]; exact ha
    | cons b l ih =>
      intro a c1 c2 c3 hr ha s hs
      obtain ⟨⟨k, e, hk, -, hbk⟩, c1'⟩ := List.isChain_cons_cons.1 c1
      obtain ⟨hab, c2'⟩ := List.isChain_cons_cons.1 c2
      obtain ⟨hbH, c3'⟩ := List.isChain_cons_cons.1 c3
      rcases List.mem_cons.1 hs with rfl | hs
      · exact ha
      refine ih b c1' c2' c3' (fun c hc => hr c (List.mem_cons_of_mem _ hc)) ?_ s hs
      have ra := hr a (List.mem_cons_self ..)
      have rb := hr b (List.mem_cons_of_mem _ (List.mem_cons_self ..))
      rw [hbk] at hab hbH rb
      have hk0 : 0 ≤ k := by linarith
      have hkH : k ≤ H := by linarith
      obtain ⟨dy, e', hr', hl', -⟩ := hloc sol a.1 k hk0 (by linarith) (fun s hs =>
        (hsol s ⟨by linarith [hs.1], by linarith [hs.2]⟩).mono (Icc_subset_Icc (by linarith) (by linarith)))
      rw [rkf45_ok hn] at hk hr'
      have i1 := (Prod.mk.inj (Except.ok.inj hk)).1
      have i2 := (Prod.mk.inj (Except.ok.inj hr')).1
      have lip := ck_lip hM0 (aug_lip hG hM) k hk0 (a.1, a.2) (a.1, sol a.1)
      have e1 : ‖((a.1, a.2) : ℝ × (Fin n → ℝ)) - (a.1, sol a.1)‖ = ‖a.2 - sol a.1‖ := by
        rw [Prod.mk_sub_mk, Prod.norm_def]; simp
      rw [e1] at lip
      have lip2 := (norm_snd_le _).trans lip
      simp only [Prod.snd_sub, Prod.snd_add, Prod.smul_snd] at lip2
      rw [i1, i2, add_sub_cancel] at lip2
      have tot : b.2 - sol b.1 = (b.2 - (sol a.1 + dy)) - (sol (a.1 + k) - (sol a.1 + dy)) := by rw [hbk]; abel
      rw [tot]
      refine (norm_sub_le _ _).trans ((add_le_add lip2 hl').trans ?_)
      obtain ⟨P, hP⟩ : ∃ P, P = K * H ^ 5 := ⟨_, rfl⟩
      have hH0 : 0 ≤ H := by linarith
      have hP0 : 0 ≤ P := by rw [hP]; positivity
      rw [← hP] at ha ⊢
      have a0 : K * k ^ 6 ≤ P * k := by
        have : k ^ 5 ≤ H ^ 5 := pow_le_pow_left₀ hk0 hkH 5
        calc K * k ^ 6 = K * k ^ 5 * k := by ring
          _ ≤ K * H ^ 5 * k := by gcongr
          _ = P * k := by rw [hP]
      rw [hbk]
      have e2 : Real.exp (3 / 2 * M * (a.1 + k - x)) = Real.exp (3 / 2 * M * k) * Real.exp (3 / 2 * M * (a.1 - x)) := by
        rw [← Real.exp_add]; congr 1; ring
      have a3 : Real.exp (3 / 2 * M * k) * ‖a.2 - sol a.1‖ ≤ Real.exp (3 / 2 * M * k) * (P * (a.1 - x) * Real.exp (3 / 2 * M * (a.1 - x))) := by gcongr
      have a4 : 1 ≤ Real.exp (3 / 2 * M * (a.1 + k - x)) := Real.one_le_exp (mul_nonneg (by positivity) (by linarith))
      have a5 : P * k ≤ P * k * Real.exp (3 / 2 * M * (a.1 + k - x)) := le_mul_of_one_le_right (by positivity) a4
      have a6 : P * (a.1 + k - x) * Real.exp (3 / 2 * M * (a.1 + k - x)) =
        Real.exp (3 / 2 * M * k) * (P * (a.1 - x) * Real.exp (3 / 2 * M * (a.1 - x))) + P * k * Real.exp (3 / 2 * M * (a.1 + k - x)) := by
        rw [e2]; ring
      linarith
  rcases l with _ | ⟨a, l⟩
  · simp at hhead
  · have ha : a = (x, sol x) := by simpa using hhead
    refine key l a hacc hinc hsteps hrange ?_
    rw [ha]; simp

/-! ### Step control -/

/-- C131, the error estimate: it is at most `K h⁵` at every point and for every step, so steps with `K h⁵ ≤ tol` are never rejected. -/
theorem C131_estimate (hn : 0 < n) (G : ℝ × (Fin n → ℝ) → Fin n → ℝ) (hG : ContDiff ℝ 5 G) (M : ℝ) (hM : ∀ k ≤ 5, ∀ p, ‖iteratedFDeriv ℝ k G p‖ ≤ M) :
    ∃ K, 0 < K ∧ ∀ (x : ℝ) (y : Fin n → ℝ) (h : ℝ), 0 ≤ h → ∃ dy e, rkf45 (fun t v => .ok (G (t, v))) x y h = .ok (dy, e) ∧ e ≤ K * h ^ 5 := by
  have hA : ContDiff ℝ 5 (aug G) := contDiff_const.prodMk hG
  have S := smooth5_of_contDiff hA (aug_bound5 hG hM)
  obtain ⟨K', hK', h2⟩ := S.est_small
  have hb : ∀ p h, ‖ckEst (aug G) p h‖ ≤ 1 * max 1 M := by
    intro p h
    have b1 : ‖ck1 (aug G) p h‖ ≤ max 1 M := S.bG _
    have b2 : ‖ck2 (aug G) p h‖ ≤ max 1 M := S.bG _
    have b3 : ‖ck3 (aug G) p h‖ ≤ max 1 M := S.bG _
    have b4 : ‖ck4 (aug G) p h‖ ≤ max 1 M := S.bG _
    have b5 : ‖ck5 (aug G) p h‖ ≤ max 1 M := S.bG _
    have b6 : ‖ck6 (aug G) p h‖ ≤ max 1 M := S.bG _
    have hm : 0 ≤ max 1 M := le_trans zero_le_one (le_max_left _ _)
    have sm : ∀ (r : ℝ) {v : ℝ × (Fin n → ℝ)} , ‖v‖ ≤ max 1 M → ‖r • v‖ ≤ |r| * max 1 M := fun r v hv => by
      rw [norm_smul, Real.norm_eq_abs]; exact mul_le_mul_of_nonneg_left hv (abs_nonneg r)
    have ad : ∀ {v w : ℝ × (Fin n → ℝ)} {c e : ℝ}, ‖v‖ ≤ c * max 1 M → ‖w‖ ≤ e * max 1 M → ‖v + w‖ ≤ (c + e) * max 1 M := fun hv hw => by
      rw [add_mul]; exact (norm_add_le _ _).trans (add_le_add hv hw)
    have z : ‖(0 : ℝ × (Fin n → ℝ))‖ ≤ 0 * max 1 M := by simp
    unfold ckEst
    refine (ad (ad (ad (ad (ad (ad z (sm _ b1)) (sm _ b2)) (sm _ b3)) (sm _ b4)) (sm _ b5)) (sm _ b6)).trans (mul_le_mul_of_nonneg_right ?_ hm)
    norm_num [abs_of_pos, abs_of_neg]
  refine ⟨K' + max 1 M, by positivity, fun x y h hh => ⟨_, _, rkf45_ok hn G x y h, (rms_le hn _ h hh).trans ?_⟩⟩
  have h5 : 0 ≤ h ^ 5 := by positivity
  have hm : 0 ≤ max 1 M := le_trans zero_le_one (le_max_left _ _)
  have c1 : 0 ≤ K' * h ^ 5 := by positivity
  have c2 : 0 ≤ max 1 M * h ^ 5 := by positivity
  rw [add_mul]
  rcases le_total h 1 with h1 | h1
  · have := (norm_snd_le _).trans (h2 (x, y) h hh h1)
    have e : h * ‖(ckEst (aug G) (x, y) h).2‖ ≤ h * (K' * h ^ 4) := mul_le_mul_of_nonneg_left this hh
    have : h * (K' * h ^ 4) = K' * h ^ 5 := by ring
    linarith
  · have := (norm_snd_le _).trans (hb (x, y) h)
    have e : h * ‖(ckEst (aug G) (x, y) h).2‖ ≤ h * (1 * max 1 M) := mul_le_mul_of_nonneg_left this hh
    have : h ≤ h ^ 5 := le_self_pow₀ h1 (by norm_num)
    have : h * max 1 M ≤ h ^ 5 * max 1 M := mul_le_mul_of_nonneg_right this hm
    linarith

theorem nextStep_floor {K tol : ℝ} (hK : 0 < K) (htol : 0 < tol) {xStop x h e : ℝ} {b : Bool} (hh : 0 < h) (he0 : 0 ≤ e) (he : e ≤ K * h ^ 5) (c : ℝ)
    (hc : c ≤ 9 / 10 * (tol / K) ^ (1 / 5 : ℝ)) (hch : e ≤ tol → c ≤ h ∨ b = true) :
    ∃ h' b', nextStep xStop tol x h e b = .ok (h', b') ∧ (b = true → b' = true) ∧ (b' = false → c ≤ h') := by
  unfold nextStep
  have l09 : (0.9 : ℝ) = 9 / 10 := by norm_num
  rw [l0_0, l0_2, l09]
  by_cases h0 : e = 0
  · subst h0
    simp only [ne_eq, not_true_eq_false, if_false, Py.pure_eq, Py.ok_bind, hh, true_iff]
    split_ifs with h1
    · exact ⟨_, _, rfl, fun _ => rfl, fun h => by simp at h⟩
    · refine ⟨_, _, rfl, id, fun hb => ?_⟩
      rcases hch htol.le with h2 | h2
      · exact h2
      · rw [hb] at h2; simp at h2
  · have epos : 0 < e := lt_of_le_of_ne he0 (Ne.symm h0)
    have hq : 0 < tol / e := by positivity
    simp only [ne_eq, h0, not_false_eq_true, if_true, Py.div_ok h0, Py.ok_bind, Py.pow_ok _ hq, Py.pure_eq, hh, true_iff]
    have hbig : 9 / 10 * (tol / K) ^ (1 / 5 : ℝ) ≤ 9 / 10 * h * (tol / e) ^ (1 / 5 : ℝ) := by
      have h1 : (h ^ 5) ^ (1 / 5 : ℝ) = h := by
        rw [← Real.rpow_natCast, ← Real.rpow_mul hh.le]; norm_num
      have h2 : h * (tol / e) ^ (1 / 5 : ℝ) = (h ^ 5 * (tol / e)) ^ (1 / 5 : ℝ) := by
        rw [Real.mul_rpow (by positivity) hq.le, h1]
      rw [mul_assoc, h2]
      refine mul_le_mul_of_nonneg_left (Real.rpow_le_rpow (by positivity) ?_ (by norm_num)) (by norm_num)
      rw [← mul_div_assoc, div_le_div_iff₀ hK epos]
      nlinarith
    split_ifs with h1
    · exact ⟨_, _, rfl, fun _ => rfl, fun h => by simp at h⟩
    · exact ⟨_, _, rfl, id, fun _ => hc.trans hbig⟩

theorem loop_floor {F : ℝ → (Fin n → ℝ) → Py (Fin n → ℝ)} {K tol : ℝ} (hK : 0 < K) (htol : 0 < tol)
    (hF : ∀ (x : ℝ) (y : Fin n → ℝ) (h : ℝ), 0 ≤ h → ∃ dy e, rkf45 F x y h = .ok (dy, e) ∧ e ≤ K * h ^ 5) (xStop c : ℝ)
    (hc : c ≤ 9 / 10 * (tol / K) ^ (1 / 5 : ℝ)) : ∀ (left : ℕ) (x : ℝ) (y : Fin n → ℝ) (h : ℝ) (b : Bool), StepInv xStop x h b → (b = false → c ≤ h) →
    ∃ l, RKF45loop F xStop tol left x y h b = .ok l ∧ (b = true → l.length ≤ 1) ∧
      List.IsChain (fun a b : ℝ × (Fin n → ℝ) => c ≤ b.1 - a.1) (((x, y) :: l).dropLast) := by
  intro left
  induction left with
  | zero =>
    intro x y h b _ _
    exact ⟨[], rfl, by simp, by simp⟩
  | succ left ih =>
    intro x y h b hinv hb
    have hh0 : 0 ≤ h := by
      rcases hinv with ⟨h1, _⟩ | ⟨h1, _, _⟩
      · exact h1.le
      · exact h1.ge
    have hle : x ≤ x + h ∧ x + h ≤ xStop := by
      rcases hinv with ⟨h1, h2⟩ | ⟨h1, h2, -⟩
      · exact ⟨by linarith, h2⟩
      · rw [h1, h2]; simp
    obtain ⟨dy, e, hr, he⟩ := hF x y h hh0
    have he0 := rkf45_err_nonneg hr
    rw [RKF45loop, hr]
    simp only [Py.ok_bind]
    by_cases hacc : e ≤ tol
    · rw [if_pos hacc]
      rcases b with _ | _
      · have hpos : 0 < h := by
          rcases hinv with ⟨h1, _⟩ | ⟨_, _, h3⟩
          · exact h1
          · simp at h3
        obtain ⟨h', b', hns, -, hb'⟩ := nextStep_floor hK htol (xStop := xStop) (x := x + h) (b := false) hpos he0 he c hc (fun _ => .inl (hb rfl))
        rw [if_neg (by simp), hns]
        simp only [Py.ok_bind]
        obtain ⟨l, hl, -, hch⟩ := ih (x + h) (y + dy) h' b' (nextStep_inv he0 htol hle.2 (.inl hpos) hns).1 hb'
        rw [hl]
        simp only [Py.ok_bind, Py.pure_eq]
        refine ⟨_, rfl, by simp, ?_⟩
        rw [List.dropLast_cons_of_ne_nil (by simp)]
        rcases hd : ((x + h, y + dy) :: l).dropLast with _ | ⟨a, m⟩
        · simp
        · have ha : a = (x + h, y + dy) := by
            have := List.head?_dropLast (xs := (x + h, y + dy) :: l)
            rw [hd] at this
            rcases l with _ | ⟨a2, l2⟩
            · simp at hd
            · simpa using this
          rw [hd] at hch
          refine List.isChain_cons_cons.2 ⟨?_, hch⟩
          rw [ha]
          have := hb rfl
          simp only [add_sub_cancel_left]
          exact this
      · rw [if_pos rfl]
        exact ⟨_, rfl, by simp, by simp⟩
    · rw [if_neg hacc]
      have hpos : 0 < h := by
        rcases hinv with ⟨h1, _⟩ | ⟨h1, _, _⟩
        · exact h1
        · exfalso
          rw [h1] at he
          norm_num at he
          linarith
      obtain ⟨h', b', hns, hbt, hb'⟩ := nextStep_floor hK htol (xStop := xStop) (x := x) (b := b) hpos he0 he c hc (fun h => absurd h hacc)
      rw [hns]
      simp only [Py.ok_bind]
      obtain ⟨l, hl, hlen, hch⟩ := ih x y h' b' (nextStep_inv he0 htol (hle.1.trans hle.2) (.inl hpos) hns).1 hb'
      exact ⟨l, hl, fun h => hlen (hbt h), hch⟩

/-- sum of the steps of a chain -/
theorem chain_span {c B : ℝ} : ∀ (l : List (ℝ × (Fin n → ℝ))) (a : ℝ × (Fin n → ℝ)),
    List.IsChain (fun a b : ℝ × (Fin n → ℝ) => c ≤ b.1 - a.1) (a :: l) → (∀ b ∈ a :: l, b.1 ≤ B) → (l.length : ℝ) * c ≤ B - a.1
  | [], a, _, hB => by
    have := hB a (List.mem_cons_self ..)
    simp; linarith
  | b :: l, a, h, hB => by
    obtain ⟨h1, h2⟩ := List.isChain_cons_cons.1 h
    have := chain_span l b h2 (fun z hz => hB z (List.mem_cons_of_mem _ hz))
    push_cast [List.length_cons]
    linarith

/-- C131, step control: for every right-hand side as above there is a constant `c > 0` such that every run returns, every step but the last is at
least `min h (c tol^(1/5))` long (`h` the initial step) -- rejections never make the step collapse -- and so the number of samples is at most
`(xStop - x) / min h (c tol^(1/5)) + 2`. -/
theorem C131_step_floor (hn : 0 < n) (G : ℝ × (Fin n → ℝ) → Fin n → ℝ) (hG : ContDiff ℝ 5 G) (M : ℝ) (hM : ∀ k ≤ 5, ∀ p, ‖iteratedFDeriv ℝ k G p‖ ≤ M) :
    ∃ c, 0 < c ∧ ∀ (x : ℝ) (y : Fin n → ℝ) (xStop h tol : ℝ), 0 < tol → 0 < h → x + h ≤ xStop →
      ∃ l, RKF45 (fun t v => .ok (G (t, v))) x y xStop h tol = .ok l ∧
        List.IsChain (fun a b : ℝ × (Fin n → ℝ) => min h (c * tol ^ (1 / 5 : ℝ)) ≤ b.1 - a.1) l.dropLast ∧
        (l.length : ℝ) ≤ (xStop - x) / min h (c * tol ^ (1 / 5 : ℝ)) + 2 := by
  obtain ⟨K, hK, hF⟩ := C131_estimate hn G hG M hM
  refine ⟨9 / 10 * (1 / K) ^ (1 / 5 : ℝ), by positivity, fun x y xStop h tol htol hh hx => ?_⟩
  obtain ⟨c, hc⟩ : ∃ c, c = min h (9 / 10 * (1 / K) ^ (1 / 5 : ℝ) * tol ^ (1 / 5 : ℝ)) := ⟨_, rfl⟩
  have hc0 : 0 < c := by rw [hc]; exact lt_min hh (by positivity)
  have hck : c ≤ 9 / 10 * (tol / K) ^ (1 / 5 : ℝ) := by
    rw [hc]
    refine (min_le_right _ _).trans (le_of_eq ?_)
    rw [mul_assoc, ← Real.mul_rpow (by positivity) htol.le]
    congr 2
    ring
  obtain ⟨l, hl, -, hch⟩ := loop_floor hK htol hF xStop c hck 10000 x y h false (.inl ⟨hh, hx⟩) (fun _ => by rw [hc]; exact min_le_left _ _)
  have hrun : RKF45 (fun t v => .ok (G (t, v))) x y xStop h tol = .ok ((x, y) :: l) := by
    unfold RKF45
    rw [hl]; rfl
  rw [← hc]
  refine ⟨_, hrun, hch, ?_⟩
  obtain ⟨-, hrange⟩ := C33_no_overshoot _ _ _ _ _ _ htol hh hx _ hrun
  rw [← sub_le_iff_le_add, le_div_iff₀ hc0]
  rcases hd : ((x, y) :: l).dropLast with _ | ⟨a, m⟩
  · have : l = [] := by
      rcases l with _ | ⟨b, l⟩
      · rfl
      · simp at hd
    subst this
    simp only [List.length_singleton]
    push_cast
    linarith
  · have ha : a = (x, y) := by
      rcases l with _ | ⟨b, l⟩
      · simp at hd
      · simp at hd; exact hd.1.symm
    rw [hd] at hch
    have := chain_span m a hch (fun b hb => (hrange b (List.mem_of_mem_dropLast (hd ▸ hb))).2)
    have hlen : ((x, y) :: l).length = m.length + 2 := by
      have := congrArg List.length hd
      simp only [List.length_dropLast, List.length_cons] at this
      simp only [List.length_cons]
      omega
    rw [hlen]
    rw [ha] at this
    push_cast
    simpa using this

/-! ### The tolerance and the error -/

/-- for `|z| ≤ 1/2` the local error on `y' = λ y` (`z = λ h`) is at most the error estimate -/
theorem est_dominates {z : ℝ} (hz : |z| ≤ 1 / 2) :
    |Real.exp z - (1 + z + z ^ 2 / 2 + z ^ 3 / 6 + z ^ 4 / 24 + z ^ 5 / 120 + z ^ 6 / 800)| ≤ |277 / 1228800 * z ^ 5 * (1 - 3 / 4 * z)| := by
  have h1 := Real.exp_bound (show |z| ≤ 1 by linarith) (show 0 < 7 by norm_num)
  simp only [Finset.sum_range_succ, Finset.sum_range_zero, Nat.factorial] at h1
  norm_num at h1
  obtain ⟨hl, hr⟩ := abs_le.1 hz
  have e1 : Real.exp z - (1 + z + z ^ 2 / 2 + z ^ 3 / 6 + z ^ 4 / 24 + z ^ 5 / 120 + z ^ 6 / 800) =
    (Real.exp z - (1 + z + z ^ 2 / 2 + z ^ 3 / 6 + z ^ 4 / 24 + z ^ 5 / 120 + z ^ 6 / 720)) + z ^ 6 / 7200 := by ring
  rw [e1]
  refine (abs_add_le _ _).trans ?_
  have a0 : 0 ≤ |z| := abs_nonneg z
  have e2 : |z ^ 6 / 7200| = |z| ^ 6 / 7200 := by rw [abs_div, abs_pow]; norm_num
  have e3 : |277 / 1228800 * z ^ 5 * (1 - 3 / 4 * z)| = 277 / 1228800 * |z| ^ 5 * (1 - 3 / 4 * z) := by
    rw [abs_mul, abs_mul, abs_pow, abs_of_pos (show (0:ℝ) < 277 / 1228800 by norm_num), abs_of_pos (show 0 < 1 - 3 / 4 * z by linarith)]
  rw [e2, e3]
  have h5 : 0 ≤ |z| ^ 5 := by positivity
  have h6 : |z| ^ 6 = |z| ^ 5 * |z| := by ring
  have h7 : |z| ^ 7 = |z| ^ 5 * |z| * |z| := by ring
  have k1 : |z| ^ 6 ≤ |z| ^ 5 * (1 / 2) := by rw [h6]; exact mul_le_mul_of_nonneg_left hz h5
  have k2 : |z| ^ 7 ≤ |z| ^ 5 * (1 / 2) * (1 / 2) := by rw [h7]; gcongr
  have k3 : |z| ^ 5 * (1 - 3 / 4 * z) ≥ |z| ^ 5 * (5 / 8) := mul_le_mul_of_nonneg_left (by linarith) h5
  nlinarith

/-- one step on `y' = λ y`: increment and error estimate -/
theorem rkf45_scalar (lam x h : ℝ) (y : Fin 1 → ℝ) :
    rkf45 (fun _ v => .ok (lam • v)) x y h = .ok ((h * lam + (h * lam) ^ 2 / 2 + (h * lam) ^ 3 / 6 + (h * lam) ^ 4 / 24 + (h * lam) ^ 5 / 120 +
      (h * lam) ^ 6 / 800) • y, |277 / 1228800 * (h * lam) ^ 5 * (1 - 3 / 4 * (h * lam)) * y 0|) := by
  unfold rkf45
  simp only [Py.ok_bind, Py.pure_eq, Nat.cast_one, Py.div_ok one_ne_zero, Fin.sum_univ_one, div_one]
  rw [Py.sqrt_ok (sq_nonneg _), Py.ok_bind, Real.sqrt_sq_eq_abs]
  congr 2
  · norm_num
    module
  · rw [← abs_neg]
    congr 1
    simp only [Pi.add_apply, Pi.smul_apply, Pi.sub_apply, smul_eq_mul]
    norm_num
    ring

/-- C132, the part that holds: on `y' = λ y` (any real `λ`), as long as no step taken is longer than `1/(2|λ|)`, the error of every step is at most its
estimate, hence at most `tol`, and the error of the `m`-th sample is at most `m tol`, amplified by `exp (λ (t - x))` when `λ > 0`.
Missing: other equations, for which the claim is false in general (`C132_tolerance_false`). -/
theorem C132_linear_partial (lam x : ℝ) (y : Fin 1 → ℝ) (xStop h tol : ℝ) (htol : 0 < tol) (hh : 0 < h) (hx : x + h ≤ xStop)
    (l : List (ℝ × (Fin 1 → ℝ))) (hl : RKF45 (fun _ v => .ok (lam • v)) x y xStop h tol = .ok l)
    (hsteps : List.IsChain (fun a b => |lam| * (b.1 - a.1) ≤ 1 / 2) l) (m : ℕ) (hm : m < l.length) :
    |l[m].2 0 - y 0 * Real.exp (lam * (l[m].1 - x))| ≤ m * tol * Real.exp (max lam 0 * (l[m].1 - x)) := by
  obtain ⟨hhead, hacc⟩ := C131_accepted_steps _ _ _ _ _ _ _ hl
  obtain ⟨hinc, hrange⟩ := C33_no_overshoot _ _ _ _ _ _ htol hh hx _ hl
  rw [List.isChain_iff_getElem] at hsteps hacc hinc
  induction m with
  | zero =>
    have : l[0] = (x, y) := by
      rw [← Option.some_inj, ← hhead, List.head?_eq_getElem?, List.getElem?_eq_getElem hm]
    rw [this]; simp
  | succ m ih =>
    have hm' : m < l.length := by omega
    have h1 := ih hm'
    obtain ⟨k, e, hk, he, hb⟩ := hacc m hm
    have h2 := hinc m hm
    have h3 := hsteps m hm
    have h4 := (hrange _ (List.getElem_mem hm')).1
    obtain ⟨a, ha⟩ : ∃ a, a = l[m] := ⟨_, rfl⟩
    obtain ⟨b, hb'⟩ : ∃ b, b = l[m + 1] := ⟨_, rfl⟩
    rw [← ha] at h1 hk hb h2 h3 h4
    rw [← hb'] at hk hb h2 h3 ⊢
    have hk0 : 0 ≤ k := by linarith
    rw [hb, add_sub_cancel_left] at h3
    rw [rkf45_scalar] at hk
    obtain ⟨i1, i2⟩ := Prod.mk.inj (Except.ok.inj hk)
    have hz : |k * lam| ≤ 1 / 2 := by rw [abs_mul, abs_of_nonneg hk0]; linarith
    have hd := est_dominates hz
    obtain ⟨z, hzd⟩ : ∃ z, z = k * lam := ⟨_, rfl⟩
    rw [← hzd] at i1 i2 hd
    have hb2 : b.2 0 = (1 + z + z ^ 2 / 2 + z ^ 3 / 6 + z ^ 4 / 24 + z ^ 5 / 120 + z ^ 6 / 800) * a.2 0 := by
      have := congrFun i1 0
      simp only [Pi.smul_apply, smul_eq_mul, Pi.sub_apply] at this
      linarith
    have hloc : |b.2 0 - Real.exp z * a.2 0| ≤ tol := by
      refine le_trans (le_of_eq ?_) ((mul_le_mul_of_nonneg_right hd (abs_nonneg (a.2 0))).trans ?_)
      · rw [hb2, ← abs_mul, ← abs_neg]; congr 1; ring
      · rw [← abs_mul, i2]; exact he
    have e1 : Real.exp (lam * (b.1 - x)) = Real.exp z * Real.exp (lam * (a.1 - x)) := by
      rw [← Real.exp_add, hzd, hb]; congr 1; ring
    have e2 : Real.exp (max lam 0 * (b.1 - x)) = Real.exp (max lam 0 * k) * Real.exp (max lam 0 * (a.1 - x)) := by
      rw [← Real.exp_add, hb]; congr 1; ring
    have tot : b.2 0 - y 0 * Real.exp (lam * (b.1 - x)) = (b.2 0 - Real.exp z * a.2 0) +
        Real.exp z * (a.2 0 - y 0 * Real.exp (lam * (a.1 - x))) := by rw [e1]; ring
    rw [tot]
    refine (abs_add_le _ _).trans ?_
    rw [abs_mul, abs_of_pos (Real.exp_pos z)]
    have g1 : Real.exp z ≤ Real.exp (max lam 0 * k) := Real.exp_le_exp.2 (by
      rw [hzd, mul_comm]; exact mul_le_mul_of_nonneg_right (le_max_left _ _) hk0)
    have g2 : 1 ≤ Real.exp (max lam 0 * (b.1 - x)) := Real.one_le_exp (mul_nonneg (le_max_right _ _) (by rw [hb]; linarith))
    have g3 : Real.exp z * |a.2 0 - y 0 * Real.exp (lam * (a.1 - x))| ≤
        Real.exp (max lam 0 * k) * (m * tol * Real.exp (max lam 0 * (a.1 - x))) := by gcongr
    have g4 : tol ≤ tol * Real.exp (max lam 0 * (b.1 - x)) := le_mul_of_one_le_right htol.le g2
    have g5 : ((m + 1 : ℕ) : ℝ) * tol * Real.exp (max lam 0 * (b.1 - x)) =
        tol * Real.exp (max lam 0 * (b.1 - x)) + Real.exp (max lam 0 * k) * (m * tol * Real.exp (max lam 0 * (a.1 - x))) := by
      rw [e2]; push_cast; ring
    rw [g5]
    linarith

/-- such runs exist: `y' = -y` on `[0, 1/2]` from `y = 1` returns, and all its steps are short enough -/
example : ∃ l, RKF45 (fun _ v => .ok ((-1 : ℝ) • v)) 0 (fun _ : Fin 1 => 1) (1 / 2) (1 / 4) 1 = .ok l ∧
    List.IsChain (fun a b => |(-1:ℝ)| * (b.1 - a.1) ≤ 1 / 2) l := by
  have key := C131_returns (n := 1) one_pos (fun p => (-1 : ℝ) • p.2) 0 (fun _ => 1) (1 / 2) (1 / 4) 1 one_pos
  obtain ⟨l, hl⟩ := key
  obtain ⟨hinc, hrange⟩ := C33_no_overshoot _ _ _ _ _ _ one_pos (by norm_num) (by norm_num) _ hl
  refine ⟨l, hl, ?_⟩
  rw [List.isChain_iff_getElem]
  intro i hi
  have h1 := (hrange _ (List.getElem_mem (show i < l.length by omega))).1
  have h2 := (hrange _ (List.getElem_mem hi)).2
  norm_num
  linarith

/-- C132 is false in general: for every tolerance and every bound `B` there is a polynomial right-hand side, with a known exact
solution, for which the run from 0 to 1 with initial step 1 accepts its steps with an error estimate of exactly 0, reaches `xStop`, and is wrong by more
than `B`. -/
theorem C132_tolerance_false (tol : ℝ) (htol : 0 < tol) (B : ℝ) : ∃ (g : ℝ → ℝ) (sol : ℝ → Fin 1 → ℝ), Continuous g ∧
    (∀ t, HasDerivAt sol (fun _ => g t) t) ∧
    ∃ v : Fin 1 → ℝ, RKF45 (fun t _ => .ok (fun _ => g t)) 0 (sol 0) 1 1 tol = .ok [(0, sol 0), (1, v), (1, v)] ∧ B < ‖v - sol 1‖ := by
  obtain ⟨c, hc⟩ : ∃ c : ℝ, c = 168000 / 17 * (|B| + 1) := ⟨_, rfl⟩
  obtain ⟨g, hg⟩ : ∃ g : ℝ → ℝ, g = fun t => c * (t * (t - 1 / 5) * (t - 3 / 10) * (t - 3 / 5) * (t - 7 / 8) * (t - 1)) := ⟨_, rfl⟩
  obtain ⟨P, hP⟩ : ∃ P : ℝ → ℝ, P = fun t => c * (-63 / 4000 * t ^ 2 + 51 / 400 * t ^ 3 - 3347 / 8000 * t ^ 4 + 1319 / 2000 * t ^ 5 - 119 / 240 * t ^ 6 +
    1 / 7 * t ^ 7) := ⟨_, rfl⟩
  have hd : ∀ t, HasDerivAt P (g t) t := by
    intro t
    rw [hP, hg]
    have q : ∀ (m : ℕ) (r : ℝ), HasDerivAt (fun t : ℝ => r * t ^ m) (r * (m * t ^ (m - 1))) t := fun m r => (hasDerivAt_pow m t).const_mul r
    refine (((((((q 2 (-63 / 4000)).add (q 3 (51 / 400))).sub (q 4 (3347 / 8000))).add (q 5 (1319 / 2000))).sub (q 6 (119 / 240))).add
      (q 7 (1 / 7))).const_mul c).congr_deriv ?_
    simp only [Nat.cast_ofNat, Nat.reduceSub, pow_one]
    ring
  refine ⟨g, fun t _ => P t, by rw [hg]; fun_prop, fun t => hasDerivAt_pi.2 fun _ => hd t, fun _ => P 0, ?_, ?_⟩
  · have hz : ∀ (x h : ℝ) (y : Fin 1 → ℝ), g x = 0 → g (x + 1 / 5 * h) = 0 → g (x + 3 / 10 * h) = 0 → g (x + 3 / 5 * h) = 0 → g (x + h) = 0 →
        g (x + 7 / 8 * h) = 0 → rkf45 (n := 1) (fun t _ => .ok (fun _ => g t)) x y h = .ok (0, 0) := by
      intro x h y h1 h2 h3 h4 h5 h6
      have z : (fun _ : Fin 1 => (0:ℝ)) = 0 := rfl
      have l1 : (1.0 : ℝ) = 1 := by norm_num
      have l3 : (3.0 : ℝ) = 3 := by norm_num
      have l7 : (7.0 : ℝ) = 7 := by norm_num
      unfold rkf45
      simp only [Py.ok_bind, l1, l3, l7, h1, h2, h3, h4, h5, h6, z, smul_zero, add_zero, Pi.zero_apply]
      norm_num [Py.div_ok, Py.sqrt_ok]
    have s1 := hz 0 1 (fun _ => P 0) (by rw [hg]; ring) (by rw [hg]; ring) (by rw [hg]; ring) (by rw [hg]; ring) (by rw [hg]; ring) (by rw [hg]; ring)
    have s2 := hz 1 0 (fun _ => P 0) (by rw [hg]; ring) (by rw [hg]; ring) (by rw [hg]; ring) (by rw [hg]; ring) (by rw [hg]; ring) (by rw [hg]; ring)
    unfold RKF45
    rw [show (10000:ℕ) = 9998 + 1 + 1 from rfl, RKF45loop, s1]
    have n1 : nextStep 1 tol (0 + 1) 1 0 false = .ok (0, true) := by
      unfold nextStep; rw [l0_0]; norm_num
    simp only [Py.ok_bind, n1, if_pos htol.le]
    rw [if_neg (by simp), RKF45loop]
    simp only [zero_add, add_zero, s2, Py.ok_bind, if_pos htol.le, if_true]
    rfl
  · have e : (fun _ : Fin 1 => P 0) - (fun _ : Fin 1 => P 1) = fun _ => |B| + 1 := by
      funext i
      rw [hP, hc]
      simp only [Pi.sub_apply]
      ring
    show B < ‖(fun _ : Fin 1 => P 0) - (fun _ : Fin 1 => P 1)‖
    rw [e]
    have h1 := norm_le_pi_norm (fun _ : Fin 1 => |B| + 1) 0
    have h2 : ‖|B| + 1‖ = |B| + 1 := Real.norm_of_nonneg (by positivity)
    have h3 := le_abs_self B
    simp only [h2] at h1
    linarith

/-- the hypotheses are met by a nonlinear, time-dependent equation (`y' = cos (t - y)`) with a non-constant solution -/
example : ∃ (G : ℝ × (Fin 1 → ℝ) → Fin 1 → ℝ) (M : ℝ) (sol : ℝ → Fin 1 → ℝ), ContDiff ℝ 5 G ∧ (∀ k ≤ 5, ∀ p, ‖iteratedFDeriv ℝ k G p‖ ≤ M) ∧
    (∀ t, HasDerivAt sol (G (t, sol t)) t) ∧ sol 0 ≠ sol 1 := by
  let Λ : ℝ × (Fin 1 → ℝ) →L[ℝ] ℝ := ContinuousLinearMap.fst ℝ ℝ (Fin 1 → ℝ) - (ContinuousLinearMap.proj (R := ℝ) (φ := fun _ : Fin 1 => ℝ) 0).comp
    (ContinuousLinearMap.snd ℝ ℝ (Fin 1 → ℝ))
  let J : ℝ →L[ℝ] (Fin 1 → ℝ) := ContinuousLinearMap.pi fun _ => ContinuousLinearMap.id ℝ ℝ
  have hΛ : ‖Λ‖ ≤ 2 := by
    refine Λ.opNorm_le_bound (by norm_num) fun p => ?_
    have h1 := norm_fst_le p
    have h2 := norm_snd_le p
    have h3 := norm_le_pi_norm p.2 0
    show ‖p.1 - p.2 0‖ ≤ _
    exact (norm_sub_le _ _).trans (by linarith)
  have hJ : ‖J‖ ≤ 1 := by
    refine J.opNorm_le_bound (by norm_num) fun p => ?_
    rw [one_mul]
    exact (pi_norm_le_iff_of_nonneg (norm_nonneg _)).2 fun i => le_rfl
  have hcos : ContDiff ℝ 5 (Real.cos ∘ Λ) := Real.contDiff_cos.comp Λ.contDiff
  refine ⟨J ∘ (Real.cos ∘ Λ), 32, fun t _ => t, J.contDiff.comp hcos, ?_, ?_, fun h => by simpa using congrFun h 0⟩
  · intro k hk p
    refine (J.norm_iteratedFDeriv_comp_left (N := 5) hcos.contDiffAt (by exact_mod_cast hk)).trans ?_
    have h0 : ‖iteratedFDeriv ℝ k (Real.cos ∘ Λ) p‖ ≤ 32 := by
      rw [Λ.iteratedFDeriv_comp_right (n := 5) Real.contDiff_cos p (by exact_mod_cast hk)]
      refine (ContinuousMultilinearMap.norm_compContinuousLinearMap_le _ _).trans ?_
      have h1 : ‖iteratedFDeriv ℝ k Real.cos (Λ p)‖ ≤ 1 := by
        rw [norm_iteratedFDeriv_eq_norm_iteratedDeriv]
        rcases Nat.even_or_odd' k with ⟨c, rfl | rfl⟩
        · rw [Real.iteratedDeriv_even_cos]
          simpa using Real.abs_cos_le_one (Λ p)
        · rw [Real.iteratedDeriv_odd_cos]
          simpa using Real.abs_sin_le_one (Λ p)
      have h2 : ∏ i : Fin k, ‖Λ‖ ≤ 32 := by
        rw [Finset.prod_const, Finset.card_univ, Fintype.card_fin]
        calc ‖Λ‖ ^ k ≤ 2 ^ k := pow_le_pow_left₀ (norm_nonneg _) hΛ k
          _ ≤ 2 ^ 5 := pow_le_pow_right₀ (by norm_num) hk
          _ = 32 := by norm_num
      have h3 : 0 ≤ ∏ i : Fin k, ‖Λ‖ := Finset.prod_nonneg fun _ _ => norm_nonneg _
      have := norm_nonneg (iteratedFDeriv ℝ k Real.cos (Λ p))
      nlinarith
    have := norm_nonneg (iteratedFDeriv ℝ k (Real.cos ∘ Λ) p)
    have := norm_nonneg J
    nlinarith
  · intro t
    have : (J ∘ (Real.cos ∘ Λ)) (t, fun _ => t) = fun _ => 1 := by
      funext i
      simp [Λ, J]
    rw [this]
    exact hasDerivAt_pi.2 fun _ => hasDerivAt_id t

end

end Aerokit.Props
