import Verif.Model.Ode
import Verif.Lemmas.Lits
import Mathlib.Tactic.Module
import Mathlib.Algebra.Polynomial.Eval.Degree
import Mathlib.Algebra.Polynomial.Derivative
import Mathlib.Algebra.Order.Floor.Ring
import Mathlib.Data.List.Chain
import Mathlib.Data.Fintype.BigOperators

/-! # Properties C30–C33 : `aerokit/common/_ode.py` -/

namespace Aerokit.Props
open Ode

section RK4
variable {E : Type} [AddCommGroup E] [Module ℝ E]

/-- two consecutive samples are related by one Runge-Kutta step -/
def RKStep (F : ℝ → E → Py E) (a b : ℝ × E) : Prop :=
  ∃ dy, run_kut4 F a.1 a.2 (b.1 - a.1) = .ok dy ∧ b.2 = a.2 + dy

theorem RK4loop_sound (F : ℝ → E → Py E) (xStop : ℝ) : ∀ (fuel : ℕ) (x : ℝ) (y : E) (h : ℝ)
    (l : List (ℝ × E)), 0 < h → RK4loop F xStop fuel x y h = .ok l →
    List.IsChain (RKStep F) ((x, y) :: l) ∧
    ((x, y) :: l).map Prod.fst = (List.range ⌈(xStop - x) / h⌉₊).map (fun i : ℕ => x + i * h) ++
      [max x xStop] := by
  intro fuel
  induction fuel with
  | zero =>
    intro x y h l hh hl
    by_cases hx : x < xStop
    · simp [RK4loop, if_pos hx] at hl
    · simp only [RK4loop, if_neg hx, Except.ok.injEq] at hl
      subst hl
      have : ⌈(xStop - x) / h⌉₊ = 0 := Nat.ceil_eq_zero.2 (div_nonpos_of_nonpos_of_nonneg (by linarith) hh.le)
      simp [this, max_eq_left (not_lt.1 hx)]
  | succ fuel ih =>
    intro x y h l hh hl
    by_cases hx : x < xStop
    · rw [RK4loop, if_pos hx] at hl
      simp only [] at hl
      have hm : 0 < min h (xStop - x) := lt_min hh (by linarith)
      rcases hk : run_kut4 F x y (min h (xStop - x)) with e | dy
      · rw [hk] at hl; simp at hl
      · rw [hk, Py.ok_bind] at hl
        rcases hr : RK4loop F xStop fuel (x + min h (xStop - x)) (y + dy) (min h (xStop - x)) with e | rest
        · rw [hr] at hl; simp at hl
        · rw [hr, Py.ok_bind] at hl
          simp only [Py.pure_eq, Except.ok.injEq] at hl
          subst hl
          obtain ⟨hc, hmap⟩ := ih _ _ _ _ hm hr
          refine ⟨?_, ?_⟩
          · refine List.IsChain.cons_cons ⟨dy, ?_, rfl⟩ hc
            simpa using hk
          · rw [List.map_cons, hmap]
            by_cases hle : xStop - x ≤ h
            · rw [min_eq_right hle]
              have h1 : ⌈(xStop - x) / h⌉₊ = 1 := by
                rw [Nat.ceil_eq_iff (by norm_num)]
                refine ⟨?_, ?_⟩
                · simpa using div_pos (sub_pos.2 hx) hh
                · simpa using (div_le_one hh).2 hle
              have h0 : x + (xStop - x) = xStop := by ring
              simp [h1, h0, max_eq_right hx.le]
            · push Not at hle
              rw [min_eq_left hle.le]
              have h1 : ⌈(xStop - x) / h⌉₊ = ⌈(xStop - (x + h)) / h⌉₊ + 1 := by
                rw [← Nat.ceil_add_one (div_nonneg (by linarith) hh.le)]
                congr 1
                field_simp; ring
              rw [h1, List.range_succ_eq_map, max_eq_right hx.le, max_eq_right (by linarith)]
              simp only [List.map_cons, List.map_map, Nat.cast_zero, zero_mul, add_zero,
                List.cons_append]
              congr 2
              apply List.map_congr_left
              intro i _
              simp only [Function.comp_apply, Nat.succ_eq_add_one, Nat.cast_add, Nat.cast_one]; ring
    · rw [RK4loop, if_neg hx] at hl
      simp only [Except.ok.injEq] at hl
      subst hl
      have : ⌈(xStop - x) / h⌉₊ = 0 := Nat.ceil_eq_zero.2 (div_nonpos_of_nonpos_of_nonneg (by linarith) hh.le)
      simp [this, max_eq_left (not_lt.1 hx)]

/-- C30: for every right-hand side and every `h > 0`, when `RK4` returns, its abscissae are exactly
`x, x+h, x+2h, …` below `xStop` followed by `xStop` itself (by `x` alone if `x ≥ xStop`), and every
sample comes from the previous one by one Runge-Kutta step. -/
theorem C30_samples (fuel : ℕ) (F : ℝ → E → Py E) (x : ℝ) (y : E) (xStop h : ℝ) (hh : 0 < h)
    (l : List (ℝ × E)) (hl : RK4 fuel F x y xStop h = .ok l) :
    l.head? = some (x, y) ∧
    l.map Prod.fst = (List.range ⌈(xStop - x) / h⌉₊).map (fun i : ℕ => x + i * h) ++ [max x xStop] ∧
    List.IsChain (RKStep F) l := by
  unfold RK4 at hl
  rcases hr : RK4loop F xStop fuel x y h with e | rest
  · rw [hr] at hl; simp at hl
  · rw [hr] at hl
    simp only [Py.ok_bind, Py.pure_eq, Except.ok.injEq] at hl
    subst hl
    obtain ⟨h1, h2⟩ := RK4loop_sound F xStop fuel x y h rest hh hr
    exact ⟨rfl, h2, h1⟩

/-- C30: consequently the abscissae strictly increase, with steps of at most `h`, from `x` to
exactly `xStop`. -/
theorem C30_increasing (fuel : ℕ) (F : ℝ → E → Py E) (x : ℝ) (y : E) (xStop h : ℝ) (hh : 0 < h)
    (hx : x ≤ xStop) (l : List (ℝ × E)) (hl : RK4 fuel F x y xStop h = .ok l) :
    List.IsChain (fun a b => a.1 < b.1 ∧ b.1 ≤ a.1 + h) l ∧
    (l.map Prod.fst).head? = some x ∧ (l.map Prod.fst).getLast? = some xStop := by
  obtain ⟨h1, h2, -⟩ := C30_samples fuel F x y xStop h hh l hl
  refine ⟨?_, by rw [List.head?_map, h1]; rfl, by rw [h2, max_eq_right hx]; simp⟩
  have hc : List.IsChain (fun a b : ℝ => a < b ∧ b ≤ a + h) (l.map Prod.fst) := by
    rw [h2, max_eq_right hx]
    obtain ⟨n, hn⟩ : ∃ n, n = ⌈(xStop - x) / h⌉₊ := ⟨_, rfl⟩
    rw [← hn]
    rw [List.isChain_append]
    refine ⟨?_, by simp, ?_⟩
    · rw [List.isChain_map, List.isChain_iff_getElem]
      intro i hi
      simp only [List.getElem_range]
      push_cast
      constructor <;> nlinarith
    · intro a ha b hb
      simp at hb; subst hb
      rcases n with _ | n
      · simp at ha
      · rw [List.range_succ, List.map_append] at ha
        simp at ha
        subst ha
        have h3 := (Nat.ceil_eq_iff (n := n + 1) (by omega)).1 hn.symm
        simp only [Nat.add_sub_cancel] at h3
        rw [lt_div_iff₀ hh, div_le_iff₀ hh] at h3
        push_cast at h3
        constructor <;> nlinarith
  rw [List.isChain_map] at hc
  exact hc

theorem RK4_total (G : ℝ → E → E) (x : ℝ) (y : E) (h : ℝ) :
    ∃ dy, run_kut4 (fun x y => .ok (G x y)) x y h = .ok dy := ⟨_, rfl⟩

theorem RK4loop_terminates (G : ℝ → E → E) (xStop : ℝ) : ∀ (fuel : ℕ) (x : ℝ) (y : E) (h : ℝ),
    0 < h → (xStop - x) / h ≤ fuel → ∃ l, RK4loop (fun x y => .ok (G x y)) xStop fuel x y h = .ok l := by
  intro fuel
  induction fuel with
  | zero =>
    intro x y h hh hf
    have hx : ¬ x < xStop := by
      rw [div_le_iff₀ hh] at hf; simp at hf; exact not_lt.2 hf
    exact ⟨[], by rw [RK4loop, if_neg hx]⟩
  | succ n ih =>
    intro x y h hh hf
    by_cases hx : x < xStop
    · have hm : 0 < min h (xStop - x) := lt_min hh (by linarith)
      obtain ⟨dy, hdy⟩ := RK4_total G x y (min h (xStop - x))
      obtain ⟨l, hl⟩ := ih (x + min h (xStop - x)) (y + dy) (min h (xStop - x)) hm (by
        by_cases hle : xStop - x ≤ h
        · rw [min_eq_right hle]; simp
        · push Not at hle
          rw [min_eq_left hle.le]
          rw [div_le_iff₀ hh] at hf ⊢
          push_cast at hf; linarith)
      refine ⟨(x + min h (xStop - x), y + dy) :: l, ?_⟩
      rw [RK4loop, if_pos hx]
      simp only [hdy, Py.ok_bind, hl, Py.pure_eq]
    · exact ⟨[], by rw [RK4loop, if_neg hx]⟩

/-- C30: for `h > 0` and a right-hand side that does not fail, `RK4` terminates: `⌈(xStop-x)/h⌉`
loop iterations are enough. -/
theorem C30_terminates (G : ℝ → E → E) (x : ℝ) (y : E) (xStop h : ℝ) (hh : 0 < h) (fuel : ℕ)
    (hf : ⌈(xStop - x) / h⌉₊ ≤ fuel) :
    ∃ l, RK4 fuel (fun x y => .ok (G x y)) x y xStop h = .ok l := by
  obtain ⟨l, hl⟩ := RK4loop_terminates G xStop fuel x y h hh ((Nat.le_ceil _).trans (by exact_mod_cast hf))
  exact ⟨(x, y) :: l, by unfold RK4; rw [hl]; rfl⟩

/-- C30: for `h ≤ 0` and `x < xStop`, `RK4` never terminates: no number of iterations suffices. -/
theorem C30_nonterminating (G : ℝ → E → E) (xStop : ℝ) (fuel : ℕ) : ∀ (x : ℝ) (y : E) (h : ℝ),
    h ≤ 0 → x < xStop → RK4 fuel (fun x y => .ok (G x y)) x y xStop h = .error .outOfFuel := by
  suffices H : ∀ (x : ℝ) (y : E) (h : ℝ), h ≤ 0 → x < xStop →
      RK4loop (fun x y => .ok (G x y)) xStop fuel x y h = .error .outOfFuel by
    intro x y h hh hx
    unfold RK4; rw [H x y h hh hx]; rfl
  induction fuel with
  | zero => intro x y h _ hx; rw [RK4loop, if_pos hx]
  | succ n ih =>
    intro x y h hh hx
    rw [RK4loop, if_pos hx]
    have hm : min h (xStop - x) = h := min_eq_left (by linarith)
    obtain ⟨dy, hdy⟩ := RK4_total G x y h
    simp only [hm, hdy, Py.ok_bind, ih (x + h) (y + dy) h hh (by linarith), Py.error_bind]

example : (0:ℝ) < 0.3 ∧ (0:ℝ) ≤ 1 ∧ ⌈((1:ℝ) - 0) / 0.3⌉₊ ≤ 4 := by
  refine ⟨by norm_num, by norm_num, Nat.ceil_le.2 (by norm_num)⟩

/-- C31: one step is exact for every right-hand side that is the derivative of a polynomial of
degree at most 4 (Simpson's rule). -/
theorem C31_exact_cubic (Q : Polynomial ℝ) (hQ : Q.natDegree ≤ 4) (x y h : ℝ) :
    run_kut4 (fun t _ => .ok (Q.derivative.eval t)) x y h = .ok (Q.eval (x + h) - Q.eval x) := by
  have e1 : ∀ t, Q.eval t = ∑ i ∈ Finset.range 5, Q.coeff i * t ^ i :=
    fun t => Polynomial.eval_eq_sum_range' (by omega) t
  have e2 : ∀ t, Q.derivative.eval t = ∑ i ∈ Finset.range 4, Q.derivative.coeff i * t ^ i :=
    fun t => Polynomial.eval_eq_sum_range' (by
      have := Polynomial.natDegree_derivative_le Q; omega) t
  unfold run_kut4
  simp only [Py.ok_bind, Py.pure_eq, e1, e2, Finset.sum_range_succ, Finset.sum_range_zero,
    Polynomial.coeff_derivative, smul_eq_mul]
  congr 1
  norm_num
  ring

/-- C31: on the linear system `y' = A y` (any linear operator) the increment is the Taylor
polynomial of degree 4 of `exp(hA) - 1`. -/
theorem C31_linear (A : E →ₗ[ℝ] E) (x h : ℝ) (y : E) :
    run_kut4 (fun _ y => .ok (A y)) x y h = .ok (h • A y + (h ^ 2 / 2) • A (A y)
      + (h ^ 3 / 6) • A (A (A y)) + (h ^ 4 / 24) • A (A (A (A y)))) := by
  unfold run_kut4
  simp only [Py.ok_bind, Py.pure_eq, map_add, map_smul]
  congr 1
  norm_num
  module

/-- C31: a system with constant right-hand side is integrated exactly. -/
theorem C31_constant (c : E) (x h : ℝ) (y : E) :
    run_kut4 (fun _ _ => .ok c) x y h = .ok (h • c) := by
  unfold run_kut4
  simp only [Py.ok_bind, Py.pure_eq]
  congr 1
  norm_num
  module

example : (Polynomial.X ^ 4 : Polynomial ℝ).natDegree ≤ 4 := by simp

end RK4

section RKF45
variable {n : ℕ}

/-- C32: one Cash–Karp step is exact, component by component, for polynomial right-hand sides of
degree at most 4 (`Q i` of degree at most 5). -/
theorem C32_exact_quartic (hn : 0 < n) (Q : Fin n → Polynomial ℝ) (hQ : ∀ i, (Q i).natDegree ≤ 5)
    (x : ℝ) (y : Fin n → ℝ) (h : ℝ) :
    ∃ e, rkf45 (fun t _ => .ok fun i => (Q i).derivative.eval t) x y h
      = .ok (fun i => (Q i).eval (x + h) - (Q i).eval x, e) := by
  have e1 : ∀ i t, (Q i).eval t = ∑ k ∈ Finset.range 6, (Q i).coeff k * t ^ k :=
    fun i t => Polynomial.eval_eq_sum_range' (by have := hQ i; omega) t
  have e2 : ∀ i t, (Q i).derivative.eval t = ∑ k ∈ Finset.range 5, (Q i).derivative.coeff k * t ^ k :=
    fun i t => Polynomial.eval_eq_sum_range' (by
      have := Polynomial.natDegree_derivative_le (Q i); have := hQ i; omega) t
  have hn' : (n:ℝ) ≠ 0 := by positivity
  unfold rkf45
  simp only [Py.ok_bind, Py.pure_eq, Py.div_ok hn']
  rw [Py.sqrt_ok (div_nonneg (Finset.sum_nonneg fun _ _ => sq_nonneg _) (Nat.cast_nonneg _)), Py.ok_bind]
  refine ⟨_, congrArg _ (Prod.ext ?_ rfl)⟩
  funext i
  simp only [Pi.add_apply, Pi.smul_apply, smul_eq_mul, e1, e2, Finset.sum_range_succ,
    Finset.sum_range_zero, Polynomial.coeff_derivative]
  norm_num
  ring

/-- C32: the error estimate is zero for polynomial right-hand sides of degree at most 3. -/
theorem C32_zero_error_cubic (hn : 0 < n) (Q : Fin n → Polynomial ℝ) (hQ : ∀ i, (Q i).natDegree ≤ 4)
    (x : ℝ) (y : Fin n → ℝ) (h : ℝ) :
    rkf45 (fun t _ => .ok fun i => (Q i).derivative.eval t) x y h
      = .ok (fun i => (Q i).eval (x + h) - (Q i).eval x, 0) := by
  have e2 : ∀ i t, (Q i).derivative.eval t = ∑ k ∈ Finset.range 4, (Q i).derivative.coeff k * t ^ k :=
    fun i t => Polynomial.eval_eq_sum_range' (by
      have := Polynomial.natDegree_derivative_le (Q i); have := hQ i; omega) t
  have hn' : (n:ℝ) ≠ 0 := by positivity
  obtain ⟨e, he⟩ := C32_exact_quartic hn Q (fun i => (hQ i).trans (by norm_num)) x y h
  rw [he]
  congr 2
  unfold rkf45 at he
  simp only [Py.ok_bind, Py.pure_eq, Py.div_ok hn'] at he
  rw [Py.sqrt_ok (div_nonneg (Finset.sum_nonneg fun _ _ => sq_nonneg _) (Nat.cast_nonneg _)), Py.ok_bind] at he
  have := (Prod.mk.inj (Except.ok.inj he)).2
  rw [← this]
  rw [Real.sqrt_eq_zero (div_nonneg (Finset.sum_nonneg fun _ _ => sq_nonneg _) (Nat.cast_nonneg _)), div_eq_zero_iff]
  left
  apply Finset.sum_eq_zero
  intro i _
  simp only [Pi.add_apply, Pi.smul_apply, smul_eq_mul, e2, Finset.sum_range_succ,
    Finset.sum_range_zero, Polynomial.coeff_derivative]
  norm_num
  ring

/-- C32: on the linear system `y' = A y` the increment is the Taylor polynomial of degree 5 of
`exp(hA) - 1`, plus `(hA)⁶/800`. -/
theorem C32_linear (hn : 0 < n) (A : (Fin n → ℝ) →ₗ[ℝ] (Fin n → ℝ)) (x h : ℝ) (y : Fin n → ℝ) :
    ∃ e, rkf45 (fun _ y => .ok (A y)) x y h =
      .ok (h • A y + (h ^ 2 / 2) • A (A y) + (h ^ 3 / 6) • A (A (A y))
        + (h ^ 4 / 24) • A (A (A (A y))) + (h ^ 5 / 120) • A (A (A (A (A y))))
        + (h ^ 6 / 800) • A (A (A (A (A (A y))))), e) := by
  have hn' : (n:ℝ) ≠ 0 := by positivity
  unfold rkf45
  simp only [Py.ok_bind, Py.pure_eq, Py.div_ok hn']
  rw [Py.sqrt_ok (div_nonneg (Finset.sum_nonneg fun _ _ => sq_nonneg _) (Nat.cast_nonneg _)), Py.ok_bind]
  refine ⟨_, congrArg _ (Prod.ext ?_ rfl)⟩
  simp only [map_add, map_smul, map_sub]
  norm_num
  module

example : (0:ℕ) < 2 ∧ (Polynomial.X ^ 5 : Polynomial ℝ).natDegree ≤ 5 := by simp

/-! ### C33 -/

/-- `nextStep` when no error is reported -/
theorem nextStep_pos {xStop tol x h e : ℝ} {b : Bool} {h' : ℝ} {b' : Bool} (hh : 0 < h) (he : 0 ≤ e)
    (htol : 0 < tol) (hs : nextStep xStop tol x h e b = .ok (h', b')) :
    (h' = xStop - x ∧ b' = true) ∨ (0 < h' ∧ x + h' < xStop ∧ b' = b) := by
  unfold nextStep at hs
  rw [l0_0, l0_2] at hs
  by_cases h0 : e = 0
  · simp only [h0, ne_eq, not_true_eq_false, if_false, Py.pure_eq, Py.ok_bind, hh, true_iff] at hs
    split_ifs at hs with h1
    · left; simpa [eq_comm] using hs
    · right
      simp only [Except.ok.injEq, Prod.mk.injEq] at hs
      rw [← hs.1, ← hs.2]
      exact ⟨hh, not_le.1 h1, rfl⟩
  · have hq : 0 < tol / e := by positivity
    have hp := Real.rpow_pos_of_pos hq (1 / 5)
    simp only [ne_eq, h0, not_false_eq_true, if_true, Py.div_ok h0, Py.ok_bind, Py.pow_ok _ hq,
      Py.pure_eq, hh, true_iff] at hs
    split_ifs at hs with h1
    · left; simpa [eq_comm] using hs
    · right
      simp only [Except.ok.injEq, Prod.mk.injEq] at hs
      rw [← hs.1, ← hs.2]
      exact ⟨by positivity, not_le.1 h1, rfl⟩

theorem rkf45_err_nonneg {F : ℝ → (Fin n → ℝ) → Py (Fin n → ℝ)} {x : ℝ} {y : Fin n → ℝ} {h : ℝ}
    {dy : Fin n → ℝ} {e : ℝ} (hr : rkf45 F x y h = .ok (dy, e)) : 0 ≤ e := by
  unfold rkf45 at hr
  simp only [bind, Except.bind] at hr
  repeat' (split at hr)
  all_goals first
    | (simp at hr; done)
    | skip
  rename_i _ _ q _ _ r hsq
  unfold Py.sqrt at hsq
  split_ifs at hsq
  simp only [Except.ok.injEq] at hsq
  have := (Prod.mk.inj (Except.ok.inj hr)).2
  rw [← this, ← hsq]
  exact Real.sqrt_nonneg _

/-- step sizes and abscissae reachable inside the loop -/
def StepInv (xStop x h : ℝ) (b : Bool) : Prop :=
  (0 < h ∧ x + h ≤ xStop) ∨ (h = 0 ∧ x = xStop ∧ b = true)

theorem nextStep_inv {xStop tol x h e : ℝ} {b : Bool} {h' : ℝ} {b' : Bool} (he : 0 ≤ e)
    (htol : 0 < tol) (hx : x ≤ xStop) (hinv : 0 < h ∨ (h = 0 ∧ x = xStop ∧ b = true))
    (hs : nextStep xStop tol x h e b = .ok (h', b')) :
    StepInv xStop x h' b' ∧ (b' = true → b = false → x + h' = xStop) := by
  rcases hinv with hh | ⟨rfl, rfl, rfl⟩
  · rcases nextStep_pos hh he htol hs with ⟨rfl, rfl⟩ | ⟨h1, h2, rfl⟩
    · refine ⟨?_, fun _ _ => by ring⟩
      rcases hx.eq_or_lt with h | h
      · right; exact ⟨by rw [h]; ring, h, rfl⟩
      · left; exact ⟨by linarith, by linarith⟩
    · exact ⟨.inl ⟨h1, h2.le⟩, fun h3 h4 => by rw [h3] at h4; simp at h4⟩
  · have : h' = 0 ∧ b' = true := by
      unfold nextStep at hs
      rw [l0_0, l0_2] at hs
      by_cases h0 : e = 0
      · simp [h0] at hs
        exact ⟨hs.1.symm, hs.2⟩
      · have hq : 0 < tol / e := by positivity
        simp [h0, Py.div_ok h0, Py.pow_ok _ hq] at hs
        exact ⟨hs.1.symm, hs.2⟩
    obtain ⟨rfl, rfl⟩ := this
    exact ⟨.inr ⟨rfl, rfl, rfl⟩, fun _ h => by simp at h⟩

theorem RKF45loop_bounds (F : ℝ → (Fin n → ℝ) → Py (Fin n → ℝ)) (xStop tol : ℝ) (htol : 0 < tol) :
    ∀ (left : ℕ) (x : ℝ) (y : Fin n → ℝ) (h : ℝ) (b : Bool) (l : List (ℝ × (Fin n → ℝ))),
    StepInv xStop x h b → RKF45loop F xStop tol left x y h b = .ok l →
    List.IsChain (fun a b => a.1 ≤ b.1) ((x, y) :: l) ∧ ∀ a ∈ l, a.1 ≤ xStop := by
  intro left
  induction left with
  | zero =>
    intro x y h b l _ hl
    simp only [RKF45loop, Except.ok.injEq] at hl
    subst hl; simp
  | succ left ih =>
    intro x y h b l hinv hl
    have hle : x ≤ x + h ∧ x + h ≤ xStop := by
      rcases hinv with ⟨h1, h2⟩ | ⟨h1, h2, -⟩
      · exact ⟨by linarith, h2⟩
      · rw [h1, h2]; simp
    rw [RKF45loop] at hl
    rcases hr : rkf45 F x y h with er | ⟨dy, e⟩
    · rw [hr] at hl; simp at hl
    · have he := rkf45_err_nonneg hr
      rw [hr] at hl
      simp only [Py.ok_bind] at hl
      by_cases hacc : e ≤ tol
      · rw [if_pos hacc] at hl
        by_cases hb : b = true
        · rw [if_pos hb] at hl
          simp only [Py.pure_eq, Except.ok.injEq] at hl
          subst hl
          simp [hle]
        · rw [if_neg hb] at hl
          rcases hns : nextStep xStop tol (x + h) h e b with er | ⟨h', b'⟩
          · rw [hns] at hl; simp at hl
          · rw [hns] at hl
            simp only [Py.ok_bind] at hl
            rcases hrest : RKF45loop F xStop tol left (x + h) (y + dy) h' b' with er | rest
            · rw [hrest] at hl; simp at hl
            · rw [hrest] at hl
              simp only [Py.ok_bind, Py.pure_eq, Except.ok.injEq] at hl
              subst hl
              have hpos : 0 < h := by
                rcases hinv with ⟨h1, _⟩ | ⟨_, _, h3⟩
                · exact h1
                · exact absurd h3 hb
              have hi := (nextStep_inv he htol hle.2 (.inl hpos) hns).1
              obtain ⟨c1, c2⟩ := ih _ _ _ _ _ hi hrest
              refine ⟨List.IsChain.cons_cons hle.1 c1, ?_⟩
              intro a ha
              rcases List.mem_cons.1 ha with rfl | ha
              · exact hle.2
              · exact c2 a ha
      · rw [if_neg hacc] at hl
        rcases hns : nextStep xStop tol x h e b with er | ⟨h', b'⟩
        · rw [hns] at hl; simp at hl
        · rw [hns] at hl
          simp only [Py.ok_bind] at hl
          have hi := (nextStep_inv he htol (hle.1.trans hle.2) (by
            rcases hinv with ⟨h1, _⟩ | h
            · exact .inl h1
            · exact .inr h) hns).1
          exact ih _ _ _ _ _ hi hl

/-- C33 (holds): started with `0 < h ≤ xStop - x`, for every right-hand side, the abscissae of the
samples never decrease and never pass `xStop`. -/
theorem C33_no_overshoot (F : ℝ → (Fin n → ℝ) → Py (Fin n → ℝ)) (x : ℝ) (y : Fin n → ℝ)
    (xStop h tol : ℝ) (htol : 0 < tol) (hh : 0 < h) (hx : x + h ≤ xStop) (l : List (ℝ × (Fin n → ℝ)))
    (hl : RKF45 F x y xStop h tol = .ok l) :
    List.IsChain (fun a b => a.1 ≤ b.1) l ∧ ∀ a ∈ l, x ≤ a.1 ∧ a.1 ≤ xStop := by
  unfold RKF45 at hl
  rcases hr : RKF45loop F xStop tol 10000 x y h false with er | rest
  · rw [hr] at hl; simp at hl
  · rw [hr] at hl
    simp only [Py.ok_bind, Py.pure_eq, Except.ok.injEq] at hl
    subst hl
    obtain ⟨c1, c2⟩ := RKF45loop_bounds F xStop tol htol _ _ _ _ _ _ (.inl ⟨hh, hx⟩) hr
    refine ⟨c1, ?_⟩
    have hp : List.Pairwise (fun a b : ℝ × (Fin n → ℝ) => a.1 ≤ b.1) ((x, y) :: rest) := by
      have : Trans (fun a b : ℝ × (Fin n → ℝ) => a.1 ≤ b.1) (fun a b : ℝ × (Fin n → ℝ) => a.1 ≤ b.1)
        (fun a b : ℝ × (Fin n → ℝ) => a.1 ≤ b.1) := ⟨fun h1 h2 => le_trans h1 h2⟩
      exact List.isChain_iff_pairwise.1 c1
    intro a ha
    rcases List.mem_cons.1 ha with rfl | ha
    · exact ⟨le_rfl, by show x ≤ xStop; linarith⟩
    · exact ⟨(List.pairwise_cons.1 hp).1 a ha, c2 a ha⟩

theorem RKF45loop_reaches (F : ℝ → (Fin n → ℝ) → Py (Fin n → ℝ)) (xStop tol : ℝ) (htol : 0 < tol)
    (hF : ∀ x y h dy e, rkf45 F x y h = .ok (dy, e) → e ≤ tol) :
    ∀ (left : ℕ) (x : ℝ) (y : Fin n → ℝ) (h : ℝ) (b : Bool) (l : List (ℝ × (Fin n → ℝ))),
    StepInv xStop x h b → (b = true → x + h = xStop) → RKF45loop F xStop tol left x y h b = .ok l →
    l.length = left ∨ (l.map Prod.fst).getLast? = some xStop := by
  intro left
  induction left with
  | zero =>
    intro x y h b l _ _ hl
    simp only [RKF45loop, Except.ok.injEq] at hl
    subst hl; simp
  | succ left ih =>
    intro x y h b l hinv hb1 hl
    rw [RKF45loop] at hl
    rcases hr : rkf45 F x y h with er | ⟨dy, e⟩
    · rw [hr] at hl; simp at hl
    · have he := rkf45_err_nonneg hr
      have hacc := hF _ _ _ _ _ hr
      rw [hr] at hl
      simp only [Py.ok_bind] at hl
      rw [if_pos hacc] at hl
      by_cases hb : b = true
      · rw [if_pos hb] at hl
        simp only [Py.pure_eq, Except.ok.injEq] at hl
        subst hl
        right; simp [hb1 hb]
      · rw [if_neg hb] at hl
        rcases hns : nextStep xStop tol (x + h) h e b with er | ⟨h', b'⟩
        · rw [hns] at hl; simp at hl
        · rw [hns] at hl
          simp only [Py.ok_bind] at hl
          rcases hrest : RKF45loop F xStop tol left (x + h) (y + dy) h' b' with er | rest
          · rw [hrest] at hl; simp at hl
          · rw [hrest] at hl
            simp only [Py.ok_bind, Py.pure_eq, Except.ok.injEq] at hl
            subst hl
            have hpos : 0 < h ∧ x + h ≤ xStop := by
              rcases hinv with h1 | ⟨_, _, h3⟩
              · exact h1
              · exact absurd h3 hb
            obtain ⟨hi, hi'⟩ := nextStep_inv he htol hpos.2 (.inl hpos.1) hns
            rcases ih _ _ _ _ _ hi (fun h => hi' h (by simpa using hb)) hrest with h | h
            · left; simp [h]
            · right
              rw [List.map_cons, List.getLast?_cons, h]; rfl

/-- C33, the part that holds: if the error test never rejects a step, the last sample is exactly at
`xStop` unless the budget of 10000 iterations is used up.  Missing: runs with a rejected step, for
which the claim is false (`C33_false`). -/
theorem C33_reaches_xStop_partial (F : ℝ → (Fin n → ℝ) → Py (Fin n → ℝ)) (x : ℝ) (y : Fin n → ℝ)
    (xStop h tol : ℝ) (htol : 0 < tol) (hh : 0 < h) (hx : x + h ≤ xStop)
    (hF : ∀ x y h dy e, rkf45 F x y h = .ok (dy, e) → e ≤ tol)
    (l : List (ℝ × (Fin n → ℝ))) (hl : RKF45 F x y xStop h tol = .ok l) :
    l.length = 10001 ∨ (l.map Prod.fst).getLast? = some xStop := by
  unfold RKF45 at hl
  rcases hr : RKF45loop F xStop tol 10000 x y h false with er | rest
  · rw [hr] at hl; simp at hl
  · rw [hr] at hl
    simp only [Py.ok_bind, Py.pure_eq, Except.ok.injEq] at hl
    subst hl
    rcases RKF45loop_reaches F xStop tol htol hF _ _ _ _ _ _ (.inl ⟨hh, hx⟩) (by simp) hr with h | h
    · left; simp [h]
    · right; rw [List.map_cons, List.getLast?_cons, h]; rfl

theorem RKF45loop_cubic (hn : 0 < n) (Q : Fin n → Polynomial ℝ) (hQ : ∀ i, (Q i).natDegree ≤ 4)
    (xStop tol : ℝ) (htol : 0 ≤ tol) : ∀ (left : ℕ) (x : ℝ) (y : Fin n → ℝ) (h : ℝ) (b : Bool),
    0 < h → x + h ≤ xStop → (b = true → x + h = xStop) → (xStop - x) / h + 1 ≤ left →
    ∃ l, RKF45loop (fun t _ => .ok fun i => (Q i).derivative.eval t) xStop tol left x y h b = .ok l ∧
      l.getLast? = some (xStop, fun i => y i + ((Q i).eval xStop - (Q i).eval x)) := by
  have hstop : ∀ (left : ℕ) (x : ℝ) (y : Fin n → ℝ) (h : ℝ), x + h = xStop →
      RKF45loop (fun t _ => .ok fun i => (Q i).derivative.eval t) xStop tol (left + 1) x y h true =
        .ok [(xStop, fun i => y i + ((Q i).eval xStop - (Q i).eval x))] := by
    intro left x y h hx
    rw [RKF45loop, C32_zero_error_cubic hn Q hQ]
    simp only [Py.ok_bind, htol, if_true, Py.pure_eq, hx]
    rfl
  intro left
  induction left with
  | zero =>
    intro x y h b hh hx hb hleft
    exfalso
    have : 0 ≤ (xStop - x) / h := div_nonneg (by linarith) hh.le
    push_cast at hleft; linarith
  | succ left ih =>
    intro x y h b hh hx hb hleft
    rcases b with _ | _
    · rw [RKF45loop, C32_zero_error_cubic hn Q hQ]
      simp only [Py.ok_bind, htol, if_true]
      have hns : nextStep xStop tol (x + h) h 0 false =
          if x + h + h ≥ xStop then .ok (xStop - (x + h), true) else .ok (h, false) := by
        unfold nextStep; rw [l0_0]; simp [hh]
      have hq : (xStop - x) / h = (xStop - (x + h)) / h + 1 := by field_simp; ring
      have hq0 : 0 ≤ (xStop - (x + h)) / h := div_nonneg (by linarith) hh.le
      have hl1 : 1 ≤ left := by
        have : (1:ℝ) ≤ left := by rw [hq] at hleft; push_cast at hleft; linarith
        exact_mod_cast this
      obtain ⟨m, rfl⟩ : ∃ m, left = m + 1 := ⟨left - 1, by omega⟩
      rw [hns]
      by_cases hc : x + h + h ≥ xStop
      · rw [if_pos hc]
        simp only [Py.ok_bind]
        refine ⟨[(x + h, _), (xStop, _)], by simp only [Bool.false_eq_true, if_false]; rw [hstop m (x + h) _ (xStop - (x + h)) (by ring)]; rfl, ?_⟩
        simp only [List.getLast?_cons_cons, List.getLast?_singleton, Option.some.injEq, Prod.mk.injEq,
          true_and]
        funext i; simp only [Pi.add_apply]; ring
      · rw [if_neg hc]
        simp only [Py.ok_bind, Bool.false_eq_true, if_false]
        obtain ⟨l, hl, hlast⟩ := ih (x + h) (y + fun i => (Q i).eval (x + h) - (Q i).eval x) h false hh
          (not_le.1 hc).le (by simp) (by rw [hq] at hleft; push_cast at hleft ⊢; linarith)
        refine ⟨_ :: l, by rw [hl]; rfl, ?_⟩
        rw [List.getLast?_cons, hlast]
        simp only [Option.getD_some, Option.some.injEq, Prod.mk.injEq, true_and]
        funext i; simp only [Pi.add_apply]; ring
    · exact ⟨_, hstop left x y h (hb rfl), rfl⟩

/-- C33 (end to end): for polynomial right-hand sides of degree at most 3 and fewer than 10000
steps, `RKF45` ends at `xStop` with the exact solution. -/
theorem C33_cubic_exact (hn : 0 < n) (Q : Fin n → Polynomial ℝ) (hQ : ∀ i, (Q i).natDegree ≤ 4)
    (x : ℝ) (y : Fin n → ℝ) (xStop h tol : ℝ) (htol : 0 ≤ tol) (hh : 0 < h) (hx : x + h ≤ xStop)
    (hsteps : (xStop - x) / h ≤ 9999) :
    ∃ l, RKF45 (fun t _ => .ok fun i => (Q i).derivative.eval t) x y xStop h tol = .ok l ∧
      l.getLast? = some (xStop, fun i => y i + ((Q i).eval xStop - (Q i).eval x)) := by
  obtain ⟨l, hl, hlast⟩ := RKF45loop_cubic hn Q hQ xStop tol htol 10000 x y h false hh hx (by simp)
    (by push_cast; linarith)
  refine ⟨(x, y) :: l, by unfold RKF45; rw [hl]; rfl, ?_⟩
  rw [List.getLast?_cons, hlast]; rfl

/-- right-hand side of the counterexample: a jump close to the end of the interval -/
noncomputable def jumpF (A : ℝ) : ℝ → (Fin 1 → ℝ) → Py (Fin 1 → ℝ) :=
  fun t _ => .ok fun _ => if 0.99 ≤ t then A else 0

/-- amplitude for which the error of the last step is 32 times the tolerance `1e-6` -/
noncomputable def jumpA : ℝ := 32 * 1e-6 * 28672 / 277

theorem rkf45_jump_zero (A x h : ℝ) (hh : 0 ≤ h) (hx : x + h < 0.99) :
    rkf45 (jumpF A) x 0 h = .ok (0, 0) := by
  unfold rkf45 jumpF
  have h0 : ¬ 0.99 ≤ x := by linarith
  have h1 : ¬ 0.99 ≤ x + 1.0 / 5 * h := by norm_num at hx ⊢; linarith
  have h2 : ¬ 0.99 ≤ x + 3.0 / 10 * h := by norm_num at hx ⊢; linarith
  have h3 : ¬ 0.99 ≤ x + 3.0 / 5 * h := by norm_num at hx ⊢; linarith
  have h4 : ¬ 0.99 ≤ x + h := by norm_num at hx ⊢; linarith
  have h5 : ¬ 0.99 ≤ x + 7.0 / 8 * h := by norm_num at hx ⊢; linarith
  simp only [h0, h1, h2, h3, h4, h5, if_false, Py.ok_bind]
  have hz : (fun _ : Fin 1 => (0:ℝ)) = 0 := rfl
  simp only [hz, smul_zero, add_zero, Pi.zero_apply]
  rw [Py.div_ok (by norm_num)]
  simp [Py.sqrt]

theorem rkf45_jump_end : rkf45 (jumpF jumpA) 0.5 0 0.5 = .ok (0, 32 * 1e-6) := by
  unfold rkf45 jumpF
  have h0 : ¬ (0.99:ℝ) ≤ 0.5 := by norm_num
  have h1 : ¬ (0.99:ℝ) ≤ 0.5 + 1.0 / 5 * 0.5 := by norm_num
  have h2 : ¬ (0.99:ℝ) ≤ 0.5 + 3.0 / 10 * 0.5 := by norm_num
  have h3 : ¬ (0.99:ℝ) ≤ 0.5 + 3.0 / 5 * 0.5 := by norm_num
  have h4 : (0.99:ℝ) ≤ 0.5 + 0.5 := by norm_num
  have h5 : ¬ (0.99:ℝ) ≤ 0.5 + 7.0 / 8 * 0.5 := by norm_num
  simp only [h0, h1, h2, h3, h4, h5, if_false, if_true, Py.ok_bind]
  have hz : (fun _ : Fin 1 => (0:ℝ)) = 0 := rfl
  simp only [hz, smul_zero, add_zero, zero_add, l0_0, zero_smul]
  rw [Py.div_ok (by norm_num), Py.ok_bind]
  have : (∑ i : Fin 1, ((0 - 277.0 / 14336 : ℝ) • (0.5:ℝ) • (fun _ : Fin 1 => jumpA)) i ^ 2) / ((1:ℕ):ℝ)
      = (32 * 1e-6) ^ 2 := by
    unfold jumpA
    simp only [Finset.univ_unique, Finset.sum_singleton, Pi.smul_apply, smul_eq_mul]
    norm_num
  rw [this, Py.sqrt_ok (by positivity), Real.sqrt_sq (by positivity)]
  rfl

/-- C33 is false of the code: after a rejected last step the flag `stopper` stays set, so the run
ends at the next accepted step.  Here, on `[0, 1]` with `h = 0.5`, `tol = 1e-6`, the run stops
(after 3 of its 10000 iterations) at `x = 0.725`. -/
theorem C33_false :
    ∃ l, RKF45 (jumpF jumpA) 0 0 1 0.5 1e-6 = .ok l ∧ l.length = 3 ∧
      (l.map Prod.fst).getLast? = some 0.725 := by
  have hpow : (1e-6 / (32 * 1e-6) : ℝ) ^ (0.2:ℝ) = 1 / 2 := by
    have : (1e-6 / (32 * 1e-6) : ℝ) = (1 / 2) ^ (5:ℝ) := by
      rw [show (5:ℝ) = ((5:ℕ):ℝ) by norm_num, Real.rpow_natCast]; norm_num
    rw [this, ← Real.rpow_mul (by norm_num)]
    norm_num
  refine ⟨[(0, 0), (0.5, 0), (0.725, 0)], ?_, rfl, by simp⟩
  unfold RKF45
  rw [show (10000:ℕ) = 9997 + 1 + 1 + 1 from rfl, RKF45loop, rkf45_jump_zero _ _ _ (by norm_num) (by norm_num)]
  have n1 : nextStep 1 1e-6 (0 + 0.5) 0.5 0 false = .ok (0.5, true) := by
    unfold nextStep; rw [l0_0]; norm_num
  simp only [Py.ok_bind, n1]
  rw [if_pos (show (0:ℝ) ≤ 1e-6 by norm_num), if_neg (by simp), RKF45loop]
  rw [show (0:ℝ) + 0.5 = 0.5 by norm_num, show (0 + 0 : Fin 1 → ℝ) = 0 by simp, rkf45_jump_end]
  simp only [Py.ok_bind]
  have n2 : nextStep 1 1e-6 0.5 0.5 (32 * 1e-6) true = .ok (0.225, true) := by
    unfold nextStep; rw [l0_0, if_pos (by norm_num), Py.div_ok (by norm_num)]
    simp only [Py.ok_bind]
    rw [Py.pow_ok _ (by norm_num), hpow]
    norm_num
  rw [if_neg (by norm_num), n2]
  simp only [Py.ok_bind]
  rw [RKF45loop, rkf45_jump_zero _ _ _ (by norm_num) (by norm_num)]
  simp only [Py.ok_bind]
  rw [if_pos (show (0:ℝ) ≤ 1e-6 by norm_num), if_pos trivial]
  simp
  norm_num

/-- C33: an initial step larger than the interval is not clipped: integrating `y' = 0` on `[0, 1]`
with `h = 3` samples `x = 0, 3, 1`. -/
theorem C33_initial_overshoot :
    (RKF45 (n := 1) (fun _ _ => .ok 0) 0 0 1 3 1e-6).map (List.map Prod.fst) = .ok [0, 3, 1] := by
  have hz : ∀ x h : ℝ, rkf45 (n := 1) (fun _ _ => .ok 0) x 0 h = .ok (0, 0) := by
    intro x h
    unfold rkf45
    simp only [Py.ok_bind, smul_zero, add_zero, Pi.zero_apply]
    rw [Py.div_ok (by norm_num)]
    simp [Py.sqrt]
  unfold RKF45
  rw [show (10000:ℕ) = 9998 + 1 + 1 from rfl, RKF45loop, hz]
  have n1 : nextStep 1 1e-6 (0 + 3) 3 0 false = .ok (-2, true) := by
    unfold nextStep; rw [l0_0]; norm_num
  simp only [Py.ok_bind, n1]
  rw [if_pos (show (0:ℝ) ≤ 1e-6 by norm_num), if_neg (by simp), RKF45loop, show (0 + 0 : Fin 1 → ℝ) = 0 by simp, hz]
  simp only [Py.ok_bind]
  rw [if_pos (show (0:ℝ) ≤ 1e-6 by norm_num), if_pos trivial]
  simp [Except.map]
  norm_num

example : (0:ℝ) < 1e-6 ∧ (0:ℝ) < 0.1 ∧ (0:ℝ) + 0.1 ≤ 1 ∧ ((1:ℝ) - 0) / 0.1 ≤ 9999 := by norm_num

end RKF45

end Aerokit.Props
