import Verif.Model.IterativeSolve
import Verif.Lemmas.Lits
import Mathlib.Data.Finset.Card

/-! # Properties C28–C29 : `aerokit/aero/IterativeSolve.py` -/

namespace Aerokit.Props
open IterativeSolve

theorem secantLoop_queries (f : ℝ → Py ℝ) (y tol : ℝ) : ∀ (n : ℕ) (a b c : ℝ),
    ∃ S : Finset ℝ, S.card ≤ n ∧ ∀ g : ℝ → Py ℝ, (∀ z ∈ S, g z = f z) →
      secantLoop g y tol n a b c = secantLoop f y tol n a b c := by
  intro n
  induction n with
  | zero => intro a b c; exact ⟨∅, by simp, fun g _ => rfl⟩
  | succ n ih =>
    intro a b c
    by_cases h : |c - a| > max tol (tol * |c|)
    · rcases hf : f c with e | v
      · refine ⟨{c}, by simp, fun g hg => ?_⟩
        have hgc : g c = f c := hg c (by simp)
        simp only [secantLoop, if_pos h, hgc, hf, Py.error_bind]
      · rcases hd : Py.div (c - a) (v - b) with e | sl
        · refine ⟨{c}, by simp, fun g hg => ?_⟩
          have hgc : g c = f c := hg c (by simp)
          simp only [secantLoop, if_pos h, hgc, hf, Py.ok_bind, hd, Py.error_bind]
        · obtain ⟨S, hS, hg⟩ := ih c v (c + sl * (y - v))
          refine ⟨insert c S, (Finset.card_insert_le _ _).trans (by omega), fun g h' => ?_⟩
          have hgc : g c = f c := h' c (by simp)
          simp only [secantLoop, if_pos h, hgc, hf, Py.ok_bind, hd]
          exact hg g fun z hz => h' z (Finset.mem_insert_of_mem hz)
    · exact ⟨∅, by simp, fun g _ => by simp only [secantLoop, if_neg h]⟩

/-- C28 (bounded work): whatever `f`, the outcome (value, warning or exception) of a run is
determined by the values of `f` at no more than 20 points. -/
theorem C28_at_most_20_evaluations (f : ℝ → Py ℝ) (y x tol : ℝ) :
    ∃ S : Finset ℝ, S.card ≤ 20 ∧ ∀ g : ℝ → Py ℝ, (∀ z ∈ S, g z = f z) →
      secant_run g y x tol = secant_run f y x tol := by
  rcases hf : f x with e | v
  · refine ⟨{x}, by simp, fun g hg => ?_⟩
    have : g x = f x := hg x (by simp)
    simp only [secant_run, this, hf, Py.error_bind]
  · obtain ⟨S, hS, hg⟩ := secantLoop_queries f y tol (itmax - 1) x v (x * 0.999)
    refine ⟨insert x S, (Finset.card_insert_le _ _).trans (by unfold itmax at hS; omega), fun g h' => ?_⟩
    have : g x = f x := h' x (by simp)
    simp only [secant_run, this, hf, Py.ok_bind]
    exact hg g fun z hz => h' z (Finset.mem_insert_of_mem hz)

/-- one secant update written from the textbook: `x_{k+2}` from `x_k`, `x_{k+1}` -/
def IsSecantStep (f : ℝ → Py ℝ) (y a b c : ℝ) : Prop :=
  ∃ fa fb, f a = .ok fa ∧ f b = .ok fb ∧ fb ≠ fa ∧ c = b + (b - a) / (fb - fa) * (y - fb)

theorem secantLoop_trace (f : ℝ → Py ℝ) (y tol : ℝ) : ∀ (n : ℕ) (a b c : ℝ) (res : SecantResult),
    f a = .ok b → secantLoop f y tol n a b c = .ok res →
    ∃ (k : ℕ) (s : ℕ → ℝ), k ≤ n ∧ s 0 = a ∧ s 1 = c ∧
      (∀ i < k, IsSecantStep f y (s i) (s (i + 1)) (s (i + 2))) ∧ res.x = s (k + 1) ∧
      (res.warned = true ↔ k = n) ∧
      (res.warned = false → |s (k + 1) - s k| ≤ max tol (tol * |s (k + 1)|)) ∧
      (∀ i < k, max tol (tol * |s (i + 1)|) < |s (i + 1) - s i|) := by
  intro n
  induction n with
  | zero =>
    intro a b c res _ h
    simp only [secantLoop, Except.ok.injEq] at h
    subst h
    exact ⟨0, fun i => if i = 0 then a else c, le_rfl, rfl, rfl, by simp, by simp, by simp, by simp, by simp⟩
  | succ n ih =>
    intro a b c res ha h
    by_cases hc : |c - a| > max tol (tol * |c|)
    · rcases hf : f c with e | v
      · rw [secantLoop, if_pos hc, hf] at h; simp at h
      · by_cases hv : v - b = 0
        · rw [secantLoop, if_pos hc, hf] at h; simp [Py.div, hv] at h
        · simp only [secantLoop, if_pos hc, hf, Py.ok_bind, Py.div_ok hv] at h
          obtain ⟨k, s, hk, s0, s1, hs, hx, hw, hw', hcont⟩ := ih c v _ res hf h
          refine ⟨k + 1, fun i => if i = 0 then a else s (i - 1), by omega, rfl, by simpa using s0, ?_,
            by simpa using hx, ?_, ?_, ?_⟩
          · intro i hi
            rcases i with _ | i
            · refine ⟨b, v, by simpa using ha, by simpa [s0] using hf, fun e => hv (by rw [e, sub_self]), ?_⟩
              simp [s0, s1]
            · simpa using hs i (by omega)
          · rw [hw]; omega
          · intro h'; simpa using hw' h'
          · intro i hi
            rcases i with _ | i
            · simpa [s0] using hc
            · simpa using hcont i (by omega)
    · simp only [secantLoop, if_neg hc, Except.ok.injEq] at h
      subst h
      refine ⟨0, fun i => if i = 0 then a else c, by omega, rfl, rfl, by simp, by simp, by simp, ?_, by simp⟩
      intro _
      simpa using not_lt.1 hc

/-- C28 (what is returned): a run that returns, returns the last element of a sequence of secant
iterates started at `x, 0.999 x`, of at most 19 updates; it warns exactly when the 19 updates were
used; without warning the last two iterates are within tolerance, and no earlier pair was. -/
theorem C28_returns_secant_iterate (f : ℝ → Py ℝ) (y x tol : ℝ) (res : SecantResult)
    (h : secant_run f y x tol = .ok res) :
    ∃ (k : ℕ) (s : ℕ → ℝ), k ≤ 19 ∧ s 0 = x ∧ s 1 = 0.999 * x ∧
      (∀ i < k, IsSecantStep f y (s i) (s (i + 1)) (s (i + 2))) ∧ res.x = s (k + 1) ∧
      (res.warned = true ↔ k = 19) ∧
      (res.warned = false → |s (k + 1) - s k| ≤ max tol (tol * |s (k + 1)|)) ∧
      (∀ i < k, max tol (tol * |s (i + 1)|) < |s (i + 1) - s i|) := by
  rcases hf : f x with e | v
  · simp [secant_run, hf] at h
  · simp only [secant_run, hf, Py.ok_bind] at h
    obtain ⟨k, s, h1, h2, h3, h4⟩ := secantLoop_trace f y tol 19 x v (x * 0.999) res hf h
    exact ⟨k, s, h1, h2, by rw [h3, mul_comm], h4⟩

/-- C28 (affine functions): for every affine function with non-zero slope and every start beyond the
dead zone of the tolerance, the exact solution is returned, without warning. -/
theorem C28_affine_exact (a b y x tol : ℝ) (ha : a ≠ 0) (htol : 0 ≤ tol)
    (hx : max tol (tol * |0.999 * x|) < |0.001 * x|) :
    secant_run (fun z => .ok (a * z + b)) y x tol = .ok ⟨(y - b) / a, false⟩ := by
  have hx0 : x ≠ 0 := by
    rintro rfl
    simp only [mul_zero, abs_zero] at hx
    exact absurd (lt_of_le_of_lt (le_max_left _ _) hx) (not_lt.2 htol)
  have hd : x * 0.999 - x = -(0.001 * x) := by ring
  have h1 : |x * 0.999 - x| > max tol (tol * |x * 0.999|) := by
    rw [hd, abs_neg, mul_comm x]; exact hx
  have hden : a * (x * 0.999) + b - (a * x + b) ≠ 0 := by
    have : a * (x * 0.999) + b - (a * x + b) = -(a * (0.001 * x)) := by ring
    rw [this]
    exact neg_ne_zero.2 (mul_ne_zero ha (mul_ne_zero (by norm_num) hx0))
  have hnext : x * 0.999 + (x * 0.999 - x) / (a * (x * 0.999) + b - (a * x + b)) *
      (y - (a * (x * 0.999) + b)) = (y - b) / a := by
    have e : (x * 0.999 - x) / (a * (x * 0.999) + b - (a * x + b)) = 1 / a := by
      rw [div_eq_div_iff hden ha]; ring
    rw [e]; field_simp; ring
  unfold secant_run
  simp only [Py.ok_bind]
  show secantLoop _ y tol (17 + 1 + 1) _ _ _ = _
  rw [secantLoop, if_pos h1]
  simp only [Py.ok_bind, Py.div_ok hden, hnext]
  have hfr : a * ((y - b) / a) + b = y := by field_simp; ring
  by_cases h2 : |(y - b) / a - x * 0.999| > max tol (tol * |(y - b) / a|)
  · have hden2 : y - (a * (x * 0.999) + b) ≠ 0 := by
      intro h0
      have : (y - b) / a - x * 0.999 = 0 := by
        rw [sub_eq_zero, div_eq_iff ha]; linarith
      rw [this, abs_zero] at h2
      exact absurd h2 (not_lt.2 (le_max_of_le_left htol))
    rw [secantLoop, if_pos h2]
    simp only [Py.ok_bind, hfr, Py.div_ok hden2, sub_self, mul_zero, add_zero]
    rw [show (17:ℕ) = 16 + 1 from rfl, secantLoop, if_neg]
    rw [sub_self, abs_zero]; exact not_lt.2 (le_max_of_le_left htol)
  · rw [secantLoop, if_neg h2]

/-- C28 (affine functions, default tolerance): exact for every start with `|x| > 0.01`. -/
theorem C28_affine_exact_default (a b y x : ℝ) (ha : a ≠ 0) (hx : 0.01 < |x|) :
    secant_solve (fun z => .ok (a * z + b)) y x = .ok ((y - b) / a) := by
  unfold secant_solve
  rw [C28_affine_exact a b y x defaultTol ha (by unfold defaultTol; norm_num)]
  · rfl
  · unfold defaultTol
    rw [abs_mul, abs_mul, abs_of_pos (show (0:ℝ) < 0.999 by norm_num),
      abs_of_pos (show (0:ℝ) < 0.001 by norm_num)]
    apply max_lt
    · norm_num at hx ⊢; linarith
    · norm_num at hx ⊢; linarith

example : (2:ℝ) ≠ 0 ∧ (0:ℝ) ≤ 0.00001 ∧
    max (0.00001:ℝ) (0.00001 * |0.999 * 1|) < |0.001 * 1| := by norm_num

/-- C29 is false of the code: for EVERY function `f` and every target `y`, a start with
`|x| ≤ 0.01` (in particular `x = 0`) is returned as `0.999 x`, with no iteration and no warning. -/
theorem C29_false (f : ℝ → Py ℝ) (v y x : ℝ) (hf : f x = .ok v) (hx : |x| ≤ 0.01) :
    secant_run f y x defaultTol = .ok ⟨0.999 * x, false⟩ := by
  unfold secant_run
  simp only [hf, Py.ok_bind]
  rw [show itmax - 1 = 18 + 1 from rfl, secantLoop, if_neg, mul_comm]
  rw [show x * 0.999 - x = -(0.001 * x) by ring, abs_neg, abs_mul,
    abs_of_pos (show (0:ℝ) < 0.001 by norm_num), not_lt]
  refine le_max_of_le_left ?_
  unfold defaultTol; norm_num at hx ⊢; linarith

/-- C29, concretely: solving `z - 5 = 0` from `x = 0.01` returns `0.00999`, from `x = 1` it
returns `5`. -/
theorem C29_witness :
    secant_solve (fun z => .ok (z - 5)) 0 0.01 = .ok 0.00999 ∧
    secant_solve (fun z => .ok (z - 5)) 0 1 = .ok 5 := by
  constructor
  · unfold secant_solve
    rw [C29_false _ (0.01 - 5) 0 0.01 rfl (by norm_num [abs_of_pos])]
    simp only [Py.ok_bind, Py.pure_eq]; norm_num
  · have := C28_affine_exact_default 1 (-5) 0 1 one_ne_zero (by norm_num)
    simpa [sub_eq_add_neg] using this

/-- C29, the part that holds: outside the dead zone at least one secant update is made (the result
is not the untouched `0.999 x` pair).  Missing: `|x| ≤ 0.01`. -/
theorem C29_large_start_partial (f : ℝ → Py ℝ) (y x : ℝ) (res : SecantResult) (hx : 0.01 < |x|)
    (h : secant_run f y x defaultTol = .ok res) :
    ∃ x2, IsSecantStep f y x (0.999 * x) x2 := by
  obtain ⟨k, s, hk, s0, s1, hs, hres, hw, hw', hc⟩ := C28_returns_secant_iterate f y x _ res h
  rcases k with _ | k
  · exfalso
    have h0 : res.warned = false := by
      rcases hb : res.warned with _ | _
      · rfl
      · exact absurd (hw.1 hb) (by norm_num)
    have := hw' h0
    rw [s1, s0, show 0.999 * x - x = -(0.001 * x) by ring, abs_neg, abs_mul, abs_mul,
      abs_of_pos (show (0:ℝ) < 0.999 by norm_num), abs_of_pos (show (0:ℝ) < 0.001 by norm_num)] at this
    unfold defaultTol at this
    rcases le_max_iff.1 this with h | h <;> norm_num at h hx <;> linarith
  · have := hs 0 (by omega)
    rw [s0, s1] at this
    exact ⟨_, this⟩

end Aerokit.Props
