import Mathlib.Analysis.Calculus.LocalExtr.Rolle
import Mathlib.Analysis.Calculus.Deriv.Polynomial
import Mathlib.Analysis.Calculus.Deriv.Slope
import Mathlib.LinearAlgebra.Lagrange
import Mathlib.Algebra.Polynomial.Derivative

/-! # Error of polynomial interpolation (generalised Rolle theorem) -/

namespace Aerokit.Interp
open Polynomial Set

variable {a b : ℝ}

/-- `F 0, F 1, ..., F n` are successive derivatives on `[a, b]` -/
def Derivs (n : ℕ) (F : ℕ → ℝ → ℝ) (a b : ℝ) : Prop :=
  ∀ k < n, ∀ x ∈ Icc a b, HasDerivWithinAt (F k) (F (k + 1) x) (Icc a b) x

/-- `g` has `k` distinct zeros in `[a, b]` -/
def HasZeros (a b : ℝ) (k : ℕ) (g : ℝ → ℝ) : Prop :=
  ∃ w : Fin k → ℝ, StrictMono w ∧ ∀ i, w i ∈ Icc a b ∧ g (w i) = 0

theorem HasZeros.deriv {k : ℕ} {g g' : ℝ → ℝ} (h : HasZeros a b (k + 1) g)
    (hg : ∀ x ∈ Icc a b, HasDerivWithinAt g (g' x) (Icc a b) x) : HasZeros a b k g' := by
  obtain ⟨w, hw, hz⟩ := h
  have key : ∀ i : Fin k, ∃ c ∈ Ioo (w i.castSucc) (w i.succ), g' c = 0 := by
    intro i
    have hlt : w i.castSucc < w i.succ := hw (Fin.castSucc_lt_succ)
    have hsub : Icc (w i.castSucc) (w i.succ) ⊆ Icc a b :=
      Icc_subset_Icc (hz _).1.1 (hz _).1.2
    refine exists_hasDerivAt_eq_zero hlt (f := g) (f' := g') ?_ ?_ ?_
    · intro x hx
      exact ((hg x (hsub hx)).continuousWithinAt).mono hsub
    · rw [(hz _).2, (hz _).2]
    · intro x hx
      refine (hg x (hsub (Ioo_subset_Icc_self hx))).hasDerivAt ?_
      exact Icc_mem_nhds (lt_of_le_of_lt (hz _).1.1 hx.1) (lt_of_lt_of_le hx.2 (hz _).1.2)
  choose c hc h0 using key
  refine ⟨c, ?_, fun i => ⟨?_, h0 i⟩⟩
  · intro i j hij
    have h1 : w i.succ ≤ w j.castSucc := hw.monotone (by
      rw [Fin.le_def]; simp; exact hij)
    exact ((hc i).2.trans_le h1).trans (hc j).1
  · exact ⟨(hz _).1.1.trans (hc i).1.le, (hc i).2.le.trans (hz _).1.2⟩

theorem HasZeros.iter {n : ℕ} {F : ℕ → ℝ → ℝ} (hF : Derivs n F a b) :
    ∀ (m k : ℕ), m ≤ n → HasZeros a b (k + m) (F 0) → HasZeros a b k (F m) := by
  intro m
  induction m with
  | zero => intro k _ h; exact h
  | succ m ih =>
    intro k hm h
    refine HasZeros.deriv (g := F m) ?_ (hF m (by omega))
    exact ih (k + 1) (by omega) (by rwa [show k + 1 + m = k + (m + 1) by omega])

theorem hasZeros_of_finset {s : Finset ℝ} {g : ℝ → ℝ} (h : ∀ x ∈ s, x ∈ Icc a b ∧ g x = 0) :
    HasZeros a b s.card g :=
  ⟨s.orderEmbOfFin rfl, (s.orderEmbOfFin rfl).strictMono, fun i => h _ (s.orderEmbOfFin_mem rfl i)⟩

/-- iterated derivative of a monic polynomial -/
theorem iter_monic {p : ℝ[X]} {n : ℕ} (hp : p.Monic) (hn : p.natDegree = n) (x : ℝ) :
    (derivative^[n] p).eval x = n.factorial := by
  have hd : (derivative^[n] p).natDegree = 0 := by
    have := natDegree_iterate_derivative p n; omega
  rw [eq_C_of_natDegree_eq_zero hd, eval_C, coeff_iterate_derivative, zero_add, Nat.descFactorial_self]
  have : p.coeff n = 1 := by rw [← hn]; exact hp.coeff_natDegree
  rw [this]; simp

/-- interpolation error: a function with the distinct zeros `s` in `[a, b]` -/
theorem zeros_error {s : Finset ℝ} {F : ℕ → ℝ → ℝ} (hF : Derivs s.card F a b)
    (hs : ∀ z ∈ s, z ∈ Icc a b ∧ F 0 z = 0) {x : ℝ} (hx : x ∈ Icc a b) :
    ∃ ξ ∈ Icc a b, F 0 x = F s.card ξ / s.card.factorial * ∏ z ∈ s, (x - z) := by
  classical
  by_cases hxs : x ∈ s
  · refine ⟨x, hx, ?_⟩
    rw [(hs x hxs).2, Finset.prod_eq_zero hxs (sub_self x), mul_zero]
  set P : ℝ[X] := ∏ z ∈ s, (X - C z) with hP
  have hPe : ∀ y, P.eval y = ∏ z ∈ s, (y - z) := fun y => by
    rw [hP, eval_prod]; simp
  have hPm : P.Monic := monic_prod_of_monic _ _ fun z _ => monic_X_sub_C z
  have hPd : P.natDegree = s.card := by
    rw [hP, natDegree_prod_of_monic _ _ fun z _ => monic_X_sub_C z]; simp
  have hPx : P.eval x ≠ 0 := by
    rw [hPe]
    exact Finset.prod_ne_zero_iff.2 fun z hz => sub_ne_zero.2 fun h => hxs (h ▸ hz)
  set K := F 0 x / P.eval x with hK
  let G : ℕ → ℝ → ℝ := fun k y => F k y - K * (derivative^[k] P).eval y
  have hG : Derivs s.card G a b := by
    intro k hk y hy
    refine (hF k hk y hy).sub ?_
    rw [Function.iterate_succ_apply']
    exact ((derivative^[k] P).hasDerivAt y).hasDerivWithinAt.const_mul K
  have hz : HasZeros a b (1 + s.card) (G 0) := by
    have := hasZeros_of_finset (a := a) (b := b) (s := insert x s) (g := G 0) ?_
    · rwa [Finset.card_insert_of_notMem hxs, add_comm] at this
    · intro y hy
      rcases Finset.mem_insert.1 hy with rfl | hy
      · refine ⟨hx, ?_⟩
        simp only [G, Function.iterate_zero, id_eq, hK]
        field_simp; ring
      · refine ⟨(hs y hy).1, ?_⟩
        simp only [G, Function.iterate_zero, id_eq, (hs y hy).2, hPe]
        rw [Finset.prod_eq_zero hy (sub_self y)]; ring
  obtain ⟨w, -, hw⟩ := HasZeros.iter hG s.card 1 le_rfl hz
  obtain ⟨hwI, hw0⟩ := hw 0
  refine ⟨w 0, hwI, ?_⟩
  simp only [G, iter_monic hPm hPd] at hw0
  have hf : (s.card.factorial : ℝ) ≠ 0 := by exact_mod_cast Nat.factorial_ne_zero _
  have : F s.card (w 0) / s.card.factorial = K := by
    rw [div_eq_iff hf]; linarith
  rw [this, hK, ← hPe]; field_simp

/-- derivative of `e` at a zero, when `|e| ≤ c |ω|` and `ω` is differentiable and vanishes there -/
theorem deriv_bound_of_le {e w : ℝ → ℝ} {x e' w' c : ℝ} (hab : a < b) (hx : x ∈ Icc a b)
    (he : HasDerivWithinAt e e' (Icc a b) x) (hw : HasDerivWithinAt w w' (Icc a b) x)
    (h0 : e x = 0) (h1 : w x = 0) (hle : ∀ y ∈ Icc a b, |e y| ≤ c * |w y|) : |e'| ≤ c * |w'| := by
  have he' := hasDerivWithinAt_iff_tendsto_slope.1 he
  have hw' := hasDerivWithinAt_iff_tendsto_slope.1 hw
  have hne : (nhdsWithin x (Icc a b \ {x})).NeBot := by
    have := (uniqueDiffOn_Icc hab x hx).accPt
    rw [accPt_principal_iff_nhdsWithin] at this
    exact this
  refine le_of_tendsto_of_tendsto he'.abs (hw'.abs.const_mul c) ?_
  filter_upwards [self_mem_nhdsWithin] with y hy
  rw [slope_def_field, slope_def_field, h0, h1, sub_zero, sub_zero, abs_div, abs_div, ← mul_div_assoc]
  gcongr
  exact hle y hy.1

end Aerokit.Interp
