import Verif.Spec.Eig
import Verif.Lemmas.LinOperator
import Mathlib.LinearAlgebra.Matrix.ToLinearEquiv
import Mathlib.Algebra.BigOperators.Field

/-! # Properties C52, C53 : eigenvalue selection and Rayleigh quotient iteration -/

namespace Aerokit.Props
open LinOperator Spec

/-! ## C52 -/

theorem compress_map {α β : Type} (p : α → Bool) : ∀ (l : List α) (m : List β), l.length = m.length →
    compress (l.map p) m = ((l.zip m).filter fun x => p x.1).map Prod.snd
  | [], [], _ => rfl
  | x :: l, y :: m, h => by
    have ih := compress_map p l m (by simpa using h)
    unfold compress at ih ⊢
    simp only [List.map_cons, List.zip_cons_cons, List.filter_cons]
    by_cases hp : p x = true
    · simp only [hp, if_true, List.map_cons, ih]
    · simp only [hp, if_false]
      simpa using ih

theorem zip_filter {α β : Type} (p : α → Bool) (l : List α) (m : List β) (h : l.length = m.length) :
    (compress (l.map p) l).zip (compress (l.map p) m) = (l.zip m).filter fun x => p x.1 := by
  rw [compress_map p l m h, compress_map p l l rfl]
  have e : ∀ (l : List α) (m : List β), l.length = m.length →
      (((l.zip l).filter fun x => p x.1).map Prod.snd).zip (((l.zip m).filter fun x => p x.1).map Prod.snd) = (l.zip m).filter fun x => p x.1 := by
    intro l
    induction l with
    | nil => intro m _; rfl
    | cons x l ih =>
      intro m hm
      cases m with
      | nil => simp at hm
      | cons y m =>
        have ih := ih m (by simpa using hm)
        simp only [List.zip_cons_cons, List.filter_cons]
        by_cases hp : p x = true
        · simp only [hp, if_true, List.map_cons, List.zip_cons_cons, ih]
        · simp only [hp, if_false]
          simpa using ih
  exact e l m h

/-- the box of `select_and_sort`: closed on the left for the real part, open on the three other sides -/
def InBox (realmin realmax imagmin imagmax : ℝ) (z : ℂ) : Prop := realmin ≤ z.re ∧ z.re < realmax ∧ imagmin < z.im ∧ z.im < imagmax

theorem selected_iff {a b c d : ℝ} {z : ℂ} : selected a b c d z = true ↔ InBox a b c d z := by
  unfold selected InBox
  simp only [Bool.and_eq_true, decide_eq_true_eq]
  tauto

open Classical in
/-- C52: for every spectrum (`n` eigenvalues and `n` eigenvectors) and all bounds, the pairs (eigenvalue, eigenvector) returned are exactly
those of the spectrum with the eigenvalue in the box, in the same order; `order` is a permutation of their indices, along which the real
part is non-decreasing (`sort="real"`) or the imaginary part non-increasing (`sort="imag"`). -/
theorem C52_select (argsort : Argsort) (ha : SoundArgsort argsort) (vp : List ℂ) (V : List (ℕ → ℂ)) (hl : vp.length = V.length)
    (rmin rmax imin imax : ℝ) (sort : String) (hs : sort = "real" ∨ sort = "imag") :
    ∃ vals vects order, select_and_sort argsort (some (vp, V)) rmin rmax imin imax sort = .ok (vals, vects, order) ∧
      vals = vp.filter (fun z => InBox rmin rmax imin imax z) ∧ vals.length = vects.length ∧
      vals.zip vects = (vp.zip V).filter (fun x => InBox rmin rmax imin imax x.1) ∧
      order.Perm (List.range vals.length) ∧
      (sort = "real" → (order.map fun i => (vals.getD i 0).re).Pairwise (· ≤ ·)) ∧
      (sort = "imag" → (order.map fun i => (vals.getD i 0).im).Pairwise (· ≥ ·)) := by
  have hsel : (fun z => selected rmin rmax imin imax z) = fun z => decide (InBox rmin rmax imin imax z) := by
    funext z
    rw [Bool.eq_iff_iff, selected_iff, decide_eq_true_eq]
  obtain ⟨vals, hv⟩ : ∃ vals, vals = compress (vp.map (selected rmin rmax imin imax)) vp := ⟨_, rfl⟩
  obtain ⟨vects, hw⟩ : ∃ vects, vects = compress (vp.map (selected rmin rmax imin imax)) V := ⟨_, rfl⟩
  have hz : vals.zip vects = (vp.zip V).filter (fun x => InBox rmin rmax imin imax x.1) := by
    rw [hv, hw, zip_filter _ _ _ hl]
    congr 1
    funext x
    exact congrFun hsel x.1
  have hlen : vals.length = vects.length := by
    rw [hv, hw, compress_map _ _ _ hl, compress_map _ _ _ rfl, List.length_map, List.length_map]
    have : ∀ (l : List ℂ) (m : List (ℕ → ℂ)), l.length = m.length →
        ((l.zip l).filter fun x => selected rmin rmax imin imax x.1).length = ((l.zip m).filter fun x => selected rmin rmax imin imax x.1).length := by
      intro l
      induction l with
      | nil => intro m _; rfl
      | cons x l ih =>
        intro m hm
        cases m with
        | nil => simp at hm
        | cons y m =>
          have ih := ih m (by simpa using hm)
          simp only [List.zip_cons_cons, List.filter_cons]
          split_ifs <;> simp [ih]
    exact this vp V hl
  have hvals : vals = vp.filter (fun z => InBox rmin rmax imin imax z) := by
    rw [hv, compress_map _ _ _ rfl, ← hsel]
    have : ∀ l : List ℂ, ((l.zip l).filter fun x => selected rmin rmax imin imax x.1).map Prod.snd = l.filter fun z => selected rmin rmax imin imax z := by
      intro l
      induction l with
      | nil => rfl
      | cons x l ih =>
        simp only [List.zip_cons_cons, List.filter_cons]
        split_ifs <;> simp [ih]
    exact this vp
  have key : ∀ f : ℂ → ℝ, (argsort (vals.map f)).Perm (List.range vals.length) ∧
      ((argsort (vals.map f)).map fun i => f (vals.getD i 0)).Pairwise (· ≤ ·) := by
    intro f
    obtain ⟨h1, h2⟩ := ha (vals.map f)
    rw [List.length_map] at h1
    refine ⟨h1, ?_⟩
    have : ((argsort (vals.map f)).map fun i => f (vals.getD i 0)) = (argsort (vals.map f)).map fun i => (vals.map f).getD i 0 := by
      refine List.map_congr_left fun i hi => ?_
      have : i < vals.length := List.mem_range.1 (h1.mem_iff.1 hi)
      simp [List.getD_eq_getElem?_getD, this]
    rw [this]
    exact h2
  rcases hs with rfl | rfl
  · refine ⟨vals, vects, argsort (vals.map fun z => z.re), ?_, hvals, hlen, hz, (key _).1, fun _ => (key _).2, fun h => absurd h (by decide)⟩
    unfold select_and_sort
    simp only [← hv, ← hw]
    rfl
  · refine ⟨vals, vects, argsort (vals.map fun z => -z.im), ?_, hvals, hlen, hz, (key _).1, fun h => absurd h (by decide), fun _ => ?_⟩
    · unfold select_and_sort
      simp only [← hv, ← hw]
      rfl
    · have := (key fun z => -z.im).2
      rw [List.pairwise_map] at this ⊢
      exact this.imp fun h => neg_le_neg_iff.1 h

/-- C52: any other sort key raises `KeyError`; without a previous `solve_eig`, `AttributeError`. -/
theorem C52_errors (argsort : Argsort) (vp : List ℂ) (V : List (ℕ → ℂ)) (rmin rmax imin imax : ℝ) (sort : String) :
    select_and_sort argsort none rmin rmax imin imax sort = .error .attributeError ∧
    (sort ≠ "real" → sort ≠ "imag" → select_and_sort argsort (some (vp, V)) rmin rmax imin imax sort = .error .keyError) := by
  refine ⟨rfl, fun h1 h2 => ?_⟩
  unfold select_and_sort
  simp only []
  rfl

/-- non-vacuity: three eigenvalues, one outside the box (on its closed side it would be inside) -/
example : ∃ argsort, SoundArgsort argsort ∧ InBox 0 1 (-1) 1 0 ∧ ¬ InBox 0 1 (-1) 1 1 := by
  obtain ⟨f, hf⟩ := exists_soundArgsort
  exact ⟨f, hf, by simp [InBox], by simp [InBox]⟩

/-! ## C53 -/

theorem norm_sq {N : ℕ} (v : Fin N → ℂ) : LinOperator.norm v ^ 2 = ∑ i, Complex.normSq (v i) :=
  Real.sq_sqrt (Finset.sum_nonneg fun _ _ => Complex.normSq_nonneg _)

theorem norm_nonneg' {N : ℕ} (v : Fin N → ℂ) : 0 ≤ LinOperator.norm v := Real.sqrt_nonneg _

theorem norm_eq_zero' {N : ℕ} {v : Fin N → ℂ} : LinOperator.norm v = 0 ↔ v = 0 := by
  constructor
  · intro h
    have h2 := norm_sq v
    rw [h] at h2
    have := (Finset.sum_eq_zero_iff_of_nonneg fun i _ => Complex.normSq_nonneg (v i)).1 (by linarith [h2, sq_nonneg (0:ℝ)] : ∑ i, Complex.normSq (v i) = 0)
    funext i
    exact Complex.normSq_eq_zero.1 (this i (Finset.mem_univ i))
  · rintro rfl
    unfold LinOperator.norm
    simp

theorem unit_of_vdivR {N : ℕ} {v w : Fin N → ℂ} (h : vdivR v (LinOperator.norm v) = .ok w) :
    ∑ i, Complex.normSq (w i) = 1 := by
  unfold vdivR at h
  split_ifs at h with h0
  cases h
  have : ∀ i, Complex.normSq (v i / (LinOperator.norm v : ℂ)) = Complex.normSq (v i) / LinOperator.norm v ^ 2 := by
    intro i
    rw [Complex.normSq_div, Complex.normSq_ofReal, sq]
  simp only [this]
  rw [← Finset.sum_div, ← norm_sq, div_self (pow_ne_zero 2 h0)]

theorem rayleigh_unit (solve : SolverC) {N : ℕ} (B M : Matrix (Fin N) (Fin N) ℂ) : ∀ (k : ℕ) (om : ℂ) (v : Fin N → ℂ) (om' : ℂ) (v' : Fin N → ℂ),
    ∑ i, Complex.normSq (v i) = 1 → rayleigh_loop solve B M k om v = .ok (om', v') → ∑ i, Complex.normSq (v' i) = 1
  | 0, om, v, om', v', h, e => by
    unfold rayleigh_loop at e
    cases e; exact h
  | k + 1, om, v, om', v', h, e => by
    unfold rayleigh_loop at e
    cases hs : rayleigh_step solve B M om v with
    | ok p =>
      rw [hs] at e
      refine rayleigh_unit solve B M k p.1 p.2 om' v' ?_ e
      unfold rayleigh_step at hs
      cases e1 : solve N (B - om • M) v with
      | error e' => rw [e1] at hs; cases hs
      | ok w =>
        rw [e1, Py.ok_bind] at hs
        cases e2 : vdivR w (LinOperator.norm w) with
        | error e' => rw [e2] at hs; cases hs
        | ok u =>
          rw [e2, Py.ok_bind] at hs
          cases e3 : cdiv (vdot u (B.mulVec u)) (vdot u (M.mulVec u)) with
          | error e' => rw [e3] at hs; cases hs
          | ok z =>
            rw [e3, Py.ok_bind] at hs
            cases hs
            exact unit_of_vdivR e2
    | error e' =>
      rw [hs] at e
      cases e' <;> first
        | exact rayleigh_unit solve B M k om v om' v' h e
        | cases e

/-- C53: whatever the operator, the starting pair, the number of iterations and the linear solver, the mode returned by `converge_eigenpair`
has norm 1. -/
theorem C53_unit (solve : SolverC) {N : ℕ} (B Id : Matrix (Fin N) (Fin N) ℂ) (omega : ℂ) (v : Fin N → ℂ) (niter : ℕ) (om' : ℂ)
    (v' : Fin N → ℂ) (h : converge_eigenpair solve B Id omega v niter = .ok (om', v')) : ∑ i, ‖v' i‖ ^ 2 = 1 := by
  unfold converge_eigenpair at h
  simp only [] at h
  cases e : vdivR v (LinOperator.norm v) with
  | error e' => rw [e] at h; cases h
  | ok w =>
    rw [e, Py.ok_bind] at h
    have := rayleigh_unit solve B _ niter omega w om' v' (unit_of_vdivR e) h
    simpa only [Complex.normSq_eq_norm_sq] using this

/-- C53: an exact eigenpair of `B v = -i ω At v` is returned unchanged, up to normalisation of the mode, for every number of iterations. -/
theorem C53_exact (solve : SolverC) (hs : SoundSolveC solve) {N : ℕ} (B At : Matrix (Fin N) (Fin N) ℂ) (omega : ℂ) (v : Fin N → ℂ)
    (hv : v ≠ 0) (he : B.mulVec v = (-Complex.I * omega) • At.mulVec v) (niter : ℕ) :
    ∃ c : ℝ, 0 < c ∧ converge_eigenpair solve B At omega v niter = .ok (omega, fun i => c * v i) := by
  have hn : LinOperator.norm v ≠ 0 := fun h => hv (norm_eq_zero'.1 h)
  refine ⟨1 / LinOperator.norm v, by have := norm_nonneg' v; positivity, ?_⟩
  have hdet : (B - omega • harmonic_time_coef • At).det = 0 := by
    rw [← Matrix.exists_mulVec_eq_zero_iff]
    refine ⟨v, hv, ?_⟩
    rw [Matrix.sub_mulVec, he, Matrix.smul_mulVec, Matrix.smul_mulVec, smul_smul, sub_eq_zero]
    congr 1
    unfold harmonic_time_coef
    ring
  have loop : ∀ k w, rayleigh_loop solve B (harmonic_time_coef • At) k omega w = .ok (omega, w) := by
    intro k
    induction k with
    | zero => intro w; rfl
    | succ k ih =>
      intro w
      unfold rayleigh_loop
      have : rayleigh_step solve B (harmonic_time_coef • At) omega w = .error .linAlgError := by
        unfold rayleigh_step
        rw [(hs N _ w).2 hdet]
        rfl
      rw [this]
      exact ih w
  unfold converge_eigenpair
  simp only []
  have : vdivR v (LinOperator.norm v) = .ok fun i => ((1 / LinOperator.norm v : ℝ) : ℂ) * v i := by
    unfold vdivR
    rw [if_neg hn]
    congr 1
    funext i
    push_cast
    ring
  rw [this, Py.ok_bind, loop]

/-- C53: a zero starting mode is the only failure before the iterations: with `niter = 0` the pair is returned with the mode normalised. -/
theorem C53_zero (solve : SolverC) {N : ℕ} (B At : Matrix (Fin N) (Fin N) ℂ) (omega : ℂ) (v : Fin N → ℂ) :
    (v = 0 → converge_eigenpair solve B At omega v 0 = .error .nonFinite) ∧
    (v ≠ 0 → converge_eigenpair solve B At omega v 0 = .ok (omega, fun i => v i / LinOperator.norm v)) := by
  unfold converge_eigenpair vdivR
  refine ⟨fun h => ?_, fun h => ?_⟩
  · rw [if_pos (norm_eq_zero'.2 h)]; rfl
  · rw [if_neg fun h' => h (norm_eq_zero'.1 h')]; rfl

/-- non-vacuity of the exact eigenpair: a diagonal operator -/
example : ∃ (solve : SolverC) (B At : Matrix (Fin 2) (Fin 2) ℂ) (v : Fin 2 → ℂ), SoundSolveC solve ∧ v ≠ 0 ∧
    B.mulVec v = (-Complex.I * 3) • At.mulVec v := by
  obtain ⟨f, hf⟩ := exists_soundSolveC
  refine ⟨f, !![-Complex.I * 3, 0; 0, 5], 1, ![1, 0], hf, fun h => by simpa using congrFun h 0, ?_⟩
  funext i
  fin_cases i <;> simp [Matrix.mulVec, dotProduct]

end Aerokit.Props
