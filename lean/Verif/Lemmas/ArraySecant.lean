import Verif.Lemmas.NpArray
import Verif.Spec.Arrays

/-! # `secant_solve` under `np.vectorize` -/

namespace Aerokit.ArrayFns
open Nd Spec
variable {ι : Type}

theorem not_unique_of_several (h : Several ι) : ¬ Nonempty (Unique ι) := by
  rintro ⟨u⟩
  obtain ⟨i, j, hij⟩ := h
  exact hij (by rw [u.eq_default i, u.eq_default j])

theorem truthGt_arr (h : Several ι) (X Y : Nd ι) (hX : X.isArr = true ∨ Y.isArr = true) :
    truthGt X Y = .error .valueError := by
  have := not_unique_of_several h
  cases X <;> cases Y <;> simp_all [truthGt]

@[simp] theorem truthGt_num (x y : Option ℝ) :
    truthGt (num x : Nd ι) (num y) = .ok (gtEntry x y) := rfl

theorem pymax_arr (h : Several ι) (X Y : Nd ι) (hX : Y.isArr = true) :
    pymax X Y = .error .valueError := by
  unfold pymax; rw [truthGt_arr h _ _ (Or.inl hX)]; rfl

theorem tol_eq : (0.00001 : Nd ι) = num (some 0.00001) := rfl

theorem pymax_num (x y : ℝ) : pymax (num (some x) : Nd ι) (num (some y)) = .ok (num (some (max x y))) := by
  unfold pymax
  rw [truthGt_num]
  simp only [Py.ok_bind, Py.pure_eq, gtEntry]
  by_cases h : y > x
  · simp [h, max_eq_right h.le]
  · simp [h, max_eq_left (not_lt.mp h)]

/-- A function that returns a float when given a float. -/
def Floats (f : Nd ι → Py (Nd ι)) : Prop := ∀ x, ∃ y, f (num x) = .ok (num y)

theorem pymax_num_none (x : Option ℝ) : pymax (num x : Nd ι) (num none) = .ok (num x) := by
  unfold pymax
  rw [truthGt_num]
  cases x <;> rfl

theorem loop_none (f : Nd ι → Py (Nd ι)) (y : Nd ι) (t : Option ℝ) (k : ℕ) (ox : Option ℝ) (oy : Nd ι) :
    secantLoop f y (num t) k (num ox) oy (num none) = .ok (num none) := by
  cases k with
  | zero => rfl
  | succ k =>
    unfold secantLoop
    have h1 : (num t * abs (num none) : Nd ι) = num none := by cases t <;> rfl
    have h2 : (abs (num none - num ox) : Nd ι) = num none := rfl
    rw [h1, pymax_num_none, h2]
    cases t <;> rfl

theorem loop_floats {f : Nd ι → Py (Nd ι)} (hf : Floats f) (y t : Option ℝ) :
    ∀ (k : ℕ) (ox oy nx : Option ℝ),
      ∃ r, secantLoop f (num y) (num t) k (num ox) (num oy) (num nx) = .ok (num r)
  | 0, _, _, nx => ⟨nx, rfl⟩
  | k + 1, ox, oy, nx => by
    unfold secantLoop
    obtain ⟨m, hm⟩ : ∃ m, pymax (num t) (num t * abs (num nx) : Nd ι) = .ok (num m) := by
      unfold pymax
      by_cases h : gtEntry (t.bind fun a => (nx.bind fun a => some |a|).bind fun b => some (a * b)) t = true
      · exact ⟨_, by rw [show (num t * abs (num nx) : Nd ι) = num _ from rfl, truthGt_num, h]; rfl⟩
      · refine ⟨t, ?_⟩
        rw [show (num t * abs (num nx) : Nd ι) = num _ from rfl, truthGt_num]
        rw [Bool.not_eq_true] at h
        rw [h]; rfl
    rw [hm, Py.ok_bind, show (abs (num nx - num ox) : Nd ι) = num _ from rfl, truthGt_num, Py.ok_bind]
    split_ifs
    · obtain ⟨z, hz⟩ := hf nx
      rw [hz, Py.ok_bind]
      exact loop_floats hf y t k nx z _
    · exact ⟨nx, rfl⟩

theorem next_eq (y ox oy nx ny : ℝ) :
    (num (some nx) + (num (some nx) - num (some ox)) / (num (some ny) - num (some oy))
      * (num (some y) - num (some ny)) : Nd ι)
      = num ((Py.div (nx - ox) (ny - oy)).toOption.bind fun s => some (nx + s * (y - ny))) := by
  change (num (some nx) + num ((Py.div (nx - ox) (ny - oy)).toOption) * num (some (y - ny)) : Nd ι) = _
  generalize (Py.div (nx - ox) (ny - oy)).toOption = o
  cases o <;> rfl

/-- If the loop on floats returns, so does the loop on numpy floats, with the same value. -/
theorem loop_scalar {f : Nd ι → Py (Nd ι)} {g : ℝ → Py ℝ}
    (hfg : ∀ x d, g x = .ok d → f (num (some x)) = .ok (num (some d))) (y : ℝ) :
    ∀ (k : ℕ) (ox oy nx : ℝ) (r : IterativeSolve.SecantResult),
      IterativeSolve.secantLoop g y 0.00001 k ox oy nx = .ok r →
      secantLoop f (num (some y)) 0.00001 k (num (some ox)) (num (some oy)) (num (some nx))
        = .ok (num (some r.x))
  | 0, _, _, nx, r, hr => by
    have := Except.ok.inj hr
    subst this; rfl
  | k + 1, ox, oy, nx, r, hr => by
    unfold IterativeSolve.secantLoop at hr
    unfold secantLoop
    rw [tol_eq, show (num (some (0.00001:ℝ)) * abs (num (some nx)) : Nd ι)
        = num (some (0.00001 * |nx|)) from rfl, pymax_num, Py.ok_bind,
      show (abs (num (some nx) - num (some ox)) : Nd ι) = num (some |nx - ox|) from rfl,
      truthGt_num, Py.ok_bind]
    by_cases h : |nx - ox| > max 0.00001 (0.00001 * |nx|)
    · have hg : gtEntry (some |nx - ox|) (some (max 0.00001 (0.00001 * |nx|))) = true := by
        simp only [gtEntry]; exact decide_eq_true h
      rw [if_pos h] at hr
      rw [if_pos hg]
      cases hgx : g nx with
      | error e => rw [hgx] at hr; cases hr
      | ok ny =>
        rw [hgx, Py.ok_bind] at hr
        rw [hfg _ _ hgx, Py.ok_bind, next_eq]
        cases hd : Py.div (nx - ox) (ny - oy) with
        | error e => rw [hd] at hr; cases hr
        | ok s =>
          rw [hd] at hr
          exact loop_scalar hfg y k nx ny _ r hr
    · have hg : ¬ (gtEntry (some |nx - ox|) (some (max 0.00001 (0.00001 * |nx|))) = true) := by
        simp only [gtEntry]; simpa using h
      rw [if_neg h] at hr
      have := Except.ok.inj hr
      subst this
      rw [if_neg hg]; rfl

theorem secantElem_scalar {f : Nd ι → Py (Nd ι)} {g : ℝ → Py ℝ}
    (hfg : ∀ x d, g x = .ok d → f (num (some x)) = .ok (num (some d))) {y x r : ℝ}
    (hr : IterativeSolve.secant_solve g y x = .ok r) :
    secantElem f (num (some y)) (num (some x)) = .ok (num (some r)) := by
  unfold IterativeSolve.secant_solve IterativeSolve.secant_run IterativeSolve.defaultTol at hr
  simp only [] at hr
  unfold secantElem
  cases hx : g x with
  | error e => rw [hx] at hr; cases hr
  | ok oy =>
    rw [hx] at hr
    rw [hfg _ _ hx, Py.ok_bind, show (num (some x) * 0.999 : Nd ι) = num (some (x * 0.999)) from rfl]
    simp only [Py.ok_bind] at hr
    cases hl : IterativeSolve.secantLoop g y 0.00001 (IterativeSolve.itmax - 1) x oy (x * 0.999) with
    | error e => rw [hl] at hr; cases hr
    | ok q =>
      rw [hl] at hr
      have h1 := Except.ok.inj hr
      rw [loop_scalar hfg y _ _ _ _ q hl, ← h1]

theorem secantElem_floats {f : Nd ι → Py (Nd ι)} (hf : Floats f) (y x : Option ℝ) :
    ∃ r, secantElem f (num y) (num x) = .ok (num r) := by
  unfold secantElem
  obtain ⟨z, hz⟩ := hf x
  rw [hz, Py.ok_bind]
  exact loop_floats hf y _ _ x z _

/-- When every entry returns a float, `np.vectorize` collects them. -/
theorem vectorize_ok [Nonempty ι] {f : Nd ι → Py (Nd ι)} {Y X : Nd ι}
    (h : ∀ i, ∃ r, secantElem f (num (Y.at' i)) (num (X.at' i)) = .ok (num r))
    (hs : Y.isArr = true ∨ X.isArr = true) :
    ∃ R, secant_solve f Y X = .ok R ∧ R.isArr = true ∧
      ∀ i, secantElem f (num (Y.at' i)) (num (X.at' i)) = .ok (num (R.at' i)) := by
  choose v hv using h
  have key : ∃ v : ι → Option ℝ, ∀ i, secantElem f (num (Y.at' i)) (num (X.at' i)) = .ok (num (v i)) :=
    ⟨v, hv⟩
  refine ⟨arr key.choose, ?_, rfl, key.choose_spec⟩
  cases Y <;> cases X <;> simp only [isArr_num, isArr_arr, Bool.false_eq_true, or_self] at hs
  all_goals
    unfold secant_solve
    simp only []
    rw [if_neg (not_isEmpty_of_nonempty ι)]
    exact dif_pos key

/-- When an entry raises, and all the exceptions are `ValueError`, so does the call. -/
theorem vectorize_err {f : Nd ι → Py (Nd ι)} {Y X : Nd ι}
    (h : ∀ i e, secantElem f (num (Y.at' i)) (num (X.at' i)) = .error e → e = .valueError)
    (h' : ∃ i e, secantElem f (num (Y.at' i)) (num (X.at' i)) = .error e)
    (hs : Y.isArr = true ∨ X.isArr = true) :
    secant_solve f Y X = .error .valueError := by
  have key : ¬ ∃ v : ι → Option ℝ, ∀ i,
      secantElem f (num (Y.at' i)) (num (X.at' i)) = .ok (num (v i)) := by
    rintro ⟨v, hv⟩
    obtain ⟨i, e, he⟩ := h'
    rw [hv i] at he; cases he
  have hne : ¬ IsEmpty ι := not_isEmpty_iff.mpr ⟨h'.choose⟩
  have h2 : h'.choose_spec.choose = .valueError := h _ _ h'.choose_spec.choose_spec
  cases Y <;> cases X <;> simp only [isArr_num, isArr_arr, Bool.false_eq_true, or_self] at hs
  all_goals
    unfold secant_solve
    simp only []
    rw [if_neg hne, dif_neg key, dif_pos h', h2]

/-- The search in full, when the function sends floats to floats. -/
theorem secant_solve_elem [Nonempty ι] {f : Nd ι → Py (Nd ι)} {g : ℝ → Py ℝ} (hf : Floats f)
    (hfg : ∀ x d, g x = .ok d → f (num (some x)) = .ok (num (some d))) (Y X : Nd ι) :
    ∃ R, secant_solve f Y X = .ok R ∧ R.isArr = (Y.isArr || X.isArr) ∧
      ∀ i y x r, Y.at' i = some y → X.at' i = some x →
        IterativeSolve.secant_solve g y x = .ok r → R.at' i = some r := by
  by_cases hs : Y.isArr = true ∨ X.isArr = true
  · obtain ⟨R, h1, h2, h3⟩ := vectorize_ok (Y := Y) (X := X) (fun i => secantElem_floats hf _ _) hs
    refine ⟨R, h1, ?_, fun i y x r hy hx hr => ?_⟩
    · rw [h2]; rcases hs with h | h <;> simp [h]
    · have h4 := h3 i
      rw [hy, hx, secantElem_scalar hfg hr] at h4
      have h5 := Except.ok.inj h4
      injection h5 with h6
      exact h6.symm
  · cases Y with
    | arr v => simp at hs
    | num y =>
      cases X with
      | arr v => simp at hs
      | num x =>
        obtain ⟨r, hr⟩ := secantElem_floats hf y x
        refine ⟨num r, hr, rfl, fun i y' x' r' hy hx hr' => ?_⟩
        simp only [at_num] at hy hx
        subst hy hx
        have h4 := secantElem_scalar hfg hr'
        rw [hr] at h4
        have h5 := Except.ok.inj h4
        injection h5 with h6

/-- One iteration with a function that returns an array of several entries ends in `ValueError`. -/
theorem loop_arr (hs : Several ι) {f : Nd ι → Py (Nd ι)} (y tol : Nd ι) (k : ℕ) (ox oy nx : Nd ι)
    (hx : nx.isArr = true) : secantLoop f y tol (k + 1) ox oy nx = .error .valueError := by
  unfold secantLoop
  rw [pymax_arr hs]
  · rfl
  · rw [isArr_mul, isArr_abs, hx, Bool.or_true]

theorem secantElem_arr (hs : Several ι) {f : Nd ι → Py (Nd ι)}
    (hf : ∀ x, ∃ v, f (num x) = .ok (arr v)) (y : Option ℝ) (x : ℝ) (hx : 0.0101 ≤ |x|) :
    secantElem f (num y) (num (some x)) = .error .valueError := by
  unfold secantElem
  obtain ⟨v, hv⟩ := hf (some x)
  rw [hv, Py.ok_bind, show (num (some x) * 0.999 : Nd ι) = num (some (x * 0.999)) from rfl,
    show IterativeSolve.itmax - 1 = 18 + 1 from rfl]
  unfold secantLoop
  rw [tol_eq, show (num (some (0.00001:ℝ)) * abs (num (some (x * 0.999))) : Nd ι)
        = num (some (0.00001 * |x * 0.999|)) from rfl, pymax_num, Py.ok_bind,
      show (abs (num (some (x * 0.999)) - num (some x)) : Nd ι) = num (some |x * 0.999 - x|) from rfl,
      truthGt_num, Py.ok_bind]
  have h1 : |x * 0.999 - x| = 0.001 * |x| := by
    rw [show x * 0.999 - x = -(0.001 * x) by ring, abs_neg, abs_mul]; norm_num
  have h2 : |x * 0.999| = 0.999 * |x| := by rw [abs_mul, mul_comm]; norm_num
  have hg : gtEntry (some |x * 0.999 - x|) (some (max 0.00001 (0.00001 * |x * 0.999|))) = true := by
    simp only [gtEntry]
    apply decide_eq_true
    rw [h1, h2]
    apply max_lt
    · linarith
    · linarith
  rw [if_pos hg]
  obtain ⟨w, hw⟩ := hf (some (x * 0.999))
  rw [hw, Py.ok_bind]
  apply loop_arr hs
  nd_shape
  rfl

/-- The search when the function has captured an array of several entries. -/
theorem secantElem_arr_cases (hs : Several ι) {f : Nd ι → Py (Nd ι)}
    (hf : ∀ x, ∃ v, f (num x) = .ok (arr v)) (y x : Option ℝ) :
    (∃ r, secantElem f (num y) (num x) = .ok (num r)) ∨
      secantElem f (num y) (num x) = .error .valueError := by
  unfold secantElem
  obtain ⟨v, hv⟩ := hf x
  rw [hv, Py.ok_bind, show IterativeSolve.itmax - 1 = 18 + 1 from rfl]
  generalize hnx : (num x * 0.999 : Nd ι) = nx
  obtain ⟨z, rfl⟩ : ∃ z, nx = num z := ⟨_, hnx.symm⟩
  unfold secantLoop
  cases hm : pymax (0.00001 : Nd ι) (0.00001 * abs (num z)) with
  | error e =>
    exfalso
    unfold pymax at hm
    rw [show (0.00001 * abs (num z) : Nd ι) = num _ from rfl, tol_eq, truthGt_num] at hm
    cases hm
  | ok m =>
    obtain ⟨q, rfl⟩ : ∃ q, m = num q := by
      unfold pymax at hm
      rw [show (0.00001 * abs (num z) : Nd ι) = num _ from rfl, tol_eq, truthGt_num] at hm
      simp only [Py.ok_bind, Py.pure_eq] at hm
      have := Except.ok.inj hm
      split_ifs at this
      · exact ⟨_, this.symm⟩
      · exact ⟨_, this.symm⟩
    rw [Py.ok_bind, show (abs (num z - num x) : Nd ι) = num _ from rfl, truthGt_num, Py.ok_bind]
    split_ifs
    · right
      obtain ⟨w, hw⟩ := hf z
      rw [hw, Py.ok_bind]
      apply loop_arr hs
      nd_shape
      rfl
    · exact Or.inl ⟨z, rfl⟩

end Aerokit.ArrayFns
