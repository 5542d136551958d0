import Verif.Props.Euler1D

/-! # Properties C44, C47, C48 : boundary rows and histories of `Euler1D` -/

namespace Aerokit.Props
open LinOperator NumSpectral Model1D Euler1D Spec Polynomial

variable {n : ℕ} {a b : ℝ}

/-! ### evaluation of the calls -/

/-- object after `set_BC(t, t')` with two strings -/
def withBC (s : Obj n) (t t' : String) : Obj n :=
  { s with
    heap := (((s.heap.alloc ⟨some t, []⟩).2).alloc ⟨some t', []⟩).2
    BC_type := some (s.heap.next, s.heap.next + 1) }

theorem set_BC_str (s : Obj n) {t t' : String} (h : t ∈ BC_names) (h' : t' ∈ BC_names) :
    Euler1D.set_BC (.str t) (.str t') s = (.ok (), withBC s t t') := by
  rw [set_BC_eq]
  unfold check_BCs
  have c1 : check_BC BC_names (.str t) s.heap = (.ok s.heap.next, (s.heap.alloc ⟨some t, []⟩).2) := by
    simp [check_BC, Heap.alloc, h]
  have c2 : check_BC BC_names (.str t') (s.heap.alloc ⟨some t, []⟩).2
      = (.ok (s.heap.next + 1), ((s.heap.alloc ⟨some t, []⟩).2.alloc ⟨some t', []⟩).2) := by
    simp [check_BC, Heap.alloc, h']
  rw [Meth.bind_ok c1, Meth.bind_ok c2]
  rfl

theorem withBC_left (s : Obj n) (t t' : String) : (withBC s t t').heap.at' s.heap.next = ⟨some t, []⟩ := by
  simp [withBC, Heap.alloc]

theorem withBC_right (s : Obj n) (t t' : String) : (withBC s t t').heap.at' (s.heap.next + 1) = ⟨some t', []⟩ := by
  simp [withBC, Heap.alloc]

theorem withBC_inv {s : Obj n} (h : EInv a b s) (t t' : String) : EInv a b (withBC s t t') := ⟨h.diff, h.nvar⟩

/-- the raw operator -/
noncomputable abbrev rawM (a b : ℝ) (q : StateV n) : Mat ℝ := ⟨n * 3, raw (Dm n a b 1) q⟩

theorem per_ok (hn : 2 ≤ n) (hab : a ≠ b) {s : Obj n} (h : EInv a b s) {q : StateV n} (hq : s.basestate = some q)
    (hr : ∀ i, q.rho i ≠ 0) {l r : ℕ} (hbc : s.BC_type = some (l, r)) (hl : (s.heap.at' l).type = some "per")
    (hrr : (s.heap.at' r).type = some "per") :
    ∃ d, Euler1D.compute_operators s = (.ok (), { s with diffop := d, At := some (perA n (eye (n * 3))), B := some (perB (Dm n a b 1) (rawM a b q)) }) ∧
      Inv a b d := by
  obtain ⟨d, h1, h2⟩ := compute_pre hn hab h hq hr
  rw [h1, compute_BC_per (s := pre s d (Dm n a b 1) q) (l := l) (r := r) hbc (by show getType s.heap l = _; simp [getType, hl])
    (by show getType s.heap r = _; simp [getType, hrr])]
  obtain ⟨d', h3, h4⟩ := setBC_per_ok hn hab h2 (A := eye (n * 3)) (M := rawM a b q) rfl rfl (Nat.mul_comm _ _) (Nat.mul_comm _ _)
  exact ⟨d', h3, h4⟩

/-- memory after both `'type'` keys have been popped -/
def popped2 (h : Heap) (l r : ℕ) : Heap :=
  (h.set l ⟨none, (h.at' l).kwargs⟩).set r ⟨none, (h.at' r).kwargs⟩

theorem sym_ok (hn : 2 ≤ n) (hab : a ≠ b) {s : Obj n} (h : EInv a b s) {q : StateV n} (hq : s.basestate = some q)
    (hr : ∀ i, q.rho i ≠ 0) {l r : ℕ} (hbc : s.BC_type = some (l, r)) (hl : s.heap.at' l = ⟨some "sym", []⟩)
    (hrr : s.heap.at' r = ⟨some "sym", []⟩) (hlr : l ≠ r) :
    ∃ d, Euler1D.compute_operators s = (.ok (), { s with
        diffop := d
        At := some (symA n (n - 1) (symA n 0 (eye (n * 3))))
        B := some (symB (Dm n a b 1) (n - 1) (symB (Dm n a b 1) 0 (rawM a b q)))
        heap := popped2 s.heap l r }) ∧ Inv a b d := by
  obtain ⟨d, h1, h2⟩ := compute_pre hn hab h hq hr
  rw [h1, compute_BC_two (s := pre s d (Dm n a b 1) q) (l := l) (r := r) (t := "sym") hbc (by show getType s.heap l = _; simp [getType, hl])
    (by decide)]
  obtain ⟨d', h3, h4⟩ := setBC_sym_ok hn hab (s := popped (pre s d (Dm n a b 1) q) l) ⟨h2.diff, h2.nvar⟩ (A := eye (n * 3))
    (M := rawM a b q) rfl rfl (Nat.mul_comm _ _).ge (Nat.mul_comm _ _).ge (i := 0) (by omega)
  have e1 : applyBC l 0 (pre s d (Dm n a b 1) q) = _ := (applyBC_eq (s := pre s d (Dm n a b 1) q) hl).trans h3
  rw [Meth.bind_ok e1]
  have hr2 : (s.heap.set l ⟨none, (s.heap.at' l).kwargs⟩).at' r = ⟨some "sym", []⟩ := by
    simp [Heap.set, Ne.symm hlr, hrr]
  obtain ⟨d2, h5, h6⟩ := setBC_sym_ok hn hab (s := popped { popped (pre s d (Dm n a b 1) q) l with
      diffop := d'
      At := some (symA n 0 (eye (n * 3)))
      B := some (symB (Dm n a b 1) 0 (rawM a b q)) } r) ⟨h4, h2.nvar⟩ (A := symA n 0 (eye (n * 3)))
    (M := symB (Dm n a b 1) 0 (rawM a b q)) rfl rfl (Nat.mul_comm _ _).ge (Nat.mul_comm _ _).ge (i := n - 1) (by omega)
  refine ⟨d2, ?_, h6⟩
  refine ((applyBC_eq (s := { popped (pre s d (Dm n a b 1) q) l with
      diffop := d'
      At := some (symA n 0 (eye (n * 3)))
      B := some (symB (Dm n a b 1) 0 (rawM a b q)) }) hr2).trans h5).trans ?_
  have : ((s.heap.set l ⟨none, (s.heap.at' l).kwargs⟩).at' r) = s.heap.at' r := by rw [hr2, hrr]
  simp only [popped, pre, popped2, this]

theorem get_cached {s : Obj n} {B A : Mat ℝ} (hB : s.B = some B) (hA : s.At = some A) :
    Euler1D.get_RHS_time_matrices s = (.ok (B, A), s) := by
  unfold Euler1D.get_RHS_time_matrices LinOperator.get_RHS_time_matrices
  rw [Meth.bind_ok (Meth.get_apply _ _), hB]
  rw [Meth.when_neg (by simp), Meth.bind_ok (Meth.pure_apply _ _), Meth.bind_ok (Meth.get_apply _ _),
    Meth.bind_ok (Meth.get_apply _ _), hB, hA]
  rfl

theorem get_compute {s s' : Obj n} {B A : Mat ℝ} (h0 : s.B = none) (hc : Euler1D.compute_operators s = (.ok (), s'))
    (hB : s'.B = some B) (hA : s'.At = some A) : Euler1D.get_RHS_time_matrices s = (.ok (B, A), s') := by
  unfold Euler1D.get_RHS_time_matrices LinOperator.get_RHS_time_matrices
  rw [Meth.bind_ok (Meth.get_apply _ _), h0]
  rw [Meth.when_pos (by simp), Meth.bind_ok hc, Meth.bind_ok (Meth.get_apply _ _),
    Meth.bind_ok (Meth.get_apply _ _), hB, hA]
  rfl

theorem get_compute_err {s s' : Obj n} {e : PyErr} (h0 : s.B = none) (hc : Euler1D.compute_operators s = (.error e, s')) :
    Euler1D.get_RHS_time_matrices s = (.error e, s') := by
  unfold Euler1D.get_RHS_time_matrices LinOperator.get_RHS_time_matrices
  rw [Meth.bind_ok (Meth.get_apply _ _), h0]
  rw [Meth.when_pos (by simp), Meth.bind_err hc]

/-! ### sums over rows -/

theorem row_block (f : ℕ → ℝ) (v : ℕ → ℝ) (k : Fin 3) :
    ∑ j ∈ Finset.range (3 * n), (if k * n ≤ j ∧ j < (k + 1) * n then f (j - k * n) else 0) * v j
      = ∑ j : Fin n, f j * field n v k j := by
  rw [sum_three, Finset.sum_eq_single k]
  · refine Finset.sum_congr rfl fun j _ => ?_
    have hj := j.2
    have h1 : (k:ℕ) * n ≤ k * n + j ∧ (k:ℕ) * n + j < (k + 1) * n := by
      constructor
      · omega
      · rw [Nat.add_mul]; omega
    rw [if_pos h1, Nat.add_sub_cancel_left]; rfl
  · intro l _ hl
    refine Finset.sum_eq_zero fun j _ => ?_
    have hj := j.2
    rw [if_neg, zero_mul]
    rcases Nat.lt_or_ge (l:ℕ) k with h | h
    · have := Nat.mul_le_mul_right n (Nat.succ_le_of_lt h)
      rw [Nat.succ_mul] at this
      omega
    · have h' : (k:ℕ) + 1 ≤ l := by
        have : (k:ℕ) ≠ l := fun e => hl (Fin.ext e.symm)
        omega
      have := Nat.mul_le_mul_right n h'
      omega
  · intro h; exact absurd (Finset.mem_univ _) h

theorem row_single {N : ℕ} (v : ℕ → ℝ) {i : ℕ} (hi : i < N) :
    ∑ j ∈ Finset.range N, (if j = i then (1:ℝ) else 0) * v j = v i := by
  simp only [ite_mul, one_mul, zero_mul]
  rw [Finset.sum_ite_eq' (Finset.range N) i, if_pos (Finset.mem_range.2 hi)]

theorem row_zero {M : Mat ℝ} {r : ℕ} (h : ∀ j, M.e r j = 0) (v : ℕ → ℝ) : M.mulVec v r = 0 := by
  unfold Mat.mulVec
  simp [h]

theorem idx_lt (k : Fin 3) {i : ℕ} (hi : i < n) : (k:ℕ) * n + i < 3 * n := by
  have := Nat.mul_le_mul_right n (Nat.succ_le_of_lt k.2)
  rw [Nat.succ_mul] at this
  omega

/-! ## C47 -/

/-- C47 (periodic): after any history, once `set_BC("per", "per")` has been called, `Euler1D.compute_operators` succeeds and the two
boundary equations of each variable in `At w = B v` hold iff the values and the first derivatives match at both ends. -/
theorem C47_periodic (hn : 2 ≤ n) (hab : a ≠ b) (q0 : Option (StateV n)) (hp : Heap) (calls : List (EulerCall n))
    (q : StateV n) (hq : (eulerAfter n a b q0 hp calls).basestate = some q) (hr : ∀ i, q.rho i ≠ 0) :
    ∃ s1 s2 d D B At, Euler1D.set_BC (.str "per") (.str "per") (eulerAfter n a b q0 hp calls) = (.ok (), s1) ∧
      NumSpectral.matder (eulerAfter n a b q0 hp calls).diffop 1 = .ok (d, D) ∧
      Euler1D.compute_operators s1 = (.ok (), s2) ∧ s2.B = some B ∧ s2.At = some At ∧ B.size = 3 * n ∧ At.size = 3 * n ∧
      ∀ (v w : ℕ → ℝ) (k : Fin 3),
        ((B.mulVec v (k * n) = At.mulVec w (k * n) ∧ B.mulVec v (k * n + (n - 1)) = At.mulVec w (k * n + (n - 1))) ↔
          (field n v k ⟨0, by omega⟩ = field n v k ⟨n - 1, by omega⟩ ∧
            D.mulVec (field n v k) ⟨0, by omega⟩ = D.mulVec (field n v k) ⟨n - 1, by omega⟩)) := by
  have hI := einv_after hn hab q0 hp calls
  obtain ⟨d, hd, -⟩ := matder_spec hn hab hI.diff (m := 1) le_rfl
  obtain ⟨d', hc, -⟩ := per_ok hn hab (withBC_inv hI "per" "per") hq hr rfl (by rw [withBC_left]) (by rw [withBC_right])
  refine ⟨_, _, d, _, _, _, set_BC_str _ (by simp [BC_names]) (by simp [BC_names]), hd, hc, rfl, rfl, Nat.mul_comm _ _, Nat.mul_comm _ _, ?_⟩
  intro v w k
  have z0 : (perA n (eye (n * 3))).mulVec w (k * n) = 0 := by
    have := fun j => perA_end hn (eye (n * 3)) k (i := 0) (.inl rfl) j
    exact row_zero this w
  have z1 : (perA n (eye (n * 3))).mulVec w (k * n + (n - 1)) = 0 :=
    row_zero (fun j => perA_end hn (eye (n * 3)) k (i := n - 1) (.inr rfl) j) w
  have b0 : (perB (Dm n a b 1) (rawM a b q)).mulVec v (k * n) = v (k * n + 0) - v (k * n + (n - 1)) := by
    show ∑ j ∈ Finset.range (n * 3), _ = _
    have e : ∀ j, (perB (Dm n a b 1) (rawM a b q)).e (k * n) j * v j
        = (if j = k * n + 0 then 1 else 0) * v j - (if j = k * n + (n - 1) then 1 else 0) * v j := by
      intro j
      rw [perB_first hn]
      by_cases h1 : j = k * n
      · have h2 : j = k * n + 0 := h1
        have h3 : ¬ j = k * n + (n - 1) := by omega
        simp only [if_pos h1, if_pos h2, if_neg h3]; ring
      · have h2 : ¬ j = k * n + 0 := h1
        by_cases h3 : j = k * n + (n - 1)
        · simp only [if_neg h1, if_neg h2, if_pos h3]; ring
        · simp only [if_neg h1, if_neg h2, if_neg h3]; ring
    simp only [e]
    rw [Finset.sum_sub_distrib, row_single v (by rw [Nat.mul_comm n 3]; exact idx_lt k (by omega)),
      row_single v (by rw [Nat.mul_comm n 3]; exact idx_lt k (by omega))]
  have b1 : (perB (Dm n a b 1) (rawM a b q)).mulVec v (k * n + (n - 1))
      = (Dm n a b 1).mulVec (field n v k) ⟨0, by omega⟩ - (Dm n a b 1).mulVec (field n v k) ⟨n - 1, by omega⟩ := by
    show ∑ j ∈ Finset.range (n * 3), _ = _
    simp only [perB_last hn]
    rw [Nat.mul_comm n 3, row_block (fun j => ent (Dm n a b 1) 0 j - ent (Dm n a b 1) (n - 1) j) v k]
    simp only [Matrix.mulVec, dotProduct]
    rw [← Finset.sum_sub_distrib]
    refine Finset.sum_congr rfl fun j _ => ?_
    have h0 := ent_eq (Dm n a b 1) ⟨0, by omega⟩ j
    have h1 := ent_eq (Dm n a b 1) ⟨n - 1, by omega⟩ j
    simp only at h0 h1
    rw [h0, h1]; ring
  rw [z0, z1, b0, b1, sub_eq_zero, sub_eq_zero]
  exact Iff.rfl

/-- C47 (symmetry): after any history, once `set_BC("sym", "sym")` has been called, `Euler1D.compute_operators` succeeds and at each
of the two ends the boundary equations of `At w = B v` hold iff the velocity vanishes and the derivatives of density and
pressure vanish there. -/
theorem C47_symmetry (hn : 2 ≤ n) (hab : a ≠ b) (q0 : Option (StateV n)) (hp : Heap) (calls : List (EulerCall n))
    (q : StateV n) (hq : (eulerAfter n a b q0 hp calls).basestate = some q) (hr : ∀ i, q.rho i ≠ 0) :
    ∃ s1 s2 d D B At, Euler1D.set_BC (.str "sym") (.str "sym") (eulerAfter n a b q0 hp calls) = (.ok (), s1) ∧
      NumSpectral.matder (eulerAfter n a b q0 hp calls).diffop 1 = .ok (d, D) ∧
      Euler1D.compute_operators s1 = (.ok (), s2) ∧ s2.B = some B ∧ s2.At = some At ∧ B.size = 3 * n ∧ At.size = 3 * n ∧
      ∀ (v w : ℕ → ℝ) (i : Fin n), ((i:ℕ) = 0 ∨ (i:ℕ) = n - 1) →
        ((∀ k : Fin 3, B.mulVec v (k * n + i) = At.mulVec w (k * n + i)) ↔
          (field n v 1 i = 0 ∧ D.mulVec (field n v 0) i = 0 ∧ D.mulVec (field n v 2) i = 0)) := by
  have hI := einv_after hn hab q0 hp calls
  obtain ⟨d, hd, -⟩ := matder_spec hn hab hI.diff (m := 1) le_rfl
  obtain ⟨d', hc, -⟩ := sym_ok hn hab (withBC_inv hI "sym" "sym") hq hr rfl (by rw [withBC_left]) (by rw [withBC_right])
    (by omega)
  refine ⟨_, _, d, _, _, _, set_BC_str _ (by simp [BC_names]) (by simp [BC_names]), hd, hc, rfl, rfl, Nat.mul_comm _ _, Nat.mul_comm _ _, ?_⟩
  intro v w i hi
  have zA : ∀ k : Fin 3, (symA n (n - 1) (symA n 0 (eye (n * 3)))).mulVec w (k * n + i) = 0 := by
    intro k
    refine row_zero (fun j => ?_) w
    rcases hi with hi | hi
    · rw [hi, symA_other _ (by fin_cases k <;> simp <;> omega)]
      exact symA_at _ k (by omega) j
    · rw [hi]; exact symA_at _ k (by omega) j
  have hB : ∀ (k : Fin 3) (j : ℕ), (symB (Dm n a b 1) (n - 1) (symB (Dm n a b 1) 0 (rawM a b q))).e (k * n + i) j
      = if k = 1 then (if j = n + i then 1 else 0)
        else if k * n ≤ j ∧ j < (k + 1) * n then ent (Dm n a b 1) i (j - k * n) else 0 := by
    intro k j
    rcases hi with hi | hi
    · rw [hi, symB_other _ _ (by fin_cases k <;> simp <;> omega)]
      exact symB_at _ _ k (by omega) j
    · rw [hi]; exact symB_at _ _ k (by omega) j
  have b1 : (symB (Dm n a b 1) (n - 1) (symB (Dm n a b 1) 0 (rawM a b q))).mulVec v ((1 : Fin 3) * n + i) = field n v 1 i := by
    show ∑ j ∈ Finset.range (n * 3), _ = _
    simp only [hB, if_true]
    rw [row_single v (by have := i.2; omega)]
    simp [field]
  have bk : ∀ k : Fin 3, k ≠ 1 → (symB (Dm n a b 1) (n - 1) (symB (Dm n a b 1) 0 (rawM a b q))).mulVec v (k * n + i)
      = (Dm n a b 1).mulVec (field n v k) i := by
    intro k hk
    show ∑ j ∈ Finset.range (n * 3), _ = _
    simp only [hB, if_neg hk]
    rw [Nat.mul_comm n 3, row_block (fun j => ent (Dm n a b 1) i j) v k]
    simp only [Matrix.mulVec, dotProduct]
    refine Finset.sum_congr rfl fun j _ => ?_
    rw [ent_eq]
  simp only [zA, Fin.forall_fin_succ, IsEmpty.forall_iff, and_true]
  rw [show (Fin.succ 0 : Fin 3) = 1 from rfl, show (Fin.succ (Fin.succ 0) : Fin 3) = 2 from rfl]
  rw [bk 0 (by decide), b1, bk 2 (by decide)]
  tauto

/-! ## C44 -/

/-- C44 (what holds): whenever `get_RHS_time_matrices` computes the matrices (`_B is None`: no successful or failed
computation happened before) and returns, their interior rows are the Jacobian at the current base state. -/
theorem C44_first_partial (hn : 2 ≤ n) (hab : a ≠ b) (q0 : Option (StateV n)) (hp : Heap) (calls : List (EulerCall n))
    (q : StateV n) (hq : (eulerAfter n a b q0 hp calls).basestate = some q) (hr : ∀ i, q.rho i ≠ 0)
    (h0 : (eulerAfter n a b q0 hp calls).B = none) (B At : Mat ℝ) (s' : Obj n)
    (hg : Euler1D.get_RHS_time_matrices (eulerAfter n a b q0 hp calls) = (.ok (B, At), s')) :
    ∃ d D, NumSpectral.matder (eulerAfter n a b q0 hp calls).diffop 1 = .ok (d, D) ∧
      ∀ (v : ℕ → ℝ) (k : Fin 3) (i : Fin n), 0 < (i:ℕ) → (i:ℕ) < n - 1 →
        HasDerivAt (fun ε : ℝ => eulerRHS D q.gamma (q.rho + ε • field n v 0) (q.u + ε • field n v 1)
            (q.p + ε • field n v 2) k i) (B.mulVec v (k * n + i)) 0 := by
  obtain ⟨d, D, B', At', hd, hB, hA, hJ⟩ := C46_jacobian hn hab q0 hp calls q hq hr
  refine ⟨d, D, hd, fun v k i h1 h2 => ?_⟩
  have : B = B' := by
    rcases hc : Euler1D.compute_operators (eulerAfter n a b q0 hp calls) with ⟨_ | u, s2⟩
    · rw [get_compute_err h0 hc] at hg; cases hg
    · rw [hc] at hB hA
      have := get_compute h0 hc hB hA
      rw [hg] at this
      cases this; rfl
  rw [this]
  exact (hJ v k i h1 h2).1

/-- the general defect: once matrices are stored, any number of `set_basestate`/`set_BC` calls leaves
`get_RHS_time_matrices` (hence `solve_eig` and `converge_eigenpair`) with the old matrices. -/
theorem C44_stale_false (s : Obj n) (B At : Mat ℝ) (hB : s.B = some B) (hA : s.At = some At)
    (calls : List (EulerCall n)) (hc : ∀ c ∈ calls, (∃ q, c = .set_basestate q) ∨ (∃ L R, c = .set_BC L R)) :
    ∃ s', Euler1D.get_RHS_time_matrices (calls.foldl eulerStep s) = (.ok (B, At), s') := by
  have : (calls.foldl eulerStep s).B = some B ∧ (calls.foldl eulerStep s).At = some At := by
    induction calls generalizing s with
    | nil => exact ⟨hB, hA⟩
    | cons c l ih =>
      refine ih _ ?_ ?_ (fun c' h' => hc c' (List.mem_cons_of_mem _ h'))
      · rcases hc c List.mem_cons_self with ⟨q, rfl⟩ | ⟨L, R, rfl⟩
        · exact hB
        · show (Euler1D.set_BC L R s).2.B = _
          rw [set_BC_eq]; split <;> exact hB
      · rcases hc c List.mem_cons_self with ⟨q, rfl⟩ | ⟨L, R, rfl⟩
        · exact hA
        · show (Euler1D.set_BC L R s).2.At = _
          rw [set_BC_eq]; split <;> exact hA
  exact ⟨_, get_cached this.1 this.2⟩

/-- uniform base state -/
def unif (n : ℕ) (R U P g : ℝ) : StateV n := ⟨fun _ => R, fun _ => U, fun _ => P, g⟩

/-- C44 fails: on 3 points, solve with a fluid at rest, then set a base state moving at velocity 1: the matrices returned
are not those of the current base state (the Jacobian applied to the density perturbation `x` is `-1`, the row gives 0). -/
theorem C44_false (hp : Heap) : ∃ (calls : List (EulerCall 3)) (q : StateV 3) (B At : Mat ℝ) (s' : Obj 3) (d : Cheb 3)
    (D : Matrix (Fin 3) (Fin 3) ℝ) (v : ℕ → ℝ),
    (eulerAfter 3 0 1 (some (unif 3 1 0 1 1.4)) hp calls).basestate = some q ∧ (∀ i, q.rho i ≠ 0) ∧
    Euler1D.get_RHS_time_matrices (eulerAfter 3 0 1 (some (unif 3 1 0 1 1.4)) hp calls) = (.ok (B, At), s') ∧
    NumSpectral.matder (eulerAfter 3 0 1 (some (unif 3 1 0 1 1.4)) hp calls).diffop 1 = .ok (d, D) ∧
    ¬ HasDerivAt (fun ε : ℝ => eulerRHS D q.gamma (q.rho + ε • field 3 v 0) (q.u + ε • field 3 v 1)
            (q.p + ε • field 3 v 2) 0 1) (B.mulVec v (0 * 3 + 1)) 0 := by
  have h01 : (0:ℝ) ≠ 1 := by norm_num
  set s0 := eulerAfter 3 0 1 (some (unif 3 1 0 1 1.4)) hp [.set_BC (.str "per") (.str "per")] with hs0
  have hs0' : s0 = withBC (Euler1D.init 3 (some 0) (some 1) (some (unif 3 1 0 1 1.4)) hp) "per" "per" := by
    show (Euler1D.set_BC (.str "per") (.str "per") _).2 = _
    rw [set_BC_str _ (by simp [BC_names]) (by simp [BC_names])]
  have hI : EInv 0 1 s0 := einv_after (by norm_num) h01 _ _ _
  have hr1 : ∀ i, (unif 3 1 0 1 1.4).rho i ≠ 0 := fun i => one_ne_zero
  obtain ⟨d1, hc, -⟩ := per_ok (by norm_num) h01 hI (q := unif 3 1 0 1 1.4) (by rw [hs0']; rfl) hr1 (l := hp.next) (r := hp.next + 1)
    (by rw [hs0']; rfl) (by rw [hs0']; exact congrArg BCDict.type (withBC_left _ _ _))
    (by rw [hs0']; exact congrArg BCDict.type (withBC_right _ _ _))
  set calls : List (EulerCall 3) := [.set_BC (.str "per") (.str "per"), .compute_operators, .set_basestate (some (unif 3 1 1 1 1.4))]
  have hJ : EInv 0 1 (eulerAfter 3 0 1 (some (unif 3 1 0 1 1.4)) hp calls) := einv_after (by norm_num) h01 _ _ _
  obtain ⟨d, hd, -⟩ := matder_spec (by norm_num) h01 hJ.diff (m := 1) le_rfl
  have hfin : eulerAfter 3 0 1 (some (unif 3 1 0 1 1.4)) hp calls
      = (Euler1D.set_basestate (some (unif 3 1 1 1 1.4)) (Euler1D.compute_operators s0).2).2 := rfl
  rw [hc] at hfin
  obtain ⟨s', hg⟩ : ∃ s', Euler1D.get_RHS_time_matrices (eulerAfter 3 0 1 (some (unif 3 1 0 1 1.4)) hp calls)
      = (.ok (perB (Dm 3 0 1 1) (rawM 0 1 (unif 3 1 0 1 1.4)), perA 3 (eye (3 * 3))), s') :=
    ⟨_, get_cached (by rw [hfin]; rfl) (by rw [hfin]; rfl)⟩
  let v : ℕ → ℝ := fun j => if h : j < 3 then xv 3 0 1 ⟨j, h⟩ else 0
  have f0 : field 3 v 0 = xv 3 0 1 := by
    funext j; simp [field, v]
  have f1 : field 3 v 1 = fun _ => 0 := by
    funext j; simp [field, v]
  have f2 : field 3 v 2 = fun _ => 0 := by
    funext j
    simp only [field, v]
    rw [dif_neg]
    show ¬ (2 * 3 + (j:ℕ) < 3)
    omega
  refine ⟨calls, unif 3 1 1 1 1.4, _, _, s', d, _, v, by rw [hfin]; rfl, fun _ => one_ne_zero, hg, hd, ?_⟩
  intro hder
  have hder' := raw_jacobian (Dm 3 0 1 1) (unif 3 1 1 1 1.4) (fun _ => one_ne_zero) v 0 1
  have hu := hder.unique hder'
  have hin : (perB (Dm 3 0 1 1) (rawM 0 1 (unif 3 1 0 1 1.4))).mulVec v (0 * 3 + 1)
      = ∑ j ∈ Finset.range (3 * 3), raw (Dm 3 0 1 1) (unif 3 1 0 1 1.4) ((0 : Fin 3) * 3 + (1 : Fin 3)) j * v j := by
    show ∑ j ∈ Finset.range (3 * 3), _ = _
    refine Finset.sum_congr rfl fun j _ => ?_
    have := perB_inner (Dm 3 0 1 1) (rawM 0 1 (unif 3 1 0 1 1.4)) 0 (i := 1) (by norm_num) (by norm_num) j
    simpa using congrArg (· * v j) this
  rw [hin, raw_eq, raw_eq] at hu
  have hx : (Dm 3 0 1 1).mulVec (xv 3 0 1) 1 = 1 := by
    have := Dm_exact (N := 3) (by norm_num) h01 1 X (by rw [degree_X]; norm_num) 1
    simpa [Matrix.mulVec, dotProduct] using this
  have hc0 : ∀ c : ℝ, (Dm 3 0 1 1).mulVec (fun _ => c) 1 = 0 := by
    intro c
    have := Dm_exact (N := 3) (by norm_num) h01 1 (C c) (lt_of_le_of_lt degree_C_le (by norm_num)) 1
    simpa [Matrix.mulVec, dotProduct] using this
  simp only [f0, f1, unif, hx, hc0] at hu
  norm_num at hu

/-- C44 also fails after an exception: asking for the matrices before `set_BC` raises ValueError, but the next request,
made after a valid `set_BC`, silently returns matrices without any boundary condition (`At` is the identity). -/
theorem C44_after_exception_false (hn : 2 ≤ n) (hab : a ≠ b) (q : StateV n) (hr : ∀ i, q.rho i ≠ 0) (hp : Heap) :
    let s0 := eulerAfter n a b (some q) hp []
    (Euler1D.get_RHS_time_matrices s0).1 = .error .valueError ∧
    ∃ B At s', Euler1D.get_RHS_time_matrices
        (eulerAfter n a b (some q) hp [.get_RHS_time_matrices, .set_BC (.str "per") (.str "per")]) = (.ok (B, At), s') ∧
      (∀ w : ℕ → ℝ, ∀ i < 3 * n, At.mulVec w i = w i) := by
  have hI : EInv a b (eulerAfter n a b (some q) hp []) := einv_after hn hab _ _ _
  obtain ⟨d, h1, -⟩ := compute_pre hn hab hI (q := q) rfl hr
  have h2 : Euler1D.compute_operators (eulerAfter n a b (some q) hp []) = (.error .valueError, pre (eulerAfter n a b (some q) hp []) d (Dm n a b 1) q) := by
    rw [h1, compute_BC_none rfl]
  have h3 := get_compute_err (s := eulerAfter n a b (some q) hp []) rfl h2
  refine ⟨by rw [h3], rawM a b q, eye (n * 3), _, get_cached ?_ ?_, ?_⟩
  · show (Euler1D.set_BC _ _ (Euler1D.get_RHS_time_matrices (eulerAfter n a b (some q) hp [])).2).2.B = _
    rw [h3, set_BC_str _ (by simp [BC_names]) (by simp [BC_names])]; rfl
  · show (Euler1D.set_BC _ _ (Euler1D.get_RHS_time_matrices (eulerAfter n a b (some q) hp [])).2).2.At = _
    rw [h3, set_BC_str _ (by simp [BC_names]) (by simp [BC_names])]; rfl
  · intro w i hi
    show ∑ j ∈ Finset.range (n * 3), (if i = j then (1:ℝ) else 0) * w j = _
    simp only [eq_comm (a := i)]
    exact row_single w (by omega)

/-! ## C48 -/

/-- repeated `Euler1D.compute_operators` -/
noncomputable def recompute (s : Obj n) : ℕ → Py Unit × Obj n
  | 0 => (.ok (), s)
  | m + 1 => match recompute s m with
    | (.ok _, s') => Euler1D.compute_operators s'
    | r => r

/-- C48 for periodic conditions: any number of `Euler1D.compute_operators` calls succeeds and gives the same matrices. -/
theorem C48_periodic_partial (hn : 2 ≤ n) (hab : a ≠ b) (q0 : Option (StateV n)) (hp : Heap) (calls : List (EulerCall n))
    (q : StateV n) (hq : (eulerAfter n a b q0 hp calls).basestate = some q) (hr : ∀ i, q.rho i ≠ 0) :
    ∃ s1 B At, Euler1D.set_BC (.str "per") (.str "per") (eulerAfter n a b q0 hp calls) = (.ok (), s1) ∧
      ∀ m, ∃ s', recompute s1 (m + 1) = (.ok (), s') ∧ s'.B = some B ∧ s'.At = some At := by
  have hI := einv_after hn hab q0 hp calls
  refine ⟨_, perB (Dm n a b 1) (rawM a b q), perA n (eye (n * 3)), set_BC_str _ (by simp [BC_names]) (by simp [BC_names]), ?_⟩
  obtain ⟨s1, hs1⟩ : ∃ s1, s1 = withBC (eulerAfter n a b q0 hp calls) "per" "per" := ⟨_, rfl⟩
  rw [← hs1]
  have hI1 : EInv a b s1 := hs1 ▸ withBC_inv hI "per" "per"
  have hb1 : s1.basestate = some q := hs1 ▸ hq
  have t1 : s1.BC_type = some ((eulerAfter n a b q0 hp calls).heap.next, (eulerAfter n a b q0 hp calls).heap.next + 1) := hs1 ▸ rfl
  have l1 : (s1.heap.at' (eulerAfter n a b q0 hp calls).heap.next).type = some "per" := by rw [hs1, withBC_left]
  have r1 : (s1.heap.at' ((eulerAfter n a b q0 hp calls).heap.next + 1)).type = some "per" := by rw [hs1, withBC_right]
  have key : ∀ m, ∃ s', recompute s1 m = (.ok (), s') ∧ EInv a b s' ∧ s'.basestate = some q ∧ s'.heap = s1.heap ∧
      s'.BC_type = s1.BC_type := by
    intro m
    induction m with
    | zero => exact ⟨s1, rfl, hI1, hb1, rfl, rfl⟩
    | succ m ih =>
      obtain ⟨s', e, i, bq, hh, ht⟩ := ih
      obtain ⟨d, hc, hd⟩ := per_ok hn hab i bq hr (ht.trans t1) (by rw [hh]; exact l1) (by rw [hh]; exact r1)
      refine ⟨{ s' with
        diffop := d
        At := some (perA n (eye (n * 3)))
        B := some (perB (Dm n a b 1) (rawM a b q)) }, ?_, ⟨hd, i.nvar⟩, bq, hh, ht⟩
      show (match recompute s1 m with | (.ok _, s') => Euler1D.compute_operators s' | r => r) = _
      rw [e]
      exact hc
  intro m
  obtain ⟨s', e, i, bq, hh, ht⟩ := key m
  obtain ⟨d, hc, hd⟩ := per_ok hn hab i bq hr (ht.trans t1) (by rw [hh]; exact l1) (by rw [hh]; exact r1)
  refine ⟨{ s' with
        diffop := d
        At := some (perA n (eye (n * 3)))
        B := some (perB (Dm n a b 1) (rawM a b q)) }, ?_, rfl, rfl⟩
  show (match recompute s1 m with | (.ok _, s') => Euler1D.compute_operators s' | r => r) = _
  rw [e]
  exact hc

/-- C48 fails for symmetry conditions: the first `Euler1D.compute_operators` succeeds, the second raises KeyError (the dictionaries
have lost their type), and leaves in `_B`, `_At` matrices without boundary conditions, which `get_RHS_time_matrices` then
returns. -/
theorem C48_false (hn : 2 ≤ n) (hab : a ≠ b) (q0 : Option (StateV n)) (hp : Heap) (calls : List (EulerCall n))
    (q : StateV n) (hq : (eulerAfter n a b q0 hp calls).basestate = some q) (hr : ∀ i, q.rho i ≠ 0) :
    ∃ s1 s2 s3 B At, Euler1D.set_BC (.str "sym") (.str "sym") (eulerAfter n a b q0 hp calls) = (.ok (), s1) ∧
      Euler1D.compute_operators s1 = (.ok (), s2) ∧ Euler1D.compute_operators s2 = (.error .keyError, s3) ∧
      (Euler1D.get_RHS_time_matrices s3).1 = .ok (B, At) ∧ ∀ w : ℕ → ℝ, ∀ i < 3 * n, At.mulVec w i = w i := by
  have hI := einv_after hn hab q0 hp calls
  obtain ⟨d', hc, hd⟩ := sym_ok hn hab (withBC_inv hI "sym" "sym") hq hr rfl (by rw [withBC_left]) (by rw [withBC_right])
    (by omega)
  obtain ⟨s2, hs2⟩ : ∃ s2, s2 = (Euler1D.compute_operators (withBC (eulerAfter n a b q0 hp calls) "sym" "sym")).2 := ⟨_, rfl⟩
  have hI2 : EInv a b s2 := by rw [hs2, hc]; exact ⟨hd, hI.nvar⟩
  have hq2 : s2.basestate = some q := by rw [hs2, hc]; exact hq
  obtain ⟨d2, h1, -⟩ := compute_pre hn hab hI2 hq2 hr
  have hty : getType s2.heap (eulerAfter n a b q0 hp calls).heap.next = .error .keyError := by
    rw [hs2, hc]
    simp [getType, popped2, Heap.set]
  have h2 : Euler1D.compute_operators s2 = (.error .keyError, pre s2 d2 (Dm n a b 1) q) := by
    rw [h1]
    exact compute_BC_untyped (s := pre s2 d2 (Dm n a b 1) q) (l := (eulerAfter n a b q0 hp calls).heap.next)
      (r := (eulerAfter n a b q0 hp calls).heap.next + 1) (by show s2.BC_type = _; rw [hs2, hc]; rfl) hty
  refine ⟨_, s2, _, rawM a b q, eye (n * 3), set_BC_str _ (by simp [BC_names]) (by simp [BC_names]), ?_, h2, ?_, ?_⟩
  · rw [hs2, hc]
  · rw [get_cached (s := pre s2 d2 (Dm n a b 1) q) rfl rfl]
  · intro w i hi
    show ∑ j ∈ Finset.range (n * 3), (if i = j then (1:ℝ) else 0) * w j = _
    simp only [eq_comm (a := i)]
    exact row_single w (by omega)

/-- C48 fails for a dictionary used on both sides: KeyError at the first computation. -/
theorem C48_same_dict_false (hn : 2 ≤ n) (hab : a ≠ b) (q0 : Option (StateV n)) (hp : Heap) (calls : List (EulerCall n))
    (q : StateV n) (hq : (eulerAfter n a b q0 hp calls).basestate = some q) (hr : ∀ i, q.rho i ≠ 0) (r : ℕ)
    (hd : (eulerAfter n a b q0 hp calls).heap.at' r = ⟨some "sym", []⟩) :
    ∃ s1, Euler1D.set_BC (.dict r) (.dict r) (eulerAfter n a b q0 hp calls) = (.ok (), s1) ∧
      (Euler1D.compute_operators s1).1 = .error .keyError := by
  have hI := einv_after hn hab q0 hp calls
  obtain ⟨s0, hs0⟩ : ∃ s0, s0 = eulerAfter n a b q0 hp calls := ⟨_, rfl⟩
  rw [← hs0] at hd hI hq ⊢
  have hc : check_BC BC_names (.dict r) s0.heap = (.ok r, s0.heap) := by simp [check_BC, hd, BC_names]
  refine ⟨{ s0 with BC_type := some (r, r) }, ?_, ?_⟩
  · rw [set_BC_eq]
    unfold check_BCs
    rw [Meth.bind_ok hc, Meth.bind_ok hc]
    rfl
  · have hI1 : EInv a b { s0 with BC_type := some (r, r) } := ⟨hI.diff, hI.nvar⟩
    obtain ⟨d, h1, h2⟩ := compute_pre hn hab hI1 hq hr
    rw [h1, compute_BC_two (l := r) (r := r) (t := "sym") rfl (by show getType s0.heap r = _; simp [getType, hd]) (by decide)]
    obtain ⟨s1, hs1⟩ : ∃ s1, s1 = pre { s0 with BC_type := some (r, r) } d (Dm n a b 1) q := ⟨_, rfl⟩
    rw [← hs1] at h2 ⊢
    have hd1 : s1.heap.at' r = ⟨some "sym", []⟩ := by rw [hs1]; exact hd
    obtain ⟨d', h3, h4⟩ := setBC_sym_ok hn hab (s := popped s1 r) ⟨h2.diff, h2.nvar⟩ (A := eye (n * 3))
      (M := rawM a b q) (by rw [hs1]; rfl) (by rw [hs1]; rfl) (Nat.mul_comm _ _).ge (Nat.mul_comm _ _).ge (i := 0) (by omega)
    have e1 : applyBC r 0 s1 = _ := (applyBC_eq hd1).trans h3
    rw [Meth.bind_ok e1]
    rw [applyBC_err]
    simp [popped, Heap.set]

/-- non-vacuity: a caller creates a dictionary and uses it on both sides -/
example : (eulerAfter 4 0 1 (some (unif 4 1 0 1 1.4)) ⟨0, fun _ => ⟨none, []⟩⟩ [.newDict ⟨some "sym", []⟩]).heap.at' 0
    = ⟨some "sym", []⟩ := by
  simp [eulerAfter, eulerStep, Heap.alloc, Euler1D.init, Euler1D.set_basestate, Meth.modify]

/-- non-vacuity of the hypotheses of C44, C47, C48: a uniform flow on 4 points -/
example (hp : Heap) : (eulerAfter 4 0 1 (some (unif 4 1 0.5 1 1.4)) hp []).basestate = some (unif 4 1 0.5 1 1.4) ∧
    (∀ i, (unif 4 1 0.5 1 1.4).rho i ≠ 0) ∧ (eulerAfter 4 0 1 (some (unif 4 1 0.5 1 1.4)) hp []).B = none :=
  ⟨rfl, fun _ => one_ne_zero, rfl⟩

end Aerokit.Props
