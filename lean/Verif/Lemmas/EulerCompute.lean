import Verif.Lemmas.EulerBC

/-! `compute_operators` of `Euler1D`: states before the boundary conditions, frame of interior rows. -/

namespace Aerokit.Euler1D
open LinOperator NumSpectral Model1D Spec

variable {n : ℕ} {a b : ℝ}

/-- identity matrix -/
noncomputable def eye (N : ℕ) : Mat ℝ := ⟨N, fun i j => if i = j then 1 else 0⟩

/-- object just before `compute_BC` -/
noncomputable def pre (s : Obj n) (d : Cheb n) (D : Matrix (Fin n) (Fin n) ℝ) (q : StateV n) : Obj n :=
  { s with diffop := d, At := some (eye (n * 3)), B := some ⟨n * 3, raw D q⟩ }

theorem compute_pre (hn : 2 ≤ n) (hab : a ≠ b) {s : Obj n} (h : EInv a b s) {q : StateV n} (hq : s.basestate = some q)
    (hr : ∀ i, q.rho i ≠ 0) :
    ∃ d, compute_operators s = compute_BC (pre s d (Dm n a b 1) q) ∧ EInv a b (pre s d (Dm n a b 1) q) := by
  obtain ⟨d, hd, hi⟩ := matder_ok hn hab h (m := 1) le_rfl
  have hnv : s.nvar = some 3 := by
    rcases h.nvar with h | h
    · exact h
    · rw [hq] at h; cases h.2
  refine ⟨d, ?_, ⟨hi, .inl hnv⟩⟩
  obtain ⟨d0, q', nv, B, At, bc, hp⟩ := s
  simp only at hq hnv
  subst hq hnv
  unfold compute_operators
  rw [Meth.bind_ok hd, Meth.bind_ok (Meth.get_apply _ _)]
  simp only []
  rw [Meth.bind_ok (Meth.get_apply _ _)]
  simp only []
  unfold setAt setB
  rw [Meth.bind_ok (Meth.modify_apply _ _), Meth.bind_ok (Meth.require_ok hr _ _), Meth.bind_ok (Meth.modify_apply _ _)]
  rfl

theorem compute_BC_none {s : Obj n} (h : s.BC_type = none) : compute_BC s = (.error .valueError, s) := by
  unfold compute_BC
  rw [Meth.bind_ok (Meth.get_apply _ _), h]
  rfl

theorem compute_BC_per {s : Obj n} {l r : ℕ} (h : s.BC_type = some (l, r)) (hl : getType s.heap l = .ok "per")
    (hr : getType s.heap r = .ok "per") : compute_BC s = setBC_per s := by
  unfold compute_BC
  rw [Meth.bind_ok (Meth.get_apply _ _), h]
  simp only []
  rw [Meth.bind_ok (Meth.get_apply _ _), Meth.bind_ok (a := "per") (s' := s) (by rw [Meth.lift_apply, hl]), if_pos rfl,
    Meth.bind_ok (a := "per") (s' := s) (by rw [Meth.lift_apply, hr]), if_pos rfl]

theorem compute_BC_two {s : Obj n} {l r : ℕ} {t : String} (h : s.BC_type = some (l, r)) (hl : getType s.heap l = .ok t)
    (ht : t ≠ "per") : compute_BC s = (do applyBC l 0; applyBC r (n - 1)) s := by
  unfold compute_BC
  rw [Meth.bind_ok (Meth.get_apply _ _), h]
  simp only []
  rw [Meth.bind_ok (Meth.get_apply _ _), Meth.bind_ok (a := t) (s' := s) (by rw [Meth.lift_apply, hl]), if_neg ht]

theorem compute_BC_untyped {s : Obj n} {l r : ℕ} {e : PyErr} (h : s.BC_type = some (l, r)) (hl : getType s.heap l = .error e) :
    compute_BC s = (.error e, s) := by
  unfold compute_BC
  rw [Meth.bind_ok (Meth.get_apply _ _), h]
  simp only []
  rw [Meth.bind_ok (Meth.get_apply _ _), Meth.bind_err (e := e) (s' := s) (by rw [Meth.lift_apply, hl])]

/-- popping `'type'` from a dictionary of the object -/
def popped (s : Obj n) (r : ℕ) : Obj n := { s with heap := s.heap.set r ⟨none, (s.heap.at' r).kwargs⟩ }

theorem applyBC_eq {s : Obj n} {r i : ℕ} {t : String} {kw : List (String × Option ℝ)} (h : s.heap.at' r = ⟨some t, kw⟩) :
    applyBC r i s = callBC t i i kw (popped s r) := by
  unfold applyBC
  have h1 : onHeap (popType r) s = (.ok t, popped s r) := by
    unfold onHeap popType popped
    simp only [h]
  rw [Meth.bind_ok h1, Meth.bind_ok (Meth.get_apply _ _)]
  congr 1
  simp [popped, Heap.set, h]

theorem applyBC_err {s : Obj n} {r i : ℕ} (h : (s.heap.at' r).type = none) : applyBC r i s = (.error .keyError, s) := by
  unfold applyBC
  have h1 : onHeap (popType r) s = (.error .keyError, s) := by
    unfold onHeap popType
    simp only [h]
  rw [Meth.bind_err h1]

/-! ### interior rows -/

/-- interior row -/
def inner (n r : ℕ) : Prop := ∃ k i : ℕ, k < 3 ∧ 0 < i ∧ i < n - 1 ∧ r = k * n + i

/-- `M` has the rows of `R` at interior points -/
def Fr (n : ℕ) (R : ℕ → ℕ → ℝ) (M : Mat ℝ) : Prop := (M.size = 3 * n ∨ M.size = 3 * n + 1) ∧
  ∀ r, inner n r → (∀ j, j < 3 * n → M.e r j = R r j) ∧ (M.size = 3 * n + 1 → M.e r (3 * n) = 0)

theorem Fr.mulVec {R : ℕ → ℕ → ℝ} {M : Mat ℝ} (h : Fr n R M) {r : ℕ} (hr : inner n r) (v : ℕ → ℝ) :
    M.mulVec v r = ∑ j ∈ Finset.range (3 * n), R r j * v j := by
  obtain ⟨h1, h2⟩ := h
  obtain ⟨h3, h4⟩ := h2 r hr
  have e : ∑ j ∈ Finset.range (3 * n), M.e r j * v j = ∑ j ∈ Finset.range (3 * n), R r j * v j :=
    Finset.sum_congr rfl fun j hj => by rw [h3 j (Finset.mem_range.1 hj)]
  unfold Mat.mulVec
  rcases h1 with h1 | h1
  · rw [h1, e]
  · rw [h1, Finset.sum_range_succ, e, h4 h1]; ring

theorem not_inner {n r : ℕ} (h : ∀ k i, k < 3 → 0 < i → i < n - 1 → r ≠ k * n + i) : ¬ inner n r := by
  rintro ⟨k, i, hk, h0, h1, e⟩; exact h k i hk h0 h1 e

theorem inner_iff {n r : ℕ} : inner n r ↔ (0 < r ∧ r < n - 1) ∨ (n < r ∧ r < 2 * n - 1) ∨ (2 * n < r ∧ r < 3 * n - 1) := by
  constructor
  · rintro ⟨k, i, hk, h0, h1, rfl⟩
    interval_cases k <;> omega
  · rintro (h | h | h)
    · exact ⟨0, r, by omega, by omega, by omega, by omega⟩
    · exact ⟨1, r - n, by omega, by omega, by omega, by omega⟩
    · exact ⟨2, r - 2 * n, by omega, by omega, by omega, by omega⟩

theorem Fr.of_rows {R : ℕ → ℕ → ℝ} {M M' : Mat ℝ} (h : Fr n R M) (hs : M'.size = M.size)
    (he : ∀ r, inner n r → ∀ j, M'.e r j = M.e r j) : Fr n R M' := by
  obtain ⟨h1, h2⟩ := h
  refine ⟨by rw [hs]; exact h1, fun r hr => ?_⟩
  obtain ⟨h3, h4⟩ := h2 r hr
  exact ⟨fun j hj => by rw [he r hr, h3 j hj], fun h5 => by rw [he r hr, h4 (by rw [← hs]; exact h5)]⟩

theorem Fr.zeroRow {R : ℕ → ℕ → ℝ} {M M' : Mat ℝ} {i : ℕ} (h : Fr n R M) (hi : ¬ inner n i) (e : M.zeroRow i = .ok M') :
    Fr n R M' := by
  unfold Mat.zeroRow at e
  split_ifs at e
  cases e
  exact h.of_rows rfl fun r hr j => if_neg (by rintro rfl; exact hi hr)

theorem Fr.set {R : ℕ → ℕ → ℝ} {M M' : Mat ℝ} {i j : ℕ} {v : ℝ} (h : Fr n R M) (hi : ¬ inner n i) (e : M.set i j v = .ok M') :
    Fr n R M' := by
  unfold Mat.set at e
  split_ifs at e
  cases e
  exact h.of_rows rfl fun r hr j => if_neg (by rintro ⟨rfl, -⟩; exact hi hr)

theorem Fr.setRow {R : ℕ → ℕ → ℝ} {M M' : Mat ℝ} {i lo hi : ℕ} {v : ℕ → ℝ} (h : Fr n R M) (hi' : ¬ inner n i)
    (e : M.setRow i lo hi v = .ok M') : Fr n R M' := by
  unfold Mat.setRow at e
  split_ifs at e
  cases e
  exact h.of_rows rfl fun r hr j => if_neg (by rintro ⟨rfl, -⟩; exact hi' hr)

theorem Fr.block {R : ℕ → ℕ → ℝ} {M M' : Mat ℝ} (h : Fr n R M) (e : block n M = .ok M') : Fr n R M' := by
  unfold Euler1D.block at e
  split_ifs at e with hs
  cases e
  obtain ⟨h1, h2⟩ := h
  refine ⟨.inr rfl, fun r hr => ⟨fun j hj => ?_, fun _ => ?_⟩⟩
  · have : r < 3 * n := by have := inner_iff.1 hr; omega
    show (if _ then _ else _) = _
    rw [if_pos ⟨this, hj⟩, (h2 r hr).1 j hj]
  · exact if_neg (by omega)

/-- interior rows of both matrices -/
def Fr2 (R S : ℕ → ℕ → ℝ) (s : Obj n) : Prop := (∃ M, s.B = some M ∧ Fr n R M) ∧ ∃ A, s.At = some A ∧ Fr n S A

section
open Meth
variable {R S : ℕ → ℕ → ℝ}

theorem fr_onAt {f : Mat ℝ → Py (Mat ℝ)} (hf : ∀ M M', Fr n S M → f M = .ok M' → Fr n S M') : Keeps (Fr2 R S) (onAt (n := n) f) := by
  intro s hs
  obtain ⟨hB, A, hA, fA⟩ := hs
  cases e : f A with
  | error e' => rw [onAt_err hA e]; exact ⟨hB, A, hA, fA⟩
  | ok A' => rw [onAt_ok hA e]; exact ⟨hB, A', rfl, hf A A' fA e⟩

theorem onB_err {s : Obj n} {A : Mat ℝ} {f : Mat ℝ → Py (Mat ℝ)} {e : PyErr} (hs : s.B = some A) (hf : f A = .error e) :
    onB f s = (.error e, s) := by
  unfold onB
  rw [Meth.bind_ok (a := A) (s' := s) (by unfold getB; rw [hs]), Meth.bind_err (e := e) (s' := s) (by rw [Meth.lift_apply, hf])]

theorem fr_onB {f : Mat ℝ → Py (Mat ℝ)} (hf : ∀ M M', Fr n R M → f M = .ok M' → Fr n R M') : Keeps (Fr2 R S) (onB (n := n) f) := by
  intro s hs
  obtain ⟨⟨A, hA, fA⟩, hB⟩ := hs
  cases e : f A with
  | error e' => rw [onB_err hA e]; exact ⟨⟨A, hA, fA⟩, hB⟩
  | ok A' => rw [onB_ok hA e]; exact ⟨⟨A', rfl, hf A A' fA e⟩, hB⟩

theorem fr_zeroRows {i : ℕ} (hi : ¬ inner n i) : Keeps (Fr2 R S) (zeroRows (n := n) i) :=
  Keeps.bind (fr_onAt fun _ _ h e => h.zeroRow hi e) fun _ => fr_onB fun _ _ h e => h.zeroRow hi e

theorem fr_matder (m : ℕ) : Keeps (Fr2 R S) (matder (n := n) m) := by
  intro s hs
  unfold matder
  split <;> exact hs

theorem fr_x : Keeps (Fr2 R S) (x (n := n)) := by
  intro s hs
  unfold x
  split <;> exact hs

theorem fr_onHeap {α : Type} (m : Meth Heap α) : Keeps (Fr2 R S) (onHeap (n := n) m) := fun _ h => h

theorem end_not_inner {i k : ℕ} (hi : isEnd n i) (hk : k < 4) (hn : 2 ≤ n) : ¬ inner n (k * n + i) := by
  rw [inner_iff]
  rcases hi with rfl | rfl <;> interval_cases k <;> omega

theorem fr_sym (hn : 2 ≤ n) {i : ℕ} (hi : isEnd n i) : Keeps (Fr2 R S) (setBC_sym (n := n) i (some i)) := by
  have n0 : ¬ inner n (i + 0) := by have := end_not_inner hi (k := 0) (by omega) hn; rwa [show 0 * n + i = i + 0 by ring] at this
  have n1 : ¬ inner n (i + n) := by have := end_not_inner hi (k := 1) (by omega) hn; rwa [show 1 * n + i = i + n by ring] at this
  have n2 : ¬ inner n (i + 2 * n) := by have := end_not_inner hi (k := 2) (by omega) hn; rwa [show 2 * n + i = i + 2 * n by ring] at this
  unfold setBC_sym
  simp only [Option.getD_some]
  exact Keeps.bind (fr_matder 1) fun _ => Keeps.bind (fr_zeroRows n0) fun _ => Keeps.bind (fr_zeroRows n1) fun _ =>
    Keeps.bind (fr_zeroRows n2) fun _ => Keeps.bind (fr_onB fun _ _ h e => h.setRow n0 e) fun _ =>
    Keeps.bind (fr_onB fun _ _ h e => h.set n1 e) fun _ => fr_onB fun _ _ h e => h.setRow n2 e

theorem fr_per_rows (hn : 2 ≤ n) (D : Matrix (Fin n) (Fin n) ℝ) {i : ℕ} (hi : i < 3) : Keeps (Fr2 R S) (per_rows D i) := by
  have n0 : ¬ inner n (i * n) := by have := end_not_inner (i := 0) (.inl rfl) (k := i) (by omega) hn; simpa using this
  have n1 : ¬ inner n (i * n + n - 1) := by
    have := end_not_inner (i := n - 1) (.inr rfl) (k := i) (by omega) hn
    rwa [show i * n + (n - 1) = i * n + n - 1 by omega] at this
  exact Keeps.bind (fr_onB fun _ _ h e => h.set n0 e) fun _ => Keeps.bind (fr_onB fun _ _ h e => h.set n0 e) fun _ =>
    fr_onB fun _ _ h e => h.setRow n1 e

theorem fr_per (hn : 2 ≤ n) : Keeps (Fr2 R S) (setBC_per (n := n)) := by
  have hz : ∀ i, i = 0 ∨ i = n - 1 ∨ i = n ∨ i = 2 * n - 1 ∨ i = 2 * n ∨ i = 3 * n - 1 → ¬ inner n i := by
    intro i hi; rw [inner_iff]; omega
  unfold setBC_per
  exact Keeps.bind (fr_matder 1) fun _ => Keeps.bind (fr_zeroRows (hz _ (by omega))) fun _ =>
    Keeps.bind (fr_zeroRows (hz _ (by omega))) fun _ => Keeps.bind (fr_zeroRows (hz _ (by omega))) fun _ =>
    Keeps.bind (fr_zeroRows (hz _ (by omega))) fun _ => Keeps.bind (fr_zeroRows (hz _ (by omega))) fun _ =>
    Keeps.bind (fr_zeroRows (hz _ (by omega))) fun _ => Keeps.bind (fr_per_rows hn _ (by omega)) fun _ =>
    Keeps.bind (fr_per_rows hn _ (by omega)) fun _ => fr_per_rows hn _ (by omega)

theorem fr_RH_row (hn : 2 ≤ n) (c : RHCoef) {i k ieq : ℕ} (hi : isEnd n i) (hq : ieq = 0 ∨ ieq = 3 * n ∨ ieq = 2 * n) :
    Keeps (Fr2 R S) (RH_row (n := n) c i i k ieq) := by
  have n0 : ¬ inner n ieq := by rw [inner_iff]; omega
  have n1 : ¬ inner n (ieq + i) := by rw [inner_iff]; rcases hi with h | h <;> omega
  unfold RH_row
  exact Keeps.bind (fr_zeroRows n1) fun _ => Keeps.bind (fr_onAt fun _ _ h e => h.set n1 e) fun _ =>
    Keeps.bind (fr_onB fun _ _ h e => h.set n0 e) fun _ => Keeps.bind (fr_onB fun _ _ h e => h.set n0 e) fun _ =>
    Keeps.bind (fr_onB fun _ _ h e => h.set n0 e) fun _ => fr_onB fun _ _ h e => h.set n0 e

theorem fr_RH (hn : 2 ≤ n) {i : ℕ} (hi : isEnd n i) (kw : List (String × Option ℝ)) :
    Keeps (Fr2 R S) (setBC_RH (n := n) i (some i) kw) := by
  unfold setBC_RH
  refine Keeps.bind (fr_matder 1) fun D => ?_
  refine Keeps.bind (Keeps.require _ _) fun _ => ?_
  refine Keeps.bind (fr_onAt fun _ _ h e => h.block e) fun _ => Keeps.bind (fr_onB fun _ _ h e => h.block e) fun _ =>
    Keeps.bind (Keeps.get _) fun q => ?_
  cases q with
  | none => exact Keeps.throw _
  | some q =>
    refine Keeps.bind (Keeps.lift _) fun _ => Keeps.bind (Keeps.lift _) fun _ => Keeps.bind (Keeps.lift _) fun _ =>
      Keeps.bind (Keeps.lift _) fun _ => Keeps.bind (Keeps.lift _) fun _ => Keeps.bind (Keeps.lift _) fun _ =>
      Keeps.bind (Keeps.lift _) fun _ => Keeps.bind (Keeps.lift _) fun _ => ?_
    cases kwValue kw "dM0dx" with
    | none => exact Keeps.throw _
    | some m =>
      exact Keeps.bind fr_x fun _ => Keeps.bind (Keeps.lift _) fun _ => Keeps.bind (Keeps.lift _) fun _ =>
        Keeps.bind (fr_RH_row hn _ hi (by omega)) fun _ => Keeps.bind (fr_RH_row hn _ hi (by omega)) fun _ =>
        fr_RH_row hn _ hi (by omega)

theorem fr_applyBC (hn : 2 ≤ n) (r : ℕ) {i : ℕ} (hi : isEnd n i) : Keeps (Fr2 R S) (applyBC (n := n) r i) := by
  refine Keeps.bind (fr_onHeap _) fun t => Keeps.bind (Keeps.get _) fun kw => ?_
  unfold callBC
  split
  · exact Keeps.ite (fr_sym hn hi) (Keeps.throw _)
  · exact Keeps.throw _
  · exact Keeps.ite (Keeps.throw _) (fr_RH hn hi _)
  · exact Keeps.throw _

theorem fr_compute_BC (hn : 2 ≤ n) : Keeps (Fr2 R S) (compute_BC (n := n)) := by
  unfold compute_BC
  refine Keeps.bind (Keeps.get _) fun bc => ?_
  cases bc with
  | none => exact Keeps.throw _
  | some lr =>
    refine Keeps.bind (Keeps.get _) fun h => Keeps.bind (Keeps.lift _) fun tl => Keeps.ite ?_ ?_
    · exact Keeps.bind (Keeps.lift _) fun _ => Keeps.ite (fr_per hn) (Keeps.throw _)
    · exact Keeps.bind (fr_applyBC hn _ (.inl rfl)) fun _ => fr_applyBC hn _ (.inr rfl)

end

theorem fr_pre (s : Obj n) (d : Cheb n) (D : Matrix (Fin n) (Fin n) ℝ) (q : StateV n) :
    Fr2 (raw D q) (fun i j => if i = j then 1 else 0) (pre s d D q) :=
  ⟨⟨_, rfl, .inl (Nat.mul_comm _ _), fun r hr => ⟨fun _ _ => rfl, fun h => absurd h (by show n * 3 ≠ _; omega)⟩⟩,
    ⟨_, rfl, .inl (Nat.mul_comm _ _), fun r hr => ⟨fun _ _ => rfl, fun h => absurd h (by show n * 3 ≠ _; omega)⟩⟩⟩

/-- interior rows after `compute_operators`, whatever its outcome -/
theorem compute_inner (hn : 2 ≤ n) (hab : a ≠ b) {s : Obj n} (h : EInv a b s) {q : StateV n} (hq : s.basestate = some q)
    (hr : ∀ i, q.rho i ≠ 0) :
    Fr2 (raw (Dm n a b 1) q) (fun i j => if i = j then 1 else 0) (compute_operators s).2 := by
  obtain ⟨d, h1, -⟩ := compute_pre hn hab h hq hr
  rw [h1]
  exact fr_compute_BC hn _ (fr_pre _ _ _ _)

end Aerokit.Euler1D
