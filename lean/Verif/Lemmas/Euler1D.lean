import Verif.Model.Euler1D
import Verif.Lemmas.LinOperator
import Verif.Spec.Euler1D
import Mathlib.Analysis.Calculus.Deriv.Inv
import Mathlib.Analysis.Calculus.Deriv.Add

/-! Facts about the model of `Euler1D`. -/

namespace Aerokit.Euler1D
open LinOperator NumSpectral Model1D Spec

variable {n : ℕ}

/-! ### invariant -/

/-- invariant of reachable objects -/
structure EInv (a b : ℝ) (s : Obj n) : Prop where
  diff : Inv a b s.diffop
  nvar : s.nvar = some 3 ∨ (s.nvar = none ∧ s.basestate = none)

theorem matder_ok (hn : 2 ≤ n) {a b : ℝ} (hab : a ≠ b) {s : Obj n} (h : EInv a b s) {m : ℕ} (hm : 1 ≤ m) :
    ∃ d, matder m s = (.ok (Dm n a b m), { s with diffop := d }) ∧ Inv a b d := by
  obtain ⟨d, h1, h2⟩ := matder_spec hn hab h.diff hm
  exact ⟨d, by unfold matder; rw [h1], h2⟩

theorem x_ok (hn : 2 ≤ n) {a b : ℝ} {s : Obj n} (h : EInv a b s) :
    ∃ d, x s = (.ok (xv n a b), { s with diffop := d }) ∧ Inv a b d := by
  obtain ⟨d, h1, h2, -⟩ := x_spec hn h.diff
  exact ⟨d, by unfold x; rw [h1], h2⟩

section keeps
variable {a b : ℝ}
open Meth

theorem keeps_matder (hn : 2 ≤ n) (hab : a ≠ b) (m : ℕ) (hm : 1 ≤ m) : Keeps (EInv a b) (matder (n := n) m) := by
  intro s h
  obtain ⟨d, h1, h2⟩ := matder_ok hn hab h hm
  rw [h1]; exact ⟨h2, h.nvar⟩

theorem keeps_x (hn : 2 ≤ n) : Keeps (EInv a b) (x (n := n)) := by
  intro s h
  obtain ⟨d, h1, h2⟩ := x_ok hn h
  rw [h1]; exact ⟨h2, h.nvar⟩

theorem keeps_onHeap {α : Type} (m : Meth Heap α) : Keeps (EInv a b) (onHeap (n := n) m) :=
  fun _ h => ⟨h.diff, h.nvar⟩

theorem keeps_setAt (m : Mat ℝ) : Keeps (EInv a b) (setAt (n := n) m) := fun _ h => ⟨h.diff, h.nvar⟩
theorem keeps_setB (m : Mat ℝ) : Keeps (EInv a b) (setB (n := n) m) := fun _ h => ⟨h.diff, h.nvar⟩
theorem keeps_onAt (f : Mat ℝ → Py (Mat ℝ)) : Keeps (EInv a b) (onAt (n := n) f) :=
  Keeps.bind (fun _ h => h) fun _ => Keeps.bind (Keeps.lift _) fun _ => keeps_setAt _
theorem keeps_onB (f : Mat ℝ → Py (Mat ℝ)) : Keeps (EInv a b) (onB (n := n) f) :=
  Keeps.bind (fun _ h => h) fun _ => Keeps.bind (Keeps.lift _) fun _ => keeps_setB _
theorem keeps_zeroRows (i : ℕ) : Keeps (EInv a b) (zeroRows (n := n) i) :=
  Keeps.bind (keeps_onAt _) fun _ => keeps_onB _

theorem keeps_sym (hn : 2 ≤ n) (hab : a ≠ b) (i : ℕ) (r : Option ℕ) : Keeps (EInv a b) (setBC_sym (n := n) i r) := by
  unfold setBC_sym
  exact Keeps.bind (keeps_matder hn hab 1 le_rfl) fun _ => Keeps.bind (keeps_zeroRows _) fun _ =>
    Keeps.bind (keeps_zeroRows _) fun _ => Keeps.bind (keeps_zeroRows _) fun _ => Keeps.bind (keeps_onB _) fun _ =>
    Keeps.bind (keeps_onB _) fun _ => keeps_onB _

theorem keeps_per_rows (D : Matrix (Fin n) (Fin n) ℝ) (i : ℕ) : Keeps (EInv a b) (per_rows D i) :=
  Keeps.bind (keeps_onB _) fun _ => Keeps.bind (keeps_onB _) fun _ => keeps_onB _

theorem keeps_per (hn : 2 ≤ n) (hab : a ≠ b) : Keeps (EInv a b) (setBC_per (n := n)) := by
  unfold setBC_per
  exact Keeps.bind (keeps_matder hn hab 1 le_rfl) fun _ => Keeps.bind (keeps_zeroRows _) fun _ =>
    Keeps.bind (keeps_zeroRows _) fun _ => Keeps.bind (keeps_zeroRows _) fun _ => Keeps.bind (keeps_zeroRows _) fun _ =>
    Keeps.bind (keeps_zeroRows _) fun _ => Keeps.bind (keeps_zeroRows _) fun _ => Keeps.bind (keeps_per_rows _ _) fun _ =>
    Keeps.bind (keeps_per_rows _ _) fun _ => keeps_per_rows _ _

theorem keeps_RH_row (c : RHCoef) (i j k l : ℕ) : Keeps (EInv a b) (RH_row (n := n) c i j k l) := by
  unfold RH_row
  exact Keeps.bind (keeps_zeroRows _) fun _ => Keeps.bind (keeps_onAt _) fun _ => Keeps.bind (keeps_onB _) fun _ =>
    Keeps.bind (keeps_onB _) fun _ => Keeps.bind (keeps_onB _) fun _ => keeps_onB _

theorem keeps_RH (hn : 2 ≤ n) (hab : a ≠ b) (i : ℕ) (r : Option ℕ) (kw : List (String × Option ℝ)) :
    Keeps (EInv a b) (setBC_RH (n := n) i r kw) := by
  unfold setBC_RH
  refine Keeps.bind (keeps_matder hn hab 1 le_rfl) fun D => ?_
  refine Keeps.bind (Keeps.require _ _) fun _ => ?_
  refine Keeps.bind (keeps_onAt _) fun _ => Keeps.bind (keeps_onB _) fun _ => Keeps.bind (Keeps.get _) fun q => ?_
  cases q with
  | none => exact Keeps.throw _
  | some q =>
    refine Keeps.bind (Keeps.lift _) fun _ => Keeps.bind (Keeps.lift _) fun _ => Keeps.bind (Keeps.lift _) fun _ =>
      Keeps.bind (Keeps.lift _) fun _ => Keeps.bind (Keeps.lift _) fun _ => Keeps.bind (Keeps.lift _) fun _ =>
      Keeps.bind (Keeps.lift _) fun _ => Keeps.bind (Keeps.lift _) fun _ => ?_
    cases kwValue kw "dM0dx" with
    | none => exact Keeps.throw _
    | some m =>
      exact Keeps.bind (keeps_x hn) fun _ => Keeps.bind (Keeps.lift _) fun _ => Keeps.bind (Keeps.lift _) fun _ =>
        Keeps.bind (keeps_RH_row _ _ _ _ _) fun _ => Keeps.bind (keeps_RH_row _ _ _ _ _) fun _ => keeps_RH_row _ _ _ _ _

theorem keeps_callBC (hn : 2 ≤ n) (hab : a ≠ b) (t : String) (i r : ℕ) (kw : List (String × Option ℝ)) :
    Keeps (EInv a b) (callBC (n := n) t i r kw) := by
  unfold callBC
  split
  · exact Keeps.ite (keeps_sym hn hab _ _) (Keeps.throw _)
  · exact Keeps.throw _
  · exact Keeps.ite (Keeps.throw _) (keeps_RH hn hab _ _ _)
  · exact Keeps.throw _

theorem keeps_applyBC (hn : 2 ≤ n) (hab : a ≠ b) (r i : ℕ) : Keeps (EInv a b) (applyBC (n := n) r i) :=
  Keeps.bind (keeps_onHeap _) fun _ => Keeps.bind (Keeps.get _) fun _ => keeps_callBC hn hab _ _ _ _

theorem keeps_compute_BC (hn : 2 ≤ n) (hab : a ≠ b) : Keeps (EInv a b) (compute_BC (n := n)) := by
  unfold compute_BC
  refine Keeps.bind (Keeps.get _) fun bc => ?_
  cases bc with
  | none => exact Keeps.throw _
  | some lr =>
    refine Keeps.bind (Keeps.get _) fun h => Keeps.bind (Keeps.lift _) fun tl => Keeps.ite ?_ ?_
    · exact Keeps.bind (Keeps.lift _) fun _ => Keeps.ite (keeps_per hn hab) (Keeps.throw _)
    · exact Keeps.bind (keeps_applyBC hn hab _ _) fun _ => keeps_applyBC hn hab _ _

theorem keeps_compute_operators (hn : 2 ≤ n) (hab : a ≠ b) : Keeps (EInv a b) (compute_operators (n := n)) := by
  unfold compute_operators
  refine Keeps.bind (keeps_matder hn hab 1 le_rfl) fun D => Keeps.bind (Keeps.get _) fun nv => ?_
  cases nv with
  | none => exact Keeps.throw _
  | some nv =>
    refine Keeps.bind (Keeps.get _) fun q => ?_
    cases q with
    | none => exact Keeps.throw _
    | some q =>
      exact Keeps.bind (keeps_setAt _) fun _ => Keeps.bind (Keeps.require _ _) fun _ =>
        Keeps.bind (keeps_setB _) fun _ => keeps_compute_BC hn hab

theorem keeps_get (hn : 2 ≤ n) (hab : a ≠ b) : Keeps (EInv a b) (get_RHS_time_matrices (n := n)) := by
  unfold get_RHS_time_matrices LinOperator.get_RHS_time_matrices
  refine Keeps.bind (Keeps.get _) fun _ => Keeps.bind (Keeps.when (keeps_compute_operators hn hab)) fun _ =>
    Keeps.bind (Keeps.get _) fun B => Keeps.bind (Keeps.get _) fun A => ?_
  cases B <;> cases A <;> first | exact Keeps.throw _ | exact Keeps.pure _

theorem keeps_set_basestate (q : Option (StateV n)) : Keeps (EInv a b) (set_basestate (n := n) q) :=
  fun _ h => ⟨h.diff, .inl rfl⟩

theorem keeps_set_BC (L R : BCArg) : Keeps (EInv a b) (set_BC (n := n) L R) :=
  Keeps.bind (keeps_onHeap _) fun _ => Keeps.modify fun _ h => ⟨h.diff, h.nvar⟩

end keeps

/-! ### the operator before boundary conditions -/

/-- `self._B` before `compute_BC` -/
noncomputable def raw (D : Matrix (Fin n) (Fin n) ℝ) (q : StateV n) (i j : ℕ) : ℝ := -Bx D q i j - B0 q (deriv D q) i j

theorem ent_eq (D : Matrix (Fin n) (Fin n) ℝ) (i j : Fin n) : ent D i j = D i j := by
  unfold ent; rw [ix_eq _ i.2, ix_eq _ j.2]

theorem ixf (v : Fin n → ℝ) (i : Fin n) : ix v (i : ℕ) = v i := ix_eq v i.2

theorem md (k : ℕ) (i : Fin n) : (k * n + i) % n = i := by
  rw [Nat.add_comm, Nat.add_mul_mod_self_right, Nat.mod_eq_of_lt i.2]
theorem dv (k : ℕ) (i : Fin n) : (k * n + i) / n = k := by
  have hn : 0 < n := by have := i.2; omega
  rw [Nat.add_comm, Nat.add_mul_div_right _ _ hn, Nat.div_eq_of_lt i.2, Nat.zero_add]

/-- blocks of the operator -/
noncomputable def blk (D : Matrix (Fin n) (Fin n) ℝ) (q : StateV n) (k l : Fin 3) (i j : Fin n) : ℝ :=
  let dl : ℝ := if i = j then 1 else 0
  match k, l with
  | 0, 0 => -(q.u i * D i j) - D.mulVec q.u i * dl
  | 0, 1 => -(q.rho i * D i j) - D.mulVec q.rho i * dl
  | 0, 2 => 0
  | 1, 0 => D.mulVec q.p i / q.rho i ^ 2 * dl
  | 1, 1 => -(q.u i * D i j) - D.mulVec q.u i * dl
  | 1, 2 => -(1 / q.rho i * D i j)
  | 2, 0 => 0
  | 2, 1 => -(q.gamma * q.p i * D i j) - D.mulVec q.p i * dl
  | 2, 2 => -(q.u i * D i j) - q.gamma * D.mulVec q.u i * dl

theorem raw_blk (D : Matrix (Fin n) (Fin n) ℝ) (q : StateV n) (k l : Fin 3) (i j : Fin n) :
    raw D q (k * n + i) (l * n + j) = blk D q k l i j := by
  have hi := i.2
  have hj := j.2
  unfold raw Bx B0
  simp only [md, dv, ent_eq, ixf]
  have hij : ((i : ℕ) = j) = (i = j) := by rw [Fin.ext_iff]
  fin_cases k <;> fin_cases l <;>
    simp only [Fin.zero_eta, Fin.mk_one, Fin.reduceFinMk, Fin.val_zero, Fin.val_one, Fin.val_two, zero_mul, zero_add, one_mul, blk]
  all_goals
    simp only [deriv, Nat.add_sub_cancel_left, Nat.add_right_inj, hij, ixf, ent_eq, show ¬ (2 * n ≤ (i:ℕ)) by omega,
      show ¬ (n ≤ (i:ℕ)) by omega, false_and, if_false]
    split_ifs <;> first | (exfalso; omega) | (norm_num; done) | (norm_num; ring)

theorem sum_three (f : ℕ → ℝ) : ∑ j ∈ Finset.range (3 * n), f j = ∑ l : Fin 3, ∑ j : Fin n, f (l * n + j) := by
  have h1 : 3 * n = n + n + n := by ring
  rw [h1, Finset.sum_range_add, Finset.sum_range_add, Fin.sum_univ_three]
  simp only [Finset.sum_range]
  have h2 : n + n = 2 * n := by ring
  simp [h2]

/-- the operator applied to a vector, row `i` of equation `k` -/
theorem raw_mulVec (D : Matrix (Fin n) (Fin n) ℝ) (q : StateV n) (v : ℕ → ℝ) (k : Fin 3) (i : Fin n) :
    ∑ j ∈ Finset.range (3 * n), raw D q (k * n + i) j * v j = ∑ l : Fin 3, ∑ j : Fin n, blk D q k l i j * field n v l j := by
  rw [sum_three]
  refine Finset.sum_congr rfl fun l _ => Finset.sum_congr rfl fun j _ => ?_
  rw [raw_blk]; rfl

theorem sum_dl (c : ℝ) (w : Fin n → ℝ) (i : Fin n) : ∑ j, c * (if i = j then 1 else 0) * w j = c * w i := by
  simp

theorem raw_eq (D : Matrix (Fin n) (Fin n) ℝ) (q : StateV n) (v : ℕ → ℝ) (k : Fin 3) (i : Fin n) :
    ∑ j ∈ Finset.range (3 * n), raw D q (k * n + i) j * v j =
      match k with
      | 0 => -(q.u i * D.mulVec (field n v 0) i + field n v 1 i * D.mulVec q.rho i
          + q.rho i * D.mulVec (field n v 1) i + field n v 0 i * D.mulVec q.u i)
      | 1 => -(q.u i * D.mulVec (field n v 1) i + field n v 1 i * D.mulVec q.u i
          + D.mulVec (field n v 2) i / q.rho i - D.mulVec q.p i / q.rho i ^ 2 * field n v 0 i)
      | 2 => -(q.u i * D.mulVec (field n v 2) i + field n v 1 i * D.mulVec q.p i
          + q.gamma * q.p i * D.mulVec (field n v 1) i + q.gamma * field n v 2 i * D.mulVec q.u i) := by
  rw [raw_mulVec, Fin.sum_univ_three]
  have hs : ∀ (c d : ℝ) (w : Fin n → ℝ), ∑ j, (-(c * D i j) - d * (if i = j then 1 else 0)) * w j
      = -(c * D.mulVec w i) - d * w i := by
    intro c d w
    have : ∀ j, (-(c * D i j) - d * (if i = j then 1 else 0)) * w j
        = (-c) * (D i j * w j) - d * (if i = j then 1 else 0) * w j := fun j => by ring
    simp only [this]
    rw [Finset.sum_sub_distrib, ← Finset.mul_sum, sum_dl]
    simp only [Matrix.mulVec, dotProduct]
    ring
  have hs' : ∀ (c : ℝ) (w : Fin n → ℝ), ∑ j, (-(c * D i j)) * w j = -(c * D.mulVec w i) := by
    intro c w
    have := hs c 0 w
    simpa using this
  fin_cases k <;> simp only [Fin.zero_eta, Fin.mk_one, Fin.reduceFinMk, blk, hs, hs', sum_dl, zero_mul, Finset.sum_const_zero] <;> ring

/-- the operator is the Jacobian of the collocated Euler equations -/
theorem raw_jacobian (D : Matrix (Fin n) (Fin n) ℝ) (q : StateV n) (hq : ∀ i, q.rho i ≠ 0) (v : ℕ → ℝ) (k : Fin 3) (i : Fin n) :
    HasDerivAt (fun ε : ℝ => eulerRHS D q.gamma (q.rho + ε • field n v 0) (q.u + ε • field n v 1) (q.p + ε • field n v 2) k i)
      (∑ j ∈ Finset.range (3 * n), raw D q (k * n + i) j * v j) 0 := by
  rw [raw_eq]
  have hl : ∀ c d : ℝ, HasDerivAt (fun ε : ℝ => c + ε * d) d 0 := by
    intro c d
    have := ((hasDerivAt_id (0:ℝ)).mul_const d).const_add c
    simpa using this
  have e : ∀ (w w' : Fin n → ℝ) (ε : ℝ), D.mulVec (w + ε • w') i = D.mulVec w i + ε * D.mulVec w' i := by
    intro w w' ε
    rw [Matrix.mulVec_add, Matrix.mulVec_smul]; rfl
  fin_cases k <;> simp only [Fin.zero_eta, Fin.mk_one, Fin.reduceFinMk, eulerRHS, e, Pi.add_apply, Pi.smul_apply, smul_eq_mul]
  · refine HasDerivAt.congr_deriv (((((hl (q.u i) (field n v 1 i)).mul (hl (D.mulVec q.rho i) (D.mulVec (field n v 0) i)))).add
      ((hl (q.rho i) (field n v 0 i)).mul (hl (D.mulVec q.u i) (D.mulVec (field n v 1) i)))).neg) ?_
    simp only [zero_mul, add_zero]; ring
  · refine HasDerivAt.congr_deriv (((((hl (q.u i) (field n v 1 i)).mul (hl (D.mulVec q.u i) (D.mulVec (field n v 1) i)))).add
      ((hl (D.mulVec q.p i) (D.mulVec (field n v 2) i)).div (hl (q.rho i) (field n v 0 i)) (by simpa using hq i))).neg) ?_
    have := hq i
    simp only [zero_mul, add_zero]; field_simp; ring
  · refine HasDerivAt.congr_deriv (((((hl (q.u i) (field n v 1 i)).mul (hl (D.mulVec q.p i) (D.mulVec (field n v 2) i)))).add
      (((hl (q.p i) (field n v 2 i)).const_mul q.gamma).mul (hl (D.mulVec q.u i) (D.mulVec (field n v 1) i)))).neg) ?_
    simp only [zero_mul, add_zero]; ring

end Aerokit.Euler1D
