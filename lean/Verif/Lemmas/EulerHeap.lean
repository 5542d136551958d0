import Verif.Lemmas.EulerRH

/-! The operator computations of `Euler1D` change the dictionaries only by popping `'type'`. -/

namespace Aerokit.Euler1D
open LinOperator NumSpectral Model1D Spec Meth

variable {n : ℕ} {P : Heap → Prop}

/-- a property of the memory -/
def OnHeap (P : Heap → Prop) (s : Obj n) : Prop := P s.heap

theorem hp_matder (m : ℕ) : Keeps (OnHeap (n := n) P) (matder m) := by
  intro s hs; unfold matder; split <;> exact hs
theorem hp_x : Keeps (OnHeap (n := n) P) x := by
  intro s hs; unfold x; split <;> exact hs
theorem hp_onAt (f : Mat ℝ → Py (Mat ℝ)) : Keeps (OnHeap (n := n) P) (onAt f) :=
  Keeps.bind (fun _ h => h) fun _ => Keeps.bind (Keeps.lift _) fun _ => Keeps.modify fun _ h => h
theorem hp_onB (f : Mat ℝ → Py (Mat ℝ)) : Keeps (OnHeap (n := n) P) (onB f) :=
  Keeps.bind (fun _ h => h) fun _ => Keeps.bind (Keeps.lift _) fun _ => Keeps.modify fun _ h => h
theorem hp_zeroRows (i : ℕ) : Keeps (OnHeap (n := n) P) (zeroRows i) := Keeps.bind (hp_onAt _) fun _ => hp_onB _
theorem hp_sym (i : ℕ) (r : Option ℕ) : Keeps (OnHeap (n := n) P) (setBC_sym i r) := by
  unfold setBC_sym
  exact Keeps.bind (hp_matder 1) fun _ => Keeps.bind (hp_zeroRows _) fun _ => Keeps.bind (hp_zeroRows _) fun _ =>
    Keeps.bind (hp_zeroRows _) fun _ => Keeps.bind (hp_onB _) fun _ => Keeps.bind (hp_onB _) fun _ => hp_onB _
theorem hp_per_rows (D : Matrix (Fin n) (Fin n) ℝ) (i : ℕ) : Keeps (OnHeap (n := n) P) (per_rows D i) :=
  Keeps.bind (hp_onB _) fun _ => Keeps.bind (hp_onB _) fun _ => hp_onB _
theorem hp_per : Keeps (OnHeap (n := n) P) setBC_per := by
  unfold setBC_per
  exact Keeps.bind (hp_matder 1) fun _ => Keeps.bind (hp_zeroRows _) fun _ => Keeps.bind (hp_zeroRows _) fun _ =>
    Keeps.bind (hp_zeroRows _) fun _ => Keeps.bind (hp_zeroRows _) fun _ => Keeps.bind (hp_zeroRows _) fun _ =>
    Keeps.bind (hp_zeroRows _) fun _ => Keeps.bind (hp_per_rows _ _) fun _ => Keeps.bind (hp_per_rows _ _) fun _ =>
    hp_per_rows _ _
theorem hp_RH_row (c : RHCoef) (i j k l : ℕ) : Keeps (OnHeap (n := n) P) (RH_row c i j k l) := by
  unfold RH_row
  exact Keeps.bind (hp_zeroRows _) fun _ => Keeps.bind (hp_onAt _) fun _ =>
    Keeps.bind (hp_onB _) fun _ => Keeps.bind (hp_onB _) fun _ => Keeps.bind (hp_onB _) fun _ => hp_onB _
theorem hp_RH (i : ℕ) (r : Option ℕ) (kw : List (String × Option ℝ)) : Keeps (OnHeap (n := n) P) (setBC_RH i r kw) := by
  unfold setBC_RH
  refine Keeps.bind (hp_matder 1) fun D => ?_
  refine Keeps.bind (Keeps.require _ _) fun _ => ?_
  refine Keeps.bind (hp_onAt _) fun _ => Keeps.bind (hp_onB _) fun _ => Keeps.bind (Keeps.get _) fun q => ?_
  cases q with
  | none => exact Keeps.throw _
  | some q =>
    refine Keeps.bind (Keeps.lift _) fun _ => Keeps.bind (Keeps.lift _) fun _ => Keeps.bind (Keeps.lift _) fun _ =>
      Keeps.bind (Keeps.lift _) fun _ => Keeps.bind (Keeps.lift _) fun _ => Keeps.bind (Keeps.lift _) fun _ =>
      Keeps.bind (Keeps.lift _) fun _ => Keeps.bind (Keeps.lift _) fun _ => ?_
    cases kwValue kw "dM0dx" with
    | none => exact Keeps.throw _
    | some m =>
      exact Keeps.bind hp_x fun _ => Keeps.bind (Keeps.lift _) fun _ => Keeps.bind (Keeps.lift _) fun _ =>
        Keeps.bind (hp_RH_row _ _ _ _ _) fun _ => Keeps.bind (hp_RH_row _ _ _ _ _) fun _ => hp_RH_row _ _ _ _ _
theorem hp_callBC (t : String) (i r : ℕ) (kw : List (String × Option ℝ)) : Keeps (OnHeap (n := n) P) (callBC t i r kw) := by
  unfold callBC
  split
  · exact Keeps.ite (hp_sym _ _) (Keeps.throw _)
  · exact Keeps.throw _
  · exact Keeps.ite (Keeps.throw _) (hp_RH _ _ _)
  · exact Keeps.throw _

/-- properties kept when a `'type'` is popped -/
def PopStable (P : Heap → Prop) : Prop := ∀ h r, P h → P (h.set r ⟨none, (h.at' r).kwargs⟩)

theorem hp_applyBC (hP : PopStable P) (r i : ℕ) : Keeps (OnHeap (n := n) P) (applyBC r i) := by
  refine Keeps.bind ?_ fun t => Keeps.bind (Keeps.get _) fun kw => hp_callBC _ _ _ _
  intro s hs
  unfold onHeap popType
  show P _
  simp only
  split
  · exact hP _ _ hs
  · exact hs

/-- right `RH` : the computation never succeeds -/
theorem compute_RH_right_never (hn : 2 ≤ n) {s s' : Obj n} {l r : ℕ} (hbc : s.BC_type = some (l, r))
    (hr : (s.heap.at' r).type = some "RH") : compute_operators s ≠ (.ok (), s') := by
  intro h
  let Q : Heap → Prop := fun h => (h.at' r).type = some "RH" ∨ (h.at' r).type = none
  have hQ : PopStable Q := by
    intro h k hh
    by_cases e : r = k
    · right; simp [Heap.set, e]
    · simpa [Q, Heap.set, e] using hh
  let K : Obj n → Prop := fun t => t.BC_type = s.BC_type ∧ t.heap = s.heap
  have hK : K s := ⟨rfl, rfl⟩
  unfold compute_operators at h
  obtain ⟨D, s1, e1, h⟩ := bind_inv h
  have k1 : K s1 := keep_of (P := K) (by intro t ht; unfold matder; split <;> exact ht) e1 hK
  obtain ⟨nv, s2, e2, h⟩ := bind_inv h
  have k2 : K s2 := keep_of (Keeps.get _) e2 k1
  cases nv with
  | none => cases h
  | some nv =>
    simp only [] at h
    obtain ⟨q, s3, e3, h⟩ := bind_inv h
    have k3 : K s3 := keep_of (Keeps.get _) e3 k2
    cases q with
    | none => cases h
    | some q =>
      simp only [] at h
      obtain ⟨_, s4, e4, h⟩ := bind_inv h
      have k4 : K s4 := keep_of (P := K) (Keeps.modify fun _ ht => ht) e4 k3
      obtain ⟨_, s5, e5, h⟩ := bind_inv h
      have k5 : K s5 := keep_of (Keeps.require _ _) e5 k4
      obtain ⟨_, s6, e6, h⟩ := bind_inv h
      have k6 : K s6 := keep_of (P := K) (Keeps.modify fun _ ht => ht) e6 k5
      unfold compute_BC at h
      rw [Meth.bind_ok (Meth.get_apply _ _), k6.1, hbc] at h
      simp only [] at h
      rw [Meth.bind_ok (Meth.get_apply _ _), k6.2] at h
      obtain ⟨tl, s7, e7, h⟩ := bind_inv h
      have k7 : K s7 := keep_of (Keeps.lift _) e7 k6
      have tr : getType s.heap r = .ok "RH" := by simp [getType, hr]
      by_cases c : tl = "per"
      · rw [if_pos c, tr, Meth.bind_ok (Meth.lift_apply _ _), if_neg (by decide)] at h
        cases h
      · rw [if_neg c] at h
        obtain ⟨_, s8, e8, h⟩ := bind_inv h
        have q8 : Q s8.heap := keep_of (P := OnHeap Q) (hp_applyBC hQ l 0) e8 (by show Q s7.heap; rw [k7.2]; exact .inl hr)
        rcases q8 with q8 | q8
        · have : s8.heap.at' r = ⟨some "RH", (s8.heap.at' r).kwargs⟩ := by
            cases e : s8.heap.at' r with
            | mk t k => rw [e] at q8; simp only at q8; subst q8; rfl
          rw [applyBC_eq this] at h
          unfold callBC at h
          simp only [] at h
          split at h
          · cases h
          · exact setBC_RH_right_never hn _ _ _ h
        · rw [applyBC_err q8] at h; cases h

end Aerokit.Euler1D
