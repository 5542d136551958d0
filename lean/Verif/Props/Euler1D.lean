import Verif.Lemmas.EulerCompute
import Verif.Spec.Euler1D

/-! # Properties C44–C48 : `aerokit/stability/_base.py` and `aerokit/stability/Euler.py` -/

namespace Aerokit.Props
open LinOperator NumSpectral Model1D Euler1D Spec Polynomial

variable {n : ℕ}

/-- a call on an `Euler1D` object, or the creation of a dictionary by the caller -/
inductive EulerCall (n : ℕ)
  | set_basestate (q : Option (StateV n))
  | set_BC (L R : BCArg)
  | compute_operators
  | get_RHS_time_matrices
  | x
  | newDict (d : BCDict)

/-- the object after a call -/
noncomputable def eulerStep (s : Obj n) : EulerCall n → Obj n
  | .set_basestate q => (Euler1D.set_basestate q s).2
  | .set_BC L R => (Euler1D.set_BC L R s).2
  | .compute_operators => (Euler1D.compute_operators s).2
  | .get_RHS_time_matrices => (Euler1D.get_RHS_time_matrices s).2
  | .x => (Euler1D.x s).2
  | .newDict d => { s with heap := (s.heap.alloc d).2 }

/-- `Euler1D(n, a, b, q)` after an arbitrary history of calls -/
noncomputable def eulerAfter (n : ℕ) (a b : ℝ) (q : Option (StateV n)) (h : Heap) (calls : List (EulerCall n)) : Obj n :=
  calls.foldl eulerStep (Euler1D.init n (some a) (some b) q h)

theorem einv_after (hn : 2 ≤ n) {a b : ℝ} (hab : a ≠ b) (q : Option (StateV n)) (h : Heap) (calls : List (EulerCall n)) :
    EInv a b (eulerAfter n a b q h calls) := by
  have h0 : EInv a b (Euler1D.init n (some a) (some b) q h) := by
    cases q with
    | none => exact ⟨inv_mk a b, .inr ⟨rfl, rfl⟩⟩
    | some q => exact ⟨inv_mk a b, .inl rfl⟩
  have : ∀ (l : List (EulerCall n)) (s : Obj n), EInv a b s → EInv a b (l.foldl eulerStep s) := by
    intro l
    induction l with
    | nil => intro s hs; exact hs
    | cons c l ih =>
      intro s hs
      refine ih _ ?_
      cases c with
      | set_basestate q => exact keeps_set_basestate q s hs
      | set_BC L R => exact keeps_set_BC L R s hs
      | compute_operators => exact keeps_compute_operators hn hab s hs
      | get_RHS_time_matrices => exact keeps_get hn hab s hs
      | x => exact keeps_x hn s hs
      | newDict d => exact ⟨hs.diff, hs.nvar⟩
  exact this calls _ h0

/-! ## C45 -/

/-- the boundary condition name carried by an argument of `set_BC` in memory `h`: a string is its own name, a dictionary
has the name stored under `'type'` (if any) -/
def bcName (h : Heap) : BCArg → Option String
  | .str s => some s
  | .dict r => (h.at' r).type
  | .other => none

/-- how an argument is refused -/
def bcError (h : Heap) : BCArg → PyErr
  | .str _ => .valueError
  | .dict r => if (h.at' r).type = none then .keyError else .valueError
  | .other => .typeError

/-- a valid argument: its name is registered -/
def bcValid (names : List String) (h : Heap) (A : BCArg) : Prop := ∃ s ∈ names, bcName h A = some s

/-- dictionaries known to the caller are allocated -/
def bcKnown (h : Heap) : BCArg → Prop
  | .dict r => r < h.next
  | _ => True

theorem check_BC_spec (names : List String) (h : Heap) (A : BCArg) :
    ∃ h', (∀ r, r < h.next → h'.at' r = h.at' r) ∧ h.next ≤ h'.next ∧
      ((bcValid names h A ∧ ∃ r, check_BC names A h = (.ok r, h') ∧ (bcKnown h A → r < h'.next) ∧
          (h'.at' r).type = bcName h A ∧ (∀ r', A = .dict r' → r = r') ∧ (∀ s, A = .str s → (h'.at' r).kwargs = [] ∧ r = h.next)) ∨
        (¬ bcValid names h A ∧ check_BC names A h = (.error (bcError h A), h'))) := by
  cases A with
  | str s =>
    refine ⟨(h.alloc ⟨some s, []⟩).2, fun r hr => ?_, Nat.le_succ _, ?_⟩
    · show (if r = h.next then _ else _) = _
      rw [if_neg (by omega)]
    · by_cases hs : s ∈ names
      · refine .inl ⟨⟨s, hs, rfl⟩, h.next, by simp [check_BC, Heap.alloc, hs], fun _ => Nat.lt_succ_self _, ?_, ?_, ?_⟩
        · simp [Heap.alloc, bcName]
        · intro r' h'; cases h'
        · intro s' _; simp [Heap.alloc]
      · refine .inr ⟨?_, by simp [check_BC, Heap.alloc, hs, bcError]⟩
        rintro ⟨s', h1, h2⟩
        cases h2; exact hs h1
  | dict r =>
    refine ⟨h, fun _ _ => rfl, le_rfl, ?_⟩
    cases ht : (h.at' r).type with
    | none =>
      refine .inr ⟨?_, by simp [check_BC, ht, bcError]⟩
      rintro ⟨s', h1, h2⟩
      simp only [bcName, ht] at h2
      cases h2
    | some s =>
      by_cases hs : s ∈ names
      · refine .inl ⟨⟨s, hs, ht⟩, r, by simp [check_BC, ht, hs], id, rfl, ?_, ?_⟩
        · intro r' h'; cases h'; rfl
        · intro s' h'; cases h'
      · refine .inr ⟨?_, by simp [check_BC, ht, hs, bcError]⟩
        rintro ⟨s', h1, h2⟩
        simp only [bcName, ht] at h2
        cases h2; exact hs h1
  | other =>
    refine ⟨h, fun _ _ => rfl, le_rfl, .inr ⟨?_, rfl⟩⟩
    rintro ⟨s', h1, h2⟩
    cases h2

theorem name_congr {h h' : Heap} {A : BCArg} (hk : bcKnown h A) (he : ∀ r, r < h.next → h'.at' r = h.at' r) :
    bcName h' A = bcName h A ∧ bcError h' A = bcError h A := by
  cases A with
  | str s => exact ⟨rfl, rfl⟩
  | dict r => simp only [bcName, bcError, he r hk, and_self]
  | other => exact ⟨rfl, rfl⟩

theorem set_BC_eq (s : Obj n) (L R : BCArg) : Euler1D.set_BC L R s = match check_BCs Euler1D.BC_names L R s.heap with
    | (.ok lr, h) => (.ok (), { s with heap := h, BC_type := some lr })
    | (.error e, h) => (.error e, { s with heap := h }) := by
  unfold Euler1D.set_BC
  rw [Meth.bind_apply]
  unfold onHeap
  rcases check_BCs Euler1D.BC_names L R s.heap with ⟨_ | lr, h⟩ <;> rfl

/-- C45: `set_BC` succeeds exactly when both arguments carry a registered name; it then stores dictionaries with these
names (the caller's own object if a dictionary was given) and changes nothing else; otherwise it raises (ValueError for an
unknown name, KeyError for a dictionary without type, the left argument being checked first) and the boundary conditions
and all other attributes are unchanged.  In both cases the caller's dictionaries are unchanged. -/
theorem C45_set_BC (s : Obj n) (L R : BCArg) (kL : bcKnown s.heap L) (kR : bcKnown s.heap R) :
    ∃ s' : Obj n, s'.diffop = s.diffop ∧ s'.basestate = s.basestate ∧ s'.B = s.B ∧ s'.At = s.At ∧
      (∀ r, r < s.heap.next → s'.heap.at' r = s.heap.at' r) ∧
      ((bcValid ["sym", "per", "RH"] s.heap L ∧ bcValid ["sym", "per", "RH"] s.heap R ∧
          Euler1D.set_BC L R s = (.ok (), s') ∧
          ∃ l r, s'.BC_type = some (l, r) ∧ (s'.heap.at' l).type = bcName s.heap L ∧ (s'.heap.at' r).type = bcName s.heap R ∧
            (∀ k, L = .dict k → l = k) ∧ (∀ k, R = .dict k → r = k) ∧
            (∀ t, L = .str t → (s'.heap.at' l).kwargs = [] ∧ s.heap.next ≤ l ∧ l ≠ r) ∧
            (∀ t, R = .str t → (s'.heap.at' r).kwargs = [] ∧ s.heap.next ≤ r ∧ l ≠ r)) ∨
        (¬ bcValid ["sym", "per", "RH"] s.heap L ∧ Euler1D.set_BC L R s = (.error (bcError s.heap L), s') ∧
          s'.BC_type = s.BC_type) ∨
        (bcValid ["sym", "per", "RH"] s.heap L ∧ ¬ bcValid ["sym", "per", "RH"] s.heap R ∧
          Euler1D.set_BC L R s = (.error (bcError s.heap R), s') ∧ s'.BC_type = s.BC_type)) := by
  obtain ⟨h1, e1, m1, c1⟩ := check_BC_spec Euler1D.BC_names s.heap L
  rcases c1 with ⟨v1, l, c1, a1, t1, d1, k1⟩ | ⟨v1, c1⟩
  · obtain ⟨h2, e2, m2, c2⟩ := check_BC_spec Euler1D.BC_names h1 R
    obtain ⟨nR, eR⟩ := name_congr kR e1
    have hv : bcValid Euler1D.BC_names h1 R ↔ bcValid Euler1D.BC_names s.heap R := by unfold bcValid; rw [nR]
    have hold : ∀ r, r < s.heap.next → h2.at' r = s.heap.at' r := fun r hr => by rw [e2 r (by omega), e1 r hr]
    have hl := a1 kL
    rcases c2 with ⟨v2, r, c2, a2, t2, d2, k2⟩ | ⟨v2, c2⟩
    · refine ⟨{ s with heap := h2, BC_type := some (l, r) }, rfl, rfl, rfl, rfl, hold, .inl ⟨v1, hv.1 v2, ?_, l, r, rfl, ?_, ?_, d1, d2, ?_, ?_⟩⟩
      · rw [set_BC_eq]
        unfold check_BCs
        rw [Meth.bind_ok c1, Meth.bind_ok c2]
        rfl
      · show (h2.at' l).type = _
        rw [e2 l hl, t1]
      · show (h2.at' r).type = _
        rw [t2, nR]
      · intro t ht
        obtain ⟨k1, k3⟩ := k1 t ht
        refine ⟨by show (h2.at' l).kwargs = []; rw [e2 l hl, k1], by omega, ?_⟩
        rintro rfl
        cases R with
        | str s => have := (k2 s rfl).2; omega
        | dict r' => have := d2 r' rfl; subst this; have : l < s.heap.next := kR; omega
        | other => obtain ⟨_, _, h⟩ := v2; cases h
      · intro t ht
        obtain ⟨k2, k3⟩ := k2 t ht
        exact ⟨k2, by omega, by omega⟩
    · refine ⟨{ s with heap := h2 }, rfl, rfl, rfl, rfl, hold, .inr (.inr ⟨v1, fun h => v2 (hv.2 h), ?_, rfl⟩)⟩
      rw [set_BC_eq]
      unfold check_BCs
      rw [Meth.bind_ok c1, Meth.bind_err c2, eR]
  · refine ⟨{ s with heap := h1 }, rfl, rfl, rfl, rfl, e1, .inr (.inl ⟨v1, ?_, rfl⟩)⟩
    rw [set_BC_eq]
    unfold check_BCs
    rw [Meth.bind_err c1]

/-- non-vacuity: all three outcomes exist -/
example (s : Obj n) : bcValid ["sym", "per", "RH"] s.heap (.str "per") ∧ ¬ bcValid ["sym", "per", "RH"] s.heap (.str "wall") ∧
    bcError s.heap (.str "wall") = .valueError ∧
    (Euler1D.set_BC (.str "per") (.str "wall") s).1 = .error .valueError := by
  refine ⟨⟨"per", by simp, rfl⟩, ?_, rfl, rfl⟩
  rintro ⟨t, h, e⟩
  cases e
  simp at h

/-! ## C46 -/

/-- C46: after any history, `compute_operators` (whatever the boundary conditions, even when they raise) leaves in `_B` the
exact Jacobian of the collocated nonlinear Euler equations at every interior point, and in `_At` the identity rows:
`B v` is the derivative of the right hand side at the current base state in the direction `v`. -/
theorem C46_jacobian (hn : 2 ≤ n) {a b : ℝ} (hab : a ≠ b) (q0 : Option (StateV n)) (hp : Heap) (calls : List (EulerCall n))
    (q : StateV n) (hq : (eulerAfter n a b q0 hp calls).basestate = some q) (hr : ∀ i, q.rho i ≠ 0) :
    ∃ d D B At, NumSpectral.matder (eulerAfter n a b q0 hp calls).diffop 1 = .ok (d, D) ∧
      (Euler1D.compute_operators (eulerAfter n a b q0 hp calls)).2.B = some B ∧
      (Euler1D.compute_operators (eulerAfter n a b q0 hp calls)).2.At = some At ∧
      ∀ (v : ℕ → ℝ) (k : Fin 3) (i : Fin n), 0 < (i:ℕ) → (i:ℕ) < n - 1 →
        HasDerivAt (fun ε : ℝ => eulerRHS D q.gamma (q.rho + ε • field n v 0) (q.u + ε • field n v 1)
            (q.p + ε • field n v 2) k i) (B.mulVec v (k * n + i)) 0 ∧
        At.mulVec v (k * n + i) = field n v k i := by
  have hI := einv_after hn hab q0 hp calls
  obtain ⟨d, hd, -⟩ := matder_spec hn hab hI.diff (m := 1) le_rfl
  obtain ⟨⟨B, hB, fB⟩, At, hA, fA⟩ := compute_inner hn hab hI hq hr
  refine ⟨d, _, B, At, hd, hB, hA, fun v k i h0 h1 => ?_⟩
  have hin : inner n (k * n + i) := ⟨k, i, k.2, h0, h1, rfl⟩
  refine ⟨?_, ?_⟩
  · rw [fB.mulVec hin]
    exact raw_jacobian _ q hr v k i
  · rw [fA.mulVec hin]
    have hlt : (k:ℕ) * n + i < 3 * n := by have := inner_iff.1 hin; omega
    simp only [ite_mul, one_mul, zero_mul]
    rw [Finset.sum_ite_eq, if_pos (Finset.mem_range.2 hlt)]
    rfl

/-- C46 on a uniform base state: on polynomial perturbations of degree `< n` the interior rows are the
constant-coefficient linearised Euler operator `-(U ρ'_x + R u'_x)`, `-(U u'_x + p'_x / R)`, `-(U p'_x + γ P u'_x)`. -/
theorem C46_uniform (hn : 2 ≤ n) {a b : ℝ} (hab : a ≠ b) (q0 : Option (StateV n)) (hp : Heap) (calls : List (EulerCall n))
    (R U P g : ℝ) (hR : R ≠ 0)
    (hq : (eulerAfter n a b q0 hp calls).basestate = some ⟨fun _ => R, fun _ => U, fun _ => P, g⟩) :
    ∃ d X B, NumSpectral.x (eulerAfter n a b q0 hp calls).diffop = .ok (d, X) ∧
      (Euler1D.compute_operators (eulerAfter n a b q0 hp calls)).2.B = some B ∧
      ∀ (v : ℕ → ℝ) (r w p : ℝ[X]), r.degree < n → w.degree < n → p.degree < n →
        (∀ j : Fin n, field n v 0 j = r.eval (X j) ∧ field n v 1 j = w.eval (X j) ∧ field n v 2 j = p.eval (X j)) →
        ∀ i : Fin n, 0 < (i:ℕ) → (i:ℕ) < n - 1 →
          B.mulVec v (0 * n + i) = -(U * (derivative r).eval (X i) + R * (derivative w).eval (X i)) ∧
          B.mulVec v (1 * n + i) = -(U * (derivative w).eval (X i) + (derivative p).eval (X i) / R) ∧
          B.mulVec v (2 * n + i) = -(U * (derivative p).eval (X i) + g * P * (derivative w).eval (X i)) := by
  have hI := einv_after hn hab q0 hp calls
  obtain ⟨d, hX, -, -⟩ := x_spec hn hI.diff
  obtain ⟨⟨B, hB, fB⟩, At, hA, fA⟩ := compute_inner hn hab hI hq (fun _ => hR)
  refine ⟨d, _, B, hX, hB, fun v r w p dr dw dp hv i h0 h1 => ?_⟩
  have hc : ∀ c : ℝ, (Dm n a b 1).mulVec (fun _ => c) i = 0 := by
    intro c
    have := Dm_exact hn hab 1 (C c) (lt_of_le_of_lt degree_C_le (by exact_mod_cast (by omega : 0 < n))) i
    simp only [eval_C, Function.iterate_one, derivative_C, eval_zero] at this
    exact this
  have hf0 : field n v 0 = fun j => r.eval (xv n a b j) := funext fun j => (hv j).1
  have hf1 : field n v 1 = fun j => w.eval (xv n a b j) := funext fun j => (hv j).2.1
  have hf2 : field n v 2 = fun j => p.eval (xv n a b j) := funext fun j => (hv j).2.2
  have e0 := Dm_exact hn hab 1 r dr i
  have e1 := Dm_exact hn hab 1 w dw i
  have e2 := Dm_exact hn hab 1 p dp i
  change (Dm n a b 1).mulVec (fun j => r.eval (xv n a b j)) i = _ at e0
  change (Dm n a b 1).mulVec (fun j => w.eval (xv n a b j)) i = _ at e1
  change (Dm n a b 1).mulVec (fun j => p.eval (xv n a b j)) i = _ at e2
  rw [← hf0] at e0
  rw [← hf1] at e1
  rw [← hf2] at e2
  simp only [Function.iterate_one] at e0 e1 e2
  have key : ∀ k : Fin 3, B.mulVec v (k * n + i) = _ := fun k =>
    (fB.mulVec ⟨k, i, k.2, h0, h1, rfl⟩ v).trans (raw_eq (Dm n a b 1) ⟨fun _ => R, fun _ => U, fun _ => P, g⟩ v k i)
  refine ⟨(key 0).trans ?_, (key 1).trans ?_, (key 2).trans ?_⟩ <;> simp only [hc, e0, e1, e2] <;> ring

/-- non-vacuity: such a base state -/
example (h : Heap) : (eulerAfter 5 0 1 (some ⟨fun _ => 1.4, fun _ => 0.5, fun _ => 1, 1.4⟩) h []).basestate
    = some ⟨fun _ => 1.4, fun _ => 0.5, fun _ => 1, 1.4⟩ := rfl

end Aerokit.Props
