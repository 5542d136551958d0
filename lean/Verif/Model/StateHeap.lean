import Mathlib.Data.Real.Basic

/-!
# Model of the copies of array states (`aerokit/aero/model1D.py`, `aerokit/aero/unsteady1D.py`)

`Model1D.State` and `Model1D.StateV` are values.  Here the attributes `rho`, `u`, `p` of a state are references to numpy arrays in
a memory, so that sharing between a state and its copy is visible.
-/

namespace Aerokit.StateHeap

/-- the memory: the array of address `a` is the `a`-th one -/
abbrev Heap := List (List ℝ)

/-- attributes holding an array -/
inductive Attr | rho | u | p
  deriving DecidableEq

/-- an object of class `state` or `unsteady_state` (`model1D.py:27-31`, `unsteady1D.py:30-33`) whose attributes are arrays -/
structure Obj where
  rho : ℕ
  u : ℕ
  p : ℕ
  gamma : ℝ

/-- `getattr` -/
def Obj.get (o : Obj) : Attr → ℕ
  | .rho => o.rho
  | .u => o.u
  | .p => o.p

/-- content of the array of address `a` -/
def content (h : Heap) (a : ℕ) : List ℝ := h.getD a []

/-- creation of an array -/
def alloc (h : Heap) (l : List ℝ) : Heap × ℕ := (h ++ [l], h.length)

/-- `q.attr[i] = x` (numpy item assignment; an index out of range raises `IndexError` and changes nothing; `i ≥ 0`) -/
def setItem (h : Heap) (o : Obj) (a : Attr) (i : ℕ) (x : ℝ) : Heap := h.set (o.get a) ((content h (o.get a)).set i x)

/-- `state.copy` (`model1D.py:40-41`): a new object with the same arrays. -/
def copy (o : Obj) : Obj := ⟨o.rho, o.u, o.p, o.gamma⟩

/-- `copy.deepcopy` of one attribute, given those already copied (`memo` of `copy.deepcopy`) -/
def deepAttr (h : Heap) (memo : List (ℕ × ℕ)) (a : ℕ) : Heap × List (ℕ × ℕ) × ℕ :=
  match memo.lookup a with
  | some b => (h, memo, b)
  | none => ((alloc h (content h a)).1, (a, h.length) :: memo, h.length)

/-- `unsteady_state.copy` (`unsteady1D.py:35-36`): `copy.deepcopy`; attributes are visited in the order of `__init__` (`_gamma`, `rho`, `u`, `p`). -/
def deepcopy (h : Heap) (o : Obj) : Heap × Obj :=
  let r := deepAttr h [] o.rho
  let u := deepAttr r.1 r.2.1 o.u
  let p := deepAttr u.1 u.2.1 o.p
  (p.1, ⟨r.2.2, u.2.2, p.2.2, o.gamma⟩)

/-- `unsteady_state.copysymmetric` (`unsteady1D.py:38-39`): `-self.u` creates an array, `rho` and `p` are passed as they are. -/
def copysymmetric (h : Heap) (o : Obj) : Heap × Obj :=
  let u := alloc h ((content h o.u).map fun x => -x)
  (u.1, ⟨o.rho, u.2, o.p, o.gamma⟩)

end Aerokit.StateHeap
