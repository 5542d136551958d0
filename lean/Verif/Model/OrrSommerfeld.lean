import Verif.Model.LinOperator

/-!
# Model of `aerokit/stability/OrrSommerfeld.py` (classes `OrrSommerfeldModel` and `Poiseuille`)

The base state dictionary is stored by value (later changes of the caller's dictionary are not
modelled); `uprofile` is an element-wise real function; `alpha` may be complex.
-/

namespace Aerokit.OrrSommerfeld
open LinOperator NumSpectral

/-- a base state dictionary: the three known keys, and the other keys -/
structure Base where
  alpha : Option ℂ
  Reynolds : Option ℝ
  uprofile : Option (ℝ → ℝ)
  others : List String

/-- `state.keys()` -/
def Base.keys (b : Base) : List String :=
  (if b.alpha.isSome then ["alpha"] else []) ++ (if b.Reynolds.isSome then ["Reynolds"] else []) ++
    (if b.uprofile.isSome then ["uprofile"] else []) ++ b.others.filter (fun k => k ∉ ["alpha", "Reynolds", "uprofile"])

/-- attributes of an `OrrSommerfeldModel` object and the memory of dictionaries -/
structure Obj (n : ℕ) where
  diffop : Cheb n
  basestate : Option Base
  B : Option (Mat ℂ)
  At : Option (Mat ℂ)
  BC_type : Option (ℕ × ℕ)
  heap : Heap

variable {n : ℕ}

/-- `req_keys` (`OrrSommerfeld.py:42`) -/
def req_keys : List String := ["alpha", "Reynolds", "uprofile"]

/-- keys of `_BC_dict` (`OrrSommerfeld.py:54`) -/
def BC_names : List String := ["wall"]

/-- `set_basestate` (`OrrSommerfeld.py:58-70`) -/
def set_basestate (state : Base) : Meth (Obj n) Unit := do
  let mis_keys := req_keys.filter (fun k => k ∉ state.keys)
  if mis_keys = req_keys then Meth.throw .dictKeyError
  else if mis_keys ≠ [] then Meth.throw .dictKeyError
  else Meth.modify fun s => { s with basestate := some state }

/-- `__init__` (`OrrSommerfeld.py:44-56`): an exception leaves no object -/
noncomputable def init (n : ℕ) (xmin xmax : Option ℝ) (basestate : Option Base) (h : Heap) : Py (Obj n) :=
  let s : Obj n := ⟨NumSpectral.mk n xmin xmax, none, none, none, none, h⟩
  match basestate with
  | none => .ok s
  | some q => match set_basestate q s with
    | (.ok _, s) => .ok s
    | (.error e, _) => .error e

/-- `set_BC` (`_base.py:39-40`) -/
def set_BC (L R : BCArg) : Meth (Obj n) Unit := fun s =>
  match check_BCs BC_names L R s.heap with
  | (.ok lr, h) => (.ok (), { s with heap := h, BC_type := some lr })
  | (.error e, h) => (.error e, { s with heap := h })

/-- `self._diffop.matder(order)` -/
noncomputable def matder (order : ℕ) : Meth (Obj n) (Matrix (Fin n) (Fin n) ℝ) := fun s =>
  match NumSpectral.matder s.diffop order with
  | .ok (d, D) => (.ok D, { s with diffop := d })
  | .error e => (.error e, s)

/-- `self.x` -/
noncomputable def x : Meth (Obj n) (Fin n → ℝ) := fun s =>
  match NumSpectral.x s.diffop with
  | .ok (d, X) => (.ok X, { s with diffop := d })
  | .error e => (.error e, s)

/-- entries of a collocation matrix, as complex numbers -/
def ent (D : Matrix (Fin n) (Fin n) ℝ) (i j : ℕ) : ℂ := ((ix (fun a => ix (fun b => D a b) j) i : ℝ) : ℂ)

/-- in-place operation on `self._At` and `self._B` -/
def onBoth (f : Mat ℂ → Py (Mat ℂ)) (g : Mat ℂ → Py (Mat ℂ)) : Meth (Obj n) Unit := fun s =>
  match s.At, s.B with
  | some a, some b => match f a with
    | .error e => (.error e, s)
    | .ok a' => match g b with
      | .error e => (.error e, { s with At := some a' })
      | .ok b' => (.ok (), { s with At := some a', B := some b' })
  | _, _ => (.error .attributeError, s)

/-- `setBC_wall` (`OrrSommerfeld.py:101-111`) -/
noncomputable def setBC_wall (istate : ℕ) (irow : Option ℕ) : Meth (Obj n) Unit := do
  let i0 := irow.getD istate
  let D ← matder 1
  onBoth (·.zeroRow i0) (·.zeroRow i0)
  onBoth (·.zeroRow (i0 + 1)) (·.zeroRow (i0 + 1))
  onBoth pure (·.set i0 istate 1.0)
  onBoth pure (·.setRow (i0 + 1) 0 n fun j => ent D istate j)

/-- `self._BC_dict[self._BC_type[k]["type"]](istate, irow)` -/
noncomputable def applyBC (r istate irow : ℕ) : Meth (Obj n) Unit := do
  let h ← Meth.get (·.heap)
  let t ← Meth.lift (getType h r)
  if t = "wall" then setBC_wall istate (some irow) else Meth.throw .keyError

/-- `compute_BC` (`OrrSommerfeld.py:94-99`); `self._BC_type` is `None` until `set_BC` -/
noncomputable def compute_BC : Meth (Obj n) Unit := do
  let bc ← Meth.get (·.BC_type)
  match bc with
  | none => Meth.throw .typeError
  | some (l, r) => do
    applyBC l 0 0
    applyBC r (n - 1) (n - 2)

/-- `self._At` (`OrrSommerfeld.py:87`) -/
noncomputable def At0 (alpha : ℂ) (D2 : Matrix (Fin n) (Fin n) ℝ) (i j : ℕ) : ℂ :=
  ent D2 i j - alpha ^ 2 * (if i = j then 1 else 0)

/-- `self._B` (`OrrSommerfeld.py:85, 90-91`) before the boundary rows -/
noncomputable def B0 (alpha : ℂ) (Rey : ℝ) (D2 D4 : Matrix (Fin n) (Fin n) ℝ) (u : Fin n → ℝ) (i j : ℕ) : ℂ :=
  let ddu := D2.mulVec u
  (-1 * Complex.I * alpha * ((ix u i : ℝ) : ℂ)) * At0 alpha D2 i j + (if i = j then 1 * Complex.I * alpha * ((ix ddu i : ℝ) : ℂ) else 0)
    + (ent D4 i j - (2 * alpha ^ 2) * ent D2 i j + alpha ^ 4 * (if i = j then 1 else 0)) / (Rey : ℂ)

open Classical in
/-- `compute_operators` (`OrrSommerfeld.py:72-92`) -/
noncomputable def compute_operators : Meth (Obj n) Unit := do
  let b ← Meth.get (·.basestate)
  match b with
  | none => Meth.throw .assertionError
  | some b =>
    let alpha ← Meth.lift (match b.alpha with | some a => .ok a | none => .error .keyError)
    let Rey ← Meth.lift (match b.Reynolds with | some a => .ok a | none => .error .keyError)
    let D4 ← matder 4
    let D2 ← matder 2
    let up ← Meth.lift (match b.uprofile with | some a => .ok a | none => .error .keyError)
    let X ← x
    let u := fun i => up (X i)
    Meth.modify fun s => { s with At := some ⟨n, At0 alpha D2⟩ }
    Meth.require (Rey ≠ 0) .nonFinite
    Meth.modify fun s => { s with B := some ⟨n, B0 alpha Rey D2 D4 u⟩ }
    compute_BC

/-- `get_RHS_time_matrices` of an `OrrSommerfeldModel` object (`_base.py:51-54`) -/
noncomputable def get_RHS_time_matrices : Meth (Obj n) (Mat ℂ × Mat ℂ) :=
  LinOperator.get_RHS_time_matrices (·.B) (·.At) compute_operators

/-- `Poiseuille.__init__` (`OrrSommerfeld.py:114-118`) -/
noncomputable def Poiseuille (n : ℕ) (alpha : ℂ) (Reynolds : ℝ) (h : Heap) : Py (Obj n) := do
  let s ← init n (some (-1.0)) (some 1.0) none h
  match set_basestate ⟨some alpha, some Reynolds, some fun x => 1 - x ^ 2, []⟩ s with
  | (.error e, _) => .error e
  | (.ok _, s) =>
    let (l, h) := s.heap.alloc ⟨some "wall", []⟩
    let (r, h) := h.alloc ⟨some "wall", []⟩
    match set_BC (.dict l) (.dict r) { s with heap := h } with
    | (.error e, _) => .error e
    | (.ok _, s) => .ok s

end Aerokit.OrrSommerfeld
