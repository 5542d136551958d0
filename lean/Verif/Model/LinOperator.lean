import Verif.Model.NumSpectral
import Mathlib.Analysis.Complex.Basic
import Mathlib.Data.Real.Sqrt

/-!
# Model of `aerokit/stability/_base.py` (class `LinOperator`)

Methods that raise keep the assignments made before the exception, so methods are functions
`σ → Py α × σ` (`Meth`): the outcome, and the object afterwards in both cases.
Boundary condition dictionaries are mutable objects shared with the caller, so they live on a heap.
-/

namespace Aerokit.LinOperator

/-- a Python method acting on objects of type `σ` -/
def Meth (σ α : Type) := σ → Py α × σ

namespace Meth
variable {σ α β : Type}

instance : Monad (Meth σ) where
  pure a := fun s => (.ok a, s)
  bind m f := fun s => match m s with
    | (.ok a, s') => f a s'
    | (.error e, s') => (.error e, s')

/-- evaluate an expression that does not touch the object -/
def lift (x : Py α) : Meth σ α := fun s => (x, s)
/-- `raise` -/
def throw (e : PyErr) : Meth σ α := fun s => (.error e, s)
/-- read an attribute -/
def get (f : σ → α) : Meth σ α := fun s => (.ok (f s), s)
/-- assign attributes -/
def modify (f : σ → σ) : Meth σ Unit := fun s => (.ok (), f s)
/-- `if not c: raise e` -/
def require (c : Prop) [Decidable c] (e : PyErr) : Meth σ Unit := if c then pure () else throw e
/-- `if c: m()` -/
def when (c : Prop) [Decidable c] (m : Meth σ Unit) : Meth σ Unit := if c then m else pure ()

end Meth

/-- 2D square numpy array: its number of rows (= columns) and its entries; entries outside the array are never read -/
structure Mat (R : Type) where
  size : ℕ
  e : ℕ → ℕ → R

namespace Mat
variable {R : Type}

/-- matrix–vector product `self @ v` -/
def mulVec [NonUnitalNonAssocSemiring R] (m : Mat R) (v : ℕ → R) (i : ℕ) : R := ∑ j ∈ Finset.range m.size, m.e i j * v j

/-- `m[i, :] = 0.0` -/
def zeroRow [Zero R] (m : Mat R) (i : ℕ) : Py (Mat R) :=
  if i < m.size then .ok ⟨m.size, fun a b => if a = i then 0 else m.e a b⟩ else .error .indexError

/-- `m[i, j] = v` -/
def set (m : Mat R) (i j : ℕ) (v : R) : Py (Mat R) :=
  if i < m.size ∧ j < m.size then .ok ⟨m.size, fun a b => if a = i ∧ b = j then v else m.e a b⟩ else .error .indexError

/-- `m[i, lo:hi] = v` for a 1D array `v` of length `hi - lo` (slices within the array) -/
def setRow (m : Mat R) (i lo hi : ℕ) (v : ℕ → R) : Py (Mat R) :=
  if i < m.size then
    .ok ⟨m.size, fun a b => if a = i ∧ lo ≤ b ∧ b < hi then v (b - lo) else m.e a b⟩
  else .error .indexError

/-- the same array as a Mathlib matrix -/
def toMatrix (m : Mat R) : Matrix (Fin m.size) (Fin m.size) R := Matrix.of fun i j => m.e i j

/-- a real array used in complex arithmetic -/
noncomputable def toComplex (m : Mat ℝ) : Mat ℂ := ⟨m.size, fun i j => (m.e i j : ℂ)⟩

end Mat

/-- `a[i]` for an array given with its length, as a total function (reads outside are never performed) -/
def ix {R : Type} [Zero R] {n : ℕ} (v : Fin n → R) (i : ℕ) : R := if h : i < n then v ⟨i, h⟩ else 0

/-- content of a boundary condition dictionary: the `'type'` key (`none` if absent) and the other items
(`none` is Python's `None`).  Values of `'type'` other than strings are not modelled. -/
structure BCDict where
  type : Option String
  kwargs : List (String × Option ℝ)

/-- dictionaries in memory; addresses below `next` are allocated -/
structure Heap where
  next : ℕ
  at' : ℕ → BCDict

/-- `d[r] := …` -/
def Heap.set (h : Heap) (r : ℕ) (d : BCDict) : Heap := ⟨h.next, fun k => if k = r then d else h.at' k⟩

/-- `{...}` : a new dictionary object -/
def Heap.alloc (h : Heap) (d : BCDict) : ℕ × Heap := (h.next, ⟨h.next + 1, fun k => if k = h.next then d else h.at' k⟩)

/-- an argument of `set_BC`: a string, a dictionary object, or something else (`None`, a number) -/
inductive BCArg
  | str (s : String)
  | dict (r : ℕ)
  | other

/-- `_check_BC` (`_base.py:32-37`); `names` is `self._BC_dict.keys()`. -/
def check_BC (names : List String) (bc : BCArg) : Meth Heap ℕ := fun h =>
  match bc with
  | .str s =>
    let (r, h) := h.alloc ⟨some s, []⟩
    if s ∈ names then (.ok r, h) else (.error .valueError, h)
  | .dict r =>
    match (h.at' r).type with
    | none => (.error .keyError, h)
    | some s => if s ∈ names then (.ok r, h) else (.error .valueError, h)
  | .other => (.error .typeError, h)

/-- right hand side of `set_BC` (`_base.py:39-40`): both arguments are checked before the assignment. -/
def check_BCs (names : List String) (L R : BCArg) : Meth Heap (ℕ × ℕ) := do
  let l ← check_BC names L
  let r ← check_BC names R
  pure (l, r)

/-- `self._BC_type[k]["type"]` -/
def getType (h : Heap) (r : ℕ) : Py String :=
  match (h.at' r).type with
  | some s => .ok s
  | none => .error .keyError

/-- `bcdict.pop('type')` -/
def popType (r : ℕ) : Meth Heap String := fun h =>
  match (h.at' r).type with
  | some s => (.ok s, h.set r ⟨none, (h.at' r).kwargs⟩)
  | none => (.error .keyError, h)

/-- `get_RHS_time_matrices` (`_base.py:51-54`), for a class whose objects have type `σ`, attributes `_B` and `_At`
read by `B`, `At` (`none`: `_B is None`, resp. no attribute `_At`) and method `compute_operators` -/
def get_RHS_time_matrices {σ R : Type} (B At : σ → Option (Mat R)) (compute_operators : Meth σ Unit) :
    Meth σ (Mat R × Mat R) := do
  let b ← Meth.get B
  Meth.when (b.isNone = true) compute_operators
  let b ← Meth.get B
  let a ← Meth.get At
  match b, a with
  | some b, some a => pure (b, a)
  | none, _ => Meth.throw .typeError -- `None` returned: unusable by the callers
  | _, none => Meth.throw .attributeError

/-- `LinOperator.compute_operators` (`_base.py:45-46`) -/
def compute_operators {σ : Type} : Meth σ Unit := Meth.throw .notImplementedError

/-- `_harmonic_time_coef` (`_base.py:10`) -/
noncomputable def harmonic_time_coef : ℂ := -1 * Complex.I

/-- `scipy.linalg.eig(A, M)`: list of eigenvalues and list of the columns of the eigenvector matrix -/
abbrev Eig := Mat ℂ → Mat ℂ → Py (List ℂ × List (ℕ → ℂ))

/-- arguments and result of `solve_eig` (`_base.py:56-59`) from the pair returned by `get_RHS_time_matrices` -/
noncomputable def solve_eig (eig : Eig) (B Id : Mat ℂ) : Py (List ℂ × List (ℕ → ℂ)) :=
  eig B ⟨Id.size, fun i j => harmonic_time_coef * Id.e i j⟩

/-- `np.compress(condition, l)` -/
def compress {α : Type} (c : List Bool) (l : List α) : List α := ((c.zip l).filter (fun p => p.1)).map Prod.snd

open Classical in
/-- the selection condition (`_base.py:64`) for one eigenvalue -/
noncomputable def selected (realmin realmax imagmin imagmax : ℝ) (vp : ℂ) : Bool :=
  decide (vp.re < realmax) && decide (vp.re ≥ realmin) && decide (vp.im > imagmin) && decide (vp.im < imagmax)

/-- `np.argsort` of a 1D array -/
abbrev Argsort := List ℝ → List ℕ

/-- `select_and_sort` (`_base.py:61-75`); `none` is "attributes `_vals`, `_vects` not set" (no `solve_eig` yet). -/
noncomputable def select_and_sort (argsort : Argsort) (attrs : Option (List ℂ × List (ℕ → ℂ)))
    (realmin realmax imagmin imagmax : ℝ) (sort : String) : Py (List ℂ × List (ℕ → ℂ) × List ℕ) :=
  match attrs with
  | none => .error .attributeError
  | some (vp, V) => do
    let condition := vp.map (selected realmin realmax imagmin imagmax)
    let vals := compress condition vp
    let vects := compress condition V
    let key : ℂ → ℝ ← match sort with
      | "real" => pure fun z => z.re
      | "imag" => pure fun z => -z.im
      | _ => .error .keyError
    let order := argsort (vals.map key)
    return (vals, vects, order)

/-- `nplin.norm` of a complex vector -/
noncomputable def norm {N : ℕ} (v : Fin N → ℂ) : ℝ := Real.sqrt (∑ i, Complex.normSq (v i))

/-- `np.vdot(a, b)` -/
noncomputable def vdot {N : ℕ} (a b : Fin N → ℂ) : ℂ := ∑ i, (starRingEnd ℂ) (a i) * b i

/-- element-wise `v / c` for a real scalar -/
noncomputable def vdivR {N : ℕ} (v : Fin N → ℂ) (c : ℝ) : Py (Fin N → ℂ) :=
  if c = 0 then .error .nonFinite else .ok fun i => v i / c

/-- complex division -/
noncomputable def cdiv (a b : ℂ) : Py ℂ := if b = 0 then .error .nonFinite else .ok (a / b)

/-- type of `nplin.solve` on complex square systems -/
abbrev SolverC := ∀ N : ℕ, Matrix (Fin N) (Fin N) ℂ → (Fin N → ℂ) → Py (Fin N → ℂ)

/-- body of the `try` (`_base.py:94-96`) -/
noncomputable def rayleigh_step (solve : SolverC) {N : ℕ} (B M : Matrix (Fin N) (Fin N) ℂ)
    (new_omega : ℂ) (new_eigm : Fin N → ℂ) : Py (ℂ × (Fin N → ℂ)) := do
  let w ← solve N (B - new_omega • M) new_eigm
  let new_eigm ← vdivR w (norm w)
  let new_omega ← cdiv (vdot new_eigm (B.mulVec new_eigm)) (vdot new_eigm (M.mulVec new_eigm))
  return (new_omega, new_eigm)

/-- the `for` loop (`_base.py:90-102`).  A singular matrix (`LinAlgError`) leaves the pair unchanged and the loop
goes on: the statement `exit` is an expression without effect. -/
noncomputable def rayleigh_loop (solve : SolverC) {N : ℕ} (B M : Matrix (Fin N) (Fin N) ℂ) :
    ℕ → ℂ → (Fin N → ℂ) → Py (ℂ × (Fin N → ℂ))
  | 0, om, v => .ok (om, v)
  | k + 1, om, v =>
    match rayleigh_step solve B M om v with
    | .ok (om, v) => rayleigh_loop solve B M k om v
    | .error .linAlgError => rayleigh_loop solve B M k om v
    | .error e => .error e

/-- `converge_eigenpair` (`_base.py:77-103`), given the matrices returned by `get_RHS_time_matrices` -/
noncomputable def converge_eigenpair (solve : SolverC) {N : ℕ} (B Id : Matrix (Fin N) (Fin N) ℂ)
    (omega : ℂ) (eigenmode : Fin N → ℂ) (niter : ℕ) : Py (ℂ × (Fin N → ℂ)) := do
  let M := harmonic_time_coef • Id
  let new_eigm ← vdivR eigenmode (norm eigenmode)
  rayleigh_loop solve B M niter omega new_eigm

end Aerokit.LinOperator
