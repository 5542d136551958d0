import Verif.Model.NumSpectral

/-!
# Model of the arrays handed out by `ChebCollocation` (`aerokit/common/numspectral.py`, `aerokit/common/_dev.py`)

`NumSpectral.Cheb` is a value.  Here the attributes `_cache_xi`, `_cache_x` (created by `lazyprop`) and `_matder` of the objects are references to
numpy arrays in a memory shared with the callers, so that the effect of writing into a returned array is visible.
-/

namespace Aerokit.ChebHeap

/-- a numpy array: multi-index to value -/
abbrev Arr := List ℕ → ℝ

/-- a `ChebCollocation` object (`numspectral.py:13-18`); `none`: the attribute does not exist yet (`hasattr` is false) -/
structure Obj where
  n : ℕ
  xmin : ℝ
  xmax : ℝ
  maxD : ℕ
  cache_xi : Option ℕ
  cache_x : Option ℕ
  mat : Option ℕ

/-- the memory and the objects -/
structure World where
  heap : List Arr
  objs : List Obj

/-- content of the array of address `a` -/
def World.at (w : World) (a : ℕ) : Arr := w.heap.getD a fun _ => 0

/-- the object as a value, nothing cached (used to evaluate the bodies of the methods) -/
noncomputable def Obj.plain (o : Obj) : NumSpectral.Cheb o.n :=
  { NumSpectral.mk o.n (some o.xmin) (some o.xmax) with maxDorder := o.maxD }

/-- a new array of one dimension -/
def vecArr {n : ℕ} (v : Fin n → ℝ) : Arr
  | [i] => if h : i < n then v ⟨i, h⟩ else 0
  | _ => 0

/-- a new array of three dimensions, `A[:, :, l]` is the `l`-th matrix -/
def matArr {n : ℕ} (l : List (Matrix (Fin n) (Fin n) ℝ)) : Arr
  | [i, j, e] => match l[e]? with
    | some D => if h : i < n ∧ j < n then D ⟨i, h.1⟩ ⟨j, h.2⟩ else 0
    | none => 0
  | _ => 0

/-- `ChebCollocation(n, xmin, xmax)` (`numspectral.py:13-18`) -/
def new (w : World) (n : ℕ) (xmin xmax : ℝ) : World :=
  { w with objs := w.objs ++ [⟨n, xmin, xmax, 0, none, none, none⟩] }

/-- property `xi` of the `k`-th object (`numspectral.py:24-27`, `_dev.py:8-12`): the array cached at the first access is returned itself. -/
noncomputable def xi (w : World) (k : ℕ) : Py (World × ℕ) :=
  match w.objs[k]? with
  | none => .error .nameError
  | some o =>
    match o.cache_xi with
    | some a => .ok (w, a)
    | none => do
      let v ← NumSpectral.xiBody o.plain
      return (⟨w.heap ++ [vecArr v], w.objs.set k { o with cache_xi := some w.heap.length }⟩, w.heap.length)

/-- property `x` of the `k`-th object (`numspectral.py:29-31,36-38`): element-wise image of the array cached for `xi`. -/
noncomputable def x (w : World) (k : ℕ) : Py (World × ℕ) :=
  match w.objs[k]? with
  | none => .error .nameError
  | some o =>
    match o.cache_x with
    | some a => .ok (w, a)
    | none => do
      let (w, b) ← xi w k
      match w.objs[k]? with
      | none => .error .nameError
      | some o =>
        return (⟨w.heap ++ [vecArr fun i : Fin o.n => NumSpectral.xi_to_x o.plain (w.at b [i])],
          w.objs.set k { o with cache_x := some w.heap.length }⟩, w.heap.length)

/-- `compute_matder(maxorder)` of the `k`-th object (`numspectral.py:76-117`): a new array of three dimensions. -/
noncomputable def compute_matder (w : World) (k : ℕ) (maxorder : ℕ) : Py World :=
  match w.objs[k]? with
  | none => .error .nameError
  | some o => do
    let c ← NumSpectral.compute_matder o.plain maxorder
    return ⟨w.heap ++ [matArr c.matderAttr], w.objs.set k { o with mat := some w.heap.length, maxD := maxorder }⟩

/-- `matder(order)` of the `k`-th object (`numspectral.py:70-74`): the address of the three-dimensional array; the caller receives the view
`[:, :, order - 1]` of it (not a copy). -/
noncomputable def matder (w : World) (k : ℕ) (order : ℕ) : Py (World × ℕ) :=
  match w.objs[k]? with
  | none => .error .nameError
  | some o =>
    if order ≥ 1 then do
      let w ← if order > o.maxD then compute_matder w k order else pure w
      match w.objs[k]? with
      | none => .error .nameError
      | some o =>
        match o.mat with
        | some a => .ok (w, a)
        | none => .error .attributeError
    else .error .assertionError

/-- item assignment by a caller into an array it holds: `arr[idx] = v` -/
def write (w : World) (a : ℕ) (idx : List ℕ) (v : ℝ) : World :=
  { w with heap := w.heap.modify a fun f => Function.update f idx v }

end Aerokit.ChebHeap
