import Verif.Model.LinOperator
import Verif.Model.Model1D

/-!
# Model of `aerokit/stability/Euler.py` (class `Euler1D`)

Base states are `state` objects with arrays of the length of the collocation grid (other lengths
make numpy raise and are not modelled).  Array indices are natural numbers and every indexed
assignment is checked against the current size of the array.
-/

namespace Aerokit.Euler1D
open LinOperator NumSpectral Model1D

/-- attributes of an `Euler1D` object (`_base.py:13-17`, `Euler.py:25-38`) and the memory of dictionaries -/
structure Obj (n : ℕ) where
  diffop : Cheb n
  basestate : Option (StateV n)
  nvar : Option ℕ
  B : Option (Mat ℝ)
  At : Option (Mat ℝ)
  BC_type : Option (ℕ × ℕ)
  heap : Heap

variable {n : ℕ}

/-- keys of `_BC_dict` (`Euler.py:27-31`) -/
def BC_names : List String := ["sym", "per", "RH"]

/-- `set_basestate` (`Euler.py:36-38`, `_base.py:27-29`) -/
def set_basestate (state : Option (StateV n)) : Meth (Obj n) Unit :=
  Meth.modify fun s => { s with basestate := state, nvar := some 3 }

/-- `__init__` (`Euler.py:25-34`, `_base.py:13-17`) -/
noncomputable def init (n : ℕ) (xmin xmax : Option ℝ) (basestate : Option (StateV n)) (h : Heap) : Obj n :=
  let s : Obj n := ⟨NumSpectral.mk n xmin xmax, none, none, none, none, none, h⟩
  match basestate with
  | none => s
  | some q => (set_basestate (some q) s).2

/-- run a method of the dictionary memory -/
def onHeap {α : Type} (m : Meth Heap α) : Meth (Obj n) α := fun s =>
  let r := m s.heap
  (r.1, { s with heap := r.2 })

/-- `set_BC` (`_base.py:39-40`) -/
def set_BC (L R : BCArg) : Meth (Obj n) Unit := do
  let lr ← onHeap (check_BCs BC_names L R)
  Meth.modify fun s => { s with BC_type := some lr }

/-- `self._diffop.matder(order)`, which may fill the cache of the differentiation object -/
noncomputable def matder (order : ℕ) : Meth (Obj n) (Matrix (Fin n) (Fin n) ℝ) := fun s =>
  match NumSpectral.matder s.diffop order with
  | .ok (d, D) => (.ok D, { s with diffop := d })
  | .error e => (.error e, s)

/-- `self.x` (`_base.py:23-25`) -/
noncomputable def x : Meth (Obj n) (Fin n → ℝ) := fun s =>
  match NumSpectral.x s.diffop with
  | .ok (d, X) => (.ok X, { s with diffop := d })
  | .error e => (.error e, s)

/-- entries of a collocation matrix, as a function of natural number indices -/
def ent (D : Matrix (Fin n) (Fin n) ℝ) (i j : ℕ) : ℝ := ix (fun a => ix (fun b => D a b) j) i

/-- `self._Bx` (`Euler.py:54-57`): `np.diag(np.tile(u, 3)) @ np.kron(np.eye(3), D)` and the three block assignments.
(`diag(t) @ A` has entries `t[i] * A[i, j]`; `tile(u, k)[i] = u[i % n]`; `kron(eye, D)[i, j]` is `D[i % n, j % n]` if
`i // n = j // n` and 0 otherwise.) -/
noncomputable def Bx (D : Matrix (Fin n) (Fin n) ℝ) (q : StateV n) (i j : ℕ) : ℝ :=
  let ip := 2 * n
  let b := ix q.u (i % n) * (if i / n = j / n then ent D (i % n) (j % n) else 0)
  let b := if i < n ∧ n ≤ j ∧ j < ip then ix q.rho i * ent D i (j - n) else b
  let b := if n ≤ i ∧ i < ip ∧ ip ≤ j then 1.0 / ix q.rho (i - n) * ent D (i - n) (j - ip) else b
  if ip ≤ i ∧ n ≤ j ∧ j < ip then q.gamma * ix q.p (i - ip) * ent D (i - ip) (j - n) else b

/-- `self._B0` (`Euler.py:59-66`), `dq` being the derivatives `D @ q.rho`, `D @ q.u`, `D @ q.p` -/
noncomputable def B0 (q dq : StateV n) (i j : ℕ) : ℝ :=
  let ip := 2 * n
  let b := 0
  let b := if i < ip ∧ j < ip then (if i = j then ix dq.u (i % n) else 0) else b
  let b := if ip ≤ i ∧ ip ≤ j then (if i - ip = j - ip then q.gamma * ix dq.u (i - ip) else 0) else b
  let b := if i < n ∧ n ≤ j ∧ j < ip then (if i = j - n then ix dq.rho i else 0) else b
  let b := if n ≤ i ∧ i < ip ∧ j < n then
    (if i - n = j then -ix dq.p (i - n) / ix q.rho (i - n) ^ 2 else 0) else b
  if ip ≤ i ∧ n ≤ j ∧ j < ip then (if i - ip = j - n then ix dq.p (i - ip) else 0) else b

/-- `m1d.state(rho=D @ q.rho, u=D @ q.u, p=D @ q.p)` (`Euler.py:59, 143`) -/
noncomputable def deriv (D : Matrix (Fin n) (Fin n) ℝ) (q : StateV n) : StateV n :=
  ⟨D.mulVec q.rho, D.mulVec q.u, D.mulVec q.p, DefaultGas.gamma0⟩

/-- assign `self._At` -/
def setAt (m : Mat ℝ) : Meth (Obj n) Unit := Meth.modify fun s => { s with At := some m }
/-- assign `self._B` -/
def setB (m : Mat ℝ) : Meth (Obj n) Unit := Meth.modify fun s => { s with B := some m }
/-- read `self._At` -/
def getAt : Meth (Obj n) (Mat ℝ) := fun s => (match s.At with | some m => .ok m | none => .error .attributeError, s)
/-- read `self._B` (as an array) -/
def getB : Meth (Obj n) (Mat ℝ) := fun s => (match s.B with | some m => .ok m | none => .error .typeError, s)
/-- in-place operation on `self._At` -/
def onAt (f : Mat ℝ → Py (Mat ℝ)) : Meth (Obj n) Unit := do
  let m ← getAt
  let m ← Meth.lift (f m)
  setAt m
/-- in-place operation on `self._B` -/
def onB (f : Mat ℝ → Py (Mat ℝ)) : Meth (Obj n) Unit := do
  let m ← getB
  let m ← Meth.lift (f m)
  setB m

/-- `self._At[i, :] = 0.0; self._B[i, :] = 0.0` (`Euler.py:94-95, 107-108, 209-210`) -/
def zeroRows (i : ℕ) : Meth (Obj n) Unit := do
  onAt (·.zeroRow i)
  onB (·.zeroRow i)

/-- `setBC_sym` (`Euler.py:85-101`) -/
noncomputable def setBC_sym (istate : ℕ) (irow : Option ℕ) : Meth (Obj n) Unit := do
  let i0 := irow.getD istate
  let irho := 0
  let iu := n
  let ip := 2 * n
  let il := 3 * n
  let D ← matder 1
  zeroRows (i0 + irho)
  zeroRows (i0 + iu)
  zeroRows (i0 + ip)
  onB (·.setRow i0 0 iu fun j => ent D istate j)
  onB (·.set (i0 + iu) (iu + istate) 1.0)
  onB (·.setRow (i0 + ip) ip il fun j => ent D istate j)

/-- body of the second loop of `setBC_per` (`Euler.py:110-113`); the two assignments to the same slice are composed -/
noncomputable def per_rows (D : Matrix (Fin n) (Fin n) ℝ) (i : ℕ) : Meth (Obj n) Unit := do
  onB (·.set (i * n) (i * n) 1.0)
  onB (·.set (i * n) (i * n + n - 1) (-1.0))
  onB (·.setRow (i * n + n - 1) (i * n) ((i + 1) * n) fun j => ent D 0 j - ent D (n - 1) j)

/-- `setBC_per` (`Euler.py:103-113`) -/
noncomputable def setBC_per : Meth (Obj n) Unit := do
  let D ← matder 1
  zeroRows 0
  zeroRows (n - 1)
  zeroRows n
  zeroRows (2 * n - 1)
  zeroRows (2 * n)
  zeroRows (3 * n - 1)
  per_rows D 0
  per_rows D 1
  per_rows D 2

/-- `np.block([[m, np.zeros((3 * n, 1))], [np.zeros((1, 3 * n)), np.zeros((1, 1))]])` (`Euler.py:138-139`) -/
def block (n : ℕ) (m : Mat ℝ) : Py (Mat ℝ) :=
  if m.size = 3 * n then .ok ⟨3 * n + 1, fun i j => if i < 3 * n ∧ j < 3 * n then m.e i j else 0⟩
  else .error .valueError

/-- the coefficient arrays `bck1` and (after the two accumulation loops) `bckSh` -/
structure RHCoef where
  bck1 : ℕ → ℕ → ℝ
  bckSh : ℕ → ℕ → ℝ

/-- the coefficients of the Rankine–Hugoniot boundary equations (`Euler.py:160-200`) from the downstream state `q1` and
its derivatives `dq1`, the upstream state `q0`, the upstream Mach number and its gradient, and the mesh step `dx`.
Array entries not assigned by the code are 0. -/
noncomputable def RHcoefs (q0 q1 dq1 : State) (g M0 rhoratio pratio a0 dM0dx dx : ℝ) : Py RHCoef := do
  let k ← Py.div 4 (g + 1.0)
  let drhoratio ← Py.div (k * rhoratio ^ 2) (M0 ^ 3)
  let b0_00 ← Py.div (-rhoratio) q0.rho
  let b1_00 ← Py.div 1.0 q0.rho
  let sh_00 := -drhoratio * dM0dx
  let sh_01 ← Py.div drhoratio a0
  let b0_10 ← Py.div (-q0.u) q0.rho
  let b0_11 : ℝ := -1.0
  let b1_10 ← Py.div q1.u q0.rho
  let b1_11 := rhoratio
  let sh_11 := 1 - rhoratio
  let kp ← Py.div (4 * g) (g + 1.0)
  let dpratio := kp * M0
  let b0_22 ← Py.div (-pratio) q0.p
  let b1_22 ← Py.div 1.0 q0.p
  let sh_20 := -dpratio * dM0dx
  let sh_21 ← Py.div dpratio a0
  let q0p ← q0.state_isentropic_Mach (M0 + dM0dx * dx)
  let drho0 ← Py.div (q0p.rho - q0.rho) dx
  let du0 ← Py.div (q0p.u - q0.u) dx
  let dp0 ← Py.div (q0p.p - q0.p) dx
  let bck0 : ℕ → ℕ → ℝ := fun i j =>
    if i = 0 ∧ j = 0 then b0_00 else if i = 1 ∧ j = 0 then b0_10 else if i = 1 ∧ j = 1 then b0_11
    else if i = 2 ∧ j = 2 then b0_22 else 0
  let bck1 : ℕ → ℕ → ℝ := fun i j =>
    if i = 0 ∧ j = 0 then b1_00 else if i = 1 ∧ j = 0 then b1_10 else if i = 1 ∧ j = 1 then b1_11
    else if i = 2 ∧ j = 2 then b1_22 else 0
  let bckSh : ℕ → ℕ → ℝ := fun i j =>
    if j = 0 then
      (if i = 0 then sh_00 else if i = 2 then sh_20 else 0)
        + bck0 i 0 * drho0 + bck0 i 1 * du0 + bck0 i 2 * dp0
        + bck1 i 0 * dq1.rho + bck1 i 1 * dq1.u + bck1 i 2 * dq1.p
    else if i = 0 then sh_01 else if i = 1 then sh_11 else sh_21
  return ⟨bck1, bckSh⟩

/-- body of the last loop of `setBC_RH` (`Euler.py:208-217`).  NOTE: the entries of `self._B` are written in row `ieq`,
not `ieq + i0`. -/
noncomputable def RH_row (c : RHCoef) (istate i0 ibc ieq : ℕ) : Meth (Obj n) Unit := do
  let idxs := 3 * n
  zeroRows (ieq + i0)
  onAt (·.set (ieq + i0) idxs (-c.bckSh ibc 1))
  onB (·.set ieq idxs (c.bckSh ibc 0))
  onB (·.set ieq (0 * n + istate) (c.bck1 ibc 0))
  onB (·.set ieq (1 * n + istate) (c.bck1 ibc 1))
  onB (·.set ieq (2 * n + istate) (c.bck1 ibc 2))

/-- `kwargs.pop(k) if k in kwargs else None` (`Euler.py:134`): the value -/
def kwValue (kwargs : List (String × Option ℝ)) (k : String) : Option ℝ :=
  match kwargs.find? (fun kv => kv.1 = k) with
  | some kv => kv.2
  | none => none

/-- `setBC_RH` (`Euler.py:115-217`) -/
noncomputable def setBC_RH (istate : ℕ) (irow : Option ℕ) (kwargs : List (String × Option ℝ)) : Meth (Obj n) Unit := do
  let D ← matder 1
  let rest := kwargs.filter (fun kv => kv.1 ≠ "dM0dx")
  Meth.require (rest.isEmpty = true) .valueError
  onAt (block n)
  onB (block n)
  let q ← Meth.get (·.basestate)
  match q with
  | none => Meth.throw .assertionError
  | some q =>
    let dq := deriv D q
    let q1 ← Meth.lift (q.getitem istate)
    let dq1 ← Meth.lift (dq.getitem istate)
    let g := q1.gamma
    let M1 ← Meth.lift q1.Mach
    let q0 ← Meth.lift q1.state_RH
    let M0 ← Meth.lift (ShockWave.downstream_Mn M1 g)
    let rhoratio ← Meth.lift (ShockWave.Rho_ratio M0 g)
    let pratio ← Meth.lift (ShockWave.Ps_ratio M0 g)
    let a0 ← Meth.lift q0.asound
    match kwValue kwargs "dM0dx" with
    | none => Meth.throw .valueError
    | some dM0dx =>
      let X ← x
      let dx ← Meth.lift (do
        let x1 ← npIndex X 1
        let x0 ← npIndex X 0
        pure (x1 - x0))
      let c ← Meth.lift (RHcoefs q0 q1 dq1 g M0 rhoratio pratio a0 dM0dx dx)
      let i0 := irow.getD istate
      RH_row c istate i0 0 0
      RH_row c istate i0 1 (3 * n)
      RH_row c istate i0 2 (2 * n)

/-- `self._BC_dict[bctype](istate, irow, **bcdict)` (`Euler.py:80, 83`): Python's argument binding.  `setBC_sym` has no
other keyword, `setBC_per` takes no argument, `setBC_RH` takes any keyword except those of its positional parameters. -/
noncomputable def callBC (bctype : String) (istate irow : ℕ) (kwargs : List (String × Option ℝ)) : Meth (Obj n) Unit :=
  match bctype with
  | "sym" => if kwargs.isEmpty then setBC_sym istate (some irow) else Meth.throw .typeError
  | "per" => Meth.throw .typeError
  | "RH" =>
    if kwargs.any (fun kv => kv.1 = "self" || kv.1 = "istate" || kv.1 = "irow") then Meth.throw .typeError
    else setBC_RH istate (some irow) kwargs
  | _ => Meth.throw .keyError

/-- `bctype = bcdict.pop('type'); self._BC_dict[bctype](i, i, **bcdict)` (`Euler.py:78-83`) -/
noncomputable def applyBC (r i : ℕ) : Meth (Obj n) Unit := do
  let bctype ← onHeap (popType r)
  let kw ← Meth.get fun s => (s.heap.at' r).kwargs
  callBC bctype i i kw

/-- `compute_BC` (`Euler.py:70-83`) -/
noncomputable def compute_BC : Meth (Obj n) Unit := do
  let bc ← Meth.get (·.BC_type)
  match bc with
  | none => Meth.throw .valueError
  | some (l, r) => do
    let h ← Meth.get (·.heap)
    let tl ← Meth.lift (getType h l)
    if tl = "per" then do
      let tr ← Meth.lift (getType h r)
      if tr = "per" then setBC_per else Meth.throw .assertionError
    else do
      applyBC l 0
      applyBC r (n - 1)

open Classical in
/-- `compute_operators` (`Euler.py:40-68`) -/
noncomputable def compute_operators : Meth (Obj n) Unit := do
  let D ← matder 1
  let nvar ← Meth.get (·.nvar)
  match nvar with
  | none => Meth.throw .attributeError
  | some nvar =>
    let N := n * nvar
    let q ← Meth.get (·.basestate)
    match q with
    | none => Meth.throw .assertionError
    | some q =>
      setAt ⟨N, fun i j => if i = j then 1 else 0⟩
      -- divisions by `q.rho` (`Euler.py:56, 65`)
      Meth.require (∀ i, q.rho i ≠ 0) .nonFinite
      setB ⟨N, fun i j => -Bx D q i j - B0 q (deriv D q) i j⟩
      compute_BC

/-- `get_RHS_time_matrices` of an `Euler1D` object (`_base.py:51-54`) -/
noncomputable def get_RHS_time_matrices : Meth (Obj n) (Mat ℝ × Mat ℝ) :=
  LinOperator.get_RHS_time_matrices (·.B) (·.At) compute_operators

end Aerokit.Euler1D
