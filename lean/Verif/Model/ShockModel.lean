import Verif.Model.Euler1D
import Verif.Model.Isentropic

/-!
# Model of `examples/stability/shock.py`

The class `ShockModel`, derived from `Euler1D`: a shock standing in front of a wall.  The module-level
`gam = 1.4` is a constant; `set_gamma(gam)` leaves the default gas as it is (`DefaultGas.gamma0`), so that
the functions called without `gamma` use this value.  Printing, plots and the eigenvalue computations of the
main part (`shock.py:61-130`) are not modelled; the linearised relations checked at the top (`:14-24`) are
statements about `ShockWave`.
-/

namespace Aerokit.ShockModel
open LinOperator NumSpectral Model1D Euler1D

variable {n : ℕ}

/-- `gam = 1.4` (`shock.py:9`). -/
noncomputable def gam : ℝ := 1.4

/-- `rttot = 8.35e4` (`shock.py:34`). -/
noncomputable def rttot : ℝ := 8.35e4

/-- `ptot = 1.8e5` (`shock.py:35`). -/
noncomputable def ptot : ℝ := 1.8e5

open Classical in
/-- an element-wise computation on arrays: the array of the results, or a failure of one of them -/
noncomputable def each {α : Type} (f : Fin n → Py α) : Py (Fin n → α) :=
  if h : ∀ i, ∃ a, f i = .ok a then .ok fun i => (h i).choose else .error .nonFinite

/-- the downstream Mach number of the constructor (`shock.py:30-32`) -/
noncomputable def machOf (M1 M0 : Option ℝ) : Py ℝ :=
  match M1 with
  | some m => .ok m
  | none =>
    match M0 with
    | none => .error .assertionError
    | some m => ShockWave.downstream_Mn m DefaultGas.gamma0

/-- the velocity array (`shock.py:36`) -/
noncomputable def velocity (M1 : ℝ) (X : Fin n → ℝ) : Py (Fin n → ℝ) := do
  let v ← Isentropic.Velocity_MachTt M1 rttot 1.0 DefaultGas.gamma0
  let xl ← npIndex X (-1)
  let xf ← npIndex X 0
  each fun i => Py.div (v * (X i - xl)) (xf - xl)

/-- the base state `Q` (`shock.py:38-39`): `compute_from_pt_rtt_u` element by element (it resets `_gamma`) -/
noncomputable def baseOf (u : Fin n → ℝ) : Py (StateV n) := do
  let q ← each fun i => State.compute_from_pt_rtt_u ⟨1, 0, 1, gam⟩ ptot rttot (u i)
  return ⟨fun i => (q i).rho, u, fun i => (q i).p, DefaultGas.gamma0⟩

/-- the body of `__init__` after `super().__init__` (`shock.py:30-44`) -/
noncomputable def body (M1 M0 dM0dx : Option ℝ) : Meth (Obj n) Unit := do
  let m ← Meth.lift (machOf M1 M0)
  let X ← Euler1D.x
  let u ← Meth.lift (velocity m X)
  let Q ← Meth.lift (baseOf u)
  Euler1D.set_basestate (some Q)
  let l ← onHeap fun h => (.ok (h.alloc ⟨some "RH", [("dM0dx", dM0dx)]⟩).1, (h.alloc ⟨some "RH", [("dM0dx", dM0dx)]⟩).2)
  let r ← onHeap fun h => (.ok (h.alloc ⟨some "sym", []⟩).1, (h.alloc ⟨some "sym", []⟩).2)
  Euler1D.set_BC (.dict l) (.dict r)

/-- `ShockModel(n, length, M1, M0, dM0dx)` (`shock.py:28-44`): the object, or the exception; `h` is the memory
of dictionaries before the call. -/
noncomputable def new (n : ℕ) (length : ℝ) (M1 M0 dM0dx : Option ℝ) (h : Heap) : Py (Obj n) :=
  match body M1 M0 dM0dx (Euler1D.init n (some 0.0) (some length) none h) with
  | (.ok _, s) => .ok s
  | (.error e, _) => .error e

end Aerokit.ShockModel
