import Verif.Model.ShockWave

/-!
# Model of `aerokit/aero/model1D.py`

Scalar states: an object of class `state` whose attributes are floats.  The in-place methods
`compute_from_*` (which call `self.__init__` again) are modelled as functions from the old object
to the new content of the object.  The default value of `gamma` in `__init__` is evaluated when
the class is defined, i.e. it is `DefaultGas.gamma0`.
-/

namespace Aerokit.Model1D
open Isentropic ShockWave

/-- attributes of class `state` (`model1D.py:16-31`) -/
structure State where
  rho : ℝ
  u : ℝ
  p : ℝ
  gamma : ℝ

/-- `state.__init__` without the `gamma` argument (`model1D.py:27-31`). -/
noncomputable def State.initDefault (rho u p : ℝ) : State := ⟨rho, u, p, DefaultGas.gamma0⟩

namespace State

/-- `copy` (`model1D.py:40-41`). -/
def copy (s : State) : State := ⟨s.rho, s.u, s.p, s.gamma⟩

/-- `asound` (`model1D.py:85-87`). -/
noncomputable def asound (s : State) : Py ℝ := do
  let x ← Py.div (s.gamma * s.p) s.rho
  Py.sqrt x

/-- `left_acoustic` (`model1D.py:89-91`). -/
noncomputable def left_acoustic (s : State) : Py ℝ := do
  let x ← Py.div (s.gamma * s.p) s.rho
  let a ← Py.sqrt x
  return s.u - a

/-- `right_acoustic` (`model1D.py:93-95`). -/
noncomputable def right_acoustic (s : State) : Py ℝ := do
  let x ← Py.div (s.gamma * s.p) s.rho
  let a ← Py.sqrt x
  return s.u + a

/-- `Mach` (`model1D.py:97-99`). -/
noncomputable def Mach (s : State) : Py ℝ := do
  let a ← s.asound
  Py.div s.u a

/-- `massflow` (`model1D.py:101-103`). -/
def massflow (s : State) : ℝ := s.rho * s.u

/-- `Ptot` (`model1D.py:105-107`). -/
noncomputable def Ptot (s : State) : Py ℝ := do
  let m ← s.Mach
  let r ← PtPs_Mach m s.gamma
  return s.p * r

/-- `rTtot` (`model1D.py:109-111`). -/
noncomputable def rTtot (s : State) : Py ℝ := do
  let q ← Py.div s.p s.rho
  let k ← Py.div (0.5 * (s.gamma - 1.0)) s.gamma
  return q + k * s.u ^ 2

/-- `state_RH` (`model1D.py:43-49`). -/
noncomputable def state_RH (s : State) : Py State := do
  let M ← s.Mach
  let R ← Rho_ratio M s.gamma
  let u ← Py.div s.u R
  let pr ← Ps_ratio M s.gamma
  return ⟨s.rho * R, u, s.p * pr, s.gamma⟩

/-- `state_isentropic_Mach` (`model1D.py:51-55`).  NOTE: the code divides `rTtot` (not `Ptot`) by
the pressure ratio and builds the result without `gamma`. -/
noncomputable def state_isentropic_Mach (s : State) (Mach : ℝ) : Py State := do
  let t1 ← s.rTtot
  let r1 ← PtPs_Mach Mach s.gamma
  let ps ← Py.div t1 r1
  let t2 ← s.rTtot
  let r2 ← TtTs_Mach Mach s.gamma
  let rts ← Py.div t2 r2
  let rho ← Py.div ps rts
  let a ← Py.sqrt (s.gamma * rts)
  return initDefault rho (Mach * a) ps

/-- `compute_from_pt_rtt_M` (`model1D.py:57-60`).  NOTE: `self.__init__` is called without `gamma`. -/
noncomputable def compute_from_pt_rtt_M (s : State) (pt rtt M : ℝ) : Py State := do
  let r1 ← PtPs_Mach M s.gamma
  let ps ← Py.div pt r1
  let r2 ← TtTs_Mach M s.gamma
  let rts ← Py.div rtt r2
  let rho ← Py.div ps rts
  let a ← Py.sqrt (s.gamma * rts)
  return initDefault rho (M * a) ps

/-- `compute_from_pt_rtt_u` (`model1D.py:62-67`).  NOTE: `self.__init__` is called without `gamma`. -/
noncomputable def compute_from_pt_rtt_u (s : State) (pt rtt u : ℝ) : Py State := do
  let gam := s.gamma
  let gsgmu ← Py.div gam (gam - 1.0)
  let a2 := gam * rtt - 0.5 * (gam - 1.0) * u ^ 2
  let q ← Py.div (0.5 * u ^ 2) (gsgmu * rtt - 0.5 * u ^ 2)
  let w ← Py.pow (1.0 + q) gsgmu
  let ps ← Py.div pt w
  let rho ← Py.div (gam * ps) a2
  return initDefault rho u ps

/-- `compute_from_pt_rtt_p` (`model1D.py:69-79`).  NOTE: `self.__init__` is called without `gamma`. -/
noncomputable def compute_from_pt_rtt_p (s : State) (pt rtt p : ℝ) : Py State := do
  let r ← Py.div pt p
  let M ← Mach_PtPs r s.gamma
  let t ← TtTs_Mach M s.gamma
  let rts ← Py.div rtt t
  let rho ← Py.div p rts
  let a ← Py.sqrt (s.gamma * rts)
  return initDefault rho (M * a) p

end State

/-- a `state` object whose `rho`, `u`, `p` are numpy arrays of length `n` (`model1D.py:27-31`);
`gamma` is a float as in the scalar case -/
structure StateV (n : ℕ) where
  rho : Fin n → ℝ
  u : Fin n → ℝ
  p : Fin n → ℝ
  gamma : ℝ

/-- `size` (`model1D.py:36-38`) for array attributes -/
def StateV.size {n : ℕ} (_ : StateV n) : ℕ := n

/-- numpy indexing of a 1D array by an integer: negative indices count from the end,
out of bounds raises IndexError -/
def npIndex {n : ℕ} (a : Fin n → ℝ) (i : ℤ) : Py ℝ :=
  let j := if i < 0 then i + n else i
  if h : 0 ≤ j ∧ j < n then .ok (a ⟨j.toNat, by omega⟩) else .error .indexError

/-- `__getitem__` (`model1D.py:81-83`) with an integer index.  NOTE: `gamma` is not forwarded. -/
noncomputable def StateV.getitem {n : ℕ} (s : StateV n) (i : ℤ) : Py State := do
  let r ← npIndex s.rho i
  let u ← npIndex s.u i
  let p ← npIndex s.p i
  return State.initDefault r u p

/-- `__getitem__` of a scalar state (`model1D.py:82`): the assertion fails. -/
def State.getitem (_ : State) (_ : ℤ) : Py State := .error .assertionError

end Aerokit.Model1D
