import Verif.Model.Unsteady1D
import Verif.Model.MassFlow

/-!
# Model of `aerokit/instance/riemann.py`

`scipy.optimize.newton` is a parameter (see `Spec/Solver.lean`).  The argument `rtol=1e-10` only
changes the stopping criterion, which the contract of the solver idealises.  `qL`, `qR` are
`unsteady_state` objects with float attributes.  `qsol` is modelled for one element `x/t` of its
array argument (all its array operations are elementwise or masked assignments).
-/

namespace Aerokit.Riemann
open Model1D Unsteady1D
open MassFlow (RootFinder)

/-- contribution of one side to delta u: `_delta_uL` (`riemann.py:148-154`) on `qL`,
`_delta_uR` (`riemann.py:156-162`) on `qR` (the two methods are identical up to the state). -/
noncomputable def delta_u (q : UState) (p : ℝ) : Py ℝ :=
  if p > q.p then UState.delta_u_shock q p else UState.delta_u_expansion q p

/-- the function `du` of `_solve` (`riemann.py:183-184`) -/
noncomputable def du (qL qR : UState) (p : ℝ) : Py ℝ := do
  let dL ← delta_u qL p
  let dR ← delta_u qR p
  return dL + dR + qR.u - qL.u

/-- `_ustar_from_pstar` (`riemann.py:164-165`) -/
noncomputable def ustar_from_pstar (qL qR : UState) (p : ℝ) : Py ℝ := do
  let dR ← delta_u qR p
  let dL ← delta_u qL p
  return 0.5 * (qR.u + qL.u + dR - dL)

/-- `_pstar_estimate_expansion` (`riemann.py:167-180`) -/
noncomputable def pstar_estimate_expansion (qL qR : UState) : Py ℝ := do
  let gam := 0.5 * (qL.gamma + qR.gamma)
  let gmusd := 0.5 * (gam - 1.0)
  let aL ← qL.asound
  let aR ← qR.asound
  let e ← Py.div gmusd gam
  let wL ← Py.pow qL.p e
  let sL ← Py.div aL wL
  let wR ← Py.pow qR.p e
  let sR ← Py.div aR wR
  let b ← Py.div (aL + aR - gmusd * (qR.u - qL.u)) (sL + sR)
  let e2 ← Py.div gam gmusd
  Py.pow b e2

/-- attributes of a `riemann_pb` object (`riemann.py:27-39`); `waves` is the list of five speeds -/
structure Pb where
  qL : UState
  qR : UState
  pstar : ℝ
  ustar : ℝ
  qstarL : UState
  qstarR : UState
  w0 : ℝ
  w1 : ℝ
  w2 : ℝ
  w3 : ℝ
  w4 : ℝ

/-- `riemann.py:50-61`: left star state and the two left wave speeds -/
noncomputable def leftSide (qL : UState) (pstar ustar : ℝ) : Py (UState × ℝ × ℝ) :=
  if pstar > qL.p then do
    let rho ← UState.rho_through_shock qL pstar
    let wsh ← Py.div (qL.massflow - rho * ustar) (qL.rho - rho)
    pure (⟨rho, ustar, pstar, qL.gamma⟩, wsh, wsh)
  else do
    let rho ← UState.rho_through_isentropic qL pstar
    let qs : UState := ⟨rho, ustar, pstar, qL.gamma⟩
    let a ← qL.asound
    let as ← qs.asound
    pure (qs, qL.u - a, ustar - as)

/-- `riemann.py:63-74`: right star state and the two right wave speeds -/
noncomputable def rightSide (qR : UState) (pstar ustar : ℝ) : Py (UState × ℝ × ℝ) :=
  if pstar > qR.p then do
    let rho ← UState.rho_through_shock qR pstar
    let wsh ← Py.div (qR.massflow - rho * ustar) (qR.rho - rho)
    pure (⟨rho, ustar, pstar, qR.gamma⟩, wsh, wsh)
  else do
    let rho ← UState.rho_through_isentropic qR pstar
    let qs : UState := ⟨rho, ustar, pstar, qR.gamma⟩
    let as ← qs.asound
    let a ← qR.asound
    pure (qs, ustar + as, qR.u + a)

/-- `riemann_pb.__init__` (`riemann.py:41-74`, `_solve` inlined from `riemann.py:182-187`) -/
noncomputable def init (newton : RootFinder) (qL qR : UState) : Py Pb := do
  let p0 ← pstar_estimate_expansion qL qR
  let pstar ← newton (du qL qR) p0
  let ustar ← ustar_from_pstar qL qR pstar
  let l ← leftSide qL pstar ustar
  let r ← rightSide qR pstar ustar
  pure { qL := qL, qR := qR, pstar := pstar, ustar := ustar, qstarL := l.1, qstarR := r.1,
         w0 := l.2.1, w1 := l.2.2, w2 := ustar, w3 := r.2.1, w4 := r.2.2 }

/-- `left_fastest` (`riemann.py:130-131`) -/
def Pb.left_fastest (s : Pb) : ℝ := s.w0
/-- `right_fastest` (`riemann.py:133-134`) -/
def Pb.right_fastest (s : Pb) : ℝ := s.w4

/-- (rho, u, p) of one element of the solution arrays -/
structure Prim where
  rho : ℝ
  u : ℝ
  p : ℝ

/-- (rho, u, p) of a state -/
def prim (q : UState) : Prim := ⟨q.rho, q.u, q.p⟩

/-- left expansion fan at `xot` (`riemann.py:113-118`) -/
noncomputable def fanL (q : UState) (xot : ℝ) : Py Prim := do
  let gp1 := q.gamma + 1.0
  let gm1 := q.gamma - 1.0
  let k ← Py.div gm1 gp1
  let c ← Py.div 2.0 gm1
  let a ← q.asound
  let u := k * (q.u + c * (a + xot))
  let m ← Py.div (u - xot) a
  let e ← Py.div (2.0 * q.gamma) gm1
  let w ← Py.pow m e
  let p := q.p * w
  let rho ← UState.rho_through_isentropic q p
  return ⟨rho, u, p⟩

/-- right expansion fan at `xot` (`riemann.py:122-127`) -/
noncomputable def fanR (q : UState) (xot : ℝ) : Py Prim := do
  let gp1 := q.gamma + 1.0
  let gm1 := q.gamma - 1.0
  let k ← Py.div gm1 gp1
  let c ← Py.div 2.0 gm1
  let a ← q.asound
  let u := k * (q.u + c * (-a + xot))
  let m ← Py.div (xot - u) a
  let e ← Py.div (2.0 * q.gamma) gm1
  let w ← Py.pow m e
  let p := q.p * w
  let rho ← UState.rho_through_isentropic q p
  return ⟨rho, u, p⟩

open Classical in
/-- `qsol` (`riemann.py:87-128`) at one element `xot`: successive masked assignments, later ones
overwrite earlier ones.  The second component is the gamma of `np.where(xot < 0.0, ...)`
(`riemann.py:128`). -/
noncomputable def Pb.qsol (s : Pb) (xot : ℝ) : Py UState := do
  -- l.91-94
  let q0 := prim s.qL
  -- l.95-99
  let q1 := if xot ≥ s.w1 ∧ xot < s.w2 then prim s.qstarL else q0
  -- l.100-104
  let q2 := if xot ≥ s.w2 ∧ xot < s.w3 then prim s.qstarR else q1
  -- l.105-109
  let q3 := if xot ≥ s.w4 then prim s.qR else q2
  -- l.110-118
  let q4 ← if s.pstar < s.qL.p ∧ (xot > s.w0 ∧ xot < s.w1) then fanL s.qL xot else pure q3
  -- l.119-127
  let q5 ← if s.pstar < s.qR.p ∧ (xot > s.w3 ∧ xot < s.w4) then fanR s.qR xot else pure q4
  return ⟨q5.rho, q5.u, q5.p, if xot < 0.0 then s.qL.gamma else s.qR.gamma⟩

end Aerokit.Riemann
