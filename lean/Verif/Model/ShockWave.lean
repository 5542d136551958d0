import Verif.Model.Isentropic
import Verif.Model.Degree
import Verif.Model.IterativeSolve
import Verif.Model.Ode

/-!
# Model of `aerokit/aero/ShockWave.py`

Scalar model of elementwise functions.  `print` is not modelled.  Angles are in degrees.
-/

namespace Aerokit.ShockWave
open Isentropic IterativeSolve

/-- `Ps_ratio` (`ShockWave.py:16-27`). -/
noncomputable def Ps_ratio (Mn gamma : ℝ) : Py ℝ := do
  let k ← Py.div (2.0 * gamma) (gamma + 1.0)
  return 1.0 + k * (Mn ^ 2 - 1.0)

/-- `Mn_Ps_ratio` (`ShockWave.py:30-41`). -/
noncomputable def Mn_Ps_ratio (Pratio gamma : ℝ) : Py ℝ := do
  let q ← Py.div ((Pratio - 1.0) * (gamma + 1.0)) (2.0 * gamma)
  Py.sqrt (1 + q)

/-- `Rho_ratio` (`ShockWave.py:44-54`). -/
noncomputable def Rho_ratio (Mn gamma : ℝ) : Py ℝ :=
  Py.div ((gamma + 1.0) * Mn ^ 2) (2.0 + (gamma - 1.0) * Mn ^ 2)

/-- `Ts_ratio` (`ShockWave.py:57-67`). -/
noncomputable def Ts_ratio (Mn gamma : ℝ) : Py ℝ := do
  let p ← Ps_ratio Mn gamma
  let r ← Rho_ratio Mn gamma
  Py.div p r

/-- `downstream_Mn` (`ShockWave.py:70-80`). -/
noncomputable def downstream_Mn (Mn gamma : ℝ) : Py ℝ := do
  let q ← Py.div (1.0 + 0.5 * (gamma - 1.0) * Mn ^ 2) (gamma * Mn ^ 2 - 0.5 * (gamma - 1.0))
  Py.sqrt q

/-- `Pt_ratio` (`ShockWave.py:83-93`).  NOTE: the code calls `Is.PtPs_Mach(downstream_Mn(Mn,
gamma))` WITHOUT forwarding `gamma`, so the default of `Isentropic.py:48` is used there. -/
noncomputable def Pt_ratio (Mn gamma : ℝ) : Py ℝ := do
  let p ← Ps_ratio Mn gamma
  let m1 ← downstream_Mn Mn gamma
  let d ← PtPs_Mach m1 DefaultGas.gamma0
  let u ← PtPs_Mach Mn gamma
  Py.div (p * d) u

/-- `Mn_Pt_ratio` (`ShockWave.py:96-121`). -/
noncomputable def Mn_Pt_ratio (ptratio gamma : ℝ) : Py ℝ :=
  if ptratio > 1 then .ok 1
  else secant_solve (fun m => Pt_ratio m gamma) ptratio 1.5

/-- `deflection_Mach_sigma` (`ShockWave.py:127-140`). -/
noncomputable def deflection_Mach_sigma (Mach sigma gamma : ℝ) : Py ℝ := do
  let sigrad := Py.radians sigma
  let Mn := Mach * Real.sin sigrad
  let t ← Py.tan sigrad
  let r ← Rho_ratio Mn gamma
  return sigma - Py.degrees (Py.arctan2 t r)

/-- `deflection_Mach_ShockPsratio` (`ShockWave.py:143-154`). -/
noncomputable def deflection_Mach_ShockPsratio (Mach Pratio gamma : ℝ) : Py ℝ := do
  let Mn ← Mn_Ps_ratio Pratio gamma
  let q ← Py.div Mn Mach
  let sig ← degree.asin q
  deflection_Mach_sigma Mach sig gamma

/-- `downstreamMach_Mach_ShockPsratio` (`ShockWave.py:157-172`). -/
noncomputable def downstreamMach_Mach_ShockPsratio (Mach Pratio gamma : ℝ) : Py ℝ := do
  let Mn0 ← Mn_Ps_ratio Pratio gamma
  let q ← Py.div Mn0 Mach
  let sig ← degree.asin q
  let dev ← deflection_Mach_sigma Mach sig gamma
  let Mn1 ← downstream_Mn Mn0 gamma
  Py.div Mn1 (degree.sin (sig - dev))

/-- Coefficients `ka`, `kb`, `kc`, `kd`, `ke` of the shock-angle cubic, computed identically by
`weaksigma_Mach_deflection` (`ShockWave.py:186-190`) and `strongsigma_Mach_deflection`
(`ShockWave.py:211-215`). -/
structure Cubic where
  ka : ℝ
  kb : ℝ
  kc : ℝ
  kd : ℝ
  ke : ℝ

/-- `ShockWave.py:186-190` and `211-215`. -/
noncomputable def cubic (Mach deflection gamma : ℝ) : Py Cubic := do
  let t ← degree.tan deflection
  let ka := (1.0 + 0.5 * (gamma + 1.0) * Mach ^ 2) * t
  let kb := 1.0 - Mach ^ 2
  let kc := (1.0 + 0.5 * (gamma - 1.0) * Mach ^ 2) * t
  let kd := (ka ^ 2 / 3.0 - kb) / 3.0
  let ke := 2.0 * ka ^ 3 / 27.0 - ka * kb / 3.0 + kc
  return ⟨ka, kb, kc, kd, ke⟩

/-- `weaksigma_Mach_deflection` (`ShockWave.py:175-197`). -/
noncomputable def weaksigma_Mach_deflection (Mach deflection gamma : ℝ) : Py ℝ := do
  let c ← cubic Mach deflection gamma
  if c.ke ^ 2 - 4.0 * c.kd ^ 3 > 0 then
    let q ← Py.div 1.0 Mach
    degree.asin q
  else
    let s ← Py.sqrt (c.kd ^ 3)
    let q ← Py.div (-0.5 * c.ke) s
    let phi ← Py.arccos q
    let s1 ← Py.sqrt c.kd
    let kf := 2.0 * s1 * Real.cos (phi / 3.0) - c.ka / 3.0
    let i ← Py.div 1.0 kf
    return degree.atan i

/-- `strongsigma_Mach_deflection` (`ShockWave.py:200-222`). -/
noncomputable def strongsigma_Mach_deflection (Mach deflection gamma : ℝ) : Py ℝ := do
  let c ← cubic Mach deflection gamma
  if c.ke ^ 2 - 4.0 * c.kd ^ 3 > 0 then
    return 90.0
  else
    let s ← Py.sqrt (c.kd ^ 3)
    let q ← Py.div (-0.5 * c.ke) s
    let a ← Py.arccos q
    let phi := a + 4 * Real.pi
    let s1 ← Py.sqrt c.kd
    let kf := 2.0 * s1 * Real.cos (phi / 3.0) - c.ka / 3.0
    let i ← Py.div 1.0 kf
    return degree.atan i

/-- `sigma_Mach_deflection` (`ShockWave.py:225-253`); `init = none` is the default `None`. -/
noncomputable def sigma_Mach_deflection (Mach deflection : ℝ) (init : Option ℝ) (gamma : ℝ) :
    Py ℝ := do
  let sig0 ← match init with
    | none => do
      let q ← Py.div 1.0 Mach
      let mu ← degree.asin q
      pure (mu + deflection)
    | some s => pure s
  let s ← secant_solve (fun sig => deflection_Mach_sigma Mach sig gamma) |deflection| sig0
  return s * SignType.sign deflection

/-- `sigma_DevMax` (`ShockWave.py:282-305`). -/
noncomputable def sigma_DevMax (Mach gamma : ℝ) : Py ℝ := do
  let fogpu ← Py.div 4.0 (gamma + 1.0)
  let M2 := Mach ^ 2
  let c1 ← Py.div 1.0 fogpu
  let c2 ← Py.div c1 gamma
  let c3 ← Py.div c2 M2
  let s ← Py.sqrt (M2 * M2 + 2 * (gamma - 1.0) * fogpu * M2 + 4.0 * fogpu)
  let q ← Py.sqrt (c3 * (M2 - fogpu + s))
  degree.asin q

/-- `sigma_Sonic` (`ShockWave.py:308-321`). -/
noncomputable def sigma_Sonic (Mach gamma : ℝ) : Py ℝ := do
  let M2 := Mach ^ 2
  let ka := gamma - 3 + M2 * (gamma + 1)
  let kb := (gamma + 1) * ((M2 - 3) ^ 2 + gamma * (M2 + 1) ^ 2)
  let s ← Py.sqrt kb
  let q ← Py.div (ka + s) (4 * gamma * M2)
  let q ← Py.sqrt q
  degree.asin q

/-- `dev_Max` (`ShockWave.py:256-266`). -/
noncomputable def dev_Max (Mach gamma : ℝ) : Py ℝ := do
  let s ← sigma_DevMax Mach gamma
  deflection_Mach_sigma Mach s gamma

/-- `dev_Sonic` (`ShockWave.py:269-279`). -/
noncomputable def dev_Sonic (Mach gamma : ℝ) : Py ℝ := do
  let s ← sigma_Sonic Mach gamma
  deflection_Mach_sigma Mach s gamma

/-- Right-hand side of the conical flow ODE (`ShockWave.py:340-364`); `data 0` is theta,
`data 1` the Mach number. -/
noncomputable def conical_rhs (gamma phi : ℝ) (data : Fin 2 → ℝ) : Py (Fin 2 → ℝ) := do
  let th := data 0
  let ma := data 1
  let k := 1.0 - (ma * degree.sin (phi - th)) ^ 2
  let a ← Py.div (-degree.sin th * degree.cos (phi - th)) (degree.sin phi)
  let a ← Py.div a k
  let b ← Py.div (Real.pi / 180.0 * degree.sin th * degree.sin (phi - th)) (degree.sin phi)
  let b ← Py.div b k
  return ![a, b * ma * (1.0 + 0.5 * (gamma - 1) * ma * ma)]

/-- State of the conical integration loop. -/
structure ConicalState where
  phi : ℝ
  thma : Fin 2 → ℝ
  h : ℝ
  conv : ℝ

/-- One pass of the body of the `while` loop (`ShockWave.py:374-385`). -/
noncomputable def conical_step (gamma tol : ℝ) (s : ConicalState) : Py ConicalState := do
  let (dthma, err) ← Ode.rkf45 (conical_rhs gamma) s.phi s.thma s.h
  if err ≤ tol then
    let conv := s.thma 0 - s.phi
    let q ← Py.div conv (s.h - dthma 0)
    if q < 1 then
      let h' ← Py.div (s.h * conv) (s.h - dthma 0)
      return { s with h := h', conv := conv }
    else
      return { s with thma := s.thma + dthma, phi := s.phi + s.h, conv := conv }
  else
    let q ← Py.div tol err
    let w ← Py.pow q 0.2
    return { s with h := 0.9 * s.h * w }

/-- The `while abs(conv) >= tol` loop (`ShockWave.py:373-389`). -/
noncomputable def conical_loop (gamma tol : ℝ) : ℕ → ConicalState → Py ℝ
  | fuel, s =>
    if |s.conv| ≥ tol then
      match fuel with
      | 0 => .error .outOfFuel
      | fuel + 1 => do
        let s' ← conical_step gamma tol s
        conical_loop gamma tol fuel s'
    else .ok (0.5 * (s.thma 0 + s.phi))

/-- `conical_deflection_Mach_sigma` (`ShockWave.py:327-389`). -/
noncomputable def conical_deflection_Mach_sigma (fuel : ℕ) (Mach sigma gamma tol : ℝ) : Py ℝ := do
  let th ← deflection_Mach_sigma Mach sigma gamma
  let mn ← downstream_Mn (Mach * degree.sin sigma) gamma
  let ma ← Py.div mn (degree.sin (sigma - th))
  let phi := sigma
  let h := -phi / 10.0
  conical_loop gamma tol fuel ⟨phi, ![th, ma], h, phi⟩

/-- `conical_sigma_Mach_walldeflection` (`ShockWave.py:392-408`). -/
noncomputable def conical_sigma_Mach_walldeflection (fuel : ℕ) (Mach deflection gamma : ℝ) :
    Py ℝ := do
  let q ← Py.div 1.0 Mach
  let mu ← degree.asin q
  secant_solve (fun sig => conical_deflection_Mach_sigma fuel Mach sig gamma 1.0e-6) deflection
    (mu + deflection)

open Classical in
/-- `conical_Mach_walldeflection_sigma` (`ShockWave.py:411-429`). -/
noncomputable def conical_Mach_walldeflection_sigma (fuel : ℕ) (deflection sigma gamma : ℝ) :
    Py ℝ :=
  if sigma > deflection then do
    let x0 ← Py.div 1.0 (degree.sin (sigma - 0.5 * deflection))
    secant_solve (fun mach => conical_deflection_Mach_sigma fuel mach sigma gamma 1.0e-6)
      deflection x0
  else .error .assertionError

/-- `Pi_ratio` alias (`ShockWave.py:433`). -/
noncomputable def Pi_ratio := Pt_ratio
/-- `Mn_Pi_ratio` alias (`ShockWave.py:434`). -/
noncomputable def Mn_Pi_ratio := Mn_Pt_ratio

end Aerokit.ShockWave
