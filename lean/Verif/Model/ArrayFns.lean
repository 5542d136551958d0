import Verif.Model.NpArray
import Verif.Model.DefaultGas
import Verif.Model.ShockWave

/-!
# The functions of `aerokit/aero` on numpy arrays

The code of `degree.py`, `Isentropic.py`, `MassFlow.py`, `Fanno.py`, `Rayleigh.py`, `Supersonic.py`,
`ShockWave.py` and `IterativeSolve.py` written with the numpy operators of `Model/NpArray.lean`,
operator by operator.  The other model files describe the same functions on floats.
-/

namespace Aerokit.ArrayFns
open Nd
variable {ι : Type}

/-! ### `degree.py` -/

/-- `cos` (`degree.py:4-5`). -/
noncomputable def degCos (a : Nd ι) : Nd ι := cos (radians a)
/-- `sin` (`degree.py:8-9`). -/
noncomputable def degSin (a : Nd ι) : Nd ι := sin (radians a)
/-- `tan` (`degree.py:12-13`). -/
noncomputable def degTan (a : Nd ι) : Nd ι := tan (radians a)
/-- `acos` (`degree.py:16-17`). -/
noncomputable def degAcos (a : Nd ι) : Nd ι := degrees (arccos a)
/-- `asin` (`degree.py:20-21`). -/
noncomputable def degAsin (a : Nd ι) : Nd ι := degrees (arcsin a)
/-- `atan` (`degree.py:24-25`). -/
noncomputable def degAtan (a : Nd ι) : Nd ι := degrees (arctan a)
/-- `atan2` (`degree.py:28-29`). -/
noncomputable def degAtan2 (a b : Nd ι) : Nd ι := degrees (arctan2 a b)

/-! ### `Isentropic.py` -/

/-- `TtTs_Mach` (`Isentropic.py:45`). -/
noncomputable def TtTs_Mach (Mach gamma : Nd ι) : Nd ι := 1.0 + 0.5 * (gamma - 1) * Mach ^ 2
/-- `PtPs_Mach` (`Isentropic.py:67`). -/
noncomputable def PtPs_Mach (Mach gamma : Nd ι) : Nd ι :=
  (1.0 + 0.5 * (gamma - 1.0) * Mach ^ 2) ^ (gamma / (gamma - 1.0))
/-- `Mach_TtTs` (`Isentropic.py:81`). -/
noncomputable def Mach_TtTs (TtTs gamma : Nd ι) : Nd ι := sqrt ((TtTs - 1.0) * 2.0 / (gamma - 1.0))
/-- `Mach_PtPs` (`Isentropic.py:95`). -/
noncomputable def Mach_PtPs (PtPs gamma : Nd ι) : Nd ι :=
  sqrt ((PtPs ^ ((gamma - 1.0) / gamma) - 1.0) * 2.0 / (gamma - 1.0))
/-- `Velocity_MachTt` (`Isentropic.py:111`). -/
noncomputable def Velocity_MachTt (Mach Tt r gamma : Nd ι) : Nd ι :=
  Mach * sqrt (gamma * r * Tt / TtTs_Mach Mach gamma)

/-! ### `MassFlow.py` -/

/-- `__MachSub_sigma` (`MassFlow.py:12-15`). -/
noncomputable def MachSub_sigma (sigma gamma : Nd ι) : Nd ι :=
  1.0 - sqrt ((1.0 - 1.0 / sigma) * (4.0 * (gamma - 1.0) / (3.0 - gamma)))
/-- `__MachSup_sigma` (`MassFlow.py:18-19`). -/
noncomputable def MachSup_sigma (sigma gamma : Nd ι) : Nd ι :=
  1.0 + sqrt ((sigma - 1.0) * (4.0 * (gamma - 1.0) / (3.0 - gamma)))
/-- `WeightMassFlow` (`MassFlow.py:25-30`; `r` is unused by the code). -/
noncomputable def WeightMassFlow (Mach _r gamma : Nd ι) : Nd ι :=
  sqrt gamma
    * Mach
    * (1.0 + 0.5 * (gamma - 1) * Mach ^ 2) ^ (-0.5 * (gamma + 1.0) / (gamma - 1.0))
/-- `Sigma_Mach` (`MassFlow.py:33-36`). -/
noncomputable def Sigma_Mach (Mach gamma : Nd ι) : Nd ι :=
  (2.0 / (gamma + 1.0) * (1.0 + 0.5 * (gamma - 1) * Mach ^ 2)) ^ (
    0.5 * (gamma + 1.0) / (gamma - 1.0)
  ) / Mach

/-! ### `Fanno.py` -/

/-- `maxFparam_Mach` (`Fanno.py:8-18`). -/
noncomputable def Fanno.maxFparam_Mach (Mach gamma : Nd ι) : Nd ι :=
  let m2 := square Mach
  (1 - m2) / (gamma * m2) + (gamma + 1) / (2 * gamma) * log (
    m2 * (gamma + 1) / 2 / (1 + (gamma - 1) / 2 * m2))
/-- `Ps_Pscri` (`Fanno.py:24-26`). -/
noncomputable def Fanno.Ps_Pscri (Mach gamma : Nd ι) : Nd ι :=
  1.0 / (Mach * sqrt (2 / (gamma + 1) * (1 + (gamma - 1) / 2 * square Mach)))
/-- `Ts_Tscri` (`Fanno.py:29-31`). -/
noncomputable def Fanno.Ts_Tscri (Mach gamma : Nd ι) : Nd ι :=
  (gamma + 1) / 2 / (1 + (gamma - 1) / 2 * square Mach)
/-- `Rho_Rhocri` (`Fanno.py:34-36`). -/
noncomputable def Fanno.Rho_Rhocri (Mach gamma : Nd ι) : Nd ι :=
  1.0 / Mach * sqrt (2 / (gamma + 1) * (1 + (gamma - 1) / 2 * square Mach))
/-- `Pi_Picri` (`Fanno.py:39-45`). -/
noncomputable def Fanno.Pi_Picri (Mach gamma : Nd ι) : Nd ι :=
  1.0
    / Mach
    * (2 / (gamma + 1) * (1 + (gamma - 1) / 2 * square Mach)) ^ ((gamma + 1) / 2 / (gamma - 1))
/-- `V_Vcri` (`Fanno.py:48-50`). -/
noncomputable def Fanno.V_Vcri (Mach gamma : Nd ι) : Nd ι :=
  Mach / sqrt (2 / (gamma + 1) * (1 + (gamma - 1) / 2 * square Mach))
/-- `NormdS` (`Fanno.py:53-58`). -/
noncomputable def Fanno.NormdS (Mach gamma : Nd ι) : Nd ι :=
  log (
    Mach ^ ((gamma - 1) / gamma)
    * (2 / (gamma + 1) * (1 + (gamma - 1) / 2 * square Mach)) ^ (-(gamma + 1) / 2 / gamma))

/-! ### `Rayleigh.py` -/

/-- `Ps_Pscri` (`Rayleigh.py:18-20`). -/
noncomputable def Rayleigh.Ps_Pscri (Mach gamma : Nd ι) : Nd ι :=
  (gamma + 1) / (1 + gamma * square Mach)
/-- `Ts_Tscri` (`Rayleigh.py:23-26`). -/
noncomputable def Rayleigh.Ts_Tscri (Mach gamma : Nd ι) : Nd ι :=
  let m2 := square Mach
  m2 * square ((gamma + 1) / (1 + gamma * m2))
/-- `Ti_Ticri` (`Rayleigh.py:29-32`). -/
noncomputable def Rayleigh.Ti_Ticri (Mach gamma : Nd ι) : Nd ι :=
  let m2 := square Mach
  2 * (gamma + 1) * m2 / square (1 + gamma * m2) * (1 + (gamma - 1) / 2 * m2)
/-- `maxTiratio_Mach` (`Rayleigh.py:8-12`): `gamma` is not used. -/
noncomputable def Rayleigh.maxTiratio_Mach (Mach _gamma : Nd ι) : Nd ι :=
  1.0 / Rayleigh.Ti_Ticri Mach 1.4
/-- `Rho_Rhocri` (`Rayleigh.py:35-38`). -/
noncomputable def Rayleigh.Rho_Rhocri (Mach gamma : Nd ι) : Nd ι :=
  let m2 := square Mach
  (1 + gamma * m2) / ((gamma + 1) * m2)
/-- `Pi_Picri` (`Rayleigh.py:41-48`). -/
noncomputable def Rayleigh.Pi_Picri (Mach gamma : Nd ι) : Nd ι :=
  let m2 := square Mach
  (gamma + 1)
    / (1 + gamma * m2)
    * (2 / (gamma + 1) * (1 + (gamma - 1) / 2 * m2)) ^ (gamma / (gamma - 1))
/-- `V_Vcri` (`Rayleigh.py:51-54`). -/
noncomputable def Rayleigh.V_Vcri (Mach gamma : Nd ι) : Nd ι :=
  let m2 := square Mach
  m2 * (gamma + 1) / (1 + gamma * m2)
/-- `NormdS` (`Rayleigh.py:57-60`). -/
noncomputable def Rayleigh.NormdS (Mach gamma : Nd ι) : Nd ι :=
  let m2 := square Mach
  log (m2 * ((gamma + 1) / (1 + gamma * m2)) ^ ((gamma + 1) / gamma))
/-- `SubMach_TiTicri` (`Rayleigh.py:63-66`). -/
noncomputable def Rayleigh.SubMach_TiTicri (Tiratio gamma : Nd ι) : Nd ι :=
  let alpha := sqrt (1.0 - Tiratio)
  sqrt ((1.0 - alpha) / (alpha * gamma + 1))
/-- `SupMach_TiTicri` (`Rayleigh.py:69-72`). -/
noncomputable def Rayleigh.SupMach_TiTicri (Tiratio gamma : Nd ι) : Nd ι :=
  let alpha := sqrt (1.0 - Tiratio)
  sqrt ((1.0 + alpha) / (1.0 - alpha * gamma))

/-! ### `Supersonic.py` -/

/-- `PrandtlMeyer_Mach` (`Supersonic.py:49-53`). -/
noncomputable def PrandtlMeyer_Mach (Mach gamma : Nd ι) : Nd ι :=
  let g := gamma
  let gm1 := gamma - 1.0
  let beta := sqrt (Mach ^ 2 - 1.0)
  let cg := sqrt ((g + 1.0) / gm1)
  (cg * arctan (beta / cg) - arctan beta) * (180.0 / pi)
/-- `Mach_PMFmmu` (`Supersonic.py:72-77`). -/
noncomputable def Mach_PMFmmu (om_m_mun gamma : Nd ι) : Nd ι :=
  let g := gamma
  let gm1 := gamma - 1.0
  let cg := sqrt ((g + 1.0) / gm1)
  sqrt ((cg * degTan ((om_m_mun + 90.0) / cg)) ^ 2 + 1.0)
/-- `deflection_Mach_IsentropicPsratio` (`Supersonic.py:80-82`). -/
noncomputable def deflection_Mach_IsentropicPsratio (Mach Pratio gamma : Nd ι) : Nd ι :=
  let m2 := Mach_PtPs (PtPs_Mach Mach gamma / Pratio) gamma;
  -PrandtlMeyer_Mach Mach gamma + PrandtlMeyer_Mach m2 gamma

/-! ### `ShockWave.py`: closed forms -/

/-- `Ps_ratio` (`ShockWave.py:16-27`). -/
noncomputable def Ps_ratio (Mn gamma : Nd ι) : Nd ι :=
  1.0 + (2.0 * gamma / (gamma + 1.0)) * (Mn ^ 2 - 1.0)
/-- `Mn_Ps_ratio` (`ShockWave.py:30-41`). -/
noncomputable def Mn_Ps_ratio (Pratio gamma : Nd ι) : Nd ι :=
  sqrt (1 + (Pratio - 1.0) * (gamma + 1.0) / (2.0 * gamma))
/-- `Rho_ratio` (`ShockWave.py:44-54`). -/
noncomputable def Rho_ratio (Mn gamma : Nd ι) : Nd ι :=
  ((gamma + 1.0) * Mn ^ 2) / (2.0 + (gamma - 1.0) * Mn ^ 2)
/-- `Ts_ratio` (`ShockWave.py:57-67`). -/
noncomputable def Ts_ratio (Mn gamma : Nd ι) : Nd ι := Ps_ratio Mn gamma / Rho_ratio Mn gamma
/-- `downstream_Mn` (`ShockWave.py:70-80`). -/
noncomputable def downstream_Mn (Mn gamma : Nd ι) : Nd ι :=
  sqrt ((1.0 + 0.5 * (gamma - 1.0) * Mn ^ 2) / (gamma * Mn ^ 2 - 0.5 * (gamma - 1.0)))
/-- `Pt_ratio` (`ShockWave.py:83-93`); the inner `Is.PtPs_Mach` uses the default gamma. -/
noncomputable def Pt_ratio (Mn gamma : Nd ι) : Nd ι :=
  Ps_ratio Mn gamma * PtPs_Mach (downstream_Mn Mn gamma) (num (some DefaultGas.gamma0))
    / PtPs_Mach Mn gamma
/-- `deflection_Mach_sigma` (`ShockWave.py:127-140`). -/
noncomputable def deflection_Mach_sigma (Mach sigma gamma : Nd ι) : Nd ι :=
  let sigrad := radians sigma
  let Mn := Mach * sin sigrad
  sigma - degrees (arctan2 (tan sigrad) (Rho_ratio Mn gamma))
/-- `deflection_Mach_ShockPsratio` (`ShockWave.py:143-154`). -/
noncomputable def deflection_Mach_ShockPsratio (Mach Pratio gamma : Nd ι) : Nd ι :=
  deflection_Mach_sigma Mach (degAsin (Mn_Ps_ratio Pratio gamma / Mach)) gamma
/-- `downstreamMach_Mach_ShockPsratio` (`ShockWave.py:157-172`). -/
noncomputable def downstreamMach_Mach_ShockPsratio (Mach Pratio gamma : Nd ι) : Nd ι :=
  let Mn0 := Mn_Ps_ratio Pratio gamma
  let sig := degAsin (Mn0 / Mach)
  let dev := deflection_Mach_sigma Mach sig gamma
  let Mn1 := downstream_Mn Mn0 gamma
  Mn1 / degSin (sig - dev)
/-- `sigma_DevMax` (`ShockWave.py:282-305`). -/
noncomputable def sigma_DevMax (Mach gamma : Nd ι) : Nd ι :=
  let fogpu := 4.0 / (gamma + 1.0)
  let M2 := square Mach
  degAsin (
    sqrt (
      1.0
      / fogpu
      / gamma
      / M2
      * (M2 - fogpu + sqrt (M2 * M2 + 2 * (gamma - 1.0) * fogpu * M2 + 4.0 * fogpu))))
/-- `sigma_Sonic` (`ShockWave.py:308-321`). -/
noncomputable def sigma_Sonic (Mach gamma : Nd ι) : Nd ι :=
  let M2 := square Mach
  let ka := gamma - 3 + M2 * (gamma + 1)
  let kb := (gamma + 1) * (square (M2 - 3) + gamma * square (M2 + 1))
  degAsin (sqrt ((ka + sqrt kb) / (4 * gamma * M2)))
/-- `dev_Max` (`ShockWave.py:256-266`). -/
noncomputable def dev_Max (Mach gamma : Nd ι) : Nd ι :=
  deflection_Mach_sigma Mach (sigma_DevMax Mach gamma) gamma
/-- `dev_Sonic` (`ShockWave.py:269-279`). -/
noncomputable def dev_Sonic (Mach gamma : Nd ι) : Nd ι :=
  deflection_Mach_sigma Mach (sigma_Sonic Mach gamma) gamma

/-! ### Functions that branch on their arguments -/

/-- The part of `weaksigma_Mach_deflection` and `strongsigma_Mach_deflection` before the test
(`ShockWave.py:186-190`, `211-215`): `(ka, kd, ke)`. -/
noncomputable def cubic (Mach deflection gamma : Nd ι) : Nd ι × Nd ι × Nd ι :=
  let ka := (1.0 + 0.5 * (gamma + 1.0) * Mach ^ 2) * degTan deflection
  let kb := 1.0 - Mach ^ 2
  let kc := (1.0 + 0.5 * (gamma - 1.0) * Mach ^ 2) * degTan deflection
  let kd := (ka ^ 2 / 3.0 - kb) / 3.0
  let ke := 2.0 * ka ^ 3 / 27.0 - ka * kb / 3.0 + kc
  (ka, kd, ke)

/-- `weaksigma_Mach_deflection` (`ShockWave.py:175-197`); `print` is not modelled. -/
noncomputable def weaksigma_Mach_deflection (Mach deflection gamma : Nd ι) : Py (Nd ι) := do
  let (ka, kd, ke) := cubic Mach deflection gamma
  if ← truthGt (ke ^ 2 - 4.0 * kd ^ 3) 0 then
    return degAsin (1.0 / Mach)
  else
    let phi := arccos (-0.5 * ke / sqrt (kd ^ 3))
    let kf := 2.0 * sqrt kd * cos (phi / 3.0) - ka / 3.0
    return degAtan (1.0 / kf)

/-- `strongsigma_Mach_deflection` (`ShockWave.py:200-222`). -/
noncomputable def strongsigma_Mach_deflection (Mach deflection gamma : Nd ι) : Py (Nd ι) := do
  let (ka, kd, ke) := cubic Mach deflection gamma
  if ← truthGt (ke ^ 2 - 4.0 * kd ^ 3) 0 then
    return 90.0
  else
    let phi := arccos (-0.5 * ke / sqrt (kd ^ 3)) + 4 * pi
    let kf := 2.0 * sqrt kd * cos (phi / 3.0) - ka / 3.0
    return degAtan (1.0 / kf)

/-! ### `IterativeSolve.py` -/

/-- The `while` loop of `secant_solve` for one element (`IterativeSolve.py:16-29`), when the function
`f` returns numpy values (it may have captured arrays).  First argument: iterations still allowed. -/
noncomputable def secantLoop (f : Nd ι → Py (Nd ι)) (y tol : Nd ι) :
    ℕ → (old_x old_y new_x : Nd ι) → Py (Nd ι)
  | 0, _, _, new_x => .ok new_x
  | left + 1, old_x, old_y, new_x => do
    let m ← pymax tol (tol * abs new_x)
    if ← truthGt (abs (new_x - old_x)) m then
      let new_y ← f new_x
      let next_x := new_x + (new_x - old_x) / (new_y - old_y) * (y - new_y)
      secantLoop f y tol left new_x new_y next_x
    else return new_x

/-- The body of `secant_solve` for one element (`IterativeSolve.py:10-29`), default `tol`. -/
noncomputable def secantElem (f : Nd ι → Py (Nd ι)) (y x : Nd ι) : Py (Nd ι) := do
  let old_y ← f x
  secantLoop f y 0.00001 (IterativeSolve.itmax - 1) x old_y (x * 0.999)

open Classical in
/-- `@np.vectorize` on `secant_solve` (`IterativeSolve.py:4-5`): `y` and `x` are broadcast, the
function is called once per entry with that entry of `y` and `x` as floats (`f` is one object for
all entries), and the results are collected.  The first exception raised by an entry is the result
of the whole call (the model says which exception only up to the choice of the entry, all the
exceptions arising here are `ValueError`s).  An entry whose call returns an array of several entries
cannot be stored in the float result: `ValueError`.  So is a call on empty arrays ("cannot call
`vectorize` on size 0 inputs unless `otypes` is set"). -/
noncomputable def secant_solve (f : Nd ι → Py (Nd ι)) (y x : Nd ι) : Py (Nd ι) :=
  match y, x with
  | num y, num x => secantElem f (num y) (num x)
  | y, x =>
    let runs : ι → Py (Nd ι) := fun i => secantElem f (num (y.at' i)) (num (x.at' i))
    if IsEmpty ι then .error .valueError
    else if h : ∃ v : ι → Option ℝ, ∀ i, runs i = .ok (num (v i)) then .ok (arr h.choose)
    else if h : ∃ i e, runs i = .error e then .error h.choose_spec.choose
    else .error .valueError

/-- `old_Mach_PrandtlMeyer` (`Supersonic.py:56-60`). -/
noncomputable def old_Mach_PrandtlMeyer (omega gamma : Nd ι) : Py (Nd ι) :=
  secant_solve (fun m => .ok (PrandtlMeyer_Mach m gamma)) omega 2.0

/-- `Mn_Pt_ratio` (`ShockWave.py:96-121`). -/
noncomputable def Mn_Pt_ratio (ptratio gamma : Nd ι) : Py (Nd ι) := do
  if ← truthGt ptratio 1 then return 1
  else secant_solve (fun m => .ok (Pt_ratio m gamma)) ptratio 1.5

/-- `sigma_Mach_deflection` (`ShockWave.py:225-253`). -/
noncomputable def sigma_Mach_deflection (Mach deflection : Nd ι) (init : Option (Nd ι))
    (gamma : Nd ι) : Py (Nd ι) := do
  let sig0 := match init with
    | none => degAsin (1.0 / Mach) + deflection
    | some s => s
  let s ← secant_solve (fun sig => .ok (deflection_Mach_sigma Mach sig gamma)) (abs deflection) sig0
  return s * sign deflection

/-! ### Conical shocks -/

open Classical in
/-- `conical_deflection_Mach_sigma` (`ShockWave.py:327-389`) on numpy values.  On floats it is the
scalar model (an evaluation that is not finite gives `none`; `fuel` bounds the `while` loop).  With
an array of several entries: if `sigma` is an array, so is `conv`, and `while abs(conv) >= tol` raises
`ValueError`; if `sigma` is a float and `Mach` (or `gamma`) an array, then the loop is entered when
`abs(sigma) >= tol`, `_rkf45` first calls `rhs`, whose line 355 stores an array in the entry
`rhs[0]` of `np.zeros(2)`: `ValueError`; otherwise line 388 returns `0.5 * (thma[0] + phi)`.  Arrays with
one entry, and a NaN `sigma`, are left out of the model (`notImplementedError`). -/
noncomputable def conical_deflection_Mach_sigma (fuel : ℕ) (Mach sigma gamma : Nd ι) : Py (Nd ι) :=
  match Mach, sigma, gamma with
  | num (some m), num (some s), num (some g) =>
    match ShockWave.conical_deflection_Mach_sigma fuel m s g 1.0e-6 with
    | .ok d => .ok (num (some d))
    | .error .nonFinite => .ok (num none)
    | .error e => .error e
  | num _, num _, num _ => .ok (num none)
  | Mach, sigma, gamma =>
    if Nonempty (Unique ι) then .error .notImplementedError
    else match sigma with
      | arr _ => .error .valueError
      | num none => .error .notImplementedError
      | num (some s) =>
        if |s| ≥ 1.0e-6 then .error .valueError
        else .ok (0.5 * (deflection_Mach_sigma Mach sigma gamma + sigma))

/-- `conical_sigma_Mach_walldeflection` (`ShockWave.py:392-408`). -/
noncomputable def conical_sigma_Mach_walldeflection (fuel : ℕ) (Mach deflection gamma : Nd ι) :
    Py (Nd ι) :=
  secant_solve (fun sig => conical_deflection_Mach_sigma fuel Mach sig gamma) deflection
    (degAsin (1.0 / Mach) + deflection)

/-- `conical_Mach_walldeflection_sigma` (`ShockWave.py:411-429`). -/
noncomputable def conical_Mach_walldeflection_sigma (fuel : ℕ) (deflection sigma gamma : Nd ι) :
    Py (Nd ι) := do
  if ← truthGt sigma deflection then
    secant_solve (fun mach => conical_deflection_Mach_sigma fuel mach sigma gamma) deflection
      (1.0 / degSin (sigma - 0.5 * deflection))
  else .error .assertionError

end Aerokit.ArrayFns
