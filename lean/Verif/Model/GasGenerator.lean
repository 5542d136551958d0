import Verif.Model.Isentropic

/-!
# Model of `aerokit/engine/gasgenerator.py`, `turbojet.py`, `turbofan.py`

An engine object is its constructor parameters, the flight conditions (absent before
`flight_conditions` is called) and the attributes assigned by `update` (absent before the first
call).  Reading an absent attribute raises `AttributeError`.

Simplifications: `update` is atomic (in Python a NaN is stored in the attributes where the model
reports `nonFinite`; no exception is raised between the first and the last assignment).
Direct assignments `obj.OPR = …` by the user are not modelled.  Scalars only.
-/

namespace Aerokit.GasGenerator

/-- Arguments of the constructor `base.__init__` (`gasgenerator.py:48-50`). -/
structure Args where
  OPR : ℝ
  Tt4 : ℝ
  gam_cold : ℝ := DefaultGas.gamma0
  gam_hot : ℝ := DefaultGas.gamma0
  r_cold : ℝ := DefaultGas.r0
  r_hot : ℝ := DefaultGas.r0
  xi_inlet : ℝ := 1.0
  xi_cc : ℝ := 1.0
  eta_cc : ℝ := 1.0
  Pci : ℝ := 42.8e6
  etapolCHP : ℝ := 1.0
  etapolTHP : ℝ := 1.0
  eta_shaft : ℝ := 1.0

/-- Attributes assigned by `base.__init__` (`gasgenerator.py:51-62`).  There is no `eta_cc`. -/
structure Params where
  OPR : ℝ
  Tt4 : ℝ
  Pci : ℝ
  gam_cold : ℝ
  gam_hot : ℝ
  r_cold : ℝ
  r_hot : ℝ
  xi_cc : ℝ
  xi_inlet : ℝ
  etapolCHP : ℝ
  etapolTHP : ℝ
  eta_shaft : ℝ

/-- `base.__init__` (`gasgenerator.py:48-62`). -/
def Args.params (a : Args) : Params :=
  { OPR := a.OPR, Tt4 := a.Tt4, Pci := a.Pci, gam_cold := a.gam_cold, gam_hot := a.gam_hot,
    r_cold := a.r_cold, r_hot := a.r_hot, xi_cc := a.xi_cc, xi_inlet := a.xi_inlet,
    etapolCHP := a.etapolCHP, etapolTHP := a.etapolTHP, eta_shaft := a.eta_shaft }

/-- Attributes assigned by `flight_conditions` (`gasgenerator.py:64-67`). -/
structure Flight where
  T0 : ℝ := 1.0
  P0 : ℝ := 1.0
  M0 : ℝ := 0.0

/-- Attributes assigned by `base.update` (`gasgenerator.py:72-86`). -/
structure Gen where
  Tt0 : ℝ
  Pt0 : ℝ
  V0 : ℝ
  Pt2 : ℝ
  Tt2 : ℝ
  Pt3 : ℝ
  Tt3 : ℝ
  Pt4 : ℝ
  far : ℝ
  Tt45 : ℝ
  Pt45 : ℝ

/-- The computation of `base.update` (`gasgenerator.py:69-86`), statement by statement. -/
noncomputable def compute (s : Params) (f : Flight) : Py Gen := do
  let gc := s.gam_cold
  let cpc ← Py.div (gc * s.r_cold) (gc - 1.0)
  let t ← Isentropic.TtTs_Mach f.M0 s.gam_cold
  let Tt0 := f.T0 * t
  let p ← Isentropic.PtPs_Mach f.M0 s.gam_cold
  let Pt0 := f.P0 * p
  let a ← Py.sqrt (gc * s.r_cold * f.T0)
  let V0 := f.M0 * a
  let Pt2 := Pt0 * s.xi_inlet
  let Tt2 := Tt0
  let Pt3 := Pt2 * s.OPR
  let e ← Py.div (gc - 1.0) (gc * s.etapolCHP)
  let q ← Py.pow s.OPR e
  let Tt3 := Tt2 * q
  let Pt4 := Pt3 * s.xi_cc
  let gh := s.gam_hot
  let cph ← Py.div (gh * s.r_hot) (gh - 1.0)
  let far ← Py.div (cph * s.Tt4 - cpc * Tt3) (s.xi_cc * s.Pci - cph * s.Tt4)
  let d ← Py.div (cpc * (Tt3 - Tt2)) (s.eta_shaft * cph * (1.0 + far))
  let Tt45 := s.Tt4 - d
  let u ← Py.div Tt45 s.Tt4
  let e' ← Py.div gh ((gh - 1.0) * s.etapolTHP)
  let w ← Py.pow u e'
  let Pt45 := Pt4 * w
  return { Tt0, Pt0, V0, Pt2, Tt2, Pt3, Tt3, Pt4, far, Tt45, Pt45 }

/-- A `gasgenerator.base` object. -/
structure Obj where
  params : Params
  flight : Option Flight
  gen : Option Gen

/-- `base(…)` -/
def new (a : Args) : Obj := ⟨a.params, none, none⟩

/-- `flight_conditions` (`gasgenerator.py:64-67`). -/
def flight_conditions (o : Obj) (f : Flight) : Obj := { o with flight := some f }

/-- `update` (`gasgenerator.py:69-86`): `self.T0` raises `AttributeError` if `flight_conditions`
was never called. -/
noncomputable def update (o : Obj) : Py Obj :=
  match o.flight with
  | none => .error .attributeError
  | some f => do
    let g ← compute o.params f
    return { o with gen := some g }

/-- Read the attributes assigned by `update`. -/
def Obj.theGen (o : Obj) : Py Gen :=
  match o.gen with
  | none => .error .attributeError
  | some g => .ok g

/-- `Wsp_cc` (`gasgenerator.py:88-89`). -/
def Wsp_cc (o : Obj) : Py ℝ := do
  let g ← o.theGen
  return g.far * o.params.Pci

/-- `Wsp_TBP_ideal` (`gasgenerator.py:91-94`).  `P19 = none` is the default argument. -/
noncomputable def Wsp_TBP_ideal (o : Obj) (P19 : Option ℝ) : Py ℝ := do
  let P ← match P19, o.flight with
    | some P, _ => (.ok P : Py ℝ)
    | none, some f => .ok f.P0
    | none, none => .error .attributeError
  let gogm1 ← Py.div o.params.gam_hot (o.params.gam_hot - 1.0)
  let g ← o.theGen
  let q ← Py.div P g.Pt45
  let e ← Py.div 1.0 gogm1
  let w ← Py.pow q e
  let c ← Py.div ((1.0 + g.far) * gogm1 * o.params.r_hot) (o.params.gam_hot - 1.0)
  return c * g.Tt45 * (w - 1.0)

/-- `thermal_efficiency` (`gasgenerator.py:96-97`). -/
noncomputable def thermal_efficiency (o : Obj) : Py ℝ := do
  let w ← Wsp_TBP_ideal o none
  let c ← Wsp_cc o
  Py.div w c

end Aerokit.GasGenerator

namespace Aerokit.Turbojet

open GasGenerator (Flight Gen Params)

/-- Arguments of `turbojet_opt.__init__` (`turbojet.py:50-52`). -/
structure Args extends GasGenerator.Args where
  xi_nozzle : ℝ := 1.0

/-- Attributes assigned by `turbojet_opt.update` after `gg.base.update` (`turbojet.py:63-65`). -/
structure Jet where
  Pt9 : ℝ
  M9 : ℝ
  V9 : ℝ

/-- A `turbojet_opt` object. -/
structure Obj where
  params : Params
  xi_nozzle : ℝ
  flight : Option Flight
  res : Option (Gen × Jet)

/-- `turbojet_opt.__init__` (`turbojet.py:50-56`). -/
def new (a : Args) : Obj := ⟨a.toArgs.params, a.xi_nozzle, none, none⟩

/-- `flight_conditions` (inherited). -/
def flight_conditions (o : Obj) (f : Flight) : Obj := { o with flight := some f }

/-- `turbojet_opt.update` (`turbojet.py:59-65`) after `gg.base.update`.  (`cph`, computed at
`turbojet.py:62` and not used, has the same failing case as in `base.update`.) -/
noncomputable def nozzle (p : Params) (xi_nozzle : ℝ) (f : Flight) (g : Gen) : Py Jet := do
  let Pt9 := max (g.Pt45 * xi_nozzle) f.P0
  let q ← Py.div Pt9 f.P0
  let M9 ← Isentropic.Mach_PtPs q p.gam_hot
  let V9 ← Isentropic.Velocity_MachTi M9 g.Tt45 p.r_hot p.gam_hot
  return { Pt9, M9, V9 }

/-- `turbojet_opt.update` (`turbojet.py:59-65`). -/
noncomputable def update (o : Obj) : Py Obj :=
  match o.flight with
  | none => .error .attributeError
  | some f => do
    let g ← GasGenerator.compute o.params f
    let j ← nozzle o.params o.xi_nozzle f g
    return { o with res := some (g, j) }

/-- Read the attributes assigned by `update`. -/
def Obj.theRes (o : Obj) : Py (Gen × Jet) :=
  match o.res with
  | none => .error .attributeError
  | some r => .ok r

/-- `Wsp_cc` (inherited, `gasgenerator.py:88-89`). -/
def Wsp_cc (o : Obj) : Py ℝ := do
  let (g, _) ← o.theRes
  return g.far * o.params.Pci

/-- `Wsp_kinEn` (`turbojet.py:67-68`). -/
noncomputable def Wsp_kinEn (o : Obj) : Py ℝ := do
  let (g, j) ← o.theRes
  return 0.5 * ((1.0 + g.far) * j.V9 ^ 2 - g.V0 ^ 2)

/-- `norm_thrust` (`turbojet.py:70-71`). -/
noncomputable def norm_thrust (o : Obj) : Py ℝ := do
  let (g, j) ← o.theRes
  return (1.0 + g.far) * j.V9 - g.V0

/-- `spec_thrust` (`turbojet.py:73-74`). -/
noncomputable def spec_thrust (o : Obj) : Py ℝ := norm_thrust o

/-- `self.V0` -/
def V0 (o : Obj) : Py ℝ := do
  let (g, _) ← o.theRes
  return g.V0

/-- `thermal_efficiency` (`turbojet.py:76-77`). -/
noncomputable def thermal_efficiency (o : Obj) : Py ℝ := do
  let k ← Wsp_kinEn o
  let c ← Wsp_cc o
  Py.div k c

/-- `propulsive_efficiency` (`turbojet.py:79-80`). -/
noncomputable def propulsive_efficiency (o : Obj) : Py ℝ := do
  let t ← norm_thrust o
  let v ← V0 o
  let k ← Wsp_kinEn o
  Py.div (t * v) k

/-- `thermoprop_efficiency` (`turbojet.py:82-83`). -/
noncomputable def thermoprop_efficiency (o : Obj) : Py ℝ := do
  let t ← norm_thrust o
  let v ← V0 o
  let c ← Wsp_cc o
  Py.div (t * v) c

/-- `Sfc` (`turbojet.py:85-86`). -/
noncomputable def Sfc (o : Obj) : Py ℝ := do
  let (g, _) ← o.theRes
  let t ← norm_thrust o
  Py.div g.far t

end Aerokit.Turbojet

namespace Aerokit.Turbofan

open GasGenerator (Flight Gen Params)

/-- Arguments of `turbofan_adapt.__init__` (`turbofan.py:50-52`). -/
structure Args extends GasGenerator.Args where
  bpr : ℝ
  fanpower_ratio : ℝ
  xi_nozzle : ℝ := 1.0
  etapolTBP : ℝ := 1.0
  etapolfan : ℝ := 1.0

/-- Attributes assigned by `turbofan_adapt.update` (`turbofan.py:65-82`). -/
structure Fan where
  Tt5 : ℝ
  Pt5 : ℝ
  Pt9 : ℝ
  M9 : ℝ
  V9 : ℝ
  Tt17 : ℝ
  Pt17 : ℝ
  Tt19 : ℝ
  Pt19 : ℝ
  M19 : ℝ
  V19 : ℝ

/-- A `turbofan_adapt` object. -/
structure Obj where
  params : Params
  xi_nozzle : ℝ
  bpr : ℝ
  etapolfan : ℝ
  etapolTBP : ℝ
  fanpower_ratio : ℝ
  flight : Option Flight
  res : Option (Gen × Fan)

/-- `turbofan_adapt.__init__` (`turbofan.py:50-59`): `xi_nozzle` is *not* handed to
`turbojet_opt.__init__`, whose default `1.` is stored. -/
noncomputable def new (a : Args) : Obj :=
  { params := a.toArgs.params, xi_nozzle := 1.0, bpr := a.bpr, etapolfan := a.etapolfan,
    etapolTBP := a.etapolTBP, fanpower_ratio := a.fanpower_ratio, flight := none, res := none }

/-- `flight_conditions` (inherited). -/
def flight_conditions (o : Obj) (f : Flight) : Obj := { o with flight := some f }

/-- `turbofan_adapt.update` (`turbofan.py:62-82`) after `tj.turbojet_opt.update`. -/
noncomputable def fan (o : Obj) (f : Flight) (g : Gen) : Py Fan := do
  let s := o.params
  let gh := s.gam_hot
  let cph ← Py.div (gh * s.r_hot) (gh - 1.0)
  let q ← Py.div g.Pt45 f.P0
  let e ← Py.div (-(gh - 1.0) * o.etapolTBP) gh
  let w ← Py.pow (q * o.xi_nozzle) e
  let Wsp_mono := (1.0 - w) * g.Tt45 * cph * (1.0 + g.far)
  let d1 ← Py.div (Wsp_mono * o.fanpower_ratio) cph
  let d ← Py.div d1 (1.0 + g.far)
  let Tt5 := g.Tt45 - d
  let u ← Py.div Tt5 g.Tt45
  let e' ← Py.div gh ((gh - 1.0) * o.etapolTBP)
  let x ← Py.pow u e'
  let Pt5 := g.Pt45 * x
  let Pt9 := Pt5 * o.xi_nozzle
  let n ← Py.div Pt9 f.P0
  let M9 ← Isentropic.Mach_PtPs n s.gam_hot
  let V9 ← Isentropic.Velocity_MachTi M9 Tt5 s.r_hot s.gam_hot
  let gc := s.gam_cold
  let cpc ← Py.div (gc * s.r_cold) (gc - 1.0)
  let d2 ← Py.div (s.eta_shaft * Wsp_mono * o.fanpower_ratio) (o.bpr * cpc)
  let Tt17 := g.Tt2 + d2
  let v ← Py.div Tt17 g.Tt2
  let e'' ← Py.div (gc * o.etapolfan) (gc - 1.0)
  let y ← Py.pow v e''
  let Pt17 := g.Pt2 * y
  let Tt19 := Tt17
  let Pt19 := Pt17 * o.xi_nozzle
  let n' ← Py.div Pt19 f.P0
  let M19 ← Isentropic.Mach_PtPs n' gc
  let V19 ← Isentropic.Velocity_MachTi M19 Tt19 s.r_cold gc
  return { Tt5, Pt5, Pt9, M9, V9, Tt17, Pt17, Tt19, Pt19, M19, V19 }

/-- `turbofan_adapt.update` (`turbofan.py:61-82`); `tj.turbojet_opt.update` is run first and its
`Pt9`, `M9`, `V9` are overwritten. -/
noncomputable def update (o : Obj) : Py Obj :=
  match o.flight with
  | none => .error .attributeError
  | some f => do
    let g ← GasGenerator.compute o.params f
    let _ ← Turbojet.nozzle o.params o.xi_nozzle f g
    let n ← fan o f g
    return { o with res := some (g, n) }

/-- Read the attributes assigned by `update`. -/
def Obj.theRes (o : Obj) : Py (Gen × Fan) :=
  match o.res with
  | none => .error .attributeError
  | some r => .ok r

/-- `Wsp_cc` (inherited). -/
def Wsp_cc (o : Obj) : Py ℝ := do
  let (g, _) ← o.theRes
  return g.far * o.params.Pci

/-- `Wsp_kinEn` (`turbofan.py:84-85`). -/
noncomputable def Wsp_kinEn (o : Obj) : Py ℝ := do
  let (g, n) ← o.theRes
  return 0.5 * ((1.0 + g.far) * n.V9 ^ 2 - g.V0 ^ 2 + o.bpr * (n.V19 ^ 2 - g.V0 ^ 2))

/-- `norm_thrust` (`turbofan.py:87-88`). -/
noncomputable def norm_thrust (o : Obj) : Py ℝ := do
  let (g, n) ← o.theRes
  return (1.0 + g.far) * n.V9 - g.V0 + o.bpr * (n.V19 - g.V0)

/-- `spec_thrust` (`turbofan.py:90-91`). -/
noncomputable def spec_thrust (o : Obj) : Py ℝ := do
  let t ← norm_thrust o
  Py.div t (1.0 + o.bpr)

/-- `self.V0` -/
def V0 (o : Obj) : Py ℝ := do
  let (g, _) ← o.theRes
  return g.V0

/-- `thermal_efficiency` (inherited, `turbojet.py:76-77`, with the overridden methods). -/
noncomputable def thermal_efficiency (o : Obj) : Py ℝ := do
  let k ← Wsp_kinEn o
  let c ← Wsp_cc o
  Py.div k c

/-- `propulsive_efficiency` (inherited, `turbojet.py:79-80`). -/
noncomputable def propulsive_efficiency (o : Obj) : Py ℝ := do
  let t ← norm_thrust o
  let v ← V0 o
  let k ← Wsp_kinEn o
  Py.div (t * v) k

/-- `thermoprop_efficiency` (inherited, `turbojet.py:82-83`). -/
noncomputable def thermoprop_efficiency (o : Obj) : Py ℝ := do
  let t ← norm_thrust o
  let v ← V0 o
  let c ← Wsp_cc o
  Py.div (t * v) c

/-- `Sfc` (inherited, `turbojet.py:85-86`). -/
noncomputable def Sfc (o : Obj) : Py ℝ := do
  let (g, _) ← o.theRes
  let t ← norm_thrust o
  Py.div g.far t

end Aerokit.Turbofan
