import Verif.Model.Isentropic
import Verif.Model.LinOperator

/-!
# Model of `aerokit/engine/Cycle_Turbofan.py`

Each stage method tests the progress counters `current_stage_corps`, `current_stage_fan`, computes
attributes from attributes stored by earlier stages, and moves a counter.  The attributes assigned
by one stage are grouped in a record (`none` before the stage has run); reading an attribute of an
absent record raises `AttributeError`.  The arithmetic of a stage is a separate function (`val…`),
the stage itself tests, reads, stores.

Simplifications: a stage that fails stores nothing (in Python the attributes computed before the
failing line are stored, but the counter does not move and a later run of the stage overwrites
them).  Printed messages are not modelled, except that `show_perfo` reads the performances.
`show_attributes` is not modelled.  Direct assignments to attributes by the user are not modelled.
-/

namespace Aerokit.Cycle

open LinOperator (Meth)

/-- class `Gaz` (`Cycle_Turbofan.py:31-38`). -/
structure Gaz where
  gamma : ℝ
  r : ℝ
  P_k : ℝ
  gsgmu : ℝ
  gmusg : ℝ

/-- `Gaz.__init__` (`Cycle_Turbofan.py:33-38`). -/
noncomputable def Gaz.new (gamma r P_k : ℝ) : Py Gaz := do
  let gsgmu ← Py.div gamma (gamma - 1.0)
  let gmusg ← Py.div (gamma - 1.0) gamma
  return { gamma, r, P_k, gsgmu, gmusg }

/-- `Gaz.get_cp` (`Cycle_Turbofan.py:40-41`). -/
noncomputable def Gaz.get_cp (g : Gaz) : Py ℝ := Py.div (g.r * g.gamma) (g.gamma - 1.0)

/-! Class attributes of `cycle_1_to_4` (`Cycle_Turbofan.py:73-84`). -/
/-- `P0` (`Cycle_Turbofan.py:73`) -/ noncomputable def P0 : ℝ := 227.00e2
/-- `T0` (`Cycle_Turbofan.py:74`) -/ noncomputable def T0 : ℝ := 217.00
/-- `M0` (`Cycle_Turbofan.py:75`) -/ noncomputable def M0 : ℝ := 0.8
/-- `xi_e` (`Cycle_Turbofan.py:77`) -/ noncomputable def xi_e : ℝ := 0.97
/-- `eta_c` (`Cycle_Turbofan.py:78`) -/ noncomputable def eta_c : ℝ := 0.90
/-- `eta_f` (`Cycle_Turbofan.py:79`) -/ noncomputable def eta_f : ℝ := 0.89
/-- `eta_comb` (`Cycle_Turbofan.py:80`) -/ noncomputable def eta_comb : ℝ := 0.99
/-- `xi_cc` (`Cycle_Turbofan.py:81`) -/ noncomputable def xi_cc : ℝ := 0.95
/-- `eta_m` (`Cycle_Turbofan.py:82`) -/ noncomputable def eta_m : ℝ := 0.98
/-- `eta_turb` (`Cycle_Turbofan.py:83`) -/ noncomputable def eta_turb : ℝ := 0.88
/-- `xi_tuy` (`Cycle_Turbofan.py:84`) -/ noncomputable def xi_tuy : ℝ := 0.97

/-- Attributes assigned by `cycle_1_to_4.__init__` (`Cycle_Turbofan.py:87-92`). -/
structure Inp where
  lambda : ℝ
  pi_c : ℝ
  Tt4 : ℝ
  m : ℝ
  g : Gaz
  g_fuel : Gaz

/-- attributes of `InitialValues` -/
structure S0 where
  Pt0 : ℝ
  Tt0 : ℝ
  V0 : ℝ
/-- attributes of `stage_2` -/
structure S2 where
  Tt2 : ℝ
  Pt2 : ℝ
/-- attributes of `stage_3` -/
structure S3 where
  m_c : ℝ
  Tt3 : ℝ
  Pt3 : ℝ
  wu_c : ℝ
/-- attributes of `stage_4` -/
structure S4 where
  m_k : ℝ
  alpha : ℝ
  Pt4 : ℝ

/-- arithmetic of `InitialValues` (`Cycle_Turbofan.py:101-103`) -/
noncomputable def val0 (i : Inp) : Py S0 := do
  let p ← Isentropic.PtPs_Mach M0 i.g.gamma
  let t ← Isentropic.TtTs_Mach M0 i.g.gamma
  let a ← Py.sqrt (i.g.gamma * i.g.r * T0)
  return { Pt0 := P0 * p, Tt0 := T0 * t, V0 := M0 * a }

/-- arithmetic of `stage_2` (`Cycle_Turbofan.py:108-109`) -/
noncomputable def val2 (s0 : S0) : Py S2 := return { Tt2 := s0.Tt0, Pt2 := s0.Pt0 * xi_e }

/-- arithmetic of `stage_3` (`Cycle_Turbofan.py:116-119`) -/
noncomputable def val3 (i : Inp) (s2 : S2) : Py S3 := do
  let m_c ← Py.div i.m (i.lambda + 1.0)
  let e ← Py.div i.g.gmusg eta_c
  let q ← Py.pow i.pi_c e
  let Tt3 := s2.Tt2 * q
  let Pt3 := s2.Pt2 * i.pi_c
  let cp ← i.g.get_cp
  return { m_c, Tt3, Pt3, wu_c := m_c * cp * (Tt3 - s2.Tt2) }

/-- arithmetic of `stage_4` (`Cycle_Turbofan.py:124-126`) -/
noncomputable def val4 (i : Inp) (s3 : S3) : Py S4 := do
  let cpf ← i.g_fuel.get_cp
  let cp ← i.g.get_cp
  let q ← Py.div (cpf * i.Tt4 - cp * s3.Tt3) (eta_comb * i.g_fuel.P_k - cpf * i.Tt4)
  let m_k := s3.m_c * q
  let alpha ← Py.div m_k s3.m_c
  return { m_k, alpha, Pt4 := s3.Pt3 * xi_cc }

/-- A `cycle_1_to_4` object. -/
structure Base where
  inp : Inp
  corps : ℕ
  s0 : Option S0
  s2 : Option S2
  s3 : Option S3
  s4 : Option S4

/-- `cycle_1_to_4.__init__` (`Cycle_Turbofan.py:86-93`). -/
def Base.new (i : Inp) : Base := ⟨i, 0, none, none, none, none⟩

/-- Read the attributes of a stage. -/
def attr {σ α : Type} (f : σ → Option α) : Meth σ α := fun s =>
  match f s with
  | some a => (.ok a, s)
  | none => (.error .attributeError, s)

/-- `if <test on self>: m()` -/
def cond {σ : Type} (p : σ → Prop) [DecidablePred p] (m : Meth σ Unit) : Meth σ Unit := fun s =>
  if p s then m s else (.ok (), s)

/-- `InitialValues` (`Cycle_Turbofan.py:100-104`). -/
noncomputable def InitialValues : Meth Base Unit := do
  let i ← Meth.get Base.inp
  let v ← Meth.lift (val0 i)
  Meth.modify fun b => { b with s0 := some v, corps := 1 }

/-- `stage_2` (`Cycle_Turbofan.py:106-112`). -/
noncomputable def stage_2 : Meth Base Unit := do
  cond (fun b => b.corps = 1) do
    let s0 ← attr Base.s0
    let v ← Meth.lift (val2 s0)
    Meth.modify fun b => { b with s2 := some v, corps := 2 }

/-- `stage_3` (`Cycle_Turbofan.py:114-120`). -/
noncomputable def stage_3 : Meth Base Unit := do
  cond (fun b => b.corps = 2) do
    let i ← Meth.get Base.inp
    let s2 ← attr Base.s2
    let v ← Meth.lift (val3 i s2)
    Meth.modify fun b => { b with s3 := some v, corps := 3 }

/-- `stage_4` (`Cycle_Turbofan.py:122-127`). -/
noncomputable def stage_4 : Meth Base Unit := do
  cond (fun b => b.corps = 3) do
    let i ← Meth.get Base.inp
    let s3 ← attr Base.s3
    let v ← Meth.lift (val4 i s3)
    Meth.modify fun b => { b with s4 := some v, corps := 4 }

/-- `calculs_1_to_4` (`Cycle_Turbofan.py:129-143`): the tests are sequential `if`s. -/
noncomputable def calculs_1_to_4 : Meth Base Unit := do
  cond (fun b : Base => b.corps = 0) do
    InitialValues
    stage_2
    stage_3
    stage_4
  cond (fun b : Base => b.corps = 1) do
    stage_2
    stage_3
    stage_4
  cond (fun b : Base => b.corps = 2) do
    stage_3
    stage_4
  cond (fun b : Base => b.corps = 3) stage_4

/-- attributes of `stage_19` (both classes) -/
structure S19 where
  Pt19 : ℝ
  Tt19 : ℝ
  M19 : ℝ
  V19 : ℝ
  F_f : ℝ
/-- attributes of `stage_9` (both classes) -/
structure S9 where
  Tt9 : ℝ
  Pt9 : ℝ
  M9 : ℝ
  V9 : ℝ
  F_c : ℝ
/-- attributes of `perfo` (both classes) -/
structure Perf where
  F : ℝ
  F_spe : ℝ
  mk_spe : ℝ
  eta_th : ℝ
  eta_prop : ℝ
  eta : ℝ

/-- arithmetic of `stage_19` (`Cycle_Turbofan.py:188-193` and `310-316`) -/
noncomputable def val19 (i : Inp) (s0 : S0) (m_f Tt13 Pt13 : ℝ) : Py S19 := do
  let Pt19 := Pt13 * xi_tuy
  let Tt19 := Tt13
  let P19 := P0
  let n ← Py.div Pt19 P19
  let M19 ← Isentropic.Mach_PtPs n i.g.gamma
  let V19 ← Isentropic.Velocity_MachTi M19 Tt19 i.g.r i.g.gamma
  return { Pt19, Tt19, M19, V19, F_f := m_f * (V19 - s0.V0) }

/-- arithmetic of `stage_9` (`Cycle_Turbofan.py:205-210` and `291-297`) -/
noncomputable def val9 (i : Inp) (s0 : S0) (s3 : S3) (Tt5 Pt5 : ℝ) : Py S9 := do
  let Tt9 := Tt5
  let Pt9 := Pt5 * xi_tuy
  let P9 := P0
  let n ← Py.div Pt9 P9
  let M9 ← Isentropic.Mach_PtPs n i.g_fuel.gamma
  let V9 ← Isentropic.Velocity_MachTi M9 Tt9 i.g_fuel.r i.g_fuel.gamma
  return { Tt9, Pt9, M9, V9, F_c := s3.m_c * (V9 - s0.V0) }

/-- arithmetic of `perfo` (`Cycle_Turbofan.py:215-222` and `321-328`) -/
noncomputable def valP (i : Inp) (s0 : S0) (s3 : S3) (s4 : S4) (m_f : ℝ) (s19 : S19) (s9 : S9) :
    Py Perf := do
  let F := s19.F_f + s9.F_c
  let F_spe ← Py.div F i.m
  let k ← Py.div s4.m_k F
  let mk_spe := k * 10e6
  let Qf := i.g_fuel.P_k * s4.m_k
  let delta_E := 0.5 * (s3.m_c * ((1.0 + s4.alpha) * s9.V9 ^ 2 - s0.V0 ^ 2) + m_f * (s19.V19 ^ 2 - s0.V0 ^ 2))
  let eta_th ← Py.div delta_E Qf
  let eta_prop ← Py.div (F * s0.V0) delta_E
  return { F, F_spe, mk_spe, eta_th, eta_prop, eta := eta_th * eta_prop }

/-! ### `cycle_taux_fan_fixe` -/

/-- attributes of `stage_13` -/
structure S13 where
  m_f : ℝ
  Tt13 : ℝ
  Pt13 : ℝ
  wu_f : ℝ
/-- attributes of `stage_5` -/
structure S5 where
  Tt5 : ℝ
  pi_t : ℝ
  Pt5 : ℝ

/-- arithmetic of `stage_13` (`Cycle_Turbofan.py:180-183`); the efficiency is `eta_c`. -/
noncomputable def val13 (i : Inp) (pi_f : ℝ) (s2 : S2) : Py S13 := do
  let m_f ← Py.div (i.m * i.lambda) (i.lambda + 1.0)
  let e ← Py.div i.g.gmusg eta_c
  let q ← Py.pow pi_f e
  let Tt13 := s2.Tt2 * q
  let Pt13 := s2.Pt2 * pi_f
  let cp ← i.g.get_cp
  return { m_f, Tt13, Pt13, wu_f := m_f * cp * (Tt13 - s2.Tt2) }

/-- arithmetic of `stage_5` (`Cycle_Turbofan.py:198-200`) -/
noncomputable def val5 (i : Inp) (s3 : S3) (s4 : S4) (s13 : S13) : Py S5 := do
  let cpf ← i.g_fuel.get_cp
  let d ← Py.div (s13.wu_f + s3.wu_c) (s3.m_c * (1.0 + s4.alpha) * cpf * eta_m)
  let Tt5 := i.Tt4 - d
  let u ← Py.div i.Tt4 Tt5
  let e ← Py.div i.g_fuel.gsgmu eta_turb
  let pi_t ← Py.pow u e
  let Pt5 ← Py.div s4.Pt4 pi_t
  return { Tt5, pi_t, Pt5 }

/-- A `cycle_taux_fan_fixe` object. -/
structure Fixe where
  base : Base
  pi_f : ℝ
  fan : ℕ
  s13 : Option S13
  s19 : Option S19
  s5 : Option S5
  s9 : Option S9
  perf : Option Perf

namespace Fixe

/-- a method of the base class -/
def inherit (m : Meth Base Unit) : Meth Fixe Unit := fun o =>
  ((m o.base).1, { o with base := (m o.base).2 })

/-- `stage_13` (`Cycle_Turbofan.py:178-184`). -/
noncomputable def stage_13 : Meth Fixe Unit := do
  cond (fun o : Fixe => 2 ≤ o.base.corps) do
    let i ← Meth.get fun o : Fixe => o.base.inp
    let p ← Meth.get Fixe.pi_f
    let s2 ← attr fun o : Fixe => o.base.s2
    let v ← Meth.lift (val13 i p s2)
    Meth.modify fun o => { o with s13 := some v, fan := 13 }

/-- `stage_19` (`Cycle_Turbofan.py:186-194`). -/
noncomputable def stage_19 : Meth Fixe Unit := do
  cond (fun o : Fixe => o.fan = 13) do
    let i ← Meth.get fun o : Fixe => o.base.inp
    let s13 ← attr Fixe.s13
    let s0 ← attr fun o : Fixe => o.base.s0
    let v ← Meth.lift (val19 i s0 s13.m_f s13.Tt13 s13.Pt13)
    Meth.modify fun o => { o with s19 := some v, fan := 19 }

/-- `stage_5` (`Cycle_Turbofan.py:196-201`). -/
noncomputable def stage_5 : Meth Fixe Unit := do
  cond (fun o : Fixe => o.base.corps = 4 ∧ 13 ≤ o.fan) do
    let i ← Meth.get fun o : Fixe => o.base.inp
    let s13 ← attr Fixe.s13
    let s3 ← attr fun o : Fixe => o.base.s3
    let s4 ← attr fun o : Fixe => o.base.s4
    let v ← Meth.lift (val5 i s3 s4 s13)
    Meth.modify fun o => { o with s5 := some v, base := { o.base with corps := 5 } }

/-- `stage_9` (`Cycle_Turbofan.py:203-211`). -/
noncomputable def stage_9 : Meth Fixe Unit := do
  cond (fun o : Fixe => o.base.corps = 5) do
    let i ← Meth.get fun o : Fixe => o.base.inp
    let s5 ← attr Fixe.s5
    let s3 ← attr fun o : Fixe => o.base.s3
    let s0 ← attr fun o : Fixe => o.base.s0
    let v ← Meth.lift (val9 i s0 s3 s5.Tt5 s5.Pt5)
    Meth.modify fun o => { o with s9 := some v, base := { o.base with corps := 9 } }

/-- `perfo` (`Cycle_Turbofan.py:213-222`). -/
noncomputable def perfo : Meth Fixe Unit := do
  cond (fun o : Fixe => o.base.corps = 9 ∧ o.fan = 19) do
    let i ← Meth.get fun o : Fixe => o.base.inp
    let s19 ← attr Fixe.s19
    let s9 ← attr Fixe.s9
    let s0 ← attr fun o : Fixe => o.base.s0
    let s3 ← attr fun o : Fixe => o.base.s3
    let s4 ← attr fun o : Fixe => o.base.s4
    let s13 ← attr Fixe.s13
    let v ← Meth.lift (valP i s0 s3 s4 s13.m_f s19 s9)
    Meth.modify fun o => { o with perf := some v }

/-- `show_perfo` (`Cycle_Turbofan.py:224-231`): prints the performances, here returned
(`none`: nothing printed). -/
def show_perfo : Meth Fixe (Option Perf) := do
  let c ← Meth.get fun o : Fixe => o.base.corps
  let f ← Meth.get Fixe.fan
  if f = 19 ∧ c = 9 then do
    let p ← attr Fixe.perf
    pure (some p)
  else pure none

/-- `calculs_5_to_9` (`Cycle_Turbofan.py:233-253`). -/
noncomputable def calculs_5_to_9 : Meth Fixe Unit := do
  cond (fun o : Fixe => o.fan = 0) do
    stage_13
    stage_19
    stage_5
    stage_9
    perfo
  cond (fun o : Fixe => o.fan = 13) do
    stage_19
    stage_5
    stage_9
    perfo
  cond (fun o : Fixe => o.fan = 19) do
    stage_5
    stage_9
    perfo
  cond (fun o : Fixe => o.base.corps = 5) do
    stage_9
    perfo
  cond (fun o : Fixe => o.fan = 19 ∧ o.base.corps = 9) perfo

/-- `cycle_taux_fan_fixe.__init__` (`Cycle_Turbofan.py:171-176`). -/
noncomputable def new (i : Inp) (pi_f : ℝ) : Py Unit × Fixe :=
  inherit calculs_1_to_4 ⟨Base.new i, pi_f, 0, none, none, none, none, none⟩

end Fixe

/-! ### `cycle_taux_fan_calcule` -/

/-- attributes of `stage_4_etoile` -/
structure S4e where
  Tt4_etoile : ℝ
  pi_t_c : ℝ
  Pt4_etoile : ℝ
/-- attributes of `stage_5` -/
structure S5c where
  wu_fan : ℝ
  Tt5 : ℝ
  pi_t_f : ℝ
  Pt5 : ℝ
/-- attributes of `stage_13` -/
structure S13c where
  m_f : ℝ
  Tt13 : ℝ
  pi_f : ℝ
  Pt13 : ℝ

/-- arithmetic of `stage_4_etoile` (`Cycle_Turbofan.py:273-275`) -/
noncomputable def val4e (i : Inp) (s3 : S3) (s4 : S4) : Py S4e := do
  let cpf ← i.g_fuel.get_cp
  let d ← Py.div s3.wu_c (s3.m_c * (1.0 + s4.alpha) * cpf * eta_m)
  let Tt4_etoile := i.Tt4 - d
  let u ← Py.div i.Tt4 Tt4_etoile
  let e ← Py.div i.g_fuel.gsgmu eta_turb
  let pi_t_c ← Py.pow u e
  let Pt4_etoile ← Py.div s4.Pt4 pi_t_c
  return { Tt4_etoile, pi_t_c, Pt4_etoile }

/-- arithmetic of `stage_5` (`Cycle_Turbofan.py:280-286`) -/
noncomputable def val5c (i : Inp) (taux_meca : ℝ) (s3 : S3) (s4 : S4) (s4e : S4e) : Py S5c := do
  let P5 := P0
  let q ← Py.div P5 s4e.Pt4_etoile
  let w ← Py.pow q i.g_fuel.gmusg
  let T5 := s4e.Tt4_etoile * w
  let cpf ← i.g_fuel.get_cp
  let w_uf_theo := s3.m_c * (1.0 + s4.alpha) * cpf * (T5 - s4e.Tt4_etoile)
  let wu_fan := w_uf_theo * taux_meca
  let d ← Py.div wu_fan (cpf * s3.m_c * (1.0 + s4.alpha))
  let Tt5 := d + s4e.Tt4_etoile
  let u ← Py.div s4e.Tt4_etoile Tt5
  let e ← Py.div i.g_fuel.gsgmu eta_turb
  let pi_t_f ← Py.pow u e
  let Pt5 ← Py.div s4e.Pt4_etoile pi_t_f
  return { wu_fan, Tt5, pi_t_f, Pt5 }

/-- arithmetic of `stage_13` (`Cycle_Turbofan.py:302-305`) -/
noncomputable def val13c (i : Inp) (s2 : S2) (s5 : S5c) : Py S13c := do
  let m_f ← Py.div (i.lambda * i.m) (i.lambda + 1.0)
  let cp ← i.g.get_cp
  let d ← Py.div (-s5.wu_fan * eta_m) (m_f * cp)
  let Tt13 := d + s2.Tt2
  let u ← Py.div Tt13 s2.Tt2
  let pi_f ← Py.pow u (eta_f * i.g.gsgmu)
  return { m_f, Tt13, pi_f, Pt13 := s2.Pt2 * pi_f }

/-- A `cycle_taux_fan_calcule` object. -/
structure Calcule where
  base : Base
  taux_meca : ℝ
  fan : ℕ
  s4e : Option S4e
  s5 : Option S5c
  s9 : Option S9
  s13 : Option S13c
  s19 : Option S19
  perf : Option Perf

namespace Calcule

/-- a method of the base class -/
def inherit (m : Meth Base Unit) : Meth Calcule Unit := fun o =>
  ((m o.base).1, { o with base := (m o.base).2 })

/-- `stage_4_etoile` (`Cycle_Turbofan.py:271-276`). -/
noncomputable def stage_4_etoile : Meth Calcule Unit := do
  cond (fun o : Calcule => o.base.corps = 4) do
    let i ← Meth.get fun o : Calcule => o.base.inp
    let s3 ← attr fun o : Calcule => o.base.s3
    let s4 ← attr fun o : Calcule => o.base.s4
    let v ← Meth.lift (val4e i s3 s4)
    Meth.modify fun o => { o with s4e := some v, base := { o.base with corps := 5 } }

/-- `stage_5` (`Cycle_Turbofan.py:278-287`). -/
noncomputable def stage_5 : Meth Calcule Unit := do
  cond (fun o : Calcule => o.base.corps = 5) do
    let i ← Meth.get fun o : Calcule => o.base.inp
    let t ← Meth.get Calcule.taux_meca
    let s4e ← attr Calcule.s4e
    let s3 ← attr fun o : Calcule => o.base.s3
    let s4 ← attr fun o : Calcule => o.base.s4
    let v ← Meth.lift (val5c i t s3 s4 s4e)
    Meth.modify fun o => { o with s5 := some v, base := { o.base with corps := 6 } }

/-- `stage_9` (`Cycle_Turbofan.py:289-298`). -/
noncomputable def stage_9 : Meth Calcule Unit := do
  cond (fun o : Calcule => o.base.corps = 6) do
    let i ← Meth.get fun o : Calcule => o.base.inp
    let s5 ← attr Calcule.s5
    let s3 ← attr fun o : Calcule => o.base.s3
    let s0 ← attr fun o : Calcule => o.base.s0
    let v ← Meth.lift (val9 i s0 s3 s5.Tt5 s5.Pt5)
    Meth.modify fun o => { o with s9 := some v, base := { o.base with corps := 9 } }

/-- `stage_13` (`Cycle_Turbofan.py:300-306`). -/
noncomputable def stage_13 : Meth Calcule Unit := do
  cond (fun o : Calcule => 6 ≤ o.base.corps) do
    let i ← Meth.get fun o : Calcule => o.base.inp
    let s5 ← attr Calcule.s5
    let s2 ← attr fun o : Calcule => o.base.s2
    let v ← Meth.lift (val13c i s2 s5)
    Meth.modify fun o => { o with s13 := some v, fan := 13 }

/-- `stage_19` (`Cycle_Turbofan.py:308-317`). -/
noncomputable def stage_19 : Meth Calcule Unit := do
  cond (fun o : Calcule => o.fan = 13) do
    let i ← Meth.get fun o : Calcule => o.base.inp
    let s13 ← attr Calcule.s13
    let s0 ← attr fun o : Calcule => o.base.s0
    let v ← Meth.lift (val19 i s0 s13.m_f s13.Tt13 s13.Pt13)
    Meth.modify fun o => { o with s19 := some v, fan := 19 }

/-- `perfo` (`Cycle_Turbofan.py:319-329`; the returned tuple is the stored record). -/
noncomputable def perfo : Meth Calcule Unit := do
  cond (fun o : Calcule => o.base.corps = 9 ∧ o.fan = 19) do
    let i ← Meth.get fun o : Calcule => o.base.inp
    let s19 ← attr Calcule.s19
    let s9 ← attr Calcule.s9
    let s0 ← attr fun o : Calcule => o.base.s0
    let s3 ← attr fun o : Calcule => o.base.s3
    let s4 ← attr fun o : Calcule => o.base.s4
    let s13 ← attr Calcule.s13
    let v ← Meth.lift (valP i s0 s3 s4 s13.m_f s19 s9)
    Meth.modify fun o => { o with perf := some v }

/-- `show_perfo` (`Cycle_Turbofan.py:331-338`). -/
def show_perfo : Meth Calcule (Option Perf) := do
  let c ← Meth.get fun o : Calcule => o.base.corps
  let f ← Meth.get Calcule.fan
  if f = 19 ∧ c = 9 then do
    let p ← attr Calcule.perf
    pure (some p)
  else pure none

/-- `calculs_5_to_9` (`Cycle_Turbofan.py:341-369`). -/
noncomputable def calculs_5_to_9 : Meth Calcule Unit := do
  cond (fun o : Calcule => o.base.corps = 4) do
    stage_4_etoile
    stage_5
    stage_9
    stage_13
    stage_19
    perfo
  cond (fun o : Calcule => o.base.corps = 5) do
    stage_5
    stage_9
    stage_13
    stage_19
    perfo
  cond (fun o : Calcule => o.base.corps = 6) do
    stage_9
    stage_13
    stage_19
    perfo
  cond (fun o : Calcule => o.base.corps = 9) do
    stage_13
    stage_19
    perfo
  cond (fun o : Calcule => o.fan = 13) do
    stage_19
    perfo
  cond (fun o : Calcule => o.fan = 19 ∧ o.base.corps = 9) perfo

/-- `cycle_taux_fan_calcule.__init__` (`Cycle_Turbofan.py:264-269`). -/
noncomputable def new (i : Inp) (taux_meca : ℝ) : Py Unit × Calcule :=
  inherit calculs_1_to_4 ⟨Base.new i, taux_meca, 0, none, none, none, none, none, none⟩

end Calcule

end Aerokit.Cycle
