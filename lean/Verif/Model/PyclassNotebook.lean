import Verif.Model.CycleTurbofan

/-!
# Model of `notebooks/Turbofan_pyclass_design.ipynb`

The notebook builds the classes of `Cycle_Turbofan.py` (cells 6, 9, 14, 16), evaluates two engines
with them (cell 18), and evaluates the same engines with the classes of the package (cell 20).
Cells 6 and 9, and all the methods of cells 14 and 16 except `stage_9`, have the same text as the
package (`Model/CycleTurbofan.lean`; the constructors of the two subclasses assign the attributes
themselves instead of calling the one of the base class, with the same effect); those definitions
are reused.  `stage_9` passes `self.g_fuel.r` in place of `self.g_fuel.gamma` to
`Is.Velocity_MachTi`.

Simplifications: those of `Model/CycleTurbofan.lean`.
-/

namespace Aerokit.Pyclass

open Cycle
open LinOperator (Meth)

/-- arithmetic of `stage_9` (`Turbofan_pyclass_design.ipynb`, cell 14 and cell 16, `stage_9`):
`V9 = Is.Velocity_MachTi(self.M9, self.Tt9, self.g_fuel.r, self.g_fuel.r)`. -/
noncomputable def val9 (i : Inp) (s0 : S0) (s3 : S3) (Tt5 Pt5 : ℝ) : Py S9 := do
  let Tt9 := Tt5
  let Pt9 := Pt5 * xi_tuy
  let P9 := P0
  let n ← Py.div Pt9 P9
  let M9 ← Isentropic.Mach_PtPs n i.g_fuel.gamma
  let V9 ← Isentropic.Velocity_MachTi M9 Tt9 i.g_fuel.r i.g_fuel.r
  return { Tt9, Pt9, M9, V9, F_c := s3.m_c * (V9 - s0.V0) }

namespace Fixe

/-- `stage_9` (`Turbofan_pyclass_design.ipynb`, cell 14). -/
noncomputable def stage_9 : Meth Fixe Unit := do
  cond (fun o : Fixe => o.base.corps = 5) do
    let i ← Meth.get fun o : Fixe => o.base.inp
    let s5 ← attr Fixe.s5
    let s3 ← attr fun o : Fixe => o.base.s3
    let s0 ← attr fun o : Fixe => o.base.s0
    let v ← Meth.lift (val9 i s0 s3 s5.Tt5 s5.Pt5)
    Meth.modify fun o => { o with s9 := some v, base := { o.base with corps := 9 } }

/-- `calculs_5_to_9` (`Turbofan_pyclass_design.ipynb`, cell 14). -/
noncomputable def calculs_5_to_9 : Meth Fixe Unit := do
  cond (fun o : Fixe => o.fan = 0) do
    Cycle.Fixe.stage_13
    Cycle.Fixe.stage_19
    Cycle.Fixe.stage_5
    stage_9
    Cycle.Fixe.perfo
  cond (fun o : Fixe => o.fan = 13) do
    Cycle.Fixe.stage_19
    Cycle.Fixe.stage_5
    stage_9
    Cycle.Fixe.perfo
  cond (fun o : Fixe => o.fan = 19) do
    Cycle.Fixe.stage_5
    stage_9
    Cycle.Fixe.perfo
  cond (fun o : Fixe => o.base.corps = 5) do
    stage_9
    Cycle.Fixe.perfo
  cond (fun o : Fixe => o.fan = 19 ∧ o.base.corps = 9) Cycle.Fixe.perfo

end Fixe

namespace Calcule

/-- `stage_9` (`Turbofan_pyclass_design.ipynb`, cell 16). -/
noncomputable def stage_9 : Meth Calcule Unit := do
  cond (fun o : Calcule => o.base.corps = 6) do
    let i ← Meth.get fun o : Calcule => o.base.inp
    let s5 ← attr Calcule.s5
    let s3 ← attr fun o : Calcule => o.base.s3
    let s0 ← attr fun o : Calcule => o.base.s0
    let v ← Meth.lift (val9 i s0 s3 s5.Tt5 s5.Pt5)
    Meth.modify fun o => { o with s9 := some v, base := { o.base with corps := 9 } }

/-- `calculs_5_to_9` (`Turbofan_pyclass_design.ipynb`, cell 16). -/
noncomputable def calculs_5_to_9 : Meth Calcule Unit := do
  cond (fun o : Calcule => o.base.corps = 4) do
    Cycle.Calcule.stage_4_etoile
    Cycle.Calcule.stage_5
    stage_9
    Cycle.Calcule.stage_13
    Cycle.Calcule.stage_19
    Cycle.Calcule.perfo
  cond (fun o : Calcule => o.base.corps = 5) do
    Cycle.Calcule.stage_5
    stage_9
    Cycle.Calcule.stage_13
    Cycle.Calcule.stage_19
    Cycle.Calcule.perfo
  cond (fun o : Calcule => o.base.corps = 6) do
    stage_9
    Cycle.Calcule.stage_13
    Cycle.Calcule.stage_19
    Cycle.Calcule.perfo
  cond (fun o : Calcule => o.base.corps = 9) do
    Cycle.Calcule.stage_13
    Cycle.Calcule.stage_19
    Cycle.Calcule.perfo
  cond (fun o : Calcule => o.fan = 13) do
    Cycle.Calcule.stage_19
    Cycle.Calcule.perfo
  cond (fun o : Calcule => o.fan = 19 ∧ o.base.corps = 9) Cycle.Calcule.perfo

end Calcule

/-- `c = …(…)`, `c.calculs_5_to_9()`, `c.show_perfo()`: an engine is built, evaluated and shown, an
exception stopping the cell. -/
def show_engine {σ : Type} (new : Py Unit × σ) (calculs : Meth σ Unit) (show_perfo : Meth σ (Option Perf)) :
    Py (Option Perf) :=
  match new with
  | (.error e, _) => .error e
  | (.ok _, o) => ((do calculs; show_perfo : Meth σ (Option Perf)) o).1

/-- the engine with a given fan, cell 18 (`c1`) with any arguments -/
noncomputable def cell18_fixe (i : Inp) (pi_f : ℝ) : Py (Option Perf) :=
  show_engine (Cycle.Fixe.new i pi_f) Fixe.calculs_5_to_9 Cycle.Fixe.show_perfo

/-- the same engine, cell 20 -/
noncomputable def cell20_fixe (i : Inp) (pi_f : ℝ) : Py (Option Perf) :=
  show_engine (Cycle.Fixe.new i pi_f) Cycle.Fixe.calculs_5_to_9 Cycle.Fixe.show_perfo

/-- the engine with a computed fan, cell 18 (`c2`) with any arguments -/
noncomputable def cell18_calcule (i : Inp) (taux_meca : ℝ) : Py (Option Perf) :=
  show_engine (Cycle.Calcule.new i taux_meca) Calcule.calculs_5_to_9 Cycle.Calcule.show_perfo

/-- the same engine, cell 20 -/
noncomputable def cell20_calcule (i : Inp) (taux_meca : ℝ) : Py (Option Perf) :=
  show_engine (Cycle.Calcule.new i taux_meca) Cycle.Calcule.calculs_5_to_9 Cycle.Calcule.show_perfo

end Aerokit.Pyclass
