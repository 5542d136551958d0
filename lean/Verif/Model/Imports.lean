import Verif.Model.Py
import Mathlib.Data.List.Basic

/-! # Model of the import statements of the package

Every `.py` file under `/repo/aerokit`, its parent package and its module-level import statements, and
Python's import algorithm (`sys.modules`, parents first, entry inserted before the body is executed
and removed when the body raises).  Only imports are modelled, not the rest of the module bodies
(constants, `def`, `class`, which do not raise). -/

namespace Aerokit.Imports

/-- the modules of the package (`/repo/aerokit/**/*.py`); `instance` is a namespace package (it has no
`__init__.py`). -/
inductive Mod
  | aerokit | aero | common | engine | stability | plot | instancePkg
  | CompressibleFlow | Fanno | Isentropic | IterativeSolve | MassFlow | Propulsion | Rayleigh | ShockWave
  | Supersonic | ThermoKerosen | ThermoRealGas | degree | model1D | aeroNozzle | refstate | aeroRiemann
  | unsteady1D | defaultstyle | isentropicpolar | shockpolar
  | dev | ode | defaultgas | dicovar | extendvar | numspectral
  | Cycle_Turbofan | gasgenerator | propu_be | propu_be_double_corps | turbofan | turbojet
  | nozzle | riemann | unsteady_inflow
  | base | OrrSommerfeld | Euler
  deriving DecidableEq, Repr

/-- third-party and standard library packages -/
inductive Third
  | numpy | scipy | matplotlib | stdlib
  deriving DecidableEq, Repr

/-- target of one import -/
inductive Imp
  /-- a module of the package -/
  | own (m : Mod)
  /-- a third-party package -/
  | third (t : Third)
  /-- `from m import name` -/
  | attr (m : Mod) (name : String)
  /-- a name that designates no file of the package, found only if it is on the user's `sys.path` -/
  | elsewhere (name : String)
  deriving DecidableEq, Repr

/-- enclosing package -/
def parent : Mod → Option Mod
  | .aerokit => none
  | .aero | .common | .engine | .stability | .instancePkg => some .aerokit
  | .plot | .CompressibleFlow | .Fanno | .Isentropic | .IterativeSolve | .MassFlow | .Propulsion
  | .Rayleigh | .ShockWave | .Supersonic | .ThermoKerosen | .ThermoRealGas | .degree | .model1D
  | .aeroNozzle | .refstate | .aeroRiemann | .unsteady1D => some .aero
  | .defaultstyle | .isentropicpolar | .shockpolar => some .plot
  | .dev | .ode | .defaultgas | .dicovar | .extendvar | .numspectral => some .common
  | .Cycle_Turbofan | .gasgenerator | .propu_be | .propu_be_double_corps | .turbofan | .turbojet =>
    some .engine
  | .nozzle | .riemann | .unsteady_inflow => some .instancePkg
  | .base | .OrrSommerfeld | .Euler => some .stability

/-- module-level import statements, in file order -/
def imports : Mod → List Imp
  | .stability => [.attr .base "LinOperator"]                                     -- stability/__init__.py:1
  | .CompressibleFlow => [.own .Isentropic, .own .Supersonic, .own .MassFlow]     -- CompressibleFlow.py:5-7
  | .Fanno => [.third .numpy]                                                     -- Fanno.py:5
  | .Isentropic => [.third .numpy, .own .defaultgas]                              -- Isentropic.py:23-24
  | .IterativeSolve => [.third .numpy, .third .stdlib]                            -- IterativeSolve.py:1-2
  | .MassFlow => [.third .numpy, .third .scipy, .own .defaultgas]                 -- MassFlow.py:5-9
  | .Propulsion => [.own .Isentropic, .own .MassFlow, .elsewhere "aerokit.IterativeSolve"]  -- Propulsion.py:4-6
  | .Rayleigh => [.third .numpy]                                                  -- Rayleigh.py:5
  | .ShockWave => [.third .stdlib, .own .IterativeSolve, .third .numpy, .own .Isentropic, .own .degree,
      .own .defaultgas, .attr .ode "_rkf45"]                                      -- ShockWave.py:5-11
  | .Supersonic => [.third .stdlib, .third .numpy, .own .IterativeSolve, .own .Isentropic, .own .degree,
      .own .defaultgas, .third .scipy]                                            -- Supersonic.py:20-26
  | .ThermoKerosen => [.third .stdlib]                                            -- ThermoKerosen.py:3
  | .ThermoRealGas => [.third .stdlib]                                            -- ThermoRealGas.py:3
  | .degree => [.third .numpy]                                                    -- degree.py:1
  | .model1D => [.third .numpy, .own .defaultgas, .own .Isentropic, .own .ShockWave, .third .stdlib] -- model1D.py:5-9
  | .aeroNozzle => [.own .nozzle]                                                 -- aero/nozzle.py:2
  | .aeroRiemann => [.own .riemann]                                               -- aero/riemann.py:2
  | .unsteady1D => [.third .stdlib, .third .numpy, .own .ShockWave, .own .model1D] -- unsteady1D.py:22-25
  | .defaultstyle => [.third .matplotlib]                                         -- defaultstyle.py:1
  | .isentropicpolar => [.third .numpy, .own .defaultgas, .own .degree, .own .Supersonic, .third .matplotlib,
      .own .defaultstyle]                                                         -- isentropicpolar.py:5-11
  | .shockpolar => [.third .numpy, .own .defaultgas, .own .degree, .own .ShockWave, .third .matplotlib,
      .attr .defaultstyle "figure_theta_pressure", .attr .defaultstyle "figure_theta_sigma"] -- shockpolar.py:5-11
  | .dev => [.third .stdlib]                                                      -- _dev.py:1
  | .ode => [.third .numpy, .third .stdlib]                                       -- _ode.py:3-4
  | .dicovar => [.third .stdlib]                                                  -- dicovar.py:50
  | .extendvar => [.elsewhere "dicovar"]                                          -- extendvar.py:16
  | .numspectral => [.third .numpy, .third .numpy, .third .scipy, .attr .dev "lazyprop"] -- numspectral.py:4-7
  | .Cycle_Turbofan => [.third .numpy, .own .Isentropic]                          -- Cycle_Turbofan.py:12-13
  | .gasgenerator => [.third .numpy, .own .defaultgas, .own .Isentropic]          -- gasgenerator.py:23-25
  | .propu_be_double_corps => [.third .matplotlib, .third .numpy, .own .Isentropic] -- propu_be_double_corps.py:5-7
  | .turbofan => [.third .stdlib, .third .numpy, .own .defaultgas, .own .Isentropic, .own .turbojet] -- turbofan.py:23-27
  | .turbojet => [.third .stdlib, .third .numpy, .own .defaultgas, .own .Isentropic, .own .gasgenerator] -- turbojet.py:23-27
  | .nozzle => [.third .numpy, .own .defaultgas, .own .Isentropic, .own .MassFlow, .own .ShockWave] -- instance/nozzle.py:17-21
  | .riemann => [.third .stdlib, .third .numpy, .third .scipy, .own .unsteady1D]  -- instance/riemann.py:18-21
  | .unsteady_inflow => [.third .stdlib, .third .numpy, .third .scipy, .own .ShockWave, .own .unsteady1D] -- unsteady_inflow.py:22-26
  | .base => [.third .numpy, .third .numpy, .third .scipy, .own .numspectral, .third .stdlib] -- stability/_base.py:1-5
  | .OrrSommerfeld => [.third .numpy, .attr .stability "LinOperator"]             -- OrrSommerfeld.py:32-33
  | .Euler => [.third .stdlib, .third .numpy, .attr .base "LinOperator", .own .model1D, .own .ShockWave] -- Euler.py:17-21
  | _ => []

/-- names defined by a module that other modules import with `from m import name` -/
def defines : Mod → List String
  | .ode => ["RK4", "_rkf45", "RKF45"]                          -- _ode.py:7, 30, 62
  | .dev => ["lazyprop"]                                        -- _dev.py:4
  | .base => ["LinOperator"]                                    -- _base.py:8
  | .stability => ["LinOperator"]                               -- stability/__init__.py:1
  | .defaultstyle => ["set_grid", "figure_theta_sigma", "figure_theta_pressure"]  -- defaultstyle.py:10-24
  | .dicovar => ["dicoVar", "setDicoVar", "printDicoVar"]       -- dicovar.py:188-203
  | .model1D => ["state"]                                       -- model1D.py:16
  | .Euler => ["Euler1D"]                                       -- Euler.py:24
  | .defaultgas => ["set_gamma", "gamma", "set_r_ideal", "r_ideal", "save_default", "restore_default"] -- defaultgas.py:6-30
  | _ => []

/-- What the user's environment provides: installed third-party packages and extra names on
`sys.path` (for instance a checkout of `aerokit/common` itself). -/
structure Env where
  installed : Third → Bool
  onPath : String → Bool

/-- the enclosing package as an import -/
def parentImp (m : Mod) : List Imp :=
  match parent m with
  | none => []
  | some p => [.own p]

mutual
/-- `import m`: new `sys.modules` and success (`true`) or `ImportError` (`false`).  First argument:
recursion depth allowed. -/
def load (e : Env) : ℕ → List Mod → Mod → List Mod × Bool
  | 0, S, _ => (S, false)
  | n + 1, S, m =>
    if m ∈ S then (S, true)
    else
      let (S, okp) := loadAll e n S (parentImp m)
      if okp = false then (S, false)
      else if m ∈ S then (S, true)
      else
        let (S', ok) := loadAll e n (m :: S) (imports m)
        if ok then (S', true) else (S'.filter (· ≠ m), false)

/-- the import statements of a module body, in order, stopping at the first failure -/
def loadAll (e : Env) : ℕ → List Mod → List Imp → List Mod × Bool
  | _, S, [] => (S, true)
  | 0, S, _ :: _ => (S, false)
  | n + 1, S, i :: is =>
    let (S, ok) := match i with
      | .own m => load e n S m
      | .third t => (S, e.installed t)
      | .attr m name =>
        let (S, ok) := load e n S m
        (S, ok && decide (name ∈ defines m))
      | .elsewhere name => (S, e.onPath name)
    if ok then loadAll e n S is else (S, false)
end

/-- the scripts shipped with the package (`/repo/examples/**/*.py`, `/repo/notebooks/*.py`) -/
inductive Script
  | fanno_diag | massflow_diag | ramjet_working | rayleigh_diag | rayleigh_heating | shockwave_polar_p | shockwave_polar | turbofan_ex
  | validation_prandtlmeyer | validation_sigma_convergence | compare_engine | os_ex | euler1d | shock_ex
  | minimum_length_nozzle | riemann_guidevane | remove_output
  deriving DecidableEq, Repr

/-- import statements of a script, in file order -/
def scriptImports : Script → List Imp
  | .fanno_diag => [.third .numpy, .third .matplotlib, .own .Fanno]                -- examples/fanno-diag.py:7-9
  | .massflow_diag => [.third .numpy, .third .matplotlib, .own .MassFlow]          -- examples/massflow-diag.py:6-8
  | .ramjet_working => [.third .numpy, .third .matplotlib, .own .MassFlow, .own .ShockWave, .own .Rayleigh] -- examples/ramjet-working.py:15-20
  | .rayleigh_diag => [.third .numpy, .third .matplotlib, .elsewhere "aero.Rayleigh"]     -- examples/rayleigh-diag.py:7-9
  | .rayleigh_heating => [.third .numpy, .third .matplotlib, .elsewhere "aero.Rayleigh"]  -- examples/rayleigh-heating.py:7-9
  | .shockwave_polar_p => [.elsewhere "aero.degree", .elsewhere "aero.CompressibleFlow", .elsewhere "aero.ShockWave", .third .numpy,
      .third .matplotlib]                                                          -- examples/shockwave-polar-p.py:7-11
  | .shockwave_polar => [.elsewhere "aero.degree", .elsewhere "aero.ShockWave", .third .numpy, .third .matplotlib] -- examples/shockwave-polar.py:7-11
  | .turbofan_ex => [.third .numpy, .own .Isentropic, .third .matplotlib, .own .turbofan] -- examples/turbofan.py:1-4
  | .validation_prandtlmeyer => [.third .numpy, .own .Supersonic, .third .matplotlib, .third .stdlib] -- examples/aero/validation_prandtlmeyer.py:1-4
  | .validation_sigma_convergence => [.third .numpy, .own .MassFlow, .third .matplotlib] -- examples/aero/validation_sigma_convergence.py:1-3
  | .compare_engine => [.third .numpy, .own .propu_be_double_corps, .own .Cycle_Turbofan] -- examples/engine/compare_engine.py:3-5
  | .os_ex => [.third .numpy, .third .scipy, .own .OrrSommerfeld, .third .matplotlib]    -- examples/stability/OS.py:1-28
  | .euler1d => [.third .numpy, .third .scipy, .third .scipy, .attr .model1D "state", .attr .Euler "Euler1D", .third .matplotlib] -- examples/stability/euler1d.py:1-41
  | .shock_ex => [.third .numpy, .third .scipy, .attr .defaultgas "set_gamma", .attr .model1D "state", .attr .Euler "Euler1D", .own .ShockWave,
      .own .Isentropic, .third .matplotlib]                                        -- examples/stability/shock.py:1-79
  | .minimum_length_nozzle => [.third .stdlib, .third .matplotlib]                 -- notebooks/Minimum_length_nozzle.py:1-2
  | .riemann_guidevane => [.third .stdlib, .own .unsteady1D, .own .aeroRiemann, .own .Isentropic, .own .MassFlow, .own .degree] -- notebooks/Riemann-GuideVane.py:7-12
  | .remove_output => [.third .stdlib, .third .stdlib, .third .stdlib, .elsewhere "nbformat.current"] -- notebooks/remove_output.py:6-9

/-- `python script.py`, the import statements only (`examples/**/*.py`, `notebooks/*.py`): `true` when all of them succeed.  `sys.modules` starts with
`S` (empty in a new process, anything in a notebook session). -/
def runImports (e : Env) (S : List Mod) (s : Script) : Bool := (loadAll e 200 S (scriptImports s)).2

end Aerokit.Imports
