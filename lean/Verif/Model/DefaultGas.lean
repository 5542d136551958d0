import Verif.Model.Py

/-!
# Model of `aerokit/common/defaultgas.py`

Module globals `_gamma`, `_r` and (created by the first `save_default()`) `_saved_gamma`,
`_saved_r`.  The second half models how these globals reach the flow functions: a signature
`def f(x, gamma=defg._gamma)` evaluates its default ONCE, when the defining module is imported.
-/

namespace Aerokit.DefaultGas

/-- `defaultgas.py:2` : initial value of `_gamma`. -/
noncomputable def gamma0 : ℝ := 1.4
/-- `defaultgas.py:3` : initial value of `_r`. -/
noncomputable def r0 : ℝ := 287.1

/-- The module's global variables.  `saved = none` : `_saved_r`, `_saved_gamma` do not exist yet
(`defaultgas.py:1-33`). -/
structure State where
  gamma : ℝ
  r : ℝ
  saved : Option (ℝ × ℝ)

/-- State of the module just after import (`defaultgas.py:2-3`). -/
noncomputable def init : State := ⟨gamma0, r0, none⟩

/-- `set_gamma(gam)` (`defaultgas.py:6-8`). -/
def set_gamma (s : State) (g : ℝ) : State := { s with gamma := g }
/-- `gamma()` (`defaultgas.py:11-12`). -/
def get_gamma (s : State) : ℝ := s.gamma
/-- `set_r_ideal(r)` (`defaultgas.py:15-17`). -/
def set_r_ideal (s : State) (r : ℝ) : State := { s with r := r }
/-- `r_ideal()` (`defaultgas.py:20-21`). -/
def r_ideal (s : State) : ℝ := s.r
/-- `save_default()` (`defaultgas.py:24-27`): one slot, overwritten at each call. -/
def save_default (s : State) : State := { s with saved := some (s.r, s.gamma) }
/-- `restore_default()` (`defaultgas.py:30-33`): `NameError` when nothing was ever saved; the slot
is not consumed. -/
def restore_default (s : State) : Py State :=
  match s.saved with
  | none => .error .nameError
  | some (r, g) => .ok { s with r := r, gamma := g }

/-- The public operations of the module, for arbitrary histories. -/
inductive Op
  | setGamma (g : ℝ)
  | setR (r : ℝ)
  | save
  | restore

/-- One call; a `restore_default()` that raises leaves the globals unchanged. -/
def step (s : State) : Op → State
  | .setGamma g => set_gamma s g
  | .setR r => set_r_ideal s r
  | .save => save_default s
  | .restore => match restore_default s with
    | .ok s' => s'
    | .error _ => s

/-- A history of calls. -/
def run (s : State) (ops : List Op) : State := ops.foldl step s

/-! ### Import-time binding of the default arguments -/

/-- The modules whose signatures contain `gamma=defg._gamma` / `r=defg._r`
(`aero/Isentropic.py:30-98`, `aero/MassFlow.py:25-58`, `aero/ShockWave.py:16-411`,
`aero/Supersonic.py:31-85`, `aero/model1D.py:27`). -/
inductive Mod
  | isentropic | massFlow | shockWave | supersonic | model1D
  deriving DecidableEq, Repr

/-- A Python process: the globals of `defaultgas` and, for every imported module, the pair
`(gamma, r)` its signatures captured. -/
structure Process where
  gas : State
  captured : Mod → Option (ℝ × ℝ)

/-- Process in which only `defaultgas` is loaded. -/
noncomputable def Process.init : Process := ⟨DefaultGas.init, fun _ => none⟩

/-- Events of a process: `import m` or a call on `defaultgas`. -/
inductive Ev
  | imp (m : Mod)
  | gas (o : Op)

/-- Modules imported (transitively) by `m`, in execution order, `m` last: `ShockWave` imports
`Isentropic` (`ShockWave.py:8`), `Supersonic` imports `Isentropic` (`Supersonic.py:23`),
`model1D` imports `Isentropic` and `ShockWave` (`model1D.py:7-8`). -/
def deps : Mod → List Mod
  | .isentropic => [.isentropic]
  | .massFlow => [.massFlow]
  | .shockWave => [.isentropic, .shockWave]
  | .supersonic => [.isentropic, .supersonic]
  | .model1D => [.isentropic, .shockWave, .model1D]

/-- Executing the body of one module: evaluates the default expressions (first import only,
`sys.modules` makes later imports no-ops). -/
def exec1 (p : Process) (m : Mod) : Process :=
  match p.captured m with
  | some _ => p
  | none => { p with captured := fun m' => if m' = m then some (p.gas.gamma, p.gas.r) else p.captured m' }

/-- One event. -/
def pstep (p : Process) : Ev → Process
  | .imp m => (deps m).foldl exec1 p
  | .gas o => { p with gas := step p.gas o }

/-- A history of events. -/
def prun (p : Process) (evs : List Ev) : Process := evs.foldl pstep p

/-- The value of `gamma` seen by a call `m.f(x)` that omits `gamma`. -/
def defaultGammaSeenBy (p : Process) (m : Mod) : Option ℝ := (p.captured m).map Prod.fst

end Aerokit.DefaultGas
