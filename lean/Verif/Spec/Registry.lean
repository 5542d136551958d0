import Verif.Model.Py

/-! # Specification of `dicoVar` : a guarded map from names to denominations

Nothing here refers to the model of the module: a map is a function, a software table is a map. -/

namespace Aerokit.Spec

/-- name ↦ denomination, `none` when undefined -/
abbrev NameMap := String → Option String

/-- `m` with `k` defined as `v` -/
def NameMap.write (m : NameMap) (k v : String) : NameMap := fun k' => if k' = k then some v else m k'

/-- calls, see `Dicovar.Call` -/
inductive RegCall
  | add (var sVar : String)
  | set (var sVar : String)
  | software (s : String)

/-- What a call must do, given the pristine tables of the softwares: outcome and new map.
`afterFailure` is the map left by a request for an unknown software. -/
def regStep (tables : String → Option NameMap) (afterFailure : NameMap → NameMap) (m : NameMap) :
    RegCall → NameMap × Py Unit
  | .add v s => if m v = none then (m.write v s, .ok ()) else (m, .error .valueError)
  | .set v s => if m v = none then (m, .error .valueError) else (m.write v s, .ok ())
  | .software s => match tables s with
    | some t => (t, .ok ())
    | none => (afterFailure m, .error .valueError)

/-- the map after a history of calls -/
def regRun (tables : String → Option NameMap) (afterFailure : NameMap → NameMap) (m : NameMap)
    (cs : List RegCall) : NameMap := cs.foldl (fun m c => (regStep tables afterFailure m c).1) m

end Aerokit.Spec
