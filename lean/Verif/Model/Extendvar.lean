import Verif.Model.Dicovar

/-! # Model of `aerokit/common/extendvar.py`

The name `dico` is bound, at import, to the module object `dicoVar` of `dicovar.py`; its state is the
`Dicovar.World`.  The local dictionary `extdico` is a fresh heap object.  (The `from dicovar import`
line itself fails in an installed package: see `Model/Imports.lean`; here the import is assumed to
resolve to `aerokit/common/dicovar.py`, as when the script directory is on `sys.path`.) -/

namespace Aerokit.Extendvar
open Dicovar

/-- `d[k] = v` on a `dict`: in place when present, appended otherwise. -/
def setItem (d : Dict) (k v : String) : Dict :=
  match d.find k with
  | some _ => d.update k v
  | none => d.insert k v

/-- `ref[k] = v` on a heap object. -/
def storeItem (w : World) (r : Ref) (k v : String) : World := w.store r (setItem (w.deref r) k v)

/-- `for var in dico.keys(): extdico[var] = dico[var]` (`extendvar.py:23-25`).  An exception keeps
the state reached. -/
def copyLoop (r : Ref) : List String → World → World × Py Unit
  | [], w => (w, .ok ())
  | var :: vs, w => match getitem w var with
    | .ok s => copyLoop r vs (storeItem w r var s)
    | .error e => (w, .error e)

/-- `_g = '1.4'` (`extendvar.py:27`). -/
def g : String := "1.4"
/-- `_gsgmu = '3.5'` (`extendvar.py:28`). -/
def gsgmu : String := "3.5"
/-- `_gmusd = '0.2'` (`extendvar.py:29`). -/
def gmusd : String := "0.2"

/-- `ext[k] = e` where `e` is an expression that may raise. -/
def assign (r : Ref) (k : String) (e : World → Py String) (w : World) : World × Py Unit :=
  match e w with
  | .ok s => (storeItem w r k s, .ok ())
  | .error x => (w, .error x)

/-- `a; b` for statements -/
def seq (a b : World → World × Py Unit) (w : World) : World × Py Unit :=
  match a w with
  | (w', .ok ()) => b w'
  | (w', .error e) => (w', .error e)

/-- `_a` (`extendvar.py:30`). -/
def exprA (w : World) : Py String := do
  let p ← getitem w "P"
  let rho ← getitem w "rho"
  return "sqrt(" ++ g ++ "*" ++ p ++ "/" ++ rho ++ ")"

/-- right-hand side of `extdico['Pt']` (`extendvar.py:31`). -/
def exprPt (w : World) : Py String := do
  let p ← getitem w "P"
  let v ← getitem w "V"
  let rho ← getitem w "rho"
  return p ++ "*(1+" ++ gmusd ++ "*(mag(" ++ v ++ "))^2/(" ++ g ++ "*" ++ p ++ "/" ++ rho ++ "))^"
    ++ gsgmu

/-- right-hand side of `extdico['T']` (`extendvar.py:32`). -/
def exprT (w : World) : Py String := do
  let p ← getitem w "P"
  let rho ← getitem w "rho"
  return p ++ "/" ++ rho ++ "/287.1"

/-- right-hand side of `extdico['S']` (`extendvar.py:33`). -/
def exprS (w : World) : Py String := do
  let p ← getitem w "P"
  let rho ← getitem w "rho"
  return "ln(" ++ p ++ "/" ++ rho ++ "^" ++ g ++ ")"

/-- right-hand side of `extdico['V']` (`extendvar.py:34`). -/
def exprV (w : World) : Py String := do
  let v ← getitem w "V"
  return "mag(" ++ v ++ ")"

/-- right-hand side of `extdico['Mach']` (`extendvar.py:36`), given `_a`. -/
def exprMach (a : String) (w : World) : Py String := do
  let v ← getitem w "V"
  return "mag(" ++ v ++ ")/" ++ a

/-- right-hand side of `extdico['Mx']` (`extendvar.py:37`), given `_a`: the name of the axial
velocity is written literally. -/
def exprMx (a : String) : String := "U_X/" ++ a

/-- right-hand side of `extdico['alpha']` (`extendvar.py:38`). -/
def exprAlpha (w : World) : Py String := do
  let vy ← getitem w "Vy"
  let vx ← getitem w "Vx"
  return "atan(" ++ vy ++ "/" ++ vx ++ ")*180/acos(-1)"

/-- statements of lines 31-38, `_a` being computed -/
def body (r : Ref) (a : String) : World → World × Py Unit :=
  seq (assign r "Pt" exprPt) <| seq (assign r "T" exprT) <| seq (assign r "S" exprS) <|
  seq (assign r "V" exprV) <| seq (assign r "a" fun _ => .ok a) <|
  seq (assign r "Mach" (exprMach a)) <| seq (assign r "Mx" fun _ => .ok (exprMx a)) <|
  assign r "alpha" exprAlpha

/-- `expressions_from_rhopv()` (`extendvar.py:20-39`): new state and returned dictionary
reference, or exception. -/
def expressionsFromRhopv (w : World) : World × Py Ref :=
  let (w, r) := w.alloc []
  match copyLoop r (keys w) w with
  | (w, .error e) => (w, .error e)
  | (w, .ok ()) => match exprA w with
    | .error e => (w, .error e)
    | .ok a => match body r a w with
      | (w, .error e) => (w, .error e)
      | (w, .ok ()) => (w, .ok r)

end Aerokit.Extendvar
