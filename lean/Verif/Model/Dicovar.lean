import Verif.Model.Py

/-!
# Model of `aerokit/common/dicovar.py`

Python dictionaries are mutable objects reached by reference, so the model has an explicit heap:
a reference is an index in a list of dictionaries, `_copy.deepcopy` allocates.  A dictionary is its
list of items in insertion order.  Printed messages are not modelled.
-/

namespace Aerokit.Dicovar

/-- A Python `dict` of strings: items in insertion order. -/
abbrev Dict := List (String × String)

/-- `d[k]` / `k in d`. -/
def Dict.find (d : Dict) (k : String) : Option String := (List.lookup k d : Option String)

/-- `d[k] = v` when `k in d` : the item keeps its place. -/
def Dict.update : Dict → String → String → Dict
  | [], _, _ => []
  | (k', v') :: t, k, v => if k' = k then (k', v) :: t else (k', v') :: Dict.update t k v

/-- `d[k] = v` when `k not in d` : the item goes last. -/
def Dict.insert (d : Dict) (k v : String) : Dict := d ++ [(k, v)]

/-- `str.lower()`, on ASCII letters (other scripts are left unchanged, a simplification). -/
def lower (s : String) : String := String.ofList (s.toList.map Char.toLower)

/-- `_cxNames` (`dicovar.py:57`). -/
def cxNames : List String := ["IC3", "ic3", "CharlesX", "cx", "charlesx"]
/-- `_cxDico` (`dicovar.py:58-74`). -/
def cxDico : Dict :=
  [("P", "P"), ("p", "P"), ("Ps", "P"), ("rho", "RHO"), ("T", "T"), ("V", "U"), ("Vx", "U_X"),
   ("Vy", "U_Y"), ("Vz", "U_Z"), ("u_avg", "U_AVG"), ("rho_avg", "RHO_AVG"),
   ("tauw_avg", "TauWallAvg"), ("mulam_avg", "MU_LAM_AVG"), ("t_avg", "T_AVG"),
   ("u_rms", "U_RMS"), ("u_rey", "U_REY")]
/-- `_ofNames` (`dicovar.py:77`). -/
def ofNames : List String := ["OpenFOAM", "of", "openfoam", "ofoam"]
/-- `_ofDico` (`dicovar.py:78-85`). -/
def ofDico : Dict :=
  [("u_avg", "Uavg"), ("rho_avg", "rhoAVG"), ("tauw_avg", "???"), ("mulam_avg", "???"),
   ("t_avg", "???"), ("u_rms", "???"), ("u_rey", "???")]

/-- A reference to a dictionary. -/
abbrev Ref := ℕ

/-- `_dataBase` (`dicovar.py:88-89`): for each software its names and a *reference* to its
dictionary (references 0 and 1 of the initial heap). -/
def dataBase : List (List String × Ref) := [(cxNames, 0), (ofNames, 1)]

/-- `_default` (`dicovar.py:91`). -/
def default : String := "IC3"

/-- The interpreter state: the heap, and the attributes `_dv`, `_softName` of the module object
`dicoVar`. -/
structure World where
  heap : List Dict
  dv : Ref
  softName : String

/-- Dereference. -/
def World.deref (w : World) (r : Ref) : Dict := w.heap.getD r []

/-- Allocation of a dictionary object. -/
def World.alloc (w : World) (d : Dict) : World × Ref := ({ w with heap := w.heap ++ [d] }, w.heap.length)

/-- In-place modification of a dictionary object. -/
def World.store (w : World) (r : Ref) (d : Dict) : World := { w with heap := w.heap.set r d }

/-- Body of the `for soft in _dataBase` loop (`dicovar.py:112-118`): no `break`, so a later match
overrides an earlier one.  The Boolean is `softOK`. -/
def initStep (software : String) (st : World × Bool) (soft : List String × Ref) : World × Bool :=
  if lower software ∈ soft.1 then
    let (w, r) := st.1.alloc (st.1.deref soft.2)
    ({ w with dv := r, softName := soft.1.headD "" }, true)
  else st

/-- `_DicoVar.__init__` (`dicovar.py:104-121`), also run on the existing object by `setDicoVar`.
The new world is returned also when `ValueError` is raised: attributes assigned before the `raise`
stay assigned. -/
def init (w : World) (software : String) : World × Py Unit :=
  let (w, r) := w.alloc []
  let w := { w with dv := r, softName := "" }
  let (w, softOK) := dataBase.foldl (initStep software) (w, false)
  if softOK then (w, .ok ()) else (w, .error .valueError)

/-- State after importing the module (`dicovar.py:57-89, 190`). -/
def world0 : World := (init ⟨[cxDico, ofDico], 0, ""⟩ default).1

/-- `keys()` (`dicovar.py:124-128`). -/
def keys (w : World) : List String := (w.deref w.dv).map Prod.fst

/-- `get` (`dicovar.py:130-141`). -/
def get (w : World) (var : String) : Py String :=
  match (w.deref w.dv).find var with
  | some v => .ok v
  | none => .error .valueError

/-- `__call__` (`dicovar.py:182-183`). -/
def call (w : World) (var : String) : Py String := get w var
/-- `__getitem__` (`dicovar.py:185-186`). -/
def getitem (w : World) (var : String) : Py String := get w var

/-- `addVar` (`dicovar.py:143-153`). -/
def addVar (w : World) (var sVar : String) : World × Py Unit :=
  match (w.deref w.dv).find var with
  | none => (w.store w.dv ((w.deref w.dv).insert var sVar), .ok ())
  | some _ => (w, .error .valueError)

/-- `setVar` (`dicovar.py:155-168`). -/
def setVar (w : World) (var sVar : String) : World × Py Unit :=
  match (w.deref w.dv).find var with
  | some _ => (w.store w.dv ((w.deref w.dv).update var sVar), .ok ())
  | none => (w, .error .valueError)

/-- `setDicoVar` (`dicovar.py:193-202`). -/
def setDicoVar (w : World) (software : String) : World × Py Unit := init w software

/-- The public calls that may change the state. -/
inductive Call
  | add (var sVar : String)
  | set (var sVar : String)
  | software (s : String)

/-- One call: new state, and `none` returned or exception raised. -/
def step (w : World) : Call → World × Py Unit
  | .add v s => addVar w v s
  | .set v s => setVar w v s
  | .software s => setDicoVar w s

/-- State after a history of calls (exceptions are caught by the caller). -/
def run (w : World) (cs : List Call) : World := cs.foldl (fun w c => (step w c).1) w

end Aerokit.Dicovar
