import Verif.Model.Py

/-!
# Model of `notebooks/remove_output.py`

`nbformat` is a parameter: `read` (a text gives a notebook or raises), `write` (a notebook gives a text or raises).  The file system maps names to
contents; a program interrupted while it writes leaves any initial part of the text.  Not modelled: permissions, links, directories, encodings.
-/

namespace Aerokit.RemoveOutput

/-- values found in a cell (`remove_output.py:16-20`) -/
inductive Json
  | null
  | bool (b : Bool)
  | num (x : ℚ)
  | str (s : String)
  | arr (l : List Json)
  | obj (l : List (String × Json))

/-- a cell, a dictionary with attribute access (`remove_output.py:15-16`) -/
abbrev Cell := String → Option Json

/-- a notebook: its worksheets, lists of cells, and all the rest (`remove_output.py:14-15`) -/
structure Notebook where
  worksheets : List (List Cell)
  rest : String → Option Json

/-- `cell.outputs = []` and the deletion of two keys (`remove_output.py:17-19`) -/
def strip (c : Cell) : Cell := fun k =>
  if k = "execution_count" ∨ k = "prompt_number" then none else if k = "outputs" then some (.arr []) else c k

/-- the body of the loop over cells (`remove_output.py:16-19`) -/
def cleanCell (c : Cell) : Py Cell :=
  match c "cell_type" with
  | none => .error .attributeError
  | some (.str s) => if s = "code" then .ok (strip c) else .ok c
  | some _ => .ok c

/-- `remove_outputs` (`remove_output.py:12-19`), which changes the notebook in place -/
def remove_outputs (nb : Notebook) : Py Notebook := do
  let ws ← nb.worksheets.mapM fun w => w.mapM cleanCell
  return { nb with worksheets := ws }

/-- contents of files -/
abbrev Text := List Char
/-- the file system -/
abbrev FS := String → Option Text

/-- `nbformat.current.read` and `write` (`remove_output.py:9`) -/
structure Nbformat where
  read : Text → Py Notebook
  write : Notebook → Py Text

/-- why a run stops -/
inductive Fail
  | noFile
  | python (e : PyErr)

/-- `fname + '.bak'` (`remove_output.py:23`) -/
def bak (f : String) : String := f ++ ".bak"

/-- `os.rename` (`remove_output.py:24`): the destination is replaced, the source disappears -/
def rename (a b : String) (fs : FS) : FS := fun g => if g = b then fs a else if g = a then none else fs g

/-- contents of a file replaced (`remove_output.py:29-30`) -/
def put (f : String) (t : Text) (fs : FS) : FS := fun g => if g = f then some t else fs g

/-- the text that replaces a notebook (`remove_output.py:25-30`); the boolean tells whether the file had been opened for writing when an exception came -/
def cleaned (nf : Nbformat) (t : Text) : Except (Bool × PyErr) Text :=
  match nf.read t >>= fun nb => remove_outputs nb with
  | .error e => .error (false, e)
  | .ok nb => match nf.write nb with
    | .error e => .error (true, e)
    | .ok t' => .ok t'

/-- one turn of the loop over `sys.argv[1:]` (`remove_output.py:23-31`) -/
def one (nf : Nbformat) (f : String) (fs : FS) : FS × Option Fail :=
  match fs f with
  | none => (fs, some .noFile)
  | some t =>
    let fs1 := rename f (bak f) fs
    match cleaned nf t with
    | .error (false, e) => (fs1, some (.python e))
    | .error (true, e) => (put f [] fs1, some (.python e))
    | .ok t' => (put f t' fs1, none)

/-- the loop over `sys.argv[1:]` (`remove_output.py:21-31`) -/
def main (nf : Nbformat) : List String → FS → FS × Option Fail
  | [], fs => (fs, none)
  | f :: r, fs => match one nf f fs with
    | (fs', none) => main nf r fs'
    | (fs', some e) => (fs', some e)

/-- `During nf names fs s`: a run on `names` started in `fs` can be interrupted in `s` (`remove_output.py:21-31`): before anything, after a renaming, while
writing, or in a later turn -/
inductive During (nf : Nbformat) : List String → FS → FS → Prop
  | start (names : List String) (fs : FS) : During nf names fs fs
  | renamed (f : String) (r : List String) (fs : FS) (t : Text) : fs f = some t → During nf (f :: r) fs (rename f (bak f) fs)
  | opened (f : String) (r : List String) (fs : FS) (t : Text) (e : PyErr) : fs f = some t → cleaned nf t = .error (true, e) →
      During nf (f :: r) fs (put f [] (rename f (bak f) fs))
  | writing (f : String) (r : List String) (fs : FS) (t t' p : Text) : fs f = some t → cleaned nf t = .ok t' → p <+: t' →
      During nf (f :: r) fs (put f p (rename f (bak f) fs))
  | next (f : String) (r : List String) (fs fs' s : FS) : one nf f fs = (fs', none) → During nf r fs' s → During nf (f :: r) fs s

end Aerokit.RemoveOutput
