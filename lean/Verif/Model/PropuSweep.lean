import Verif.Model.PropuBE
import Verif.Model.Plot

/-!
# Model of `plot` and `main` of `engine/propu_be_double_corps.py`

What is drawn is modelled as data.  A plotted value is a `Py ℝ`: the swept parameter is a numpy scalar, so that an undefined operation gives
`nan` (here an error of `calculs`) and the sweep goes on.  Simplifications: the five values of a point are undefined together as soon as
one operation of `calculs` is undefined; figure sizes, shared axes, what `calculs` prints and the display of the figures are not
modelled; matplotlib draws the values the lists hold when `plot` is called.
-/

namespace Aerokit.PropuBE

/-- one subplot: its label and the points `(X[k], Y[i][k])` -/
structure Panel where
  ylabel : String
  x : List ℝ
  y : List (Py ℝ)

/-- a figure: `num`, `suptitle`, the label of the abscissae and the subplots from top to bottom -/
structure Figure where
  num : ℕ
  title : String
  xlabel : String
  panels : List Panel

/-- `results` : five lists (`propu_be_double_corps.py:128`) -/
abbrev Results := List (List (Py ℝ))

/-- `plot` (`propu_be_double_corps.py:101-112`): the first subplot, then those of `range(1, len(Y))`.  A missing label or curve raises
`IndexError`. -/
def plot (X : List ℝ) (Y : Results) (num : ℕ) (title xlabel : String) (ylabel : List String) : Py Figure := do
  let panel (i : ℕ) : Py Panel :=
    match ylabel[i]?, Y[i]? with
    | some l, some y => .ok ⟨l, X, y⟩
    | _, _ => .error .indexError
  let first ← panel 0
  let others ← (List.range (Y.length - 1)).mapM fun i => panel (i + 1)
  return { num, title, xlabel, panels := first :: others }

/-- `np.linspace(a, b, num=nb_valeurs)` with `nb_valeurs = 20` (`propu_be_double_corps.py:115`, `124-126`) -/
noncomputable def values (a b : ℝ) : List ℝ := (List.range 20).map fun (i : ℕ) => a + (i : ℝ) * ((b - a) / 19)

/-- `results[j][i] = v` (`propu_be_double_corps.py:131`) -/
def setAt (results : Results) (j i : ℕ) (v : Py ℝ) : Results := results.modify j (·.set i v)

/-- body of a loop of `main` (`propu_be_double_corps.py:131-135`, `139-143`, `147-151`) -/
def store (results : Results) (i : ℕ) (result : Py Returned) : Results :=
  let r := setAt results 0 i (Returned.Fspe <$> result)
  let r := setAt r 1 i (Returned.mk_spe <$> result)
  let r := setAt r 2 i (Returned.eta_th <$> result)
  let r := setAt r 3 i (Returned.eta_prop <$> result)
  setAt r 4 i (Returned.eta <$> result)

/-- a loop of `main` (`propu_be_double_corps.py:129-135`, `137-143`, `145-151`): `f` is `calculs` with the other parameters fixed -/
noncomputable def sweep (f : ℝ → Py Returned) (xs : List ℝ) (results : Results) : Results :=
  (List.range xs.length).foldl (fun r i => store r i (f (xs.getD i 0))) results

/-- `main` (`propu_be_double_corps.py:114-163`): the figures shown.  `results` is shared by the three loops. -/
noncomputable def main (lambda_min lambda_max pi_c_min pi_c_max Tt4_min Tt4_max : ℝ) : Py (List Figure) := do
  let lambda_base := 6.1
  let pi_c_base := 32.8
  let Tt4_base := 1410
  let m := 180
  let taux_meca := 0.5
  let y_label := ["Fspe", "mk_spe", "eta_th", "eta_prop", "eta_global"]
  let lambda_array := values lambda_min lambda_max
  let pi_c_array := values pi_c_min pi_c_max
  let Tt4_array := values Tt4_min Tt4_max
  let results : Results := (List.range 5).map fun _ => List.replicate 20 (.ok 0)
  let results := sweep (fun x => calculs_double x pi_c_base Tt4_base m taux_meca) lambda_array results
  let figure1 ← plot lambda_array results 1 "Performances 1" "Taux de dilution" y_label
  let results := sweep (fun x => calculs_double lambda_base x Tt4_base m taux_meca) pi_c_array results
  let figure2 ← plot pi_c_array results 2 "Performances 2" "Taux de compression coeur" y_label
  let results := sweep (fun x => calculs_double lambda_base pi_c_base x m taux_meca) Tt4_array results
  let figure3 ← plot Tt4_array results 3 "Performances 3" "Temperature sortie de chambre de combustion" y_label
  return [figure1, figure2, figure3]

end Aerokit.PropuBE
