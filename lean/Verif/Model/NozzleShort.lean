import Verif.Model.NozzleRegimes

/-!
# Model of `notebooks/aero/Nozzle-regimes-short.ipynb` and `notebooks/aero/Nozzle-widget.ipynb`

Cell 2 of both is cell 2 of `Nozzle-regimes.ipynb` (`NozzleRegimes.contour`; 200 and 400 points), followed in the widget by the constructor
`nz.nozzle(Noz_x, Noz_AoAc)`; cell 6 of the short one (the same in `Nozzle-regimes.ipynb`); cell 4 of both, which reads `nz._NPR_Ms_list`; the sections of
`iplot` (widget, cell 4).  In cell 4 of the widget the `print` statements are those of Python 2: the model is that of the cell with them corrected.
Figures and the interactive part are not modelled.
-/

namespace Aerokit.NozzleShort
open Isentropic MassFlow Nozzle NozzleRegimes
open DefaultGas (gamma0)

/-- the names of the module `aerokit.instance.nozzle` (`instance/nozzle.py:17-26`, `37`, `48`, `61`, `87`, `117`, `150`); it has no `__all__` -/
def instanceNames : List String :=
  ["np", "defg", "Is", "mf", "sw", "NPR_choked_subsonic", "NPR_choked_supersonic", "NPR_shock_at_exit", "_NPR_Ms_list", "Ms_from_AsAc_NPR",
   "Madapt_from_AsAc_NPR", "nozzle"]

/-- the names of `aerokit.aero.nozzle`: `from aerokit.instance.nozzle import *` (`aero/nozzle.py:2`) binds the names without a leading underscore -/
def nzNames : List String := instanceNames.filter fun s => s.toList.head? != some '_'

/-- `nz.name` for a module with these names -/
def getattr (names : List String) (name : String) : Py Unit := if name ∈ names then .ok () else .error .attributeError

/-- cell 4 of both notebooks, l. 1 (`nz` is `aerokit.aero.nozzle`: cell 0, l. 6) -/
noncomputable def cell4 (newton : RootFinder) (A : ℝ) : Py Limits := do
  getattr nzNames "_NPR_Ms_list"
  NPR_Ms_list newton A

/-- cell 6 (`Nozzle-regimes-short.ipynb` and `Nozzle-regimes.ipynb`): isentropic subsonic flow -/
noncomputable def subsonic (newton : RootFinder) (c : Contour) (Ma_col : ℝ) : Py Curves := do
  let s ← Sigma_Mach Ma_col gamma0
  let M ← MachSub_Sigma_array newton (c.AoAc.map fun a => a * s) gamma0
  let e ← last M
  let M := M ++ [e, e]
  let Pt := M.map fun _ => (1 : ℝ)
  let Ps ← staticP gamma0 Pt M
  return ⟨M, Pt, Ps⟩

/-- the sections given to the constructor by `iplot` (widget, cell 4): `1.+(AsAc-1)/(target_AoAc-1)*(Noz_AoAc-1.)` -/
noncomputable def sections (c : Contour) (A AsAc : ℝ) : Py (List ℝ) := do
  let k ← Py.div (AsAc - 1) (A - 1)
  return c.AoAc.map fun a => 1.0 + k * (a - 1.0)

end Aerokit.NozzleShort
