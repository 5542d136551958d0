import Verif.Model.Euler1D
import Verif.Model.DefaultGas

/-!
# Model of `examples/stability/euler1d.py`

The class `Tube`, derived from `Euler1D`: a uniform flow in a periodic tube of length 1, speed of sound 100.  The eigenvalue
computations and the plots of the main part (`euler1d.py:18-76`) are not modelled here (see `LinOperator`).
-/

namespace Aerokit.Tube
open LinOperator NumSpectral Model1D Euler1D

variable {n : ℕ}

/-- the base state `self.Q` (`euler1d.py:10-12`): `state` is called without `gamma` -/
noncomputable def Q (n : ℕ) (Mach : ℝ) : StateV n :=
  let asound : ℝ := 100.0
  ⟨fun _ => 1.4 * 1, fun _ => (Mach * asound) * 1, fun _ => asound ^ (2:ℕ) * 1, DefaultGas.gamma0⟩

/-- `Tube(n, Mach)` (`euler1d.py:9-14`): the object, or the exception; `h` is the memory of dictionaries before the call. -/
noncomputable def new (n : ℕ) (Mach : ℝ) (h : Heap) : Py (Obj n) :=
  match Euler1D.set_BC (.str "per") (.str "per") (Euler1D.init n (some 0.0) (some 1.0) (some (Q n Mach)) h) with
  | (.ok _, s) => .ok s
  | (.error e, _) => .error e

end Aerokit.Tube
