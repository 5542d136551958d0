import Verif.Model.Nozzle

/-!
# Model of `notebooks/aero/Nozzle-regimes.ipynb`, cells 2, 4, 9, 12, 13, 15, 16, 18

The contour of a nozzle deduced from a distribution of Mach numbers, and the flow in it for the regimes.  `target_AoAc` (6), `length` (8), the
number of points (200; 400 in `Nozzle-widget.ipynb`, whose cell 2 is the same) and `pos` are parameters; scipy's `newton` is a parameter.  Arrays are
lists, elementwise as in `Model/Nozzle.lean` and `Model/MassFlow.lean`.  `sw`, `mf` and `Is` are called without `gamma` and `defg._gamma` is read
in a new kernel: they are all `DefaultGas.gamma0`.  Figures are not modelled.
-/

namespace Aerokit.NozzleRegimes
open Isentropic MassFlow ShockWave Nozzle
open DefaultGas (gamma0)

/-- `np.linspace(0., length, n, endpoint=True)` (cell 2, l. 5), `n ≥ 2` -/
noncomputable def noz_x (length : ℝ) (n : ℕ) : List ℝ := (List.range n).map fun i : ℕ => (i : ℝ) * (length / ((n : ℝ) - 1))

/-- the variables of cell 2 -/
structure Contour where
  ma_max : ℝ
  x : List ℝ
  ma : List ℝ
  AoAc : List ℝ

/-- cell 2, l. 5-8 -/
noncomputable def contour (newton : RootFinder) (A length : ℝ) (n : ℕ) : Py Contour := do
  let x := noz_x length n
  let ma_max ← Mach_Sigma newton A 2.0 gamma0
  let ma ← x.mapM fun t => do
    let q ← Py.div (0.5 * (t - 1.0) * Real.pi) (length - 1.0)
    return 1.0 + (ma_max - 1.0) * Real.sin q
  let AoAc ← ma.mapM fun m => Sigma_Mach m gamma0
  return ⟨ma_max, x, ma, AoAc⟩

/-- cell 4 -/
noncomputable def limits (newton : RootFinder) (A : ℝ) : Py Limits := do
  let Msub ← MachSub_Sigma newton A gamma0
  let NPR0 ← PtPs_Mach Msub gamma0
  let Msup ← MachSup_Sigma newton A gamma0
  let NPR1 ← PtPs_Mach Msup gamma0
  let Msh ← downstream_Mn Msup gamma0
  let a ← PtPs_Mach Msh gamma0
  let b ← Pi_ratio Msup gamma0
  let NPRsw ← Py.div a b
  return ⟨NPR0, NPRsw, NPR1, Msub, Msh, Msup⟩

/-- `mf.Mach_Sigma(Noz_AoAc, Mach=.05)` (cell 9, l. 1): `np.size(Mach)` is 1, so the initial guess is the number `.05`, for which scipy runs the
scalar secant method; it compares the arrays `abs(q1) < abs(q0)` of the residuals in an `if`: `ValueError` for more than one element. -/
noncomputable def choked_M (newton : RootFinder) (c : Contour) : Py (List ℝ) :=
  match c.AoAc with
  | [] => .error .valueError
  | [s] => do
    let m ← Mach_Sigma newton s 0.05 gamma0
    return [m]
  | _ :: _ :: _ => .error .valueError

/-- `_Minit` and the first `_M` of cells 12, 15 and 18 -/
noncomputable def supersonic_M (newton : RootFinder) (c : Contour) : Py (List ℝ) :=
  Mach_Sigma_array newton c.AoAc (c.x.map fun t => 0.05 + (if t > 1.0 then 1 else 0) * 2.0) gamma0

/-- the three arrays of a figure -/
structure Curves where
  M : List ℝ
  Pt : List ℝ
  Ps : List ℝ

/-- cells 12, 13: isentropic supersonic flow -/
noncomputable def supersonic (newton : RootFinder) (c : Contour) : Py Curves := do
  let M ← supersonic_M newton c
  let e ← last M
  let M := M ++ [e, e]
  let Pt := M.map fun _ => (1 : ℝ)
  let Ps ← staticP gamma0 Pt M
  return ⟨M, Pt, Ps⟩

/-- cells 15, 16: normal shock at the exit -/
noncomputable def exitShock (newton : RootFinder) (c : Contour) : Py Curves := do
  let M ← supersonic_M newton c
  let e ← last M
  let Msh ← downstream_Mn e gamma0
  let Ptloss ← Pi_ratio e gamma0
  let M' := M ++ [Msh, Msh]
  let Pt := c.x.map (fun _ => (1 : ℝ)) ++ [Ptloss, Ptloss]
  let Ps ← staticP gamma0 Pt M'
  return ⟨M', Pt, Ps⟩

/-- the exit Mach number of cell 18 (`K`, `Ms`) -/
noncomputable def exitMach (A NPR : ℝ) : Py ℝ := do
  let q ← Py.div NPR A
  let e0 ← Py.div (gamma0 + 1.0) 2
  let e ← Py.div ((gamma0 + 1.0) / 2) (gamma0 - 1.0)
  let w ← Py.pow e0 e
  let K ← Py.div q w
  let s ← Py.sqrt (1.0 + 2.0 * (gamma0 - 1.0) * K * K)
  let x ← Py.div (s - 1.0) (gamma0 - 1)
  Py.sqrt x

/-- variables of cell 18 -/
structure Diffuser where
  NPR : ℝ
  Ms : ℝ
  Ptloss : ℝ
  Msh : ℝ
  ish : ℕ
  curves : Curves

/-- cell 18: shock in the diffuser -/
noncomputable def diffuserShock (newton : RootFinder) (c : Contour) (l : Limits) (A pos : ℝ) : Py Diffuser := do
  let NPR := l.NPR0 * (1.0 - pos) + l.NPRsw * pos
  let M ← supersonic_M newton c
  let Ms ← exitMach A NPR
  let p ← PtPs_Mach Ms gamma0
  let Ptloss ← Py.div p NPR
  let Msh ← Mn_Pi_ratio Ptloss gamma0
  let ish ← argmin (M.map fun m => |m - Msh|)
  let s ← Sigma_Mach Ms gamma0
  let down ← vec (fun a => do
    let q ← Py.div (a * s) A
    MachSub_Sigma newton q gamma0) (c.AoAc.drop ish)
  let M' := M.take ish ++ down ++ [Ms, Ms]
  let Pt := (c.x.take ish).map (fun _ => (1 : ℝ)) ++ (c.x.drop ish).map (fun _ => Ptloss) ++ [Ptloss, Ptloss]
  let Ps ← staticP gamma0 Pt M'
  return ⟨NPR, Ms, Ptloss, Msh, ish, ⟨M', Pt, Ps⟩⟩

end Aerokit.NozzleRegimes
