import Verif.Model.MassFlow
import Verif.Model.ShockWave

/-!
# Model of `aerokit/instance/nozzle.py`

* A call of `Isentropic`, `MassFlow` or `ShockWave` that omits `gamma` uses the value captured when
  those modules were imported, `DefaultGas.gamma0` (see `Model/DefaultGas.lean`).
* `defg._gamma` inside a function body is read when the function is called: it is the parameter `dg`.
* numpy arrays are lists.  scipy's vectorised `newton` is the scalar solver applied elementwise (as in
  `Model/MassFlow.lean`); on an EMPTY array scipy runs its scalar code, whose convergence test on an
  empty array is never true, and it raises: modelled as `noConvergence`.
* Attributes left half-written by an exception inside `set_NPR` are not modelled (the model returns
  the new object only on success).
-/

namespace Aerokit.Nozzle
open Isentropic MassFlow ShockWave
open DefaultGas (gamma0)

/-- `NPR_choked_subsonic` (`nozzle.py:26-34`) -/
noncomputable def NPR_choked_subsonic (newton : RootFinder) (AsAc : ℝ) : Py ℝ := do
  let m ← MachSub_Sigma newton AsAc gamma0
  PtPs_Mach m gamma0

/-- `NPR_choked_supersonic` (`nozzle.py:37-45`) -/
noncomputable def NPR_choked_supersonic (newton : RootFinder) (AsAc : ℝ) : Py ℝ := do
  let m ← MachSup_Sigma newton AsAc gamma0
  PtPs_Mach m gamma0

/-- `NPR_shock_at_exit` (`nozzle.py:48-58`) -/
noncomputable def NPR_shock_at_exit (newton : RootFinder) (AsAc : ℝ) : Py ℝ := do
  let Msup ← MachSup_Sigma newton AsAc gamma0
  let Msh ← downstream_Mn Msup gamma0
  let a ← PtPs_Mach Msh gamma0
  let b ← Pi_ratio Msup gamma0
  Py.div a b

/-- the tuple returned by `_NPR_Ms_list` (`nozzle.py:84`) -/
structure Limits where
  NPR0 : ℝ
  NPRsw : ℝ
  NPR1 : ℝ
  Msub : ℝ
  Msh : ℝ
  Msup : ℝ

/-- `_NPR_Ms_list` (`nozzle.py:61-84`) -/
noncomputable def NPR_Ms_list (newton : RootFinder) (AsAc : ℝ) : Py Limits := do
  let Msub ← MachSub_Sigma newton AsAc gamma0
  let NPR0 ← PtPs_Mach Msub gamma0
  let Msup ← MachSup_Sigma newton AsAc gamma0
  let Msh ← downstream_Mn Msup gamma0
  let a ← PtPs_Mach Msh gamma0
  let b ← Pi_ratio Msup gamma0
  let NPRsw ← Py.div a b
  let NPR1 ← PtPs_Mach Msup gamma0
  return ⟨NPR0, NPRsw, NPR1, Msub, Msh, Msup⟩

/-- shock-in-diffuser exit Mach number (`nozzle.py:111-113`, identical text at `nozzle.py:144-146`);
`dg` is `defg._gamma` at the time of the call -/
noncomputable def Ms_shock_in_diffuser (dg AsAc NPR : ℝ) : Py ℝ := do
  let gmu := dg - 1.0
  let q ← Py.div NPR AsAc
  let e ← Py.div ((dg + 1.0) / 2) gmu
  let c ← Py.pow ((dg + 1.0) / 2) e
  let K ← Py.div q c
  let s ← Py.sqrt (1.0 + 2.0 * gmu * K * K)
  let x ← Py.div (s - 1.0) gmu
  Py.sqrt x

/-- `Ms_from_AsAc_NPR` (`nozzle.py:87-114`) -/
noncomputable def Ms_from_AsAc_NPR (newton : RootFinder) (dg AsAc NPR : ℝ) : Py ℝ := do
  let l ← NPR_Ms_list newton AsAc
  if NPR < l.NPR0 then Mach_PtPs NPR gamma0
  else if NPR > l.NPRsw then pure l.Msup
  else Ms_shock_in_diffuser dg AsAc NPR

/-- `Madapt_from_AsAc_NPR` (`nozzle.py:117-147`) -/
noncomputable def Madapt_from_AsAc_NPR (newton : RootFinder) (dg AsAc NPR : ℝ) : Py ℝ := do
  let l ← NPR_Ms_list newton AsAc
  if NPR < l.NPR0 then Mach_PtPs NPR gamma0
  else if NPR > l.NPR1 then Mach_PtPs NPR gamma0
  else if NPR > l.NPRsw then do
    let r ← Py.div l.NPR1 NPR
    downstreamMach_Mach_ShockPsratio l.Msup r gamma0
  else Ms_shock_in_diffuser dg AsAc NPR

/-- running state of `np.argmin`: best index and value so far -/
noncomputable def argminGo : List ℝ → (i best : ℕ) → (v : ℝ) → ℕ
  | [], _, best, _ => best
  | x :: xs, i, best, v => if x < v then argminGo xs (i + 1) i x else argminGo xs (i + 1) best v

/-- numpy's `a.argmin()`: the first index of the minimum, `ValueError` on an empty array
(used at `nozzle.py:171` and `nozzle.py:202`) -/
noncomputable def argmin : List ℝ → Py ℕ
  | [] => .error .valueError
  | x :: xs => .ok (argminGo xs 1 0 x)

/-- numpy's `np.min(a)`, `ValueError` on an empty array (used at `nozzle.py:169`) -/
noncomputable def npMin : List ℝ → Py ℝ
  | [] => .error .valueError
  | x :: xs => .ok (xs.foldl min x)

/-- `a[-1]` (`nozzle.py:169-170`) -/
def last (a : List ℝ) : Py ℝ :=
  match a.getLast? with
  | some x => .ok x
  | none => .error .indexError

/-- geometry computed by the constructor (`nozzle.py:166-171`) -/
structure Geometry where
  AsoAc : ℝ
  AxoAc : List ℝ
  ithroat : ℕ

open Classical in
/-- `nozzle.py:166-171`; `AsoAc = none` is `None`; `if AsoAc:` is false for `0` too.  Array times
scalar divided by scalar. -/
noncomputable def geometry (sec : List ℝ) (AsoAc : Option ℝ) : Py Geometry := do
  let a ← match AsoAc with
    | some v => if v ≠ 0 then pure v else do
        let l ← last sec
        let m ← npMin sec
        Py.div l m
    | none => do
        let l ← last sec
        let m ← npMin sec
        Py.div l m
  let l ← last sec
  let ax ← sec.mapM fun s => Py.div (s * a) l
  let it ← argmin (ax.map abs)
  return ⟨a, ax, it⟩

/-- attributes of a `nozzle` object (`nozzle.py:164-177`, `nozzle.py:187-205`) -/
structure Noz where
  gamma : ℝ
  geo : Geometry
  lim : Limits
  ref_rttot : ℝ
  scale_ps : ℝ
  M : Option (List ℝ)
  Ps : Option (List ℝ)
  Pt : Option (List ℝ)

/-- `mf.MachSub_Sigma` / `mf.MachSup_Sigma` on an array (see the header for the empty array) -/
noncomputable def vec (f : ℝ → Py ℝ) : List ℝ → Py (List ℝ)
  | [] => .error .noConvergence
  | xs => xs.mapM f

/-- `Pt / Is.PtPs_Mach(M, gamma)` elementwise (`nozzle.py:191`, `nozzle.py:205`) -/
noncomputable def staticP (gamma : ℝ) (Pt M : List ℝ) : Py (List ℝ) :=
  (Pt.zip M).mapM fun pm => do
    let r ← PtPs_Mach pm.2 gamma
    Py.div pm.1 r

/-- `set_NPR`, subsonic regime (`nozzle.py:187-191`) -/
noncomputable def set_NPR_subsonic (newton : RootFinder) (z : Noz) (NPR : ℝ) : Py Noz := do
  let Pt := z.geo.AxoAc.map fun _ => (1 : ℝ)
  let Ms ← Mach_PtPs NPR z.gamma
  let s0 ← Sigma_Mach Ms gamma0
  let M ← vec (fun a => do
    let q ← Py.div a z.geo.AsoAc
    MachSub_Sigma newton (q * s0) z.gamma) z.geo.AxoAc
  let Ps ← staticP z.gamma Pt M
  return { z with M := some M, Ps := some Ps, Pt := some Pt }

/-- the choked, fully supersonic Mach distribution (`nozzle.py:193-195`) -/
noncomputable def choked_M (newton : RootFinder) (z : Noz) : Py (List ℝ) := do
  let up ← vec (fun a => MachSub_Sigma newton a z.gamma) (z.geo.AxoAc.take (z.geo.ithroat + 1))
  let dn ← vec (fun a => MachSup_Sigma newton a z.gamma) (z.geo.AxoAc.drop (z.geo.ithroat + 1))
  return up ++ dn

/-- `set_NPR` (`nozzle.py:181-205`) -/
noncomputable def set_NPR (newton : RootFinder) (dg : ℝ) (z : Noz) (NPR : ℝ) : Py Noz :=
  if NPR < z.lim.NPR0 then set_NPR_subsonic newton z NPR
  else do
    let M0 ← choked_M newton z
    let Pt0 := z.geo.AxoAc.map fun _ => (1 : ℝ)
    if NPR < z.lim.NPRsw then do
      let Ms ← Ms_from_AsAc_NPR newton dg z.geo.AsoAc NPR
      let pr ← PtPs_Mach Ms gamma0
      let Ptloss ← Py.div pr NPR
      let Msh ← Mn_Pi_ratio Ptloss gamma0
      let ish ← argmin (M0.map fun m => |m - Msh|)
      let s ← Sigma_Mach Ms gamma0
      let tail ← vec (fun a => do
        let q ← Py.div (a * s) z.geo.AsoAc
        MachSub_Sigma newton q gamma0) (z.geo.AxoAc.drop ish)
      let M := M0.take ish ++ tail
      let Pt := Pt0.take ish ++ (Pt0.drop ish).map fun _ => Ptloss
      let Ps ← staticP gamma0 Pt M
      pure { z with M := some M, Ps := some Ps, Pt := some Pt }
    else do
      let Ps ← staticP gamma0 Pt0 M0
      pure { z with M := some M0, Ps := some Ps, Pt := some Pt0 }

open Classical in
/-- body of `__init__` between `save_default()` and `restore_default()` (`nozzle.py:173-177`);
`if NPR:` is false for `None` and for `0` -/
noncomputable def initBody (newton : RootFinder) (dg : ℝ) (gamma : ℝ) (g : Geometry) (NPR : Option ℝ)
    (ref_rttot scale_ps : ℝ) : Py Noz := do
  let l ← NPR_Ms_list newton g.AsoAc
  let z : Noz := ⟨gamma, g, l, ref_rttot, scale_ps, none, none, none⟩
  match NPR with
  | some n => if n ≠ 0 then set_NPR newton dg z n else pure z
  | none => pure z

/-- `nozzle.__init__` (`nozzle.py:162-179`): new state of the `defaultgas` module and the object.
`save_default()` / `restore_default()` surround the computation; an exception in between skips
`restore_default()`.  (`x` is stored and never used: not modelled.) -/
noncomputable def new (newton : RootFinder) (s : DefaultGas.State) (sec : List ℝ) (AsoAc : Option ℝ)
    (gamma : ℝ) (NPR : Option ℝ) (ref_rttot scale_ps : ℝ) : DefaultGas.State × Py Noz :=
  match geometry sec AsoAc with
  | .error e => (s, .error e)
  | .ok g =>
    let s1 := DefaultGas.save_default s
    match initBody newton s1.gamma gamma g NPR ref_rttot scale_ps with
    | .error e => (s1, .error e)
    | .ok z =>
      match DefaultGas.restore_default s1 with
      | .ok s2 => (s2, .ok z)
      | .error e => (s1, .error e)

/-- `Mach()` (`nozzle.py:207-208`) -/
def Noz.Mach (z : Noz) : Py (List ℝ) := match z.M with | some a => .ok a | none => .error .attributeError
/-- `Ps()` (`nozzle.py:210-211`) -/
def Noz.getPs (z : Noz) : Py (List ℝ) := match z.Ps with | some a => .ok a | none => .error .attributeError
/-- `Ptot()` (`nozzle.py:213-214`) -/
def Noz.Ptot (z : Noz) : Py (List ℝ) := match z.Pt with | some a => .ok a | none => .error .attributeError

end Aerokit.Nozzle
