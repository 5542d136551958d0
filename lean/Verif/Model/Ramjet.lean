import Verif.Model.Plot
import Verif.Model.Rayleigh
import Verif.Model.MassFlow
import Verif.Model.DefaultGas

/-! # Model of the script `examples/ramjet-working.py`

The working states of a ramjet (throat 2, combustor 3-4, sonic nozzle throat 8): the constants `M0`, `M2` and `npts` of the script are parameters
(the script has 2.8, 1.5 and 50), `gam` is the constant 1.4.  A scalar that is `nan` or raises stops the model; an array is a list of `Py ℝ` as in
`Model/Plot`.  `np.log10(np.logspace(a, b, n))` is `np.linspace(a, b, n)` over the reals.  Not modelled: the printed lines, titles, labels and
colours. -/

namespace Aerokit.Ramjet
open ShockWave MassFlow Rayleigh Plot
open DefaultGas (gamma0)

/-- `gam = 1.4` (`ramjet-working.py:22`) -/
noncomputable def gam : ℝ := 1.4

/-- the arrays of one working mode, drawn against `alpha` (`ramjet-working.py:54-62`, `76-84`, `96-106`, `114-124`) -/
structure Branch where
  alpha : List (Py ℝ)
  m3 : List (Py ℝ)
  m4 : List (Py ℝ)
  pi3 : List (Py ℝ)
  pi4 : List (Py ℝ)

/-- `c * np.ones(npts + 1)` (`ramjet-working.py:57-58`) -/
noncomputable def ones (c : ℝ) (npts : ℕ) : List (Py ℝ) := (List.range (npts + 1)).map fun _ => .ok c

/-- (FS) fully supersonic flow (`ramjet-working.py:48-62`).  NOTE: in `M3sup = mf.Mach_Sigma(…, gam)` the second positional argument is the initial
guess of the Mach number: the search starts from 1.4, with the default `gamma`. -/
noncomputable def fs (newton : RootFinder) (npts : ℕ) (M2 A3A2 A8A2 : ℝ) : Py (ℝ × Branch) := do
  let s2 ← Sigma_Mach M2 gam
  let M3sup ← Mach_Sigma newton (A3A2 * s2) gam gamma0
  let q ← Py.div A3A2 A8A2
  let M4max ← Mach_Sigma newton q 2.0 gam
  let t4 ← Ti_Ticri M4max gam
  let t3 ← Ti_Ticri M3sup gam
  let alphamax ← Py.div t4 t3
  let alpha := linspace (.ok 1.0) (.ok alphamax) npts
  let m4 := elementwise (fun a => do let r ← Py.div a alphamax; SupMach_TiTicri (r * t4) gam) alpha
  let pi4 := elementwise (fun m => do let p ← Pi_Picri m gam; let p3 ← Pi_Picri M3sup gam; Py.div p p3) m4
  return (M3sup, ⟨alpha, ones M3sup npts, m4, ones 1.0 npts, pi4⟩)

/-- (CW) conventional working state (`ramjet-working.py:64-84`); returns also `alphamax` -/
noncomputable def cw (newton : RootFinder) (npts : ℕ) (M2 A3A2 A8A2 M3sup : ℝ) : Py (ℝ × Branch) := do
  let q ← Py.div A3A2 A8A2
  let m4 ← Mach_Sigma newton q 0.1 gam
  let m3low ← downstream_Mn M3sup gam
  let t4 ← Ti_Ticri m4 gam
  let tlow ← Ti_Ticri m3low gam
  let alphamin ← Py.div t4 tlow
  let md ← downstream_Mn M2 gam
  let sd ← Sigma_Mach md gam
  let m3high ← Mach_Sigma newton (A3A2 * sd) 0.1 gam
  let thigh ← Ti_Ticri m3high gam
  let alphamax ← Py.div t4 thigh
  let alpha := linspace (.ok alphamin) (.ok alphamax) npts
  let m3 := elementwise (fun a => do let r ← Py.div t4 a; SubMach_TiTicri r gam) alpha
  let pi3 := elementwise (fun m => do
    let s ← Sigma_Mach m gam; let s2 ← Sigma_Mach M2 gam; let r ← Py.div s s2; Py.div r A3A2) m3
  let pi4 := List.zipWith (fun p m => do
    let p ← p; let m ← m; let a ← Pi_Picri m4 gam; let b ← Pi_Picri m gam; Py.div (p * a) b) pi3 m3
  return (alphamax, ⟨alpha, m3, ones m4 npts, pi3, pi4⟩)

/-- (UC) unstarted channel (`ramjet-working.py:86-106`); `cwmax` is the `alphamax` of the conventional branch; returns also its `alphamin` -/
noncomputable def uc (newton : RootFinder) (npts : ℕ) (M0 A3A2 A8A2 cwmax : ℝ) : Py (ℝ × Branch) := do
  let alphamax := 1.1 * cwmax
  let q ← Py.div A3A2 A8A2
  let m4 ← Mach_Sigma newton q 0.1 gam
  let m3low ← Mach_Sigma newton A3A2 0.1 gam
  let t4 ← Ti_Ticri m4 gam
  let tlow ← Ti_Ticri m3low gam
  let alphamin ← Py.div t4 tlow
  let md ← downstream_Mn M0 gam
  let _A1A2 ← Sigma_Mach md gam
  let alpha := linspace (.ok alphamin) (.ok alphamax) npts
  let pi0 ← Pt_ratio M0 gamma0
  let m3 := elementwise (fun a => do let r ← Py.div t4 a; SubMach_TiTicri r gam) alpha
  let pi3 := ones pi0 npts
  let pi4 := List.zipWith (fun p m => do
    let p ← p; let m ← m; let a ← Pi_Picri m4 gam; let b ← Pi_Picri m gam; Py.div (p * a) b) pi3 m3
  return (alphamin, ⟨alpha, m3, ones m4 npts, pi3, pi4⟩)

/-- (RC) unstarted but choked channel (`ramjet-working.py:108-124`); `ucmin` is the `alphamin` of the unstarted branch -/
noncomputable def rc (newton : RootFinder) (npts : ℕ) (M0 A3A2 A8A2 ucmin : ℝ) : Py Branch := do
  let alphamax := ucmin
  let q ← Py.div A3A2 A8A2
  let m4 ← Mach_Sigma newton q 0.1 gam
  let m3low ← Mach_Sigma newton A3A2 2.0 gam
  let t4 ← Ti_Ticri m4 gam
  let tlow ← Ti_Ticri m3low gam
  let alphamin ← Py.div t4 tlow
  let alpha := linspace (.ok alphamin) (.ok alphamax) npts
  let pi0 ← Pt_ratio M0 gamma0
  let m3 := elementwise (fun a => do let r ← Py.div t4 a; SubMach_TiTicri r gam) alpha
  let pi3 := elementwise (fun m => do let s ← Sigma_Mach m gam; Py.div (pi0 * s) A3A2) m3
  let pi4 := List.zipWith (fun p m => do
    let p ← p; let m ← m; let a ← Pi_Picri m4 gam; let b ← Pi_Picri m gam; Py.div (p * a) b) pi3 m3
  return ⟨alpha, m3, ones m4 npts, pi3, pi4⟩

/-- what the script draws, and the areas of the engine -/
structure Figure where
  A2A0 : ℝ
  A3A2 : ℝ
  A8A2 : ℝ
  FS : Branch
  CW : Branch
  UC : Branch
  RC : Branch

/-- the whole script (`ramjet-working.py:22-131`) -/
noncomputable def ramjet (newton : RootFinder) (npts : ℕ) (M0 M2 : ℝ) : Py Figure := do
  let s2 ← Sigma_Mach M2 gam
  let s0 ← Sigma_Mach M0 gam
  let A2A0 ← Py.div s2 s0
  let i ← Py.div 1.0 A2A0
  let A3A2 := i * 0.9
  let A8A2 := 0.8 * A3A2
  let (M3sup, bFS) ← fs newton npts M2 A3A2 A8A2
  let (cwmax, bCW) ← cw newton npts M2 A3A2 A8A2 M3sup
  let (ucmin, bUC) ← uc newton npts M0 A3A2 A8A2 cwmax
  let bRC ← rc newton npts M0 A3A2 A8A2 ucmin
  return ⟨A2A0, A3A2, A8A2, bFS, bCW, bUC, bRC⟩

end Aerokit.Ramjet
