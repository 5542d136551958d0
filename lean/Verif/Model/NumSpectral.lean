import Verif.Model.Py
import Mathlib.Data.Matrix.Basic
import Mathlib.Data.Fin.Rev
import Mathlib.RingTheory.Polynomial.Chebyshev

/-!
# Model of `aerokit/common/numspectral.py` (class `ChebCollocation`) and `aerokit/common/_dev.py`

The number of points `N` is a parameter of the type.  numpy element-wise divisions are checked:
a division by zero anywhere gives `nonFinite`.  `numpy.polynomial.chebyshev` is modelled by the
Chebyshev polynomials of Mathlib (its documented meaning); `np.linalg.solve` and `np.linalg.lstsq`
are parameters (contracts in `Spec/LinAlg.lean`).
-/

namespace Aerokit.NumSpectral
open Polynomial

/-- A `ChebCollocation` object (`numspectral.py:10-18`): attributes `_npts` (= `N`), `_max_Dorder`,
`_xmin`, `_xmax`, `_matder` (list over the last axis, `[]` before the first computation), and the
attributes created by `@lazyprop` (`_dev.py:4-14`), `none` until first read. -/
structure Cheb (N : ℕ) where
  maxDorder : ℕ
  xmin : ℝ
  xmax : ℝ
  matderAttr : List (Matrix (Fin N) (Fin N) ℝ)
  cache_xi : Option (Fin N → ℝ)
  cache_x : Option (Fin N → ℝ)

variable {N : ℕ}

/-- `__init__` (`numspectral.py:13-18`), `none` is Python's `None`. -/
noncomputable def mk (N : ℕ) (xmin xmax : Option ℝ) : Cheb N where
  maxDorder := 0
  xmin := xmin.getD (-1.0)
  xmax := xmax.getD 1.0
  matderAttr := []
  cache_xi := none
  cache_x := none

/-- element-wise `v / d` for a scalar `d` -/
noncomputable def vecDiv (v : Fin N → ℝ) (d : ℝ) : Py (Fin N → ℝ) :=
  if d = 0 then .error .nonFinite else .ok fun i => v i / d

/-- Body of the lazy property `xi` (`numspectral.py:24-27`). -/
noncomputable def xiBody (_s : Cheb N) : Py (Fin N → ℝ) := do
  let th ← vecDiv (fun i : Fin N => (i : ℝ) * Real.pi) ((N : ℝ) - 1)
  return fun i => Real.cos (th i)

/-- `lazyprop` (`_dev.py:4-14`) on `xi`: computes and stores at the first access only. -/
noncomputable def xi (s : Cheb N) : Py (Cheb N × (Fin N → ℝ)) :=
  match s.cache_xi with
  | some v => .ok (s, v)
  | none => do
    let v ← xiBody s
    return ({ s with cache_xi := some v }, v)

/-- `_xi_to_x` (`numspectral.py:36-38`), one element. -/
noncomputable def xi_to_x (s : Cheb N) (xi : ℝ) : ℝ := s.xmin + (xi - 1.0) / (-2.0) * (s.xmax - s.xmin)

/-- `_x_to_xi` (`numspectral.py:33-34`), one element. -/
noncomputable def x_to_xi (s : Cheb N) (x : ℝ) : Py ℝ := do
  let q ← Py.div (2.0 * (x - s.xmin)) (s.xmax - s.xmin)
  return 1.0 - q

/-- lazy property `x` (`numspectral.py:29-31`). -/
noncomputable def x (s : Cheb N) : Py (Cheb N × (Fin N → ℝ)) :=
  match s.cache_x with
  | some v => .ok (s, v)
  | none => do
    let (s, v) ← xi s
    let w := fun i => xi_to_x s (v i)
    return ({ s with cache_x := some w }, w)

/-- `2 * np.sin(Th + Th.T) * np.sin(Th - Th.T)` with `Th[i, j] = th[j]` (`numspectral.py:87-88`). -/
noncomputable def DX0 (th : ℕ → ℝ) (i j : ℕ) : ℝ :=
  2 * Real.sin (th j + th i) * Real.sin (th j - th i)

/-- `np.vstack([DX[:n1, :], -np.flipud(np.fliplr(DX[:n2, :]))])` (`numspectral.py:84-89`): row `i ≥ n1`
of the result is row `i - n1` of the flipped block, i.e. row `n2 - 1 - (i - n1)` of `DX`, columns
reversed. -/
noncomputable def DX1 (N : ℕ) (th : ℕ → ℝ) (i j : ℕ) : ℝ :=
  let n1 := N / 2
  let n2 := (N + 1) / 2
  if i < n1 then DX0 th i j else -(DX0 th (n2 - 1 - (i - n1)) (N - 1 - j))

/-- `np.fill_diagonal(DX, 1)` (`numspectral.py:91`). -/
noncomputable def DX (N : ℕ) (th : ℕ → ℝ) (i j : ℕ) : ℝ := if i = j then 1 else DX1 N th i j

/-- `toeplitz(first_col, first_row)` with both equal to `(-1.0) ** irange`
(`numspectral.py:93-95`). -/
noncomputable def T (i j : ℕ) : ℝ := if i ≥ j then (-1.0) ^ (i - j) else (-1.0) ^ (j - i)

/-- `C` after the four in-place scalings (`numspectral.py:97-102`): row 0, row -1, column 0,
column -1. -/
noncomputable def Cmat (N : ℕ) (i j : ℕ) : ℝ :=
  let c := T i j
  let c := if i = 0 then c * 2 else c
  let c := if i = N - 1 then c * 2 else c
  let c := if j = 0 then c / 2 else c
  if j = N - 1 then c / 2 else c

open Classical in
/-- `Z = 1.0 / DX` then `np.fill_diagonal(Z, 0)` (`numspectral.py:104-106`). -/
noncomputable def Zmat (th : ℕ → ℝ) : Py (Matrix (Fin N) (Fin N) ℝ) :=
  if ∀ i j : Fin N, DX N th i j ≠ 0 then
    .ok fun i j => if i = j then 0 else 1.0 / DX N th i j
  else .error .nonFinite

/-- Body of the loop (`numspectral.py:112-114`): the two assignments to `D`. -/
noncomputable def stepD (Z D : Matrix (Fin N) (Fin N) ℝ) (ell : ℕ) : Matrix (Fin N) (Fin N) ℝ :=
  let D' : Matrix (Fin N) (Fin N) ℝ := fun i j => ((ell : ℝ) + 1) * Z i j * (Cmat N i j * D i i - D i j)
  fun i j => if i = j then -∑ k, D' i k else D' i j

/-- The loop `for ell in range(M)` (`numspectral.py:111-115`); the matrices `DM[:, :, ell]`. -/
noncomputable def loopD (Z : Matrix (Fin N) (Fin N) ℝ) (scale : ℝ) :
    (left ell : ℕ) → Matrix (Fin N) (Fin N) ℝ → List (Matrix (Fin N) (Fin N) ℝ)
  | 0, _, _ => []
  | left + 1, ell, D =>
    let D := stepD Z D ell
    (Matrix.of fun i j => D i j * scale ^ (ell + 1)) :: loopD Z scale left (ell + 1) D

/-- `compute_matder` (`numspectral.py:76-117`). -/
noncomputable def compute_matder (s : Cheb N) (maxorder : ℕ) : Py (Cheb N) := do
  let th ← vecDiv (fun i : Fin N => (i : ℝ) * Real.pi) ((N : ℝ) - 1)
  let th := fun k : ℕ => if h : k < N then th ⟨k, h⟩ / 2 else 0
  let Z ← Zmat th
  let scale ← Py.div (-2.0) (s.xmax - s.xmin)
  return { s with matderAttr := loopD Z scale maxorder 0 1, maxDorder := maxorder }

/-- `matder` (`numspectral.py:70-74`). -/
noncomputable def matder (s : Cheb N) (order : ℕ) : Py (Cheb N × Matrix (Fin N) (Fin N) ℝ) :=
  if order ≥ 1 then do
    let s ← if order > s.maxDorder then compute_matder s order else pure s
    match s.matderAttr[order - 1]? with
    | some D => return (s, D)
    | none => .error .indexError
  else .error .assertionError

/-- `chebyshev.chebvander(xi, N - 1)` (`numspectral.py:52, 64`): column `k` is `T_k`. -/
noncomputable def chebvander {m : ℕ} (N : ℕ) (xi : Fin m → ℝ) : Matrix (Fin m) (Fin N) ℝ :=
  fun i k => (Chebyshev.T ℝ (k : ℕ)).eval (xi i)

/-- `chebyshev.chebval(xi, coefs)` (`numspectral.py:54, 66`). -/
noncomputable def chebval (xi : ℝ) (coefs : Fin N → ℝ) : ℝ :=
  ∑ k, coefs k * (Chebyshev.T ℝ (k : ℕ)).eval xi

/-- type of `np.linalg.solve` on square systems -/
abbrev Solver := ∀ N : ℕ, Matrix (Fin N) (Fin N) ℝ → (Fin N → ℝ) → Py (Fin N → ℝ)
/-- type of `np.linalg.lstsq(A, b)[0]` -/
abbrev Lstsq := ∀ m N : ℕ, Matrix (Fin m) (Fin N) ℝ → (Fin m → ℝ) → Py (Fin N → ℝ)

/-- `extrapol(fk, x)` for one `x` (`numspectral.py:40-55`). -/
noncomputable def extrapol (solve : Solver) (s : Cheb N) (fk : Fin N → ℝ) (x : ℝ) : Py (Cheb N × ℝ) := do
  let (s, v) ← xi s
  let coefs ← solve N (chebvander N v) fk
  let xx ← x_to_xi s x
  return (s, chebval xx coefs)

/-- sequencing of an element-wise partial function -/
noncomputable def mapVec {m : ℕ} (f : ℝ → Py ℝ) (v : Fin m → ℝ) : Py (Fin m → ℝ) :=
  match m, v with
  | 0, _ => .ok fun i => i.elim0
  | _ + 1, v => do
    let a ← f (v 0)
    let r ← mapVec f fun i => v i.succ
    return Fin.cons a r

/-- `fit_to_gauss(x, f)` (`numspectral.py:57-67`) on `m` points. -/
noncomputable def fit_to_gauss {m : ℕ} (lstsq : Lstsq) (s : Cheb N) (x f : Fin m → ℝ) :
    Py (Cheb N × (Fin N → ℝ)) := do
  let xx ← mapVec (x_to_xi s) x
  let coefs ← lstsq m N (chebvander N xx) f
  let (s, v) ← xi s
  return (s, fun i => chebval (v i) coefs)

end Aerokit.NumSpectral
