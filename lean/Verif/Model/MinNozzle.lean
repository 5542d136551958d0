import Verif.Model.Py
import Mathlib.Analysis.SpecialFunctions.Trigonometric.Arctan

/-!
# Model of `notebooks/Minimum_length_nozzle.py`

A stand-alone script: design of a divergent of minimum length by the method of characteristics.
The module-level `gamma = 1.27` is a constant of the model.  `math.sqrt`, `math.asin` and a division
by zero raise in Python; all are `PyErr.nonFinite` here.  The Newton loop takes fuel (the same for
every call) and reports `PyErr.outOfFuel` when it is still running.  Printing and plotting
(`:282-359`) are not modelled.  `point` objects are only stored after `copie()`, so that points are
values; all fields of the working object `point_actuel` are overwritten before each such copy.
-/

namespace Aerokit.MinNozzle

/-- `gamma = 1.27` (`Minimum_length_nozzle.py:6`). -/
noncomputable def gamma : ℝ := 1.27

/-- `pmeyer` (`Minimum_length_nozzle.py:15-23`), Prandtl–Meyer function in radians. -/
noncomputable def pmeyer (M : ℝ) : Py ℝ := do
  let c ← Py.div (gamma - 1) (gamma + 1)
  let ic ← Py.div 1 c
  let k ← Py.sqrt ic
  let s ← Py.sqrt (c * (M ^ 2 - 1))
  let v := k * Real.arctan s
  let b ← Py.sqrt (M ^ 2 - 1.0)
  return v - Real.arctan b

open Classical in
/-- `pmeyer_prime` (`Minimum_length_nozzle.py:26-37`). -/
noncomputable def pmeyer_prime (M : ℝ) : Py ℝ :=
  if M = 1 then .ok 0.0
  else do
    let c ← Py.div (gamma - 1) (gamma + 1)
    let q ← Py.div M (1 + c * (M ^ 2 - 1))
    let i ← Py.div 1 M
    let b ← Py.sqrt (M ^ 2 - 1)
    Py.div (q - i) b

/-- The local function `f` of `mach_via_pmeyer` (`Minimum_length_nozzle.py:48-50`). -/
noncomputable def f (v m : ℝ) : Py ℝ := do
  let p ← pmeyer m
  return v - p

/-- The local function `f_prime` of `mach_via_pmeyer` (`Minimum_length_nozzle.py:52-54`). -/
noncomputable def f_prime (m : ℝ) : Py ℝ := do
  let p ← pmeyer_prime m
  return -1 * p

/-- The `while` loop of `mach_via_pmeyer` (`Minimum_length_nozzle.py:58-62`). -/
noncomputable def newton (v : ℝ) : ℕ → ℝ → Py ℝ
  | fuel, M => do
    let r ← f v M
    if |r| > 0.00001 then
      match fuel with
      | 0 => .error .outOfFuel
      | fuel + 1 => do
        let d ← f_prime M
        let q ← Py.div r d
        newton v fuel (M - q)
    else
      return M

open Classical in
/-- `mach_via_pmeyer` (`Minimum_length_nozzle.py:39-62`). -/
noncomputable def mach_via_pmeyer (fuel : ℕ) (v : ℝ) : Py ℝ :=
  if v = 0 then .ok 1.0 else newton v fuel 2.0

/-- `mach_angle` (`Minimum_length_nozzle.py:65-67`). -/
noncomputable def mach_angle (M : ℝ) : Py ℝ := do
  let i ← Py.div 1 M
  Py.arcsin i

/-- The composition `mach_angle(mach_via_pmeyer(v))` (`Minimum_length_nozzle.py:124-125,188,227,252,271`). -/
noncomputable def mu (fuel : ℕ) (v : ℝ) : Py ℝ := do
  let M ← mach_via_pmeyer fuel v
  mach_angle M

/-- Class `point` (`Minimum_length_nozzle.py:73-83`). -/
structure Point where
  x : ℝ
  y : ℝ
  theta : ℝ
  nu_pmeyer : ℝ

/-- `point.k_plus` (`Minimum_length_nozzle.py:87-89`). -/
def Point.k_plus (p : Point) : ℝ := p.theta - p.nu_pmeyer

/-- `point.k_moins` (`Minimum_length_nozzle.py:91-93`). -/
def Point.k_moins (p : Point) : ℝ := p.theta + p.nu_pmeyer

/-- `tab[a][b]` for non-negative indices (`Minimum_length_nozzle.py:112-113` and others). -/
def getPt (tab : List (List Point)) (a b : ℕ) : Py Point :=
  match tab[a]? with
  | none => .error .indexError
  | some r =>
    match r[b]? with
    | none => .error .indexError
    | some p => .ok p

/-- `new_point` (`Minimum_length_nozzle.py:108-134`). -/
noncomputable def new_point (fuel : ℕ) (caratab : List (List Point)) (a b : ℕ) : Py Point := do
  let father_Cmoins ← getPt caratab a (b - 1)
  let father_Cplus ← getPt caratab (a - 1) b
  let theta := (father_Cmoins.k_moins + father_Cplus.k_plus) / 2
  let nu := (father_Cmoins.k_moins - father_Cplus.k_plus) / 2
  let mup ← mu fuel father_Cplus.nu_pmeyer
  let mun ← mu fuel nu
  let Beta_plus := (father_Cplus.theta + mup + theta + mun) / 2
  let mum ← mu fuel father_Cmoins.nu_pmeyer
  let Beta_moins := (father_Cmoins.theta - mum + theta - mun) / 2
  let tp ← Py.tan Beta_plus
  let tm ← Py.tan Beta_moins
  let q ← Py.div (father_Cmoins.y * tp) tm
  let q' ← Py.div tp tm
  let y ← Py.div (father_Cplus.y - q + (father_Cmoins.x - father_Cplus.x) * tp) (1 - q')
  let dx ← Py.div (y - father_Cmoins.y) tm
  return ⟨father_Cmoins.x + dx, y, theta, nu⟩

/-- The first characteristic (`Minimum_length_nozzle.py:179-192`): `points_ecoulement` after it. -/
noncomputable def row0 (fuel : ℕ) (area_throat dtheta : ℝ) : Py (List (List Point)) := do
  let y0 ← Py.sqrt (area_throat / Real.pi)
  let p : Point := ⟨0.0, y0, dtheta, dtheta⟩
  let mu0 ← mu fuel p.nu_pmeyer
  let Beta := p.theta - mu0
  let t ← Py.tan Beta
  let dx ← Py.div p.y t
  return [[p, ⟨p.x - dx, 0, dtheta, dtheta⟩]]

/-- The loop `for b in range(1, a+1)` (`Minimum_length_nozzle.py:212-215`): `k` iterations remain. -/
noncomputable def fill (fuel a : ℕ) : (k b : ℕ) → List (List Point) → Py (List (List Point))
  | 0, _, tab => .ok tab
  | k + 1, b, tab => do
    let p ← new_point fuel tab a b
    fill fuel a k (b + 1) (tab.modify a (· ++ [p]))

/-- One iteration of `for a in range(1, n+1)` (`Minimum_length_nozzle.py:201-231`). -/
noncomputable def row (fuel : ℕ) (area_throat delta_theta : ℝ) (tab : List (List Point)) (a : ℕ) :
    Py (List (List Point)) := do
  let y0 ← Py.sqrt (area_throat / Real.pi)
  let prev ← getPt tab (a - 1) 0
  let th := prev.theta + delta_theta
  let tab := tab ++ [[⟨0.0, y0, th, th⟩]]
  let tab ← fill fuel a a 1 tab
  let last ← getPt tab a a
  let mul ← mu fuel last.nu_pmeyer
  let Beta := last.theta - mul
  let t ← Py.tan Beta
  let dx ← Py.div last.y t
  return tab.modify a (· ++ [⟨last.x - dx, 0, 0, last.k_moins⟩])

/-- The loop over the expansion fan (`Minimum_length_nozzle.py:201-231`): `k` iterations remain. -/
noncomputable def rows (fuel : ℕ) (area_throat delta_theta : ℝ) :
    (k a : ℕ) → List (List Point) → Py (List (List Point))
  | 0, _, tab => .ok tab
  | k + 1, a, tab => do
    let tab ← row fuel area_throat delta_theta tab a
    rows fuel area_throat delta_theta k (a + 1) tab

/-- `tab[-1][0]` (`Minimum_length_nozzle.py:248,267`). -/
def lastFirst (tab : List (List Point)) : Py Point :=
  match tab.getLast? with
  | none => .error .indexError
  | some r =>
    match r[0]? with
    | none => .error .indexError
    | some p => .ok p

/-- The first point of the wall (`Minimum_length_nozzle.py:248-257`). -/
noncomputable def wall_first (fuel n : ℕ) (tab : List (List Point)) : Py Point := do
  let pere_mur ← lastFirst tab
  let pere_ecoulement ← getPt tab n 1
  let m ← mu fuel pere_ecoulement.nu_pmeyer
  let sigma := pere_ecoulement.theta + m
  let theta_moy := (pere_ecoulement.theta + pere_mur.theta) / 2
  let ts ← Py.tan sigma
  let tm ← Py.tan theta_moy
  let q ← Py.div (pere_mur.y * ts) tm
  let q' ← Py.div ts tm
  let y ← Py.div (pere_ecoulement.y - q + (pere_mur.x - pere_ecoulement.x) * ts) (1 - q')
  let dx ← Py.div (y - pere_ecoulement.y) ts
  return ⟨pere_ecoulement.x + dx, y, pere_ecoulement.theta, pere_ecoulement.nu_pmeyer⟩

/-- The `k`-th point of the wall, `k ≥ 2` (`Minimum_length_nozzle.py:267-276`). -/
noncomputable def wall_next (fuel n : ℕ) (tab : List (List Point)) (k : ℕ) : Py Point := do
  let pere_mur ← lastFirst tab
  let pere_ecoulement ← getPt tab n k
  let m ← mu fuel pere_ecoulement.nu_pmeyer
  let sigma := pere_ecoulement.theta + m
  let theta_moy := (pere_ecoulement.theta + pere_mur.theta) / 2
  let ts ← Py.tan sigma
  let tm ← Py.tan theta_moy
  let q ← Py.div (pere_mur.y * ts) tm
  let q' ← Py.div ts tm
  let y ← Py.div (pere_ecoulement.y - q + (pere_mur.x - pere_ecoulement.x) * ts) (1 - q')
  let dx ← Py.div (y - pere_mur.y) tm
  return ⟨pere_mur.x + dx, y, pere_ecoulement.theta, pere_ecoulement.nu_pmeyer⟩

/-- The loop `for k in range(2, n+2)` (`Minimum_length_nozzle.py:263-280`): `i` iterations remain;
state: `points_ecoulement`, `profil_divergent`, `point_actuel`. -/
noncomputable def walls (fuel n : ℕ) : (i k : ℕ) → List (List Point) × List (ℝ × ℝ) × Point →
    Py (List (List Point) × List (ℝ × ℝ) × Point)
  | 0, _, s => .ok s
  | i + 1, k, (tab, profil, _) => do
    let p ← wall_next fuel n tab k
    walls fuel n i (k + 1) (tab ++ [[p]], profil ++ [(p.x, p.y)], p)

/-- `Minimum_length_nozzle` (`Minimum_length_nozzle.py:150-362`) for `n ≥ 0`: the mesh
`points_ecoulement` (a local variable of the function, observable through its plots and prints), and
the returned pair: the profile and the exit Mach number. -/
noncomputable def Minimum_length_nozzle (fuel : ℕ) (mach_final area_throat : ℝ) (n : ℕ) :
    Py (List (List Point) × List (ℝ × ℝ) × ℝ) := do
  let p ← pmeyer mach_final
  let theta0 := p / 2
  let tn ← Py.div theta0 n
  let dtheta := tn / 100
  let delta_theta ← Py.div (theta0 - dtheta) n
  let y0 ← Py.sqrt (area_throat / Real.pi)
  let tab ← row0 fuel area_throat dtheta
  let tab ← rows fuel area_throat delta_theta n 1 tab
  let w ← wall_first fuel n tab
  let (tab, profil, pt) ← walls fuel n n 2 (tab ++ [[w]], [(0.0, y0), (w.x, w.y)], w)
  let M ← mach_via_pmeyer fuel pt.nu_pmeyer
  return (tab, profil, M)

/-- `rapport_expansion` (`Minimum_length_nozzle.py:365-367`). -/
noncomputable def rapport_expansion (mach : ℝ) : Py ℝ := do
  let b ← Py.div (2 + (gamma - 1) * mach ^ 2) (gamma + 1)
  let e ← Py.div ((gamma + 1) / 2) (gamma - 1)
  let w ← Py.pow b e
  Py.div w mach

end Aerokit.MinNozzle
