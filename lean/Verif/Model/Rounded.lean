import Verif.Model.Py
import Verif.Model.DefaultGas

/-!
# Model with rounding of the algebraic flow functions

The rest of the model computes with exact real numbers.  Here the explicit (loop free) functions of
`Isentropic.py`, `MassFlow.py`, `ShockWave.py`, `Fanno.py` and `Rayleigh.py` are modelled again with
*every* arithmetic operation rounded, in the order in which Python evaluates it.

An arithmetic `Arith` is any pair of
* a rounding function `rnd` with relative error at most `u`, applied to the exact result of each
  `+ - * /`, `np.sqrt`, `np.square` (and `** 2`, which numpy evaluates as a product);
* a power function `pw` with relative error at most `u` (libm `pow`).

So overflow, underflow, subnormals, NaN and signed zeros are not modelled; arguments and literals
(0.5, 1, 2, 4) are floating point numbers, hence exact.  `exact` is the arithmetic without rounding;
`Props/Rounding.lean` proves that with it these definitions are the functions of the exact model, and
that rounding to `p` binary digits is an `Arith` with `u = 2⁻ᵖ`.
-/

namespace Aerokit.Rounded

/-- a rounded arithmetic (numpy float64: `u = 2⁻⁵³` for the four operations, square root and square,
at most `2⁻⁵²` with a libm whose `pow` is accurate to one unit in the last place) -/
structure Arith where
  /-- largest relative error of one operation -/
  u : ℝ
  /-- rounding of the exact result of `+ - * / sqrt square` -/
  rnd : ℝ → ℝ
  /-- the library's `pow` -/
  pw : ℝ → ℝ → ℝ
  u_nonneg : 0 ≤ u
  rnd_rel : ∀ x, |rnd x - x| ≤ u * |x|
  pw_rel : ∀ b e, 0 < b → |pw b e - b ^ e| ≤ u * b ^ e

/-- no rounding at all -/
noncomputable def exact : Arith where
  u := 0
  rnd := id
  pw := fun b e => b ^ e
  u_nonneg := le_rfl
  rnd_rel := by simp
  pw_rel := by simp

variable (F : Arith)

/-- `a + b` -/
noncomputable def Arith.add (a b : ℝ) : ℝ := F.rnd (a + b)
/-- `a - b` -/
noncomputable def Arith.sub (a b : ℝ) : ℝ := F.rnd (a - b)
/-- `a * b` -/
noncomputable def Arith.mul (a b : ℝ) : ℝ := F.rnd (a * b)
/-- `a ** 2` and `np.square(a)` -/
noncomputable def Arith.sq (a : ℝ) : ℝ := F.rnd (a ^ 2)
/-- `a / b` -/
noncomputable def Arith.div (a b : ℝ) : Py ℝ := if b = 0 then .error .nonFinite else .ok (F.rnd (a / b))
/-- `np.sqrt(a)` -/
noncomputable def Arith.sqrt (a : ℝ) : Py ℝ := if a < 0 then .error .nonFinite else .ok (F.rnd (Real.sqrt a))
open Classical in
/-- `b ** e` -/
noncomputable def Arith.pow (b e : ℝ) : Py ℝ :=
  if 0 < b ∨ (b = 0 ∧ 0 ≤ e) ∨ (b < 0 ∧ ∃ n : ℤ, e = n) then .ok (F.pw b e) else .error .nonFinite

/-! ### `Isentropic.py` -/

/-- `TtTs_Mach` (`Isentropic.py:30-45`). -/
noncomputable def TtTs_Mach (Mach gamma : ℝ) : Py ℝ :=
  return F.add 1.0 (F.mul (F.mul 0.5 (F.sub gamma 1)) (F.sq Mach))

/-- `PtPs_Mach` (`Isentropic.py:48-67`). -/
noncomputable def PtPs_Mach (Mach gamma : ℝ) : Py ℝ := do
  let e ← F.div gamma (F.sub gamma 1.0)
  F.pow (F.add 1.0 (F.mul (F.mul 0.5 (F.sub gamma 1.0)) (F.sq Mach))) e

/-- `Mach_TtTs` (`Isentropic.py:70-81`). -/
noncomputable def Mach_TtTs (TtTs gamma : ℝ) : Py ℝ := do
  let q ← F.div (F.mul (F.sub TtTs 1.0) 2.0) (F.sub gamma 1.0)
  F.sqrt q

/-- `Mach_PtPs` (`Isentropic.py:84-95`). -/
noncomputable def Mach_PtPs (PtPs gamma : ℝ) : Py ℝ := do
  let e ← F.div (F.sub gamma 1.0) gamma
  let t ← F.pow PtPs e
  let q ← F.div (F.mul (F.sub t 1.0) 2.0) (F.sub gamma 1.0)
  F.sqrt q

/-- `Velocity_MachTt` (`Isentropic.py:98-111`). -/
noncomputable def Velocity_MachTt (Mach Tt r gamma : ℝ) : Py ℝ := do
  let t ← TtTs_Mach F Mach gamma
  let q ← F.div (F.mul (F.mul gamma r) Tt) t
  let a ← F.sqrt q
  return F.mul Mach a

/-! ### `MassFlow.py` -/

/-- `WeightMassFlow` (`MassFlow.py:25-30`): `np.sqrt(gamma) * Mach * (…) ** (-0.5*(gamma+1.)/(gamma-1.))`. -/
noncomputable def WeightMassFlow (Mach _r gamma : ℝ) : Py ℝ := do
  let s ← F.sqrt gamma
  let e ← F.div (F.mul (-0.5) (F.add gamma 1.0)) (F.sub gamma 1.0)
  let w ← F.pow (F.add 1.0 (F.mul (F.mul 0.5 (F.sub gamma 1)) (F.sq Mach))) e
  return F.mul (F.mul s Mach) w

/-- `Sigma_Mach` (`MassFlow.py:33-36`). -/
noncomputable def Sigma_Mach (Mach gamma : ℝ) : Py ℝ := do
  let c ← F.div 2.0 (F.add gamma 1.0)
  let e ← F.div (F.mul 0.5 (F.add gamma 1.0)) (F.sub gamma 1.0)
  let w ← F.pow (F.mul c (F.add 1.0 (F.mul (F.mul 0.5 (F.sub gamma 1)) (F.sq Mach)))) e
  F.div w Mach

/-! ### `ShockWave.py` -/

/-- `Ps_ratio` (`ShockWave.py:16-27`). -/
noncomputable def Ps_ratio (Mn gamma : ℝ) : Py ℝ := do
  let k ← F.div (F.mul 2.0 gamma) (F.add gamma 1.0)
  return F.add 1.0 (F.mul k (F.sub (F.sq Mn) 1.0))

/-- `Mn_Ps_ratio` (`ShockWave.py:30-41`). -/
noncomputable def Mn_Ps_ratio (Pratio gamma : ℝ) : Py ℝ := do
  let q ← F.div (F.mul (F.sub Pratio 1.0) (F.add gamma 1.0)) (F.mul 2.0 gamma)
  F.sqrt (F.add 1 q)

/-- `Rho_ratio` (`ShockWave.py:44-54`). -/
noncomputable def Rho_ratio (Mn gamma : ℝ) : Py ℝ :=
  F.div (F.mul (F.add gamma 1.0) (F.sq Mn)) (F.add 2.0 (F.mul (F.sub gamma 1.0) (F.sq Mn)))

/-- `Ts_ratio` (`ShockWave.py:57-67`). -/
noncomputable def Ts_ratio (Mn gamma : ℝ) : Py ℝ := do
  let p ← Ps_ratio F Mn gamma
  let r ← Rho_ratio F Mn gamma
  F.div p r

/-- `downstream_Mn` (`ShockWave.py:70-80`). -/
noncomputable def downstream_Mn (Mn gamma : ℝ) : Py ℝ := do
  let q ← F.div (F.add 1.0 (F.mul (F.mul 0.5 (F.sub gamma 1.0)) (F.sq Mn)))
    (F.sub (F.mul gamma (F.sq Mn)) (F.mul 0.5 (F.sub gamma 1.0)))
  F.sqrt q

/-- `Pt_ratio` (`ShockWave.py:83-93`): `gamma` is not forwarded to the first `PtPs_Mach`. -/
noncomputable def Pt_ratio (Mn gamma : ℝ) : Py ℝ := do
  let p ← Ps_ratio F Mn gamma
  let m1 ← downstream_Mn F Mn gamma
  let d ← PtPs_Mach F m1 DefaultGas.gamma0
  let t ← PtPs_Mach F Mn gamma
  F.div (F.mul p d) t

/-! ### `Fanno.py` -/

/-- common factor `2 / (gamma + 1) * (1 + (gamma - 1) / 2 * np.square(Mach))`
(`Fanno.py:26`, `36`, `43`, `50`) -/
noncomputable def fannoT (Mach gamma : ℝ) : Py ℝ := do
  let c ← F.div 2 (F.add gamma 1)
  let h ← F.div (F.sub gamma 1) 2
  return F.mul c (F.add 1 (F.mul h (F.sq Mach)))

/-- `Ps_Pscri` (`Fanno.py:24-26`). -/
noncomputable def fanno_Ps_Pscri (Mach gamma : ℝ) : Py ℝ := do
  let t ← fannoT F Mach gamma
  let s ← F.sqrt t
  F.div 1.0 (F.mul Mach s)

/-- `Ts_Tscri` (`Fanno.py:29-31`). -/
noncomputable def fanno_Ts_Tscri (Mach gamma : ℝ) : Py ℝ := do
  let n ← F.div (F.add gamma 1) 2
  let h ← F.div (F.sub gamma 1) 2
  F.div n (F.add 1 (F.mul h (F.sq Mach)))

/-- `Rho_Rhocri` (`Fanno.py:34-36`). -/
noncomputable def fanno_Rho_Rhocri (Mach gamma : ℝ) : Py ℝ := do
  let i ← F.div 1.0 Mach
  let t ← fannoT F Mach gamma
  let s ← F.sqrt t
  return F.mul i s

/-- `Pi_Picri` (`Fanno.py:39-45`). -/
noncomputable def fanno_Pi_Picri (Mach gamma : ℝ) : Py ℝ := do
  let i ← F.div 1.0 Mach
  let t ← fannoT F Mach gamma
  let n ← F.div (F.add gamma 1) 2
  let e ← F.div n (F.sub gamma 1)
  let w ← F.pow t e
  return F.mul i w

/-- `V_Vcri` (`Fanno.py:48-50`). -/
noncomputable def fanno_V_Vcri (Mach gamma : ℝ) : Py ℝ := do
  let t ← fannoT F Mach gamma
  let s ← F.sqrt t
  F.div Mach s

/-! ### `Rayleigh.py` -/

/-- `Ps_Pscri` (`Rayleigh.py:18-20`). -/
noncomputable def rayleigh_Ps_Pscri (Mach gamma : ℝ) : Py ℝ :=
  F.div (F.add gamma 1) (F.add 1 (F.mul gamma (F.sq Mach)))

/-- `Ts_Tscri` (`Rayleigh.py:23-26`). -/
noncomputable def rayleigh_Ts_Tscri (Mach gamma : ℝ) : Py ℝ := do
  let m2 := F.sq Mach
  let q ← F.div (F.add gamma 1) (F.add 1 (F.mul gamma m2))
  return F.mul m2 (F.sq q)

/-- `Ti_Ticri` (`Rayleigh.py:29-32`). -/
noncomputable def rayleigh_Ti_Ticri (Mach gamma : ℝ) : Py ℝ := do
  let m2 := F.sq Mach
  let q ← F.div (F.mul (F.mul 2 (F.add gamma 1)) m2) (F.sq (F.add 1 (F.mul gamma m2)))
  let h ← F.div (F.sub gamma 1) 2
  return F.mul q (F.add 1 (F.mul h m2))

/-- `Rho_Rhocri` (`Rayleigh.py:35-38`). -/
noncomputable def rayleigh_Rho_Rhocri (Mach gamma : ℝ) : Py ℝ :=
  let m2 := F.sq Mach
  F.div (F.add 1 (F.mul gamma m2)) (F.mul (F.add gamma 1) m2)

/-- `Pi_Picri` (`Rayleigh.py:41-48`). -/
noncomputable def rayleigh_Pi_Picri (Mach gamma : ℝ) : Py ℝ := do
  let m2 := F.sq Mach
  let q ← F.div (F.add gamma 1) (F.add 1 (F.mul gamma m2))
  let c ← F.div 2 (F.add gamma 1)
  let h ← F.div (F.sub gamma 1) 2
  let e ← F.div gamma (F.sub gamma 1)
  let w ← F.pow (F.mul c (F.add 1 (F.mul h m2))) e
  return F.mul q w

/-- `V_Vcri` (`Rayleigh.py:51-54`). -/
noncomputable def rayleigh_V_Vcri (Mach gamma : ℝ) : Py ℝ :=
  let m2 := F.sq Mach
  F.div (F.mul m2 (F.add gamma 1)) (F.add 1 (F.mul gamma m2))

/-! ### `_ode.py` -/

section RK4
variable {E : Type}

/-- The loop of `RK4` (`_ode.py:20-26`) with rounded abscissas: `xStop - x` and `x + h` are rounded.
`upd x y h` stands for `y + run_kut4(F, x, y, h)`, with whatever roundings it contains.  Returns the
samples appended after the initial one. -/
noncomputable def RK4loop (upd : ℝ → E → ℝ → Py E) (xStop : ℝ) :
    ℕ → (x : ℝ) → (y : E) → (h : ℝ) → Py (List (ℝ × E))
  | fuel, x, y, h =>
    if x < xStop then
      match fuel with
      | 0 => .error .outOfFuel
      | fuel + 1 => do
        let h := min h (F.sub xStop x)
        let y ← upd x y h
        let x := F.add x h
        let rest ← RK4loop upd xStop fuel x y h
        return (x, y) :: rest
    else .ok []

/-- `RK4(F, x, y, xStop, h)` (`_ode.py:7-27`) with rounded abscissas. -/
noncomputable def RK4 (fuel : ℕ) (upd : ℝ → E → ℝ → Py E) (x : ℝ) (y : E) (xStop h : ℝ) :
    Py (List (ℝ × E)) := do
  let rest ← RK4loop F upd xStop fuel x y h
  return (x, y) :: rest

end RK4

end Aerokit.Rounded
