import Verif.Model.ArrayFns

/-! # Entries and shapes of numpy expressions -/

namespace Aerokit.Nd
variable {ι : Type} (X Y : Nd ι) (i : ι)

@[simp] theorem at_num (x : Option ℝ) : (num x : Nd ι).at' i = x := rfl
@[simp] theorem at_arr (v : ι → Option ℝ) : (arr v).at' i = v i := rfl
@[simp] theorem isArr_num (x : Option ℝ) : (num x : Nd ι).isArr = false := rfl
@[simp] theorem isArr_arr (v : ι → Option ℝ) : (arr v).isArr = true := rfl

theorem at_map (f : ℝ → Option ℝ) : (map f X).at' i = (X.at' i).bind f := by cases X <;> rfl
theorem at_map₂ (f : ℝ → ℝ → Option ℝ) :
    (map₂ f X Y).at' i = (X.at' i).bind fun a => (Y.at' i).bind (f a) := by
  cases X <;> cases Y <;> rfl
theorem isArr_map (f : ℝ → Option ℝ) : (map f X).isArr = X.isArr := by cases X <;> rfl
theorem isArr_map₂ (f : ℝ → ℝ → Option ℝ) : (map₂ f X Y).isArr = (X.isArr || Y.isArr) := by
  cases X <;> cases Y <;> rfl

theorem at_add : (X + Y).at' i = (X.at' i).bind fun a => (Y.at' i).bind fun b => some (a + b) :=
  at_map₂ X Y i _
theorem at_sub : (X - Y).at' i = (X.at' i).bind fun a => (Y.at' i).bind fun b => some (a - b) :=
  at_map₂ X Y i _
theorem at_mul : (X * Y).at' i = (X.at' i).bind fun a => (Y.at' i).bind fun b => some (a * b) :=
  at_map₂ X Y i _
theorem at_neg : (-X).at' i = (X.at' i).bind fun a => some (-a) := at_map X i _
theorem at_div : (X / Y).at' i
    = (X.at' i).bind fun a => (Y.at' i).bind fun b => (Py.div a b).toOption := at_map₂ X Y i _
theorem at_npow (k : ℕ) : (X ^ k).at' i = (X.at' i).bind fun a => some (a ^ k) := at_map X i _
theorem at_rpow : (X ^ Y).at' i
    = (X.at' i).bind fun a => (Y.at' i).bind fun b => (Py.pow a b).toOption := at_map₂ X Y i _
theorem at_ofNat (k : ℕ) [OfNat ℝ k] : (OfNat.ofNat k : Nd ι).at' i = some (OfNat.ofNat k : ℝ) :=
  rfl
theorem at_ofScientific (m : ℕ) (s : Bool) (e : ℕ) :
    (OfScientific.ofScientific m s e : Nd ι).at' i = some (OfScientific.ofScientific m s e : ℝ) :=
  rfl
theorem at_pi : (pi : Nd ι).at' i = some Real.pi := rfl
theorem at_sqrt : (sqrt X).at' i = (X.at' i).bind fun a => (Py.sqrt a).toOption := at_map X i _
theorem at_log : (log X).at' i = (X.at' i).bind fun a => (Py.log a).toOption := at_map X i _
theorem at_square : (square X).at' i = (X.at' i).bind fun a => some (a ^ 2) := at_map X i _
theorem at_sin : (sin X).at' i = (X.at' i).bind fun a => some (Real.sin a) := at_map X i _
theorem at_cos : (cos X).at' i = (X.at' i).bind fun a => some (Real.cos a) := at_map X i _
theorem at_tan : (tan X).at' i = (X.at' i).bind fun a => (Py.tan a).toOption := at_map X i _
theorem at_arcsin : (arcsin X).at' i = (X.at' i).bind fun a => (Py.arcsin a).toOption := at_map X i _
theorem at_arccos : (arccos X).at' i = (X.at' i).bind fun a => (Py.arccos a).toOption := at_map X i _
theorem at_arctan : (arctan X).at' i = (X.at' i).bind fun a => some (Real.arctan a) := at_map X i _
theorem at_arctan2 : (arctan2 X Y).at' i
    = (X.at' i).bind fun a => (Y.at' i).bind fun b => some (Py.arctan2 a b) := at_map₂ X Y i _
theorem at_radians : (radians X).at' i = (X.at' i).bind fun a => some (Py.radians a) := at_map X i _
theorem at_degrees : (degrees X).at' i = (X.at' i).bind fun a => some (Py.degrees a) := at_map X i _
theorem at_abs : (abs X).at' i = (X.at' i).bind fun a => some |a| := at_map X i _
theorem at_sign : (sign X).at' i
    = (X.at' i).bind fun a => some ((SignType.sign a : SignType) : ℝ) := at_map X i _

theorem isArr_add : (X + Y).isArr = (X.isArr || Y.isArr) := isArr_map₂ X Y _
theorem isArr_sub : (X - Y).isArr = (X.isArr || Y.isArr) := isArr_map₂ X Y _
theorem isArr_mul : (X * Y).isArr = (X.isArr || Y.isArr) := isArr_map₂ X Y _
theorem isArr_div : (X / Y).isArr = (X.isArr || Y.isArr) := isArr_map₂ X Y _
theorem isArr_neg : (-X).isArr = X.isArr := isArr_map X _
theorem isArr_npow (k : ℕ) : (X ^ k).isArr = X.isArr := isArr_map X _
theorem isArr_rpow : (X ^ Y).isArr = (X.isArr || Y.isArr) := isArr_map₂ X Y _
theorem isArr_ofNat (k : ℕ) [OfNat ℝ k] : (OfNat.ofNat k : Nd ι).isArr = false := rfl
theorem isArr_ofScientific (m : ℕ) (s : Bool) (e : ℕ) :
    (OfScientific.ofScientific m s e : Nd ι).isArr = false := rfl
theorem isArr_pi : (pi : Nd ι).isArr = false := rfl
theorem isArr_sqrt : (sqrt X).isArr = X.isArr := isArr_map X _
theorem isArr_log : (log X).isArr = X.isArr := isArr_map X _
theorem isArr_square : (square X).isArr = X.isArr := isArr_map X _
theorem isArr_sin : (sin X).isArr = X.isArr := isArr_map X _
theorem isArr_cos : (cos X).isArr = X.isArr := isArr_map X _
theorem isArr_tan : (tan X).isArr = X.isArr := isArr_map X _
theorem isArr_arcsin : (arcsin X).isArr = X.isArr := isArr_map X _
theorem isArr_arccos : (arccos X).isArr = X.isArr := isArr_map X _
theorem isArr_arctan : (arctan X).isArr = X.isArr := isArr_map X _
theorem isArr_arctan2 : (arctan2 X Y).isArr = (X.isArr || Y.isArr) := isArr_map₂ X Y _
theorem isArr_radians : (radians X).isArr = X.isArr := isArr_map X _
theorem isArr_degrees : (degrees X).isArr = X.isArr := isArr_map X _
theorem isArr_abs : (abs X).isArr = X.isArr := isArr_map X _
theorem isArr_sign : (sign X).isArr = X.isArr := isArr_map X _

theorem toOption_bind {α β : Type} (x : Py α) (f : α → Py β) :
    (x >>= f).toOption = x.toOption.bind fun a => (f a).toOption := by cases x <;> rfl
theorem toOption_ok {α : Type} (a : α) : (Except.ok a : Py α).toOption = some a := rfl
theorem toOption_error {α : Type} (e : PyErr) : (Except.error e : Py α).toOption = none := rfl

theorem div2 (a : ℝ) : Py.div a 2 = .ok (a / 2) := Py.div_ok two_ne_zero
theorem div3 (a : ℝ) : Py.div a 3.0 = .ok (a / 3.0) := Py.div_ok (by norm_num)
theorem div27 (a : ℝ) : Py.div a 27.0 = .ok (a / 27.0) := Py.div_ok (by norm_num)
theorem divpi (a : ℝ) : Py.div a Real.pi = .ok (a / Real.pi) := Py.div_ok Real.pi_ne_zero

theorem at_zero : (0 : Nd ι).at' i = some 0 := rfl
theorem at_one : (1 : Nd ι).at' i = some 1 := rfl
theorem at_two : (2 : Nd ι).at' i = some 2 := rfl
theorem at_three : (3 : Nd ι).at' i = some 3 := rfl
theorem at_four : (4 : Nd ι).at' i = some 4 := rfl
theorem isArr_zero : (0 : Nd ι).isArr = false := rfl
theorem isArr_one : (1 : Nd ι).isArr = false := rfl
theorem isArr_two : (2 : Nd ι).isArr = false := rfl
theorem isArr_three : (3 : Nd ι).isArr = false := rfl
theorem isArr_four : (4 : Nd ι).isArr = false := rfl

/-- The shape of a numpy expression. -/
macro "nd_shape" : tactic => `(tactic| (
  simp only [isArr_num, isArr_arr, isArr_add, isArr_sub, isArr_mul, isArr_div, isArr_neg, isArr_npow,
    isArr_rpow, isArr_zero, isArr_one, isArr_two, isArr_three, isArr_four, isArr_ofScientific,
    isArr_pi, isArr_sqrt, isArr_log, isArr_square,
    isArr_sin, isArr_cos, isArr_tan, isArr_arcsin, isArr_arccos, isArr_arctan, isArr_arctan2,
    isArr_radians, isArr_degrees, isArr_abs, isArr_sign, Bool.or_false, Bool.false_or]))

open Lean Elab Tactic Meta in
/-- Split on a scalar evaluation `(e).toOption` occurring in the goal. -/
elab "nd_split" : tactic => withMainContext do
  let t ← instantiateMVars (← getMainTarget)
  match t.find? (fun e => e.isAppOf ``Except.toOption && !e.hasLooseBVars) with
  | some e =>
    let stx ← Term.exprToSyntax e
    evalTactic (← `(tactic| (generalize $stx = o; cases o)))
  | none => throwError "nothing to split"

open Lean.Parser.Tactic in
/-- One entry of a numpy expression, as a chain of `Option.bind`. -/
macro "nd_entry" "[" ts:simpLemma,* "]" : tactic => `(tactic| (
  simp only [$ts,*, at_num, at_arr, at_add, at_sub, at_mul, at_neg, at_div, at_npow, at_rpow, at_zero,
    at_one, at_two, at_three, at_four,
    at_ofScientific, at_pi, at_sqrt, at_log, at_square, at_sin, at_cos, at_tan, at_arcsin, at_arccos,
    at_arctan, at_arctan2, at_radians, at_degrees, at_abs, at_sign, toOption_bind, toOption_ok,
    Option.bind_some, Option.bind_none, Py.pure_eq, div2, div3, div27, divpi]))

/-- Prove an equality of two chains of `Option.bind` that evaluate the same things. -/
macro "nd_chain" : tactic => `(tactic|
  repeat' (first | rfl | (nd_split <;> try simp only [Option.bind_some, Option.bind_none])))

open Lean.Parser.Tactic in
/-- `Elementwise₂ F f` by unfolding the two definitions. -/
macro "nd_elem₂" "[" ts:simpLemma,* "]" : tactic => `(tactic| (
  refine ⟨fun X Y => ?_, fun X Y i x y hx hy => ?_⟩
  · simp only [$ts,*]; nd_shape <;> cases X <;> cases Y <;> rfl
  · nd_entry [$ts,*, hx, hy] <;> nd_chain))

open Lean.Parser.Tactic in
/-- `Elementwise₁ F f` by unfolding the two definitions. -/
macro "nd_elem₁" "[" ts:simpLemma,* "]" : tactic => `(tactic| (
  refine ⟨fun X => ?_, fun X i x hx => ?_⟩
  · simp only [$ts,*]; nd_shape <;> cases X <;> rfl
  · nd_entry [$ts,*, hx] <;> nd_chain))

open Lean.Parser.Tactic in
/-- `Elementwise₃ F f` by unfolding the two definitions. -/
macro "nd_elem₃" "[" ts:simpLemma,* "]" : tactic => `(tactic| (
  refine ⟨fun X Y Z => ?_, fun X Y Z i x y z hx hy hz => ?_⟩
  · simp only [$ts,*]; nd_shape <;> cases X <;> cases Y <;> cases Z <;> rfl
  · nd_entry [$ts,*, hx, hy, hz] <;> nd_chain))

open Lean.Parser.Tactic in
/-- `Elementwise₄ F f` by unfolding the two definitions. -/
macro "nd_elem₄" "[" ts:simpLemma,* "]" : tactic => `(tactic| (
  refine ⟨fun X Y Z W => ?_, fun X Y Z W i x y z w hx hy hz hw => ?_⟩
  · simp only [$ts,*]; nd_shape <;> cases X <;> cases Y <;> cases Z <;> cases W <;> rfl
  · nd_entry [$ts,*, hx, hy, hz, hw] <;> nd_chain))

end Aerokit.Nd
