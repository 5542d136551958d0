import Verif.Model.Py

/-!
# numpy values: a float or an array, with broadcasting

Most functions of aerokit are documented as accepting "either scalar or numpy array".  The other
model files describe one element.  Here a Python value is either a float or an `ndarray` whose
entries are indexed by a type `ι` (any shape: `Fin n`, `Fin n × Fin m`, ...).  All the arrays of one
evaluation have the same shape `ι`; broadcasting a float with an array is modelled, a shape mismatch
is not.

An entry is an `Option ℝ`: `none` stands for an entry that is NaN or infinite (as `PyErr.nonFinite`
does for scalars); in numpy such an entry poisons only the entries computed from it, the others are
unaffected.  The model claims nothing about what is computed from a `none`.

The operators are overloaded so that the array models in `Model/ArrayFns.lean` can be read side by
side with the Python text.
-/

namespace Aerokit

/-- A Python float, or an `ndarray` of shape `ι`. -/
inductive Nd (ι : Type)
  | num (x : Option ℝ)
  | arr (v : ι → Option ℝ)

namespace Nd
variable {ι : Type}

/-- Entry `i` of a value after broadcasting to the shape `ι`. -/
def at' : Nd ι → ι → Option ℝ
  | num x, _ => x
  | arr v, i => v i

/-- The value is an `ndarray` (not a float). -/
def isArr : Nd ι → Bool
  | num _ => false
  | arr _ => true

/-- A numpy unary ufunc: applied to a float, or to every entry. -/
def map (f : ℝ → Option ℝ) : Nd ι → Nd ι
  | num x => num (x.bind f)
  | arr v => arr fun i => (v i).bind f

/-- A numpy binary ufunc with broadcasting of floats. -/
def map₂ (f : ℝ → ℝ → Option ℝ) : Nd ι → Nd ι → Nd ι
  | num x, num y => num (x.bind fun a => y.bind (f a))
  | X, Y => arr fun i => (X.at' i).bind fun a => (Y.at' i).bind (f a)

/-- Python float literals. -/
noncomputable instance : OfScientific (Nd ι) :=
  ⟨fun m s e => num (some (OfScientific.ofScientific m s e : ℝ))⟩
/-- Python int literals. -/
noncomputable instance (k : ℕ) [OfNat ℝ k] : OfNat (Nd ι) k := ⟨num (some (OfNat.ofNat k : ℝ))⟩
/-- `a + b`. -/
noncomputable instance : Add (Nd ι) := ⟨map₂ fun a b => some (a + b)⟩
/-- `a - b`. -/
noncomputable instance : Sub (Nd ι) := ⟨map₂ fun a b => some (a - b)⟩
/-- `a * b`. -/
noncomputable instance : Mul (Nd ι) := ⟨map₂ fun a b => some (a * b)⟩
/-- `-a`. -/
noncomputable instance : Neg (Nd ι) := ⟨map fun a => some (-a)⟩
/-- `a / b` (an entry divided by zero is not finite). -/
noncomputable instance : Div (Nd ι) := ⟨map₂ fun a b => (Py.div a b).toOption⟩
/-- `a ** k` for an integer literal `k` (also `np.square(a)` for `k = 2`). -/
noncomputable instance : HPow (Nd ι) ℕ (Nd ι) := ⟨fun X k => map (fun a => some (a ^ k)) X⟩
/-- `a ** b` for floats and arrays of floats. -/
noncomputable instance : HPow (Nd ι) (Nd ι) (Nd ι) :=
  ⟨map₂ fun a b => (Py.pow a b).toOption⟩

/-- `np.sqrt`. -/
noncomputable def sqrt : Nd ι → Nd ι := map fun a => (Py.sqrt a).toOption
/-- `np.log`. -/
noncomputable def log : Nd ι → Nd ι := map fun a => (Py.log a).toOption
/-- `np.square`. -/
noncomputable def square : Nd ι → Nd ι := map fun a => some (a ^ 2)
/-- `np.sin`. -/
noncomputable def sin : Nd ι → Nd ι := map fun a => some (Real.sin a)
/-- `np.cos`. -/
noncomputable def cos : Nd ι → Nd ι := map fun a => some (Real.cos a)
/-- `np.tan`. -/
noncomputable def tan : Nd ι → Nd ι := map fun a => (Py.tan a).toOption
/-- `np.arcsin`. -/
noncomputable def arcsin : Nd ι → Nd ι := map fun a => (Py.arcsin a).toOption
/-- `np.arccos`. -/
noncomputable def arccos : Nd ι → Nd ι := map fun a => (Py.arccos a).toOption
/-- `np.arctan`. -/
noncomputable def arctan : Nd ι → Nd ι := map fun a => some (Real.arctan a)
/-- `np.arctan2`. -/
noncomputable def arctan2 : Nd ι → Nd ι → Nd ι := map₂ fun a b => some (Py.arctan2 a b)
/-- `np.radians`. -/
noncomputable def radians : Nd ι → Nd ι := map fun a => some (Py.radians a)
/-- `np.degrees`. -/
noncomputable def degrees : Nd ι → Nd ι := map fun a => some (Py.degrees a)
/-- `np.abs` and Python's `abs`. -/
noncomputable def abs : Nd ι → Nd ι := map fun a => some |a|
/-- `np.sign`. -/
noncomputable def sign : Nd ι → Nd ι := map fun a => some ((SignType.sign a : SignType) : ℝ)
/-- `math.pi` / `np.pi`. -/
noncomputable def pi : Nd ι := num (some Real.pi)

open Classical in
/-- The comparison `x > y` of two entries; any comparison with NaN is false.  (An infinite entry is
also a `none`: the model does not say what is computed from it.) -/
noncomputable def gtEntry : Option ℝ → Option ℝ → Bool
  | some a, some b => decide (a > b)
  | _, _ => false

open Classical in
/-- `bool(a > b)`: what `if a > b`, `while a > b`, `assert a > b` and Python's `max` evaluate.  For
two floats it is the comparison; for an array with one entry it is that of the entry; for an array
with no or several entries numpy raises `ValueError` ("The truth value of an array with more than
one element is ambiguous"; for an empty array this is numpy 2.2's behaviour). -/
noncomputable def truthGt (X Y : Nd ι) : Py Bool :=
  match X, Y with
  | num x, num y => .ok (gtEntry x y)
  | X, Y => if h : Nonempty (Unique ι) then
      .ok (gtEntry (X.at' h.some.default) (Y.at' h.some.default))
    else .error .valueError

/-- Python's builtin `max(a, b)`: `b` if `bool(b > a)`, else `a`. -/
noncomputable def pymax (a b : Nd ι) : Py (Nd ι) := do
  let t ← truthGt b a
  return if t then b else a

end Nd
end Aerokit
