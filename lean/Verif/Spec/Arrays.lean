import Verif.Model.NpArray

/-!
# What "works on arrays" means

`F` is a function on numpy values (floats or arrays of a fixed shape `ι`), `f` the function on floats.
`F` is elementwise when (a) it returns an array exactly if one of its arguments is an array, and
(b) each entry of the result is what `f` returns on the corresponding entries of the arguments
(floats are broadcast), whatever the other entries are, NaN included.  `toOption` reads a
failing scalar evaluation (NaN/inf) as a NaN entry.
-/

namespace Aerokit.Spec
variable {ι : Type}

/-- Elementwise, one argument. -/
def Elementwise₁ (F : Nd ι → Nd ι) (f : ℝ → Py ℝ) : Prop :=
  (∀ X, (F X).isArr = X.isArr) ∧
  ∀ X i x, X.at' i = some x → (F X).at' i = (f x).toOption

/-- Elementwise, two arguments. -/
def Elementwise₂ (F : Nd ι → Nd ι → Nd ι) (f : ℝ → ℝ → Py ℝ) : Prop :=
  (∀ X Y, (F X Y).isArr = (X.isArr || Y.isArr)) ∧
  ∀ X Y i x y, X.at' i = some x → Y.at' i = some y → (F X Y).at' i = (f x y).toOption

/-- Elementwise, three arguments. -/
def Elementwise₃ (F : Nd ι → Nd ι → Nd ι → Nd ι) (f : ℝ → ℝ → ℝ → Py ℝ) : Prop :=
  (∀ X Y Z, (F X Y Z).isArr = (X.isArr || Y.isArr || Z.isArr)) ∧
  ∀ X Y Z i x y z, X.at' i = some x → Y.at' i = some y → Z.at' i = some z →
    (F X Y Z).at' i = (f x y z).toOption

/-- Elementwise, four arguments. -/
def Elementwise₄ (F : Nd ι → Nd ι → Nd ι → Nd ι → Nd ι) (f : ℝ → ℝ → ℝ → ℝ → Py ℝ) : Prop :=
  (∀ X Y Z W, (F X Y Z W).isArr = (X.isArr || Y.isArr || Z.isArr || W.isArr)) ∧
  ∀ X Y Z W i x y z w, X.at' i = some x → Y.at' i = some y → Z.at' i = some z →
    W.at' i = some w → (F X Y Z W).at' i = (f x y z w).toOption

/-- An array with at least two entries. -/
def Several (ι : Type) : Prop := ∃ i j : ι, i ≠ j

end Aerokit.Spec
