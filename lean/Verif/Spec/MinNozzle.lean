import Mathlib.Analysis.SpecialFunctions.Trigonometric.Basic

/-!
# Specification: net of characteristics of a nozzle of minimum length

`θ` flow angle, `ν` Prandtl–Meyer angle, `μ` Mach angle at the node `j` of the `i`-th descending
characteristic (`j = 0` at the corner of the throat, `j = i + 1` on the axis).
-/

namespace Aerokit.Spec

/-- A net of `n + 1` descending characteristics issued from the corner `(0, y0)` by a centred expansion
of angles `fan 0 … fan n`, reflected on the axis. -/
structure CharNet (n : ℕ) (y0 : ℝ) (fan : ℕ → ℝ) (x y θ ν μ : ℕ → ℕ → ℝ) : Prop where
  /-- the corner: a centred simple wave, `θ = ν` -/
  corner : ∀ i ≤ n, x i 0 = 0 ∧ y i 0 = y0 ∧ θ i 0 = fan i ∧ ν i 0 = fan i
  /-- `θ + ν` is constant along a descending characteristic -/
  minus : ∀ i j, 1 ≤ j → j ≤ i → i ≤ n → θ i j + ν i j = θ i (j - 1) + ν i (j - 1)
  /-- `θ - ν` is constant along an ascending characteristic -/
  plus : ∀ i j, 1 ≤ j → j ≤ i → i ≤ n → θ i j - ν i j = θ (i - 1) j - ν (i - 1) j
  /-- a descending characteristic has the mean of the directions `θ - μ` of its ends -/
  minus_line : ∀ i j, 1 ≤ j → j ≤ i → i ≤ n → y i j - y i (j - 1)
    = Real.tan (((θ i (j - 1) - μ i (j - 1)) + (θ i j - μ i j)) / 2) * (x i j - x i (j - 1))
  /-- an ascending characteristic has the mean of the directions `θ + μ` of its ends -/
  plus_line : ∀ i j, 1 ≤ j → j ≤ i → i ≤ n → y i j - y (i - 1) j
    = Real.tan (((θ (i - 1) j + μ (i - 1) j) + (θ i j + μ i j)) / 2) * (x i j - x (i - 1) j)
  /-- the last node is on the axis, in the direction `θ - μ` of the previous one -/
  axis : ∀ i ≤ n, y i (i + 1) = 0 ∧
    y i (i + 1) - y i i = Real.tan (θ i i - μ i i) * (x i (i + 1) - x i i)
  /-- `θ + ν` is constant up to the axis -/
  axis_minus : ∀ i ≤ n, θ i (i + 1) + ν i (i + 1) = θ i i + ν i i

/-- The wall that cancels the ascending characteristics of the `n`-th row of a net: its point `k` has
the angle of the node `k`, lies on the ascending characteristic issued from this node, and each
segment has the mean of the angles of its ends. -/
structure CharWall (n : ℕ) (x y θ μ : ℕ → ℕ → ℝ) (X Y Θ : ℕ → ℝ) : Prop where
  start : X 0 = x n 0 ∧ Y 0 = y n 0 ∧ Θ 0 = θ n 0
  angle : ∀ k, 1 ≤ k → k ≤ n + 1 → Θ k = θ n k
  char_line : ∀ k, 1 ≤ k → k ≤ n + 1 → Y k - y n k = Real.tan (θ n k + μ n k) * (X k - x n k)
  wall_line : ∀ k, 1 ≤ k → k ≤ n + 1 → Y k - Y (k - 1) = Real.tan ((Θ k + Θ (k - 1)) / 2) * (X k - X (k - 1))

end Aerokit.Spec
