import Verif.Spec.MinNozzle
import Mathlib.Analysis.SpecialFunctions.Trigonometric.Deriv
import Mathlib.Analysis.SpecialFunctions.Trigonometric.Arctan
import Mathlib.Tactic.Linarith
import Mathlib.Tactic.Ring

/-! # Ordering of a net of characteristics -/

namespace Aerokit.Props
open Real

theorem pos_of_mul_nn {a b : ℝ} (h : 0 < a * b) (hb : 0 ≤ b) : 0 < a := by
  by_contra hc
  have := mul_nonneg (neg_nonneg.2 (not_lt.1 hc)) hb
  linarith

/-- a new node is to the right of both its parents -/
theorem cross_right {xo yo xm ym xp yp x y A A' B B' : ℝ} (hA : B < A) (hBB : B' < B)
    (hm : ym - yo = A' * (xm - xo)) (hp : yp - yo = B' * (xp - xo)) (hd : xo < xp)
    (he : xm = xo ∨ (xo < xm ∧ A ≤ A')) (h1 : y - ym = B * (x - xm)) (h2 : y - yp = A * (x - xp)) :
    xm < x ∧ xp < x := by
  have e1 : (x - xm) * (A - B) = (xm - xo) * (A' - A) + (xp - xo) * (A - B') := by
    linear_combination hm - hp + h1 - h2
  have e2 : (x - xp) * (A - B) = (xm - xo) * (A' - B) + (xp - xo) * (B - B') := by
    linear_combination hm - hp + h1 - h2
  have hAB : 0 < A - B := by linarith
  have p1 : 0 < (xp - xo) * (A - B') := mul_pos (by linarith) (by linarith)
  have p2 : 0 < (xp - xo) * (B - B') := mul_pos (by linarith) (by linarith)
  have q1 : 0 ≤ (xm - xo) * (A' - A) ∧ 0 ≤ (xm - xo) * (A' - B) := by
    rcases he with h | ⟨h, h'⟩
    · rw [h]; simp
    · exact ⟨mul_nonneg (by linarith) (by linarith), mul_nonneg (by linarith) (by linarith)⟩
  constructor
  · have : 0 < x - xm := pos_of_mul_nn (by rw [e1]; linarith [q1.1]) hAB.le
    linarith
  · have : 0 < x - xp := pos_of_mul_nn (by rw [e2]; linarith [q1.2]) hAB.le
    linarith

section
variable {n : ℕ} {y0 : ℝ} {fan : ℕ → ℝ} {x y θ ν μ : ℕ → ℕ → ℝ}

/-- directions of a net that opens regularly -/
structure Fair (n : ℕ) (θ μ : ℕ → ℕ → ℝ) : Prop where
  neg : ∀ i ≤ n, ∀ j ≤ i + 1, -(π / 2) < θ i j - μ i j ∧ 0 < μ i j
  ax : ∀ i ≤ n, θ i i - μ i i < 0
  gap : ∀ i, 1 ≤ i → i ≤ n → ∀ j, 1 ≤ j → j ≤ i → θ i (j - 1) - μ i (j - 1) < θ (i - 1) j + μ (i - 1) j
  pos : ∀ i ≤ n, ∀ j ≤ i + 1, 0 < θ i j + μ i j ∧ θ i j + μ i j < π / 2
  up : ∀ i ≤ n, ∀ j, 2 ≤ j → j ≤ i + 1 → θ i j + μ i j ≤ θ i (j - 1) + μ i (j - 1)
  down : ∀ i, 1 ≤ i → i ≤ n → ∀ j ≤ i, θ (i - 1) j - μ (i - 1) j < θ i j - μ i j
  diag : ∀ i, 1 ≤ i → i ≤ n →
    2 * (θ (i - 1) (i - 1) - μ (i - 1) (i - 1)) < (θ i (i - 1) - μ i (i - 1)) + (θ i i - μ i i)

theorem tan_mono' {a b : ℝ} (h1 : -(π / 2) < a) (h2 : b < π / 2) (h : a ≤ b) : tan a ≤ tan b :=
  Real.strictMonoOn_tan.monotoneOn ⟨h1, by linarith⟩ ⟨by linarith, h2⟩ h

theorem tan_smono' {a b : ℝ} (h1 : -(π / 2) < a) (h2 : b < π / 2) (h : a < b) : tan a < tan b :=
  Real.strictMonoOn_tan ⟨h1, by linarith⟩ ⟨by linarith, h2⟩ h

/-- slope of the descending segment that ends at `(i, j)` -/
noncomputable def slm (θ μ : ℕ → ℕ → ℝ) (i j : ℕ) : ℝ :=
  if j ≤ i then tan (((θ i (j - 1) - μ i (j - 1)) + (θ i j - μ i j)) / 2) else tan (θ i i - μ i i)

/-- a descending segment is less steep than the ascending one it meets -/
theorem slm_lt (hf : Fair n θ μ) {i j : ℕ} (hi1 : 1 ≤ i) (hi : i ≤ n) (hj1 : 1 ≤ j) (hj : j ≤ i) :
    slm θ μ i j < tan (((θ (i - 1) j + μ (i - 1) j) + (θ i j + μ i j)) / 2) := by
  unfold slm
  rw [if_pos hj]
  obtain ⟨a1, a2⟩ := hf.neg i hi j (by omega)
  obtain ⟨b1, b2⟩ := hf.neg i hi (j - 1) (by omega)
  have c := hf.gap i hi1 hi j hj1 hj
  have p1 := hf.pos i hi j (by omega)
  have p2 := hf.pos (i - 1) (by omega) j (by omega)
  exact tan_smono' (by linarith) (by linarith) (by linarith)

/-- the directions stay below a right angle -/
theorem Fair.lt (hf : Fair n θ μ) {i j : ℕ} (hi : i ≤ n) (hj : j ≤ i + 1) : θ i j - μ i j < π / 2 := by
  have := hf.pos i hi j hj
  have := hf.neg i hi j hj
  linarith

theorem slm_up (hf : Fair n θ μ) {i j : ℕ} (hi1 : 1 ≤ i) (hi : i ≤ n) (hj1 : 1 ≤ j) (hj : j ≤ i) :
    slm θ μ (i - 1) j < slm θ μ i j := by
  unfold slm
  rw [if_pos hj]
  have b := hf.lt hi (show j ≤ i + 1 by omega)
  have b' := hf.lt hi (show j - 1 ≤ i + 1 by omega)
  split_ifs with h
  · have a := hf.neg (i - 1) (by omega) j (by omega)
    have a' := hf.neg (i - 1) (by omega) (j - 1) (by omega)
    have c := hf.down i hi1 hi j hj
    have c' := hf.down i hi1 hi (j - 1) (by omega)
    exact tan_smono' (by linarith) (by linarith) (by linarith)
  · have hji : j = i := by omega
    subst hji
    have a := hf.neg (j - 1) (by omega) (j - 1) (by omega)
    have c := hf.diag j hj1 hi
    exact tan_smono' (by linarith) (by linarith) (by linarith)

/-- in a net that opens regularly, characteristics go to the right and nodes are above the axis -/
theorem net_order (hn : Spec.CharNet n y0 fan x y θ ν μ) (hf : Fair n θ μ) (hy0 : 0 < y0) (i : ℕ) (hi : i ≤ n) :
    ∀ j, j ≤ i + 1 → (1 ≤ j → x i (j - 1) < x i j) ∧ (1 ≤ j → j ≤ i → x (i - 1) j < x i j) ∧ (j ≤ i → 0 < y i j) := by
  have seg : ∀ i ≤ n, ∀ j, 1 ≤ j → j ≤ i + 1 → y i j - y i (j - 1) = slm θ μ i j * (x i j - x i (j - 1)) := by
    intro i hi j h1 h2
    unfold slm
    split_ifs with h
    · exact hn.minus_line i j h1 h hi
    · have : j = i + 1 := by omega
      subst this
      exact (hn.axis i hi).2
  have axis : ∀ i ≤ n, 0 < y i i → x i i < x i (i + 1) := by
    intro i hi hy
    obtain ⟨h1, h2⟩ := hn.axis i hi
    rw [h1] at h2
    have hs : Real.tan (θ i i - μ i i) < 0 := by
      have a1 := (hf.neg i hi i (by omega)).1
      have a2 := hf.ax i hi
      exact Real.tan_neg_of_neg_of_pi_div_two_lt (by linarith) (by linarith)
    by_contra hc
    have : 0 ≤ Real.tan (θ i i - μ i i) * (x i (i + 1) - x i i) :=
      mul_nonneg_of_nonpos_of_nonpos hs.le (by linarith)
    linarith
  induction i with
  | zero =>
    intro j hj
    obtain ⟨c1, c2, -⟩ := hn.corner 0 hi
    obtain rfl | rfl : j = 0 ∨ j = 1 := by omega
    · exact ⟨fun h => by omega, fun h => by omega, fun _ => by rw [c2]; exact hy0⟩
    · exact ⟨fun _ => axis 0 hi (by rw [c2]; exact hy0), fun _ h => by omega, fun h => by omega⟩
  | succ i ih =>
    have ih := ih (by omega)
    intro j
    induction j with
    | zero =>
      intro _
      obtain ⟨c1, c2, -⟩ := hn.corner (i + 1) hi
      exact ⟨fun h => by omega, fun h => by omega, fun _ => by rw [c2]; exact hy0⟩
    | succ j ihj =>
      intro hj
      have ihj := ihj (by omega)
      rcases Nat.lt_or_ge i j with hax | hin
      · have hji : j = i + 1 := by omega
        subst hji
        exact ⟨fun _ => axis (i + 1) hi (ihj.2.2 le_rfl), fun _ h => by omega, fun h => by omega⟩
      · -- inner node
        obtain ⟨d1, d2, d3⟩ := ih (j + 1) (by omega)
        have h1 := hn.minus_line (i + 1) (j + 1) (by omega) (by omega) hi
        have h2 := hn.plus_line (i + 1) (j + 1) (by omega) (by omega) hi
        have hseg1 := seg (i + 1) hi (j + 1) (by omega) (by omega)
        have hseg2 := seg i (by omega) (j + 1) (by omega) (by omega)
        have hBA := slm_lt hf (show 1 ≤ i + 1 by omega) hi (show 1 ≤ j + 1 by omega) (by omega)
        have hBB := slm_up hf (show 1 ≤ i + 1 by omega) hi (show 1 ≤ j + 1 by omega) (by omega)
        rw [Nat.add_sub_cancel] at hBB hBA
        simp only [Nat.add_sub_cancel] at h1 h2 hseg1 hseg2 d1 ⊢
        have p1 := hf.pos (i + 1) hi (j + 1) (by omega)
        have p2 := hf.pos i (by omega) (j + 1) (by omega)
        have hA : 0 < Real.tan (((θ i (j + 1) + μ i (j + 1)) + (θ (i + 1) (j + 1) + μ (i + 1) (j + 1))) / 2) :=
          Real.tan_pos_of_pos_of_lt_pi_div_two (by linarith [p1.1, p2.1]) (by linarith [p1.2, p2.2])
        have hres : x (i + 1) j < x (i + 1) (j + 1) ∧ x i (j + 1) < x (i + 1) (j + 1) := by
          rcases Nat.eq_zero_or_pos j with h0 | h0
          · subst h0
            obtain ⟨c1, c2, -⟩ := hn.corner (i + 1) hi
            obtain ⟨c3, c4, -⟩ := hn.corner i (by omega)
            exact cross_right (xo := x i 0) (yo := y i 0) (A' := 0) hBA hBB (by rw [c2, c4, zero_mul, sub_self]) hseg2 (d1 (by omega))
              (Or.inl (by rw [c1, c3])) hseg1 h2
          · have h3 := hn.plus_line (i + 1) j (by omega) (by omega) hi
            simp only [Nat.add_sub_cancel] at h3
            have u1 := hf.up (i + 1) hi (j + 1) (by omega) (by omega)
            have u2 := hf.up i (by omega) (j + 1) (by omega) (by omega)
            simp only [Nat.add_sub_cancel] at u1 u2
            have p3 := hf.pos (i + 1) hi j (by omega)
            have p4 := hf.pos i (by omega) j (by omega)
            have hAA : Real.tan (((θ i (j + 1) + μ i (j + 1)) + (θ (i + 1) (j + 1) + μ (i + 1) (j + 1))) / 2)
                ≤ Real.tan (((θ i j + μ i j) + (θ (i + 1) j + μ (i + 1) j)) / 2) :=
              tan_mono' (by linarith [p1.1, p2.1, Real.pi_pos]) (by linarith [p3.2, p4.2]) (by linarith)
            have e := ihj.2.1 (by omega) (by omega)
            simp only [Nat.add_sub_cancel] at e
            exact cross_right (xo := x i j) (yo := y i j) hBA hBB h3 hseg2 (d1 (by omega)) (Or.inr ⟨e, hAA⟩) hseg1 h2
        refine ⟨fun _ => hres.1, fun _ _ => hres.2, fun _ => ?_⟩
        have hyp : 0 ≤ y i (j + 1) := by
          rcases Nat.lt_or_ge j i with h | h
          · exact (d3 (by omega)).le
          · have : j = i := by omega
            subst this
            rw [(hn.axis j (by omega)).1]
        have : 0 < Real.tan (((θ i (j + 1) + μ i (j + 1)) + (θ (i + 1) (j + 1) + μ (i + 1) (j + 1))) / 2) *
            (x (i + 1) (j + 1) - x i (j + 1)) := mul_pos hA (by linarith [hres.2])
        linarith

/-- the wall of a regular net goes up and to the right, beyond its characteristics -/
theorem wall_order (hn : Spec.CharNet n y0 fan x y θ ν μ) (hf : Fair n θ μ) (hy0 : 0 < y0) {X Y Θ : ℕ → ℝ}
    (hw : Spec.CharWall n x y θ μ X Y Θ) (hpos : ∀ k, 1 ≤ k → k ≤ n + 1 → 0 < (Θ k + Θ (k - 1)) / 2)
    (hlt : ∀ k, 1 ≤ k → k ≤ n + 1 → (Θ k + Θ (k - 1)) / 2 < θ n k + μ n k)
 :
    ∀ k, 1 ≤ k → k ≤ n + 1 → X (k - 1) < X k ∧ Y (k - 1) < Y k ∧ x n k < X k := by
  have seg : ∀ j, 1 ≤ j → j ≤ n + 1 → y n j - y n (j - 1) = slm θ μ n j * (x n j - x n (j - 1)) := by
    intro j h1 h2
    unfold slm
    split_ifs with h
    · exact hn.minus_line n j h1 h le_rfl
    · have : j = n + 1 := by omega
      subst this
      exact (hn.axis n le_rfl).2
  have hTs : ∀ k, 1 ≤ k → k ≤ n + 1 → slm θ μ n k < tan ((Θ k + Θ (k - 1)) / 2) := by
    intro k h1 h2
    have e1 := hw.angle k h1 h2
    have e2 : Θ (k - 1) = θ n (k - 1) := by
      rcases Nat.eq_zero_or_pos (k - 1) with h | h
      · rw [h]; exact hw.start.2.2
      · exact hw.angle (k - 1) h (by omega)
    have hp := hpos k h1 h2
    have hl := hlt k h1 h2
    have hq := hf.pos n le_rfl k h2
    unfold slm
    split_ifs with h
    · have b := hf.neg n le_rfl k h2
      have b' := hf.neg n le_rfl (k - 1) (by omega)
      rw [e1, e2] at hl ⊢
      exact tan_smono' (by linarith) (by linarith) (by linarith)
    · have a1 := (hf.neg n le_rfl n (by omega)).1
      have a2 := hf.ax n le_rfl
      exact tan_smono' (by linarith) (by linarith) (by linarith)
  have hmain : ∀ k, k + 1 ≤ n + 1 → X k < X (k + 1) ∧ Y k < Y (k + 1) ∧ x n (k + 1) < X (k + 1) := by
    intro k
    induction k with
    | zero =>
      intro hk
      obtain ⟨s1, s2, -⟩ := hw.start
      have c := hw.char_line 1 le_rfl (by omega)
      have w := hw.wall_line 1 le_rfl (by omega)
      have sg := seg 1 le_rfl (by omega)
      have hd := (net_order hn hf hy0 n le_rfl 1 (by omega)).1 le_rfl
      simp only [Nat.sub_self] at w sg hd
      have h1 := hpos 1 le_rfl (by omega)
      have h2 := hlt 1 le_rfl (by omega)
      have h3 := hf.pos n le_rfl 1 (by omega)
      simp only [Nat.sub_self] at h1 h2
      have t1 := Real.tan_pos_of_pos_of_lt_pi_div_two h1 (by linarith)
      have t2 := tan_smono' (by linarith [Real.pi_pos]) h3.2 h2
      have hB := hTs 1 le_rfl (by omega)
      simp only [Nat.sub_self] at hB
      obtain ⟨T, hT⟩ : ∃ T, T = Real.tan ((Θ 1 + Θ 0) / 2) := ⟨_, rfl⟩
      obtain ⟨S, hS⟩ : ∃ S, S = Real.tan (θ n 1 + μ n 1) := ⟨_, rfl⟩
      rw [← hT] at w t1 t2 hB
      rw [← hS] at c t2
      rw [s1, s2] at w
      have e1 : (X 1 - x n 0) * (S - T) = (x n 1 - x n 0) * (S - slm θ μ n 1) := by
        linear_combination w - c - sg
      have e2 : (X 1 - x n 1) * (S - T) = (x n 1 - x n 0) * (T - slm θ μ n 1) := by
        linear_combination w - c - sg
      have p1 : 0 < X 1 - x n 0 :=
        pos_of_mul_nn (by rw [e1]; exact mul_pos (by linarith) (by linarith)) (show 0 ≤ S - T by linarith)
      have p2 : 0 < X 1 - x n 1 :=
        pos_of_mul_nn (by rw [e2]; exact mul_pos (by linarith) (by linarith)) (show 0 ≤ S - T by linarith)
      refine ⟨by rw [s1]; linarith, ?_, by linarith⟩
      rw [s2]
      have := mul_pos t1 p1
      linarith
    | succ k ih =>
      intro hk
      obtain ⟨-, -, i3⟩ := ih (by omega)
      have c := hw.char_line (k + 1 + 1) (by omega) hk
      have c' := hw.char_line (k + 1) (by omega) (by omega)
      have w := hw.wall_line (k + 1 + 1) (by omega) hk
      have sg := seg (k + 1 + 1) (by omega) hk
      have hd := (net_order hn hf hy0 n le_rfl (k + 1 + 1) hk).1 (by omega)
      have h1 := hpos (k + 1 + 1) (by omega) hk
      have h2 := hlt (k + 1 + 1) (by omega) hk
      have h3 := hf.pos n le_rfl (k + 1 + 1) (by omega)
      have h4 := hf.pos n le_rfl (k + 1) (by omega)
      have hu := hf.up n le_rfl (k + 1 + 1) (by omega) hk
      simp only [Nat.add_sub_cancel] at w sg hd h1 h2 hu ⊢
      have t1 := Real.tan_pos_of_pos_of_lt_pi_div_two h1 (by linarith)
      have t2 := tan_smono' (by linarith [Real.pi_pos]) h3.2 h2
      have t3 : Real.tan (θ n (k + 1 + 1) + μ n (k + 1 + 1)) ≤ Real.tan (θ n (k + 1) + μ n (k + 1)) :=
        tan_mono' (by linarith [Real.pi_pos]) h4.2 hu
      have hB := hTs (k + 1 + 1) (by omega) hk
      simp only [Nat.add_sub_cancel] at hB
      obtain ⟨T, hT⟩ : ∃ T, T = Real.tan ((Θ (k + 1 + 1) + Θ (k + 1)) / 2) := ⟨_, rfl⟩
      obtain ⟨S, hS⟩ : ∃ S, S = Real.tan (θ n (k + 1 + 1) + μ n (k + 1 + 1)) := ⟨_, rfl⟩
      obtain ⟨S', hS'⟩ : ∃ S', S' = Real.tan (θ n (k + 1) + μ n (k + 1)) := ⟨_, rfl⟩
      rw [← hT] at w t1 t2 hB
      rw [← hS] at c t2 t3
      rw [← hS'] at c' t3
      have e1 : (X (k + 1 + 1) - X (k + 1)) * (S - T)
          = (X (k + 1) - x n (k + 1)) * (S' - S) + (x n (k + 1 + 1) - x n (k + 1)) * (S - slm θ μ n (k + 1 + 1)) := by
        linear_combination w - c - sg + c'
      have e2 : (X (k + 1 + 1) - x n (k + 1 + 1)) * (S - T)
          = (X (k + 1) - x n (k + 1)) * (S' - T) + (x n (k + 1 + 1) - x n (k + 1)) * (T - slm θ μ n (k + 1 + 1)) := by
        linear_combination w - c - sg + c'
      have q1 : 0 ≤ (X (k + 1) - x n (k + 1)) * (S' - S) := mul_nonneg (by linarith) (by linarith)
      have q2 : 0 ≤ (X (k + 1) - x n (k + 1)) * (S' - T) := mul_nonneg (by linarith) (by linarith)
      have r1 : 0 < (x n (k + 1 + 1) - x n (k + 1)) * (S - slm θ μ n (k + 1 + 1)) := mul_pos (by linarith) (by linarith)
      have r2 : 0 < (x n (k + 1 + 1) - x n (k + 1)) * (T - slm θ μ n (k + 1 + 1)) := mul_pos (by linarith) (by linarith)
      have p1 : 0 < X (k + 1 + 1) - X (k + 1) :=
        pos_of_mul_nn (by rw [e1]; linarith) (show 0 ≤ S - T by linarith)
      have p2 : 0 < X (k + 1 + 1) - x n (k + 1 + 1) :=
        pos_of_mul_nn (by rw [e2]; linarith) (show 0 ≤ S - T by linarith)
      refine ⟨by linarith, ?_, by linarith⟩
      have := mul_pos t1 p1
      linarith
  intro k h1 h2
  obtain ⟨k, rfl⟩ : ∃ j, k = j + 1 := ⟨k - 1, by omega⟩
  exact hmain k h2

end

end Aerokit.Props
