import Verif.Props.SecantUses2
import Verif.Lemmas.SecantPM4

/-! # aerokit's own secant search (`IterativeSolve.secant_solve`) on the Prandtl–Meyer angle -/

namespace Aerokit.Props
open Real Supersonic IterativeSolve
open ScipyNewton (chord chord_slope Slopes Slopes.step left_turn right_turn)

/-! ## one turn of the loop -/

theorem is_stop {f : ℝ → Py ℝ} {w tol : ℝ} {k : ℕ} {x fx y : ℝ} (h : |y - x| ≤ max tol (tol * |y|)) : secantLoop f w tol (k + 1) x fx y = .ok ⟨y, false⟩ := by
  unfold secantLoop; rw [if_neg (not_lt.2 h)]

theorem is_turn {f : ℝ → Py ℝ} {F : ℝ → ℝ} {K w tol : ℝ} (hK : K ≠ 0) {k : ℕ} {x y : ℝ} (hf : f y = .ok (K * F y + w)) (hne : F y ≠ F x)
    (h : max tol (tol * |y|) < |y - x|) : secantLoop f w tol (k + 1) x (K * F x + w) y = secantLoop f w tol k y (K * F y + w) (chord x y (F x) (F y)) := by
  rw [secantLoop, if_pos h, hf, Py.ok_bind, Py.div_ok (by intro e; apply hne; have : K * (F y - F x) = 0 := by linarith
                                                          rcases mul_eq_zero.1 this with h | h
                                                          · exact absurd h hK
                                                          · linarith), Py.ok_bind]
  have h1 : F y - F x ≠ 0 := sub_ne_zero.2 hne
  have e : y + (y - x) / (K * F y + w - (K * F x + w)) * (w - (K * F y + w)) = chord x y (F x) (F y) := by
    rw [show K * F y + w - (K * F x + w) = K * (F y - F x) by ring]
    unfold chord
    field_simp
    ring
  simp only [e]

/-- what makes the search from the left work -/
theorem pm_left_facts_from {γ r a : ℝ} (ha : 1.998 ≤ a) (hγ : 1.11 ≤ γ) {F : ℝ → ℝ} (hFx : ∀ x, F x = pmr γ x - pmr γ r) : F r = 0 ∧
    (∀ x ∈ Set.Icc a r, ∀ y ∈ Set.Icc a r, x < y → F x < F y) ∧
    (∀ x ∈ Set.Icc a r, ∀ y ∈ Set.Icc a r, x < y → -F y * (y - x) ≤ (F y - F x) * (r - y)) ∧
    (∀ x ∈ Set.Icc a r, ∀ y ∈ Set.Icc a r, x < y → x * ((F y - F x) * (r - y)) ≤ r * (-F y * (y - x))) ∧
    (∀ x ∈ Set.Icc a r, ∀ y ∈ Set.Icc a r, x < y → F y - F x ≤ 1 * (y - x)) := by
  have ha' : 999/500 ≤ a := by norm_num at ha ⊢; exact ha
  have g1 : 1 < γ := lt_of_lt_of_le (by norm_num) hγ
  have F0 : F r = 0 := by rw [hFx, sub_self]
  have hlt : ∀ x ∈ Set.Icc a r, ∀ y ∈ Set.Icc a r, x < y → F x < F y := by
    intro x hx y hy h
    rw [hFx, hFx]
    have := pmr_lt g1 (by linarith [hx.1]) h
    linarith
  have conc : ∀ x ∈ Set.Icc a r, ∀ y ∈ Set.Icc a r, x < y → -F y * (y - x) ≤ (F y - F x) * (r - y) := by
    intro x hx y hy h
    rcases hy.2.eq_or_lt with e | e
    · rw [e, F0]; simp
    obtain ⟨c, c1, c2, c3⟩ := pmr_mvt g1 (by linarith [hx.1]) h
    obtain ⟨d, d1, d2, d3⟩ := pmr_mvt g1 (by linarith [hy.1]) e
    rw [hFx, hFx, sub_sub_sub_cancel_right, neg_sub, c3, d3]
    have := pmSlope_antitone hγ (by have := hx.1; linarith) (c2.trans d1).le
    have h3 : 0 ≤ (y - x) * (r - y) := mul_nonneg (by linarith) (by linarith)
    nlinarith
  have el : ∀ x ∈ Set.Icc a r, ∀ y ∈ Set.Icc a r, x < y → x * ((F y - F x) * (r - y)) ≤ r * (-F y * (y - x)) := by
    intro x hx y hy h
    rcases hy.2.eq_or_lt with e | e
    · rw [e, F0]; simp
    have hx2 := hx.1
    have y0 : 0 < y := by linarith
    obtain ⟨c, c1, c2, c3⟩ := pmr_cauchy g1 (by linarith) h
    obtain ⟨d, d1, d2, d3⟩ := pmr_cauchy g1 (by linarith) e
    have hm := pm_mass_mono g1 (by linarith : (1:ℝ) ≤ c) (c2.trans d1).le
    rw [hFx, hFx, sub_sub_sub_cancel_right, neg_sub]
    have h3 : 0 ≤ (y - x) * (r - y) := mul_nonneg (by linarith) (by linarith)
    have h4 := mul_le_mul_of_nonneg_right hm h3
    refine le_of_mul_le_mul_right (?_ : _ * y ≤ _ * y) y0
    calc x * ((pmr γ y - pmr γ x) * (r - y)) * y = (pmr γ y - pmr γ x) * (x * y) * (r - y) := by ring
      _ = c ^ 2 * pmSlope γ c * ((y - x) * (r - y)) := by rw [c3]; ring
      _ ≤ d ^ 2 * pmSlope γ d * ((y - x) * (r - y)) := h4
      _ = (pmr γ r - pmr γ y) * (y * r) * (y - x) := by rw [d3]; ring
      _ = r * ((pmr γ r - pmr γ y) * (y - x)) * y := by ring
  have hL : ∀ x ∈ Set.Icc a r, ∀ y ∈ Set.Icc a r, x < y → F y - F x ≤ 1 * (y - x) := by
    intro x hx y hy h
    obtain ⟨c, c1, c2, c3⟩ := pmr_mvt g1 (by linarith [hx.1]) h
    rw [hFx, hFx, sub_sub_sub_cancel_right, c3]
    exact mul_le_mul_of_nonneg_right (pmSlope_le_one g1 (by linarith [hx.1])) (by linarith)
  exact ⟨F0, hlt, conc, el, hL⟩


/-! ## from the left: the relative distances to the root multiply -/

theorem is_left {F : ℝ → ℝ} {r a : ℝ} (ha : 0 < a) (h0 : F r = 0) {f : ℝ → Py ℝ} {K w tol : ℝ} (hK : K ≠ 0) (hf : ∀ x ∈ Set.Icc a r, f x = .ok (K * F x + w))
    (hlt : ∀ x ∈ Set.Icc a r, ∀ y ∈ Set.Icc a r, x < y → F x < F y)
    (conc : ∀ x ∈ Set.Icc a r, ∀ y ∈ Set.Icc a r, x < y → -F y * (y - x) ≤ (F y - F x) * (r - y))
    (el : ∀ x ∈ Set.Icc a r, ∀ y ∈ Set.Icc a r, x < y → x * ((F y - F x) * (r - y)) ≤ r * (-F y * (y - x)))
    {θ : ℝ} (θ0 : 0 ≤ θ) (ht : 0 < tol) : ∀ (k j : ℕ) (x y : ℝ), x ∈ Set.Icc a r → y ∈ Set.Icc a r → x < y → r - x ≤ r * θ ^ Nat.fib j → r - y ≤ r * θ ^ Nat.fib (j + 1) →
      a * (r - x) ≤ r * (y - x) → r * θ ^ Nat.fib (j + k) ≤ tol →
      ∃ m, secantLoop f w tol (k + 1) x (K * F x + w) y = .ok ⟨m, false⟩ ∧ m ∈ Set.Icc a r ∧ a * (r - m) ≤ r * max tol (tol * |m|) := by
  have turn := left_turn ha h0 hlt conc el
  have done : ∀ (k : ℕ) (x y : ℝ), x ∈ Set.Icc a r → y ∈ Set.Icc a r → x ≤ y → a * (r - x) ≤ r * (y - x) → |y - x| ≤ max tol (tol * |y|) →
      ∃ m, secantLoop f w tol (k + 1) x (K * F x + w) y = .ok ⟨m, false⟩ ∧ m ∈ Set.Icc a r ∧ a * (r - m) ≤ r * max tol (tol * |m|) := by
    intro k x y hx hy hxy hp h
    refine ⟨y, is_stop h, hy, ?_⟩
    have r0 : 0 < r := ha.trans_le (hx.1.trans hx.2)
    have h1 : y - x ≤ max tol (tol * |y|) := (le_abs_self _).trans h
    have h2 := mul_le_mul_of_nonneg_left h1 r0.le
    have h3 : a * (r - y) ≤ a * (r - x) := mul_le_mul_of_nonneg_left (by linarith) ha.le
    linarith
  intro k
  induction k with
  | zero =>
    intro j x y hx hy hxy h1 h2 hp h3
    refine done 0 x y hx hy hxy.le hp ?_
    rw [abs_of_pos (by linarith)]
    refine le_max_of_le_left ?_
    rw [add_zero] at h3
    linarith [hy.2]
  | succ k ih =>
    intro j x y hx hy hxy h1 h2 hp h3
    by_cases hst : |y - x| ≤ max tol (tol * |y|)
    · exact done _ x y hx hy hxy.le hp hst
    push Not at hst
    obtain ⟨c, hc, c1, c2, c3, c4, c5⟩ := turn x y hx hy hxy
    rw [is_turn hK (hf y hy) (hlt x hx y hy hxy).ne' hst, ← hc]
    have hcm : c ∈ Set.Icc a r := ⟨hy.1.trans c1, c2⟩
    have r0 : 0 < r := ha.trans_le (hx.1.trans hx.2)
    have hp' : a * (r - y) ≤ r * (c - y) := by
      have : a * (r - y) ≤ x * (r - y) := mul_le_mul_of_nonneg_right hx.1 (by linarith [hy.2])
      nlinarith
    rcases hy.2.eq_or_lt with e | e
    · have e' : c = y := by linarith
      refine done k y c hy hcm c1 hp' ?_
      rw [e', sub_self, abs_zero]; exact le_max_of_le_left ht.le
    · have h4 : r - c ≤ r * θ ^ Nat.fib (j + 1 + 1) := by
        have e1 : (r - x) * (r - y) ≤ (r * θ ^ Nat.fib j) * (r * θ ^ Nat.fib (j + 1)) := mul_le_mul h1 h2 (by linarith [hy.2]) (by positivity)
        have e2 : (r * θ ^ Nat.fib j) * (r * θ ^ Nat.fib (j + 1)) = r * (r * θ ^ Nat.fib (j + 2)) := by
          rw [Nat.fib_add_two, pow_add]; ring
        rw [e2] at e1
        exact le_of_mul_le_mul_left (c3.trans e1) r0
      exact ih (j + 1) y c hy hcm (c4 e) h2 h4 hp' (by rw [show j + 1 + k = j + (k + 1) by ring]; exact h3)

/-! ## where the slopes vary by less than a factor two -/

theorem is_slopes {F : ℝ → ℝ} {A B μ ν r : ℝ} (S : Slopes F A B μ ν) (hμ : 0 < μ) (hr : r ∈ Set.Icc A B) (h0 : F r = 0) {f : ℝ → Py ℝ} {K w tol : ℝ} (hK : K ≠ 0)
    (hf : ∀ x ∈ Set.Icc A B, f x = .ok (K * F x + w)) {κ d : ℝ} (hκ : ν / μ - 1 ≤ κ) (κ0 : 0 ≤ κ) (κ1 : κ < 1) (ht : 0 < tol) (dA : A ≤ r - κ * d) (dB : r + κ * d ≤ B) :
    ∀ (k : ℕ) (x y e : ℝ), x ∈ Set.Icc A B → y ∈ Set.Icc A B → |x - r| ≤ e → |y - r| ≤ κ * |x - r| → e ≤ d → κ ^ k * e * (1 + κ) ≤ tol →
      ∃ m, secantLoop f w tol (k + 1) x (K * F x + w) y = .ok ⟨m, false⟩ ∧ m ∈ Set.Icc A B ∧ (1 - κ) * |m - r| ≤ κ * max tol (tol * |m|) := by
  have done : ∀ (k : ℕ) (x y : ℝ), x ∈ Set.Icc A B → y ∈ Set.Icc A B → |y - r| ≤ κ * |x - r| → |y - x| ≤ max tol (tol * |y|) →
      ∃ m, secantLoop f w tol (k + 1) x (K * F x + w) y = .ok ⟨m, false⟩ ∧ m ∈ Set.Icc A B ∧ (1 - κ) * |m - r| ≤ κ * max tol (tol * |m|) := by
    intro k x y hx hy hp h
    refine ⟨y, is_stop h, hy, ?_⟩
    have h1 : |x - r| ≤ |y - x| + |y - r| := by
      have := abs_sub_le x y r; rwa [abs_sub_comm x y] at this
    have h2 := mul_le_mul_of_nonneg_left (h1.trans (add_le_add_left h _)) κ0
    linarith
  intro k
  induction k with
  | zero =>
    intro x y e hx hy hxe hyx hed hk
    refine done 0 x y hx hy hyx (le_max_of_le_left ?_)
    have h1 : |y - x| ≤ |y - r| + |x - r| := by
      have := abs_sub_le y r x; rwa [abs_sub_comm r x] at this
    rw [pow_zero, one_mul] at hk
    nlinarith
  | succ k ih =>
    intro x y e hx hy hxe hyx hed hk
    by_cases hst : |y - x| ≤ max tol (tol * |y|)
    · exact done _ x y hx hy hyx hst
    push Not at hst
    have hxy : x ≠ y := by
      intro e; rw [e, sub_self, abs_zero] at hst
      exact absurd hst (not_lt.2 (le_max_of_le_left ht.le))
    obtain ⟨s1, s2, -⟩ := S.step hμ hr h0 hx hy hxy
    rw [is_turn hK (hf y hy) s1 hst]
    have s2' := s2.trans (mul_le_mul_of_nonneg_right hκ (abs_nonneg _))
    have hye : |y - r| ≤ κ * e := hyx.trans (mul_le_mul_of_nonneg_left hxe κ0)
    have e0 : 0 ≤ e := (abs_nonneg _).trans hxe
    have hed' : κ * e ≤ e := by nlinarith
    have hcd : |chord x y (F x) (F y) - r| ≤ κ * d := s2'.trans (mul_le_mul_of_nonneg_left (hye.trans (hed'.trans hed)) κ0)
    have hcm : chord x y (F x) (F y) ∈ Set.Icc A B := by
      obtain ⟨a1, a2⟩ := abs_le.1 hcd
      exact ⟨by linarith, by linarith⟩
    exact ih y _ (κ * e) hy hcm hye s2' (hed'.trans hed) (by rw [pow_succ] at hk; linarith)

end Aerokit.Props
