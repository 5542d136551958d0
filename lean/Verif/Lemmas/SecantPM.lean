import Verif.Lemmas.SecantRiemann
import Verif.Props.SecantUses
import Mathlib.Data.Nat.Fib.Basic

/-! # scipy's secant search on the Prandtl–Meyer angle: general lemmas -/

namespace Aerokit.ScipyNewton

/-! ## a multiple of the function -/

theorem newPoint_scale {k : ℝ} (hk : k ≠ 0) (p0 p1 q0 q1 : ℝ) : newPoint p0 p1 (k * q0) (k * q1) = newPoint p0 p1 q0 q1 := by
  by_cases h : q1 = q0
  · subst h
    unfold newPoint
    rw [if_neg (lt_irrefl _), if_neg (lt_irrefl _)]
    by_cases h0 : q1 = 0
    · subst h0; simp
    · have h1 : k * q1 ≠ 0 := mul_ne_zero hk h0
      rw [Py.div_ok h1, Py.div_ok h1, Py.ok_bind, Py.ok_bind, Py.div_ok h0, Py.div_ok h0, Py.ok_bind, Py.ok_bind,
        div_self h0, div_self h1, sub_self, Py.div_err, Py.div_err]
  · have h' : k * q1 ≠ k * q0 := fun e => h (mul_left_cancel₀ hk e)
    rw [newPoint_eq h, newPoint_eq h']
    congr 1
    unfold chord
    have : q1 - q0 ≠ 0 := sub_ne_zero.2 h
    rw [show k * q1 - k * q0 = k * (q1 - q0) by ring]
    field_simp

theorem loop_scale {k : ℝ} (hk : k ≠ 0) {tol rtol : ℝ} {f : ℝ → Py ℝ} : ∀ (n : ℕ) (p0 p1 q0 q1 : ℝ),
    secantLoop tol rtol (fun x => f x >>= fun q => .ok (k * q)) n p0 p1 (k * q0) (k * q1) = secantLoop tol rtol f n p0 p1 q0 q1 := by
  intro n
  induction n with
  | zero => intros; rfl
  | succ n ih =>
    intro p0 p1 q0 q1
    rw [secantLoop, secantLoop]
    by_cases h : q1 = q0
    · rw [if_pos h, if_pos (by rw [h])]
    · rw [if_neg h, if_neg (fun e => h (mul_left_cancel₀ hk e)), newPoint_scale hk, newPoint_eq h, Py.ok_bind, Py.ok_bind]
      split_ifs with hc
      · rfl
      · rw [bind_assoc]
        refine bind_congr fun q => ?_
        rw [Py.ok_bind]
        exact ih _ _ _ _

theorem newton_scale {k : ℝ} (hk : k ≠ 0) {tol rtol x0 : ℝ} {f : ℝ → Py ℝ} {n : ℕ} :
    newton tol rtol n (fun x => f x >>= fun q => .ok (k * q)) x0 = newton tol rtol n f x0 := by
  unfold newton
  simp only []
  rw [bind_assoc]
  refine bind_congr fun q0 => ?_
  rw [Py.ok_bind, bind_assoc]
  refine bind_congr fun q1 => ?_
  rw [Py.ok_bind, abs_mul, abs_mul]
  have : |k| * |q1| < |k| * |q0| ↔ |q1| < |q0| := mul_lt_mul_iff_right₀ (abs_pos.2 hk)
  by_cases hc : |q1| < |q0|
  · rw [if_pos hc, if_pos (this.2 hc)]; exact loop_scale hk _ _ _ _ _
  · rw [if_neg hc, if_neg (fun e => hc (this.1 e))]; exact loop_scale hk _ _ _ _ _

/-! ## contraction: slopes that vary by less than a factor two -/

/-- slopes of `F` on `[A, B]` lie in `[μ, ν]` -/
def Slopes (F : ℝ → ℝ) (A B μ ν : ℝ) : Prop := ∀ x ∈ Set.Icc A B, ∀ y ∈ Set.Icc A B, x < y → μ * (y - x) ≤ F y - F x ∧ F y - F x ≤ ν * (y - x)

variable {F : ℝ → ℝ} {A B μ ν r : ℝ}

theorem Slopes.of_deriv {g : ℝ → ℝ} (hd : ∀ x ∈ Set.Icc A B, HasDerivAt F (g x) x) (hg : ∀ x ∈ Set.Icc A B, μ ≤ g x ∧ g x ≤ ν) : Slopes F A B μ ν := by
  intro x hx y hy h
  have sub : ∀ z, x ≤ z → z ≤ y → z ∈ Set.Icc A B := fun z h1 h2 => ⟨hx.1.trans h1, h2.trans hy.2⟩
  obtain ⟨c, ⟨c1, c2⟩, hc⟩ := exists_hasDerivAt_eq_slope F g h
    (fun z hz => (hd z (sub z hz.1 hz.2)).continuousAt.continuousWithinAt) (fun z hz => hd z (sub z hz.1.le hz.2.le))
  obtain ⟨g1, g2⟩ := hg c (sub c c1.le c2.le)
  have h0 : 0 < y - x := by linarith
  have e : F y - F x = g c * (y - x) := by rw [hc, div_mul_cancel₀ _ h0.ne']
  rw [e]
  exact ⟨mul_le_mul_of_nonneg_right g1 h0.le, mul_le_mul_of_nonneg_right g2 h0.le⟩

theorem Slopes.slope (S : Slopes F A B μ ν) (hμ : 0 < μ) {x y : ℝ} (hx : x ∈ Set.Icc A B) (hy : y ∈ Set.Icc A B) (h : x ≠ y) :
    ∃ s, μ ≤ s ∧ s ≤ ν ∧ F y - F x = s * (y - x) ∧ F y ≠ F x := by
  have key : ∀ x ∈ Set.Icc A B, ∀ y ∈ Set.Icc A B, x < y → ∃ s, μ ≤ s ∧ s ≤ ν ∧ F y - F x = s * (y - x) ∧ F y ≠ F x := by
    intro x hx y hy h
    obtain ⟨h1, h2⟩ := S x hx y hy h
    have h0 : 0 < y - x := by linarith
    refine ⟨(F y - F x) / (y - x), by rwa [le_div_iff₀ h0], by rwa [div_le_iff₀ h0], by rw [div_mul_cancel₀ _ h0.ne'], ?_⟩
    intro e
    rw [e, sub_self] at h1
    nlinarith [mul_pos hμ h0]
  rcases lt_or_gt_of_ne h with h | h
  · exact key x hx y hy h
  · obtain ⟨s, h1, h2, h3, h4⟩ := key y hy x hx h
    exact ⟨s, h1, h2, by linarith, h4.symm⟩

theorem chord_slope {x y s Fx Fy : ℝ} (h : Fy - Fx = s * (y - x)) (hs : s ≠ 0) (hxy : x ≠ y) : chord x y Fx Fy = y - Fy / s ∧ chord x y Fx Fy = x - Fx / s := by
  have h0 : y - x ≠ 0 := sub_ne_zero.2 hxy.symm
  constructor
  · unfold chord; rw [h]; field_simp
  · unfold chord; rw [h]
    have : Fy = Fx + s * (y - x) := by linarith
    rw [this]; field_simp; ring

/-- one turn of the loop -/
theorem Slopes.step (S : Slopes F A B μ ν) (hμ : 0 < μ) (hr : r ∈ Set.Icc A B) (h0 : F r = 0) {x y : ℝ} (hx : x ∈ Set.Icc A B) (hy : y ∈ Set.Icc A B) (h : x ≠ y) :
    F y ≠ F x ∧ |chord x y (F x) (F y) - r| ≤ (ν / μ - 1) * |y - r| ∧ (chord x y (F x) (F y) = y → y = r) := by
  obtain ⟨s, s1, s2, s3, s4⟩ := S.slope hμ hx hy h
  have s0 : 0 < s := by linarith
  have hc := (chord_slope s3 s0.ne' h).1
  refine ⟨s4, ?_, ?_⟩
  · rw [hc]
    by_cases e : y = r
    · rw [e, h0]; simp
    · obtain ⟨t, t1, t2, t3, _⟩ := S.slope hμ hr hy (fun e' => e e'.symm)
      rw [h0, sub_zero] at t3
      rw [t3]
      have e1 : y - t * (y - r) / s - r = (1 - t / s) * (y - r) := by field_simp; ring
      rw [e1, abs_mul]
      refine mul_le_mul_of_nonneg_right ?_ (abs_nonneg _)
      have hν : 0 < ν := by linarith
      have u1 : t / s ≤ ν / μ := div_le_div₀ hν.le t2 hμ s1
      have u2 : μ / ν ≤ t / s := div_le_div₀ (by linarith) t1 s0 s2
      have u3 : 2 - ν / μ ≤ μ / ν := by
        have : μ / ν + ν / μ - 2 = (μ - ν) ^ 2 / (μ * ν) := by field_simp; ring
        have : 0 ≤ (μ - ν) ^ 2 / (μ * ν) := by positivity
        linarith
      rw [abs_le]; constructor <;> linarith
  · intro e
    rw [hc] at e
    have : F y / s = 0 := by linarith
    have hF : F y = 0 := by
      rcases div_eq_zero_iff.1 this with h | h
      · exact h
      · exact absurd h s0.ne'
    by_contra hn
    obtain ⟨t, t1, t2, t3, _⟩ := S.slope hμ hr hy (fun e' => hn e'.symm)
    rw [h0, hF, sub_zero] at t3
    have : t ≠ 0 := by linarith
    have : y - r = 0 := by
      rcases mul_eq_zero.1 t3.symm with h | h
      · exact absurd h this
      · exact h
    exact hn (by linarith)

/-- the loop, when the slopes vary by a factor `1 + κ` only -/
theorem Slopes.loop (S : Slopes F A B μ ν) (hμ : 0 < μ) (hr : r ∈ Set.Icc A B) (h0 : F r = 0) {f : ℝ → Py ℝ} (hf : ∀ x ∈ Set.Icc A B, f x = .ok (F x))
    {κ d tol : ℝ} (hκ : ν / μ - 1 ≤ κ) (κ0 : 0 ≤ κ) (κ1 : κ < 1) (ht : 0 ≤ tol) (dA : A ≤ r - κ * d) (dB : r + κ * d ≤ B) :
    ∀ (k : ℕ) (x y e : ℝ), x ∈ Set.Icc A B → y ∈ Set.Icc A B → x ≠ y → |y - r| ≤ e → e ≤ d → κ ^ k * e * (1 + κ) ≤ tol →
      ∃ m, secantLoop tol 0 f (k + 1) x y (F x) (F y) = .ok m ∧ m ∈ Set.Icc A B ∧ |m - r| ≤ κ * tol / (1 - κ) := by
  intro k
  induction k with
  | zero =>
    intro x y e hx hy hxy he hed hk
    obtain ⟨s1, s2, s3⟩ := S.step hμ hr h0 hx hy hxy
    obtain ⟨c, hc⟩ : ∃ c, c = chord x y (F x) (F y) := ⟨_, rfl⟩
    rw [← hc] at s2 s3
    have s2' : |c - r| ≤ κ * |y - r| := s2.trans (mul_le_mul_of_nonneg_right hκ (abs_nonneg _))
    have hcd : |c - r| ≤ κ * d := s2'.trans (mul_le_mul_of_nonneg_left (he.trans hed) κ0)
    have hcy : |c - y| ≤ |c - r| + |y - r| := by
      have := abs_sub_le c r y; rwa [abs_sub_comm r y] at this
    have hm : c ∈ Set.Icc A B := by
      obtain ⟨a1, a2⟩ := abs_le.1 hcd
      exact ⟨by linarith, by linarith⟩
    have hstop : |c - y| ≤ tol := by
      rw [pow_zero, one_mul] at hk
      nlinarith
    refine ⟨c, ?_, hm, ?_⟩
    · rw [loop_succ s1, ← hc, if_pos (by rw [zero_mul, add_zero]; exact hstop)]
    · rw [le_div_iff₀ (by linarith)]
      have hyr : |y - r| ≤ |c - y| + |c - r| := by
        have := abs_sub_le y c r; rwa [abs_sub_comm y c] at this
      nlinarith [abs_nonneg (y - r)]
  | succ k ih =>
    intro x y e hx hy hxy he hed hk
    obtain ⟨s1, s2, s3⟩ := S.step hμ hr h0 hx hy hxy
    obtain ⟨c, hc⟩ : ∃ c, c = chord x y (F x) (F y) := ⟨_, rfl⟩
    rw [← hc] at s2 s3
    have e0 : 0 ≤ e := (abs_nonneg _).trans he
    have s2' : |c - r| ≤ κ * |y - r| := s2.trans (mul_le_mul_of_nonneg_right hκ (abs_nonneg _))
    have hce : |c - r| ≤ κ * e := s2'.trans (mul_le_mul_of_nonneg_left he κ0)
    have hcd : |c - r| ≤ κ * d := hce.trans (mul_le_mul_of_nonneg_left hed κ0)
    have hm : c ∈ Set.Icc A B := by
      obtain ⟨a1, a2⟩ := abs_le.1 hcd
      exact ⟨by linarith, by linarith⟩
    by_cases hstop : |c - y| ≤ tol
    · refine ⟨c, ?_, hm, ?_⟩
      · rw [loop_succ s1, ← hc, if_pos (by rw [zero_mul, add_zero]; exact hstop)]
      · rw [le_div_iff₀ (by linarith)]
        have hyr : |y - r| ≤ |c - y| + |c - r| := by
          have := abs_sub_le y c r; rwa [abs_sub_comm y c] at this
        nlinarith [abs_nonneg (y - r)]
    · have hne : y ≠ c := by
        intro e; apply hstop; rw [e, sub_self, abs_zero]; exact ht
      obtain ⟨m, h1, h2, h3⟩ := ih y c (κ * e) hy hm hne hce (by nlinarith) (by rw [pow_succ] at hk; linarith)
      refine ⟨m, ?_, h2, h3⟩
      rw [loop_succ s1, ← hc, if_neg (by rw [zero_mul, add_zero]; exact hstop), hf c hm, Py.ok_bind]
      exact h1

/-! ## from the left of the root, concave, with `M²` times the slope increasing -/

/-- one turn of the loop on `[a, r]` -/
theorem left_turn {a : ℝ} (ha : 0 < a) (h0 : F r = 0) (hlt : ∀ x ∈ Set.Icc a r, ∀ y ∈ Set.Icc a r, x < y → F x < F y)
    (conc : ∀ x ∈ Set.Icc a r, ∀ y ∈ Set.Icc a r, x < y → -F y * (y - x) ≤ (F y - F x) * (r - y))
    (el : ∀ x ∈ Set.Icc a r, ∀ y ∈ Set.Icc a r, x < y → x * ((F y - F x) * (r - y)) ≤ r * (-F y * (y - x))) : ∀ x y : ℝ, x ∈ Set.Icc a r → y ∈ Set.Icc a r → x < y → ∃ c, c = chord x y (F x) (F y) ∧ y ≤ c ∧ c ≤ r ∧ r * (r - c) ≤ (r - x) * (r - y) ∧ (y < r → y < c) ∧
    (c - y) * (F y - F x) = -F y * (y - x) := by
  intro x y hx hy hxy
  have hF := hlt x hx y hy hxy
  have h1 := conc x hx y hy hxy
  have h2 := el x hx y hy hxy
  have hd : 0 < F y - F x := by linarith
  have r0 : 0 < r := ha.trans_le (hx.1.trans hx.2)
  have hFy : F y ≤ 0 := by
    rcases hy.2.eq_or_lt with e | e
    · rw [e, h0]
    · have := hlt y hy r ⟨hy.1.trans hy.2, le_rfl⟩ e; linarith
  obtain ⟨σ, hσ⟩ : ∃ σ, σ = -F y * (y - x) / (F y - F x) := ⟨_, rfl⟩
  have hσ' : σ * (F y - F x) = -F y * (y - x) := by rw [hσ, div_mul_cancel₀ _ hd.ne']
  have hc : chord x y (F x) (F y) = y + σ := by unfold chord; rw [hσ]; ring
  have σ0 : 0 ≤ σ := by rw [hσ]; exact div_nonneg (mul_nonneg (by linarith) (by linarith)) hd.le
  have σ1 : σ ≤ r - y := by rw [hσ, div_le_iff₀ hd]; linarith
  have σ2 : x * (r - y) ≤ r * σ := by
    have : x * (r - y) * (F y - F x) ≤ r * σ * (F y - F x) := by
      rw [mul_assoc r, hσ']; linarith
    exact le_of_mul_le_mul_right this hd
  refine ⟨y + σ, hc.symm, by linarith, by linarith, by nlinarith, ?_, by rw [add_sub_cancel_left]; exact hσ'⟩
  intro hyr
  have := hlt y hy r ⟨hy.1.trans hy.2, le_rfl⟩ hyr
  have : 0 < σ := by rw [hσ]; exact div_pos (mul_pos (by linarith) (by linarith)) hd
  linarith

/-- the end of the loop on `[a, r]` -/
theorem left_stop {a : ℝ} (ha : 0 < a) (hlt : ∀ x ∈ Set.Icc a r, ∀ y ∈ Set.Icc a r, x < y → F x < F y)
    {L : ℝ} (hL : ∀ x ∈ Set.Icc a r, ∀ y ∈ Set.Icc a r, x < y → F y - F x ≤ L * (y - x)) {tol : ℝ} : ∀ x y c : ℝ, x ∈ Set.Icc a r → y ∈ Set.Icc a r → x < y → y ≤ c → c ≤ r → r * (r - c) ≤ (r - x) * (r - y) → (c - y) * (F y - F x) = -F y * (y - x) →
    c - y ≤ tol → a ≤ c ∧ c ≤ r ∧ r - c ≤ tol * r / a ∧ -F c ≤ L * tol := by
  intro x y c hx hy hxy hyc hcr h1 h2 hst
  have r0 : 0 < r := ha.trans_le (hx.1.trans hx.2)
  refine ⟨hy.1.trans hyc, hcr, ?_, ?_⟩
  · rw [le_div_iff₀ ha]
    have h3 : x * (r - y) ≤ r * (c - y) := by nlinarith
    have h4 : a * (r - y) ≤ x * (r - y) := mul_le_mul_of_nonneg_right hx.1 (by linarith [hy.2])
    have h5 : r * (c - y) ≤ r * tol := mul_le_mul_of_nonneg_left hst r0.le
    nlinarith
  · have h3 := hL x hx y hy hxy
    have h4 : (c - y) * (F y - F x) ≤ (c - y) * (L * (y - x)) := mul_le_mul_of_nonneg_left h3 (by linarith)
    have hl0 : 0 ≤ L := by
      have := hlt x hx y hy hxy
      by_contra hn
      push Not at hn
      nlinarith
    have h5 : -F y ≤ L * (c - y) := by
      have : -F y * (y - x) ≤ L * (c - y) * (y - x) := by rw [← h2]; linarith
      exact le_of_mul_le_mul_right this (by linarith)
    have h6 : F y ≤ F c := by
      rcases hyc.eq_or_lt with e | e
      · rw [e]
      · exact (hlt y hy c ⟨hy.1.trans hyc, hcr⟩ e).le
    have : L * (c - y) ≤ L * tol := mul_le_mul_of_nonneg_left hst hl0
    linarith

/-- the loop on `[a, r]`: the relative distances to the root multiply -/
theorem left_loop {a : ℝ} (ha : 0 < a) (h0 : F r = 0) {f : ℝ → Py ℝ} (hf : ∀ x ∈ Set.Icc a r, f x = .ok (F x)) (hlt : ∀ x ∈ Set.Icc a r, ∀ y ∈ Set.Icc a r, x < y → F x < F y)
    (conc : ∀ x ∈ Set.Icc a r, ∀ y ∈ Set.Icc a r, x < y → -F y * (y - x) ≤ (F y - F x) * (r - y))
    (el : ∀ x ∈ Set.Icc a r, ∀ y ∈ Set.Icc a r, x < y → x * ((F y - F x) * (r - y)) ≤ r * (-F y * (y - x)))
    {L : ℝ} (hL : ∀ x ∈ Set.Icc a r, ∀ y ∈ Set.Icc a r, x < y → F y - F x ≤ L * (y - x))
    {θ tol : ℝ} (θ0 : 0 ≤ θ) (ht : 0 ≤ tol) : ∀ (k j : ℕ) (x y : ℝ), x ∈ Set.Icc a r → y ∈ Set.Icc a r → x < y → r - x ≤ r * θ ^ Nat.fib j → r - y ≤ r * θ ^ Nat.fib (j + 1) →
      r * θ ^ Nat.fib (j + 1 + k) ≤ tol →
      ∃ m, secantLoop tol 0 f (k + 1) x y (F x) (F y) = .ok m ∧ a ≤ m ∧ m ≤ r ∧ r - m ≤ tol * r / a ∧ -F m ≤ L * tol := by
  have turn := left_turn ha h0 hlt conc el
  have stop := left_stop ha hlt hL (tol := tol)
  intro k
  induction k with
  | zero =>
    intro j x y hx hy hxy h1 h2 h3
    obtain ⟨c, hc, c1, c2, c3, c4, c5⟩ := turn x y hx hy hxy
    have hst : c - y ≤ tol := by rw [add_zero] at h3; linarith
    obtain ⟨m1, m2, m3, m4⟩ := stop x y c hx hy hxy c1 c2 c3 c5 hst
    refine ⟨c, ?_, m1, m2, m3, m4⟩
    rw [loop_succ (hlt x hx y hy hxy).ne', ← hc, if_pos (by rw [zero_mul, add_zero, abs_of_nonneg (by linarith)]; exact hst)]
  | succ k ih =>
    intro j x y hx hy hxy h1 h2 h3
    obtain ⟨c, hc, c1, c2, c3, c4, c5⟩ := turn x y hx hy hxy
    by_cases hst : c - y ≤ tol
    · obtain ⟨m1, m2, m3, m4⟩ := stop x y c hx hy hxy c1 c2 c3 c5 hst
      refine ⟨c, ?_, m1, m2, m3, m4⟩
      rw [loop_succ (hlt x hx y hy hxy).ne', ← hc, if_pos (by rw [zero_mul, add_zero, abs_of_nonneg (by linarith)]; exact hst)]
    · have hyr : y < r := by
        rcases hy.2.eq_or_lt with e | e
        · exfalso; apply hst; linarith
        · exact e
      have hcm : c ∈ Set.Icc a r := ⟨hy.1.trans c1, c2⟩
      have r0 : 0 < r := ha.trans_le (hx.1.trans hx.2)
      have h4 : r - c ≤ r * θ ^ Nat.fib (j + 1 + 1) := by
        have e1 : (r - x) * (r - y) ≤ (r * θ ^ Nat.fib j) * (r * θ ^ Nat.fib (j + 1)) := mul_le_mul h1 h2 (by linarith [hy.2]) (by positivity)
        have e2 : (r * θ ^ Nat.fib j) * (r * θ ^ Nat.fib (j + 1)) = r * (r * θ ^ Nat.fib (j + 2)) := by
          rw [Nat.fib_add_two, pow_add]; ring
        rw [e2] at e1
        exact le_of_mul_le_mul_left (c3.trans e1) r0
      obtain ⟨m, hm, hm'⟩ := ih (j + 1) y c hy hcm (c4 hyr) h2 h4 (by rw [show j + 1 + 1 + k = j + 1 + (k + 1) by ring]; exact h3)
      refine ⟨m, ?_, hm'⟩
      rw [loop_succ (hlt x hx y hy hxy).ne', ← hc, if_neg (by rw [zero_mul, add_zero, abs_of_nonneg (by linarith)]; exact hst), hf c hcm, Py.ok_bind]
      exact hm

/-! ## from the right of the root, convex, with the slope over the distance to `o` decreasing -/

/-- one turn of the loop on `[r, B]` -/
theorem right_turn {o : ℝ} (hor : o ≤ r) (h0 : F r = 0) (hlt : ∀ x ∈ Set.Icc r B, ∀ y ∈ Set.Icc r B, x < y → F x < F y)
    (conv : ∀ x ∈ Set.Icc r B, ∀ y ∈ Set.Icc r B, x < y → F x * (y - x) ≤ (F y - F x) * (x - r))
    (el : ∀ x ∈ Set.Icc r B, ∀ y ∈ Set.Icc r B, x < y → (F y - F x) * ((x - o) ^ 2 - (r - o) ^ 2) ≤ F x * ((y - o) ^ 2 - (x - o) ^ 2)) : ∀ x y : ℝ, x ∈ Set.Icc r B → y ∈ Set.Icc r B → x < y → ∃ c, c = chord y x (F y) (F x) ∧ r ≤ c ∧ c ≤ x ∧ c - r ≤ (y - r) / 2 ∧ (r < x → c < x) ∧
    (x - c) * (F y - F x) = F x * (y - x) := by
  intro x y hx hy hxy
  have hF := hlt x hx y hy hxy
  have h1 := conv x hx y hy hxy
  have h2 := el x hx y hy hxy
  have hd : 0 < F y - F x := by linarith
  have hFx : 0 ≤ F x := by
    rcases hx.1.eq_or_lt with e | e
    · rw [← e, h0]
    · have := hlt r ⟨le_rfl, hx.1.trans hx.2⟩ x hx e; linarith
  obtain ⟨σ, hσ⟩ : ∃ σ, σ = F x * (y - x) / (F y - F x) := ⟨_, rfl⟩
  have hσ' : σ * (F y - F x) = F x * (y - x) := by rw [hσ, div_mul_cancel₀ _ hd.ne']
  have hc : chord y x (F y) (F x) = x - σ := by
    unfold chord; rw [hσ]
    have : F x - F y ≠ 0 := by linarith
    have : F y - F x ≠ 0 := by linarith
    field_simp; ring
  have σ0 : 0 ≤ σ := by rw [hσ]; exact div_nonneg (mul_nonneg hFx (by linarith)) hd.le
  have σ1 : σ ≤ x - r := by rw [hσ, div_le_iff₀ hd]; linarith
  have hxr := hx.1
  -- σ (A + B) ≥ (A² - R²)
  have σ2 : (x - r) * ((x - o) + (r - o)) ≤ σ * ((x - o) + (y - o)) := by
    have e1 : (F y - F x) * ((x - r) * ((x - o) + (r - o))) ≤ (F y - F x) * (σ * ((x - o) + (y - o))) := by
      calc (F y - F x) * ((x - r) * ((x - o) + (r - o))) = (F y - F x) * ((x - o) ^ 2 - (r - o) ^ 2) := by ring
        _ ≤ F x * ((y - o) ^ 2 - (x - o) ^ 2) := h2
        _ = F x * (y - x) * ((x - o) + (y - o)) := by ring
        _ = (F y - F x) * (σ * ((x - o) + (y - o))) := by rw [← hσ']; ring
    exact le_of_mul_le_mul_left e1 hd
  refine ⟨x - σ, hc.symm, by linarith, by linarith, ?_, ?_, by rw [sub_sub_cancel]; exact hσ'⟩
  · have hp : 0 < (x - o) + (y - o) := by linarith
    have e2 : (x - σ - r) * ((x - o) + (y - o)) ≤ (x - r) * (y - r) := by nlinarith
    have e3 : (x - r) * (y - r) ≤ (y - r) / 2 * ((x - o) + (y - o)) := by nlinarith
    exact le_of_mul_le_mul_right (e2.trans e3) hp
  · intro hlx
    have := hlt r ⟨le_rfl, hx.1.trans hx.2⟩ x hx hlx
    have : 0 < σ := by rw [hσ]; exact div_pos (mul_pos (by linarith) (by linarith)) hd
    linarith

/-- the end of the loop on `[r, B]` -/
theorem right_stop (hlt : ∀ x ∈ Set.Icc r B, ∀ y ∈ Set.Icc r B, x < y → F x < F y)
    {L : ℝ} (hL : ∀ x ∈ Set.Icc r B, ∀ y ∈ Set.Icc r B, x < y → F y - F x ≤ L * (y - x)) {tol : ℝ} : ∀ x y c : ℝ, x ∈ Set.Icc r B → y ∈ Set.Icc r B → x < y → r ≤ c → c ≤ x → (x - c) * (F y - F x) = F x * (y - x) → x - c ≤ tol → r ≤ c ∧ c ≤ B ∧ F c ≤ L * tol := by
  intro x y c hx hy hxy hrc hcx h2 hst
  refine ⟨hrc, hcx.trans hx.2, ?_⟩
  have h3 := hL x hx y hy hxy
  have h4 : (x - c) * (F y - F x) ≤ (x - c) * (L * (y - x)) := mul_le_mul_of_nonneg_left h3 (by linarith)
  have hl0 : 0 ≤ L := by
    have := hlt x hx y hy hxy
    by_contra hn
    push Not at hn
    nlinarith
  have h5 : F x ≤ L * (x - c) := by
    have : F x * (y - x) ≤ L * (x - c) * (y - x) := by rw [← h2]; linarith
    exact le_of_mul_le_mul_right this (by linarith)
  have h6 : F c ≤ F x := by
    rcases hcx.eq_or_lt with e | e
    · rw [e]
    · exact (hlt c ⟨hrc, hcx.trans hx.2⟩ x hx e).le
  have : L * (x - c) ≤ L * tol := mul_le_mul_of_nonneg_left hst hl0
  linarith

/-- the loop on `[r, B]` -/
theorem right_loop {o : ℝ} (hor : o ≤ r) (h0 : F r = 0) {f : ℝ → Py ℝ} (hf : ∀ x ∈ Set.Icc r B, f x = .ok (F x)) (hlt : ∀ x ∈ Set.Icc r B, ∀ y ∈ Set.Icc r B, x < y → F x < F y)
    (conv : ∀ x ∈ Set.Icc r B, ∀ y ∈ Set.Icc r B, x < y → F x * (y - x) ≤ (F y - F x) * (x - r))
    (el : ∀ x ∈ Set.Icc r B, ∀ y ∈ Set.Icc r B, x < y → (F y - F x) * ((x - o) ^ 2 - (r - o) ^ 2) ≤ F x * ((y - o) ^ 2 - (x - o) ^ 2))
    {L : ℝ} (hL : ∀ x ∈ Set.Icc r B, ∀ y ∈ Set.Icc r B, x < y → F y - F x ≤ L * (y - x)) {tol : ℝ} (ht : 0 ≤ tol) :
    ∀ (n : ℕ) (x y : ℝ), x ∈ Set.Icc r B → y ∈ Set.Icc r B → x < y → y - r ≤ 2 ^ (n + 1) * tol →
      ∃ m, secantLoop tol 0 f (2 * n + 2) y x (F y) (F x) = .ok m ∧ r ≤ m ∧ m ≤ B ∧ F m ≤ L * tol := by
  have turn := right_turn hor h0 hlt conv el
  have stop := right_stop hlt hL (tol := tol)
  -- two turns
  have two : ∀ (k : ℕ) (x y : ℝ), x ∈ Set.Icc r B → y ∈ Set.Icc r B → x < y →
      (∃ m, secantLoop tol 0 f (k + 1) y x (F y) (F x) = .ok m ∧ r ≤ m ∧ m ≤ B ∧ F m ≤ L * tol) ∨
      ∃ c, r ≤ c ∧ c < x ∧ c - r ≤ (y - r) / 2 ∧ secantLoop tol 0 f (k + 1) y x (F y) (F x) = secantLoop tol 0 f k x c (F x) (F c) := by
    intro k x y hx hy hxy
    obtain ⟨c, hc, c1, c2, c3, c4, c5⟩ := turn x y hx hy hxy
    by_cases hst : x - c ≤ tol
    · left
      refine ⟨c, ?_, stop x y c hx hy hxy c1 c2 c5 hst⟩
      rw [loop_succ (hlt x hx y hy hxy).ne, ← hc, if_pos (by rw [zero_mul, add_zero, abs_sub_comm, abs_of_nonneg (by linarith)]; exact hst)]
    · right
      have hxr : r < x := by
        rcases hx.1.eq_or_lt with e | e
        · exfalso; apply hst; linarith
        · exact e
      refine ⟨c, c1, c4 hxr, c3, ?_⟩
      rw [loop_succ (hlt x hx y hy hxy).ne, ← hc, if_neg (by rw [zero_mul, add_zero, abs_sub_comm, abs_of_nonneg (by linarith)]; exact hst),
        hf c ⟨c1, c2.trans hx.2⟩, Py.ok_bind]
  intro n
  induction n with
  | zero =>
    intro x y hx hy hxy hn
    rcases two 1 x y hx hy hxy with h | ⟨c, c1, c2, c3, c4⟩
    · exact h
    · rw [show 2 * 0 + 2 = 1 + 1 from rfl, c4]
      have hcm : c ∈ Set.Icc r B := ⟨c1, c2.le.trans hx.2⟩
      obtain ⟨c', hc', d1, d2, d3, d4, d5⟩ := turn c x hcm hx c2
      have hst : c - c' ≤ tol := by norm_num at hn; linarith
      refine ⟨c', ?_, stop c x c' hcm hx c2 d1 d2 d5 hst⟩
      rw [loop_succ (hlt c hcm x hx c2).ne, ← hc', if_pos (by rw [zero_mul, add_zero, abs_sub_comm, abs_of_nonneg (by linarith)]; exact hst)]
  | succ n ih =>
    intro x y hx hy hxy hn
    rcases two (2 * n + 3) x y hx hy hxy with h | ⟨c, c1, c2, c3, c4⟩
    · exact h
    · have hcm : c ∈ Set.Icc r B := ⟨c1, c2.le.trans hx.2⟩
      rw [show 2 * (n + 1) + 2 = 2 * n + 3 + 1 by ring, c4]
      rcases two (2 * n + 2) c x hcm hx c2 with h | ⟨b, b1, b2, b3, b4⟩
      · exact h
      · have hbm : b ∈ Set.Icc r B := ⟨b1, b2.le.trans hcm.2⟩
        rw [b4]
        refine ih b c hbm hcm b2 ?_
        rw [pow_succ] at hn
        linarith

end Aerokit.ScipyNewton
