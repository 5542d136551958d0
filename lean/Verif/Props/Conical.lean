import Verif.Lemmas.Oblique
import Verif.Lemmas.DevMax
import Mathlib.Analysis.Real.Pi.Bounds

/-! # Property C80 : conical shock iteration -/

namespace Aerokit.Props
open ShockWave Ode

/-- states (angle `φ`, flow angle and Mach number) reached by accepted Runge–Kutta–Fehlberg steps of the conical flow equations from a
starting state: each step has an arbitrary size, succeeds and has an estimated error of at most `tol` -/
inductive ConicalReach (gamma tol : ℝ) : ℝ → (Fin 2 → ℝ) → ℝ → (Fin 2 → ℝ) → Prop
  | refl (φ y) : ConicalReach gamma tol φ y φ y
  | step {φ0 y0 φ y h dy err} : ConicalReach gamma tol φ0 y0 φ y → rkf45 (conical_rhs gamma) φ y h = .ok (dy, err) → err ≤ tol →
      ConicalReach gamma tol φ0 y0 (φ + h) (y + dy)

/-- one pass of the loop: the state stays reachable, and if the new `conv` is within the tolerance then so is the gap of the new state -/
theorem conical_step_spec {gamma tol φ0 : ℝ} {y0 : Fin 2 → ℝ} {s s' : ConicalState} (h : conical_step gamma tol s = .ok s')
    (hr : ConicalReach gamma tol φ0 y0 s.phi s.thma) (hc : tol ≤ |s.conv|) :
    ConicalReach gamma tol φ0 y0 s'.phi s'.thma ∧ (|s'.conv| < tol → |s'.thma 0 - s'.phi| < tol) := by
  unfold conical_step at h
  cases e : rkf45 (conical_rhs gamma) s.phi s.thma s.h with
  | error e' => rw [e] at h; cases h
  | ok p =>
    obtain ⟨dy, err⟩ := p
    rw [e, Py.ok_bind] at h
    simp only [] at h
    by_cases herr : err ≤ tol
    · rw [if_pos herr] at h
      cases e1 : Py.div (s.thma 0 - s.phi) (s.h - dy 0) with
      | error e' => rw [e1] at h; cases h
      | ok q =>
        rw [e1, Py.ok_bind] at h
        by_cases hq : q < 1
        · rw [if_pos hq] at h
          cases e2 : Py.div (s.h * (s.thma 0 - s.phi)) (s.h - dy 0) with
          | error e' => rw [e2] at h; cases h
          | ok h' =>
            rw [e2, Py.ok_bind] at h
            cases h
            exact ⟨hr, fun h => h⟩
        · rw [if_neg hq] at h
          cases h
          refine ⟨ConicalReach.step hr e herr, fun hlt => ?_⟩
          have hq' : 1 ≤ q := not_lt.1 hq
          unfold Py.div at e1
          split_ifs at e1 with h0
          cases e1
          show |(s.thma + dy) 0 - (s.phi + s.h)| < tol
          have hlt' : |s.thma 0 - s.phi| < tol := hlt
          have e3 : (s.thma + dy) 0 - (s.phi + s.h) = (s.thma 0 - s.phi) - (s.h - dy 0) := by simp only [Pi.add_apply]; ring
          rw [e3]
          generalize s.thma 0 - s.phi = c at *
          generalize s.h - dy 0 = g at *
          rcases lt_or_gt_of_ne h0 with hg | hg
          · have : c ≤ g := by rw [le_div_iff_of_neg hg] at hq'; linarith
            rw [abs_of_nonpos (by linarith)] at hlt' ⊢
            linarith
          · have : g ≤ c := by rw [le_div_iff₀ hg] at hq'; linarith
            rw [abs_of_nonneg (by linarith)] at hlt' ⊢
            linarith
    · rw [if_neg herr] at h
      cases e1 : Py.div tol err with
      | error e' => rw [e1] at h; cases h
      | ok q =>
        rw [e1, Py.ok_bind] at h
        cases e2 : Py.pow q 0.2 with
        | error e' => rw [e2] at h; cases h
        | ok w =>
          rw [e2, Py.ok_bind] at h
          cases h
          exact ⟨hr, fun h' => absurd hc (not_le.2 h')⟩

theorem conical_loop_spec {gamma tol φ0 : ℝ} {y0 : Fin 2 → ℝ} : ∀ (fuel : ℕ) (s : ConicalState) (d : ℝ),
    conical_loop gamma tol fuel s = .ok d → ConicalReach gamma tol φ0 y0 s.phi s.thma → (|s.conv| < tol → |s.thma 0 - s.phi| < tol) →
    ∃ φ y, ConicalReach gamma tol φ0 y0 φ y ∧ |y 0 - φ| < tol ∧ d = (y 0 + φ) / 2
  | fuel, s, d, h, hr, hc => by
    unfold conical_loop at h
    split_ifs at h with hw
    · cases fuel with
      | zero => cases h
      | succ fuel =>
        simp only at h
        cases e : conical_step gamma tol s with
        | error e' => rw [e] at h; cases h
        | ok s' =>
          rw [e, Py.ok_bind] at h
          obtain ⟨h1, h2⟩ := conical_step_spec e hr hw
          exact conical_loop_spec fuel s' d h h1 h2
    · cases h
      exact ⟨s.phi, s.thma, hr, hc (not_le.1 hw), by ring⟩

/-- C80.  For all `Mach`, `sigma`, `gamma`, `tol ≤ |sigma|` and any number of passes: when `conical_deflection_Mach_sigma` returns, the value is the
mean of the flow angle and of the position of a state reached, by accepted integration steps, from the state behind the oblique shock, at which
flow angle and position differ by less than `tol`; so the result is within `tol/2` of both. -/
theorem C80_conical (fuel : ℕ) (Mach sigma gamma tol d : ℝ) (htol : tol ≤ |sigma|)
    (h : conical_deflection_Mach_sigma fuel Mach sigma gamma tol = .ok d) :
    ∃ th mn ma φ y, deflection_Mach_sigma Mach sigma gamma = .ok th ∧ downstream_Mn (Mach * degree.sin sigma) gamma = .ok mn ∧
      ma * degree.sin (sigma - th) = mn ∧ ConicalReach gamma tol sigma ![th, ma] φ y ∧
      |y 0 - φ| < tol ∧ d = (y 0 + φ) / 2 ∧ |d - φ| < tol / 2 ∧ |d - y 0| < tol / 2 := by
  unfold conical_deflection_Mach_sigma at h
  cases e1 : deflection_Mach_sigma Mach sigma gamma with
  | error e' => rw [e1] at h; cases h
  | ok th =>
    rw [e1, Py.ok_bind] at h
    cases e2 : downstream_Mn (Mach * degree.sin sigma) gamma with
    | error e' => rw [e2] at h; cases h
    | ok mn =>
      rw [e2, Py.ok_bind] at h
      cases e3 : Py.div mn (degree.sin (sigma - th)) with
      | error e' => rw [e3] at h; cases h
      | ok ma =>
        rw [e3, Py.ok_bind] at h
        unfold Py.div at e3
        split_ifs at e3 with h0
        cases e3
        obtain ⟨φ, y, hr, hlt, hd⟩ := conical_loop_spec (φ0 := sigma) (y0 := ![th, mn / degree.sin (sigma - th)]) fuel _ d h
          (ConicalReach.refl _ _) (fun h' => absurd htol (not_le.2 h'))
        refine ⟨th, mn, _, φ, y, rfl, rfl, div_mul_cancel₀ _ h0, hr, hlt, hd, ?_, ?_⟩
        · rw [hd, show (y 0 + φ) / 2 - φ = (y 0 - φ) / 2 by ring, abs_div, abs_two]; linarith
        · rw [hd, show (y 0 + φ) / 2 - y 0 = -((y 0 - φ) / 2) by ring, abs_neg, abs_div, abs_two]; linarith

/-- C80: the result does not depend on the number of passes allowed: once the loop has returned a value, it returns the same value with any larger
number of passes. -/
theorem C80_fuel (fuel more : ℕ) (Mach sigma gamma tol d : ℝ) (h : conical_deflection_Mach_sigma fuel Mach sigma gamma tol = .ok d) :
    conical_deflection_Mach_sigma (fuel + more) Mach sigma gamma tol = .ok d := by
  have loop : ∀ (fuel : ℕ) (s : ConicalState), conical_loop gamma tol fuel s = .ok d → conical_loop gamma tol (fuel + more) s = .ok d := by
    intro fuel
    induction fuel with
    | zero =>
      intro s hs
      unfold conical_loop at hs ⊢
      split_ifs at hs with hw
      rw [if_neg hw]
      exact hs
    | succ fuel ih =>
      intro s hs
      rw [Nat.add_right_comm]
      unfold conical_loop at hs ⊢
      split_ifs at hs ⊢ with hw
      · simp only at hs ⊢
        cases e : conical_step gamma tol s with
        | error e' => rw [e] at hs; cases hs
        | ok s' =>
          rw [e, Py.ok_bind] at hs
          rw [Py.ok_bind]
          exact ih s' hs
      · exact hs
  unfold conical_deflection_Mach_sigma at h ⊢
  cases e1 : deflection_Mach_sigma Mach sigma gamma with
  | error e' => rw [e1] at h; cases h
  | ok th =>
    rw [e1, Py.ok_bind] at h
    rw [Py.ok_bind]
    cases e2 : downstream_Mn (Mach * degree.sin sigma) gamma with
    | error e' => rw [e2] at h; cases h
    | ok mn =>
      rw [e2, Py.ok_bind] at h
      rw [Py.ok_bind]
      cases e3 : Py.div mn (degree.sin (sigma - th)) with
      | error e' => rw [e3] at h; cases h
      | ok ma =>
        rw [e3, Py.ok_bind] at h
        rw [Py.ok_bind]
        exact loop fuel _ h

/-- C80: `conical_Mach_walldeflection_sigma` raises `AssertionError` whenever the shock angle is not larger than the wall deflection. -/
theorem C80_assert (fuel : ℕ) (deflection sigma gamma : ℝ) (h : sigma ≤ deflection) :
    conical_Mach_walldeflection_sigma fuel deflection sigma gamma = .error .assertionError := by
  unfold conical_Mach_walldeflection_sigma
  rw [if_neg (not_lt.2 h)]

/-! ### a case where the iteration returns -/

section
open Real

theorem conical_rhs_bound {φ : ℝ} {y : Fin 2 → ℝ} (h1 : 79 ≤ φ) (h2 : φ ≤ 91) (h3 : |y 0| ≤ 1) (h4 : |y 1| ≤ 4 / 5) :
    ∃ f, conical_rhs 1.4 φ y = .ok f ∧ |f 0| ≤ 0.011 ∧ |f 1| ≤ 0.001 := by
  have hp1 := pi_gt_d2
  have hp2 := pi_lt_d2
  have hr : ∀ x, Py.radians x = x * π / 180 := fun x => by unfold Py.radians; ring
  have hsth : |degree.sin (y 0)| ≤ 0.0175 := by
    unfold degree.sin
    refine (abs_sin_le_abs (x := Py.radians (y 0))).trans ?_
    rw [hr, abs_div, abs_mul, abs_of_pos pi_pos, abs_of_pos (by norm_num : (0:ℝ) < 180), div_le_iff₀ (by norm_num)]
    nlinarith [abs_nonneg (y 0)]
  have hcos : |degree.cos (φ - y 0)| ≤ 0.21 := by
    unfold degree.cos
    rw [← sin_pi_div_two_sub]
    refine (abs_sin_le_abs).trans ?_
    rw [hr, show π / 2 - (φ - y 0) * π / 180 = (90 - φ + y 0) * (π / 180) by ring, abs_mul, abs_of_pos (by positivity : 0 < π / 180)]
    have : |90 - φ + y 0| ≤ 12 := by rw [abs_le] at h3 ⊢; constructor <;> linarith [h3.1, h3.2]
    nlinarith [abs_nonneg (90 - φ + y 0)]
  have hsin : 0.98 ≤ degree.sin φ := by
    unfold degree.sin
    rw [← cos_pi_div_two_sub]
    refine le_trans ?_ (one_sub_sq_div_two_le_cos)
    rw [hr, show π / 2 - φ * π / 180 = (90 - φ) * (π / 180) by ring]
    have a1 : |(90 - φ) * (π / 180)| ≤ 0.1926 := by
      rw [abs_mul, abs_of_pos (by positivity : 0 < π / 180)]
      have : |90 - φ| ≤ 11 := by rw [abs_le]; constructor <;> linarith
      nlinarith [abs_nonneg (90 - φ)]
    have := sq_le_sq' (neg_le_of_abs_le a1) (le_of_abs_le a1)
    norm_num at this ⊢
    linarith
  have hs1 : |degree.sin (φ - y 0)| ≤ 1 := abs_sin_le_one _
  have hk : 0.36 ≤ 1.0 - (y 1 * degree.sin (φ - y 0)) ^ 2 := by
    have : |y 1 * degree.sin (φ - y 0)| ≤ 4 / 5 := by
      rw [abs_mul]; nlinarith [abs_nonneg (y 1), abs_nonneg (degree.sin (φ - y 0))]
    have := sq_le_sq' (neg_le_of_abs_le this) (le_of_abs_le this)
    norm_num at this ⊢
    linarith
  obtain ⟨k, hkk⟩ : ∃ k, k = 1.0 - (y 1 * degree.sin (φ - y 0)) ^ 2 := ⟨_, rfl⟩
  rw [← hkk] at hk
  have hk0 : 0 < k := by norm_num at hk; linarith
  have hs0 : 0 < degree.sin φ := by norm_num at hsin; linarith
  have hden : 0.3528 ≤ degree.sin φ * k := by
    have := mul_le_mul hsin hk (by norm_num) hs0.le
    norm_num at this ⊢
    linarith
  refine ⟨![-degree.sin (y 0) * degree.cos (φ - y 0) / degree.sin φ / k,
    π / 180.0 * degree.sin (y 0) * degree.sin (φ - y 0) / degree.sin φ / k * y 1 * (1.0 + 0.5 * (1.4 - 1) * y 1 * y 1)], ?_, ?_, ?_⟩
  · unfold conical_rhs
    simp only []
    rw [← hkk, Py.div_ok hs0.ne', Py.ok_bind, Py.div_ok hk0.ne', Py.ok_bind, Py.div_ok hs0.ne', Py.ok_bind, Py.div_ok hk0.ne', Py.ok_bind]
    rfl
  · show |-degree.sin (y 0) * degree.cos (φ - y 0) / degree.sin φ / k| ≤ _
    rw [div_div, abs_div, abs_mul, abs_neg, abs_of_pos (mul_pos hs0 hk0), div_le_iff₀ (mul_pos hs0 hk0)]
    have := mul_le_mul hsth hcos (abs_nonneg _) (by norm_num)
    norm_num at this hden ⊢
    linarith
  · show |π / 180.0 * degree.sin (y 0) * degree.sin (φ - y 0) / degree.sin φ / k * y 1 * (1.0 + 0.5 * (1.4 - 1) * y 1 * y 1)| ≤ _
    have hy : y 1 * y 1 ≤ 16 / 25 := by nlinarith [abs_mul_abs_self (y 1), abs_nonneg (y 1)]
    have e1 : |1.0 + 0.5 * (1.4 - 1) * y 1 * y 1| ≤ 1.2 := by
      rw [abs_of_nonneg (by nlinarith [mul_self_nonneg (y 1)])]
      norm_num
      linarith
    have e2 : |π / 180.0 * degree.sin (y 0) * degree.sin (φ - y 0) / degree.sin φ / k| ≤ 0.001 := by
      rw [div_div, abs_div, abs_mul, abs_mul, abs_of_pos (mul_pos hs0 hk0), div_le_iff₀ (mul_pos hs0 hk0), abs_of_pos (by positivity : 0 < π / 180.0)]
      have b1 : π / 180.0 * |degree.sin (y 0)| ≤ 0.00031 := by
        have : π / 180.0 ≤ 0.0176 := by norm_num; linarith
        have := mul_le_mul this hsth (abs_nonneg _) (by norm_num)
        norm_num at this ⊢
        linarith
      have b2 := mul_le_mul b1 hs1 (abs_nonneg _) (by norm_num)
      norm_num at b2 hden ⊢
      linarith
    rw [abs_mul, abs_mul]
    have c1 := mul_le_mul e2 h4 (abs_nonneg _) (by norm_num)
    have c2 := mul_le_mul c1 e1 (abs_nonneg _) (by norm_num)
    norm_num at c2 ⊢
    linarith

theorem conical_rkf45 {σ : ℝ} {y : Fin 2 → ℝ} (h1 : 89 ≤ σ) (h2 : σ ≤ 90) (h3 : |y 0| ≤ 0.04) (h4 : |y 1| ≤ 0.65) :
    ∃ dy err, rkf45 (conical_rhs 1.4) σ y (-σ / 10.0) = .ok (dy, err) ∧ |dy 0| ≤ 1 ∧ err ≤ 1 := by
  obtain ⟨h, hh⟩ : ∃ h, h = -σ / 10.0 := ⟨_, rfl⟩
  have hh1 : -9 ≤ h := by rw [hh]; norm_num; linarith
  have hh2 : h ≤ -8.9 := by rw [hh]; norm_num; linarith
  rw [← hh]
  have stage : ∀ (φ : ℝ) (z : Fin 2 → ℝ), 79 ≤ φ → φ ≤ 91 → |z 0| ≤ 1 → |z 1| ≤ 4 / 5 →
      ∃ f, conical_rhs 1.4 φ z = .ok f ∧ (-0.099 ≤ (h • f) 0 ∧ (h • f) 0 ≤ 0.099) ∧ (-0.009 ≤ (h • f) 1 ∧ (h • f) 1 ≤ 0.009) := by
    intro φ z p1 p2 p3 p4
    obtain ⟨f, e, b0, b1⟩ := conical_rhs_bound p1 p2 p3 p4
    rw [abs_le] at b0 b1
    norm_num at b0 b1 hh2
    refine ⟨f, e, ?_, ?_⟩
    · simp only [Pi.smul_apply, smul_eq_mul]
      norm_num
      constructor <;> nlinarith
    · simp only [Pi.smul_apply, smul_eq_mul]
      norm_num
      constructor <;> nlinarith
  rw [abs_le] at h3 h4
  norm_num at h3 h4 hh2
  unfold rkf45
  obtain ⟨f0, e0, k00, k01⟩ := stage σ y (by linarith) (by linarith) (by rw [abs_le]; constructor <;> linarith) (by rw [abs_le]; constructor <;> linarith)
  rw [e0, Py.ok_bind]
  generalize h • f0 = K0 at *
  norm_num at k00 k01
  obtain ⟨f1, e1, k10, k11⟩ := stage (σ + 1.0 / 5 * h) (y + (1.0 / 5 : ℝ) • K0) (by norm_num; linarith) (by norm_num; linarith)
    (by simp only [Pi.add_apply, Pi.smul_apply, smul_eq_mul]; norm_num; rw [abs_le]; constructor <;> linarith)
    (by simp only [Pi.add_apply, Pi.smul_apply, smul_eq_mul]; norm_num; rw [abs_le]; constructor <;> linarith)
  simp only []
  rw [e1, Py.ok_bind]
  generalize h • f1 = K1 at *
  norm_num at k10 k11
  obtain ⟨f2, e2, k20, k21⟩ := stage (σ + 3.0 / 10 * h) (y + (3.0 / 40 : ℝ) • K0 + (9.0 / 40 : ℝ) • K1) (by norm_num; linarith) (by norm_num; linarith)
    (by simp only [Pi.add_apply, Pi.smul_apply, smul_eq_mul]; norm_num; rw [abs_le]; constructor <;> linarith)
    (by simp only [Pi.add_apply, Pi.smul_apply, smul_eq_mul]; norm_num; rw [abs_le]; constructor <;> linarith)
  rw [e2, Py.ok_bind]
  generalize h • f2 = K2 at *
  norm_num at k20 k21
  obtain ⟨f3, e3, k30, k31⟩ := stage (σ + 3.0 / 5 * h) (y + (3.0 / 10 : ℝ) • K0 - (9.0 / 10 : ℝ) • K1 + (6.0 / 5 : ℝ) • K2)
    (by norm_num; linarith) (by norm_num; linarith)
    (by simp only [Pi.add_apply, Pi.sub_apply, Pi.smul_apply, smul_eq_mul]; norm_num; rw [abs_le]; constructor <;> linarith)
    (by simp only [Pi.add_apply, Pi.sub_apply, Pi.smul_apply, smul_eq_mul]; norm_num; rw [abs_le]; constructor <;> linarith)
  rw [e3, Py.ok_bind]
  generalize h • f3 = K3 at *
  norm_num at k30 k31
  obtain ⟨f4, e4, k40, k41⟩ := stage (σ + h)
    (y - (11.0 / 54 : ℝ) • K0 + (5.0 / 2 : ℝ) • K1 - (70.0 / 27 : ℝ) • K2 + (35.0 / 27 : ℝ) • K3)
    (by linarith) (by linarith)
    (by simp only [Pi.add_apply, Pi.sub_apply, Pi.smul_apply, smul_eq_mul]; norm_num; rw [abs_le]; constructor <;> linarith)
    (by simp only [Pi.add_apply, Pi.sub_apply, Pi.smul_apply, smul_eq_mul]; norm_num; rw [abs_le]; constructor <;> linarith)
  rw [e4, Py.ok_bind]
  generalize h • f4 = K4 at *
  norm_num at k40 k41
  obtain ⟨f5, e5, k50, k51⟩ := stage (σ + 7.0 / 8 * h)
    (y + (1631.0 / 55296 : ℝ) • K0 + (175.0 / 512 : ℝ) • K1 + (575.0 / 13824 : ℝ) • K2
      + (44275.0 / 110592 : ℝ) • K3 + (253.0 / 4096 : ℝ) • K4)
    (by norm_num; linarith) (by norm_num; linarith)
    (by simp only [Pi.add_apply, Pi.sub_apply, Pi.smul_apply, smul_eq_mul]; norm_num; rw [abs_le]; constructor <;> linarith)
    (by simp only [Pi.add_apply, Pi.sub_apply, Pi.smul_apply, smul_eq_mul]; norm_num; rw [abs_le]; constructor <;> linarith)
  rw [e5, Py.ok_bind]
  generalize h • f5 = K5 at *
  norm_num at k50 k51
  rw [Py.div_ok (by norm_num), Py.ok_bind, Py.sqrt_ok (by positivity), Py.ok_bind]
  refine ⟨_, _, rfl, ?_, ?_⟩
  · simp only [Pi.add_apply, Pi.smul_apply, smul_eq_mul]
    norm_num
    rw [abs_le]
    constructor <;> linarith
  · refine Real.sqrt_le_one.2 ?_
    rw [Fin.sum_univ_two]
    have s : ∀ x : ℝ, |x| ≤ 1 → x ^ 2 ≤ 1 := fun x hx => by
      have := sq_le_sq' (neg_le_of_abs_le hx) (le_of_abs_le hx)
      linarith
    rw [div_le_one (by norm_num)]
    push_cast
    refine (add_le_add (s _ ?_) (s _ ?_)).trans (by norm_num)
    · simp only [Pi.add_apply, Pi.smul_apply, smul_eq_mul]
      norm_num
      rw [abs_le]
      constructor <;> linarith
    · simp only [Pi.add_apply, Pi.smul_apply, smul_eq_mul]
      norm_num
      rw [abs_le]
      constructor <;> linarith

/-- a shock at Mach 2, almost normal (`tan σ = 10000`): with tolerance `σ` the iteration returns after one pass; this case meets the
hypotheses of C80 -/
theorem conical_returns : ∃ σ d : ℝ, 89 ≤ σ ∧ σ < 90 ∧ conical_deflection_Mach_sigma 1 2 σ 1.4 σ = .ok d := by
  have hp1 := pi_gt_d2
  have hp2 := pi_lt_d2
  have hg : (1:ℝ) < 1.4 := by norm_num
  obtain ⟨s, hs⟩ : ∃ s, s = arctan 10000 := ⟨_, rfl⟩
  have atan_small : ∀ x : ℝ, 0 < x → arctan x ≤ x := fun x hx => by
    have := Real.le_tan (arctan_nonneg.2 hx.le) (arctan_lt_pi_div_two x)
    rwa [tan_arctan] at this
  have near : ∀ x : ℝ, 0 < x → π / 2 - x⁻¹ ≤ arctan x := fun x hx => by
    have h1 := arctan_inv_of_pos hx
    have h2 := atan_small x⁻¹ (inv_pos.2 hx)
    linarith
  have hs2 : s < π / 2 := hs ▸ arctan_lt_pi_div_two _
  have hs1 : π / 2 - 0.0001 ≤ s := by have := near 10000 (by norm_num); rw [hs]; norm_num at this ⊢; linarith
  have hs0 : 0 < s := by norm_num at hs1; linarith
  have hcs : 0 < cos s := cos_pos_of_mem_Ioo ⟨by linarith, hs2⟩
  have sinb : ∀ x, π / 2 - 0.01 ≤ x → x ≤ π / 2 → 0.999 ≤ sin x := by
    intro x h1 h2
    rw [← cos_pi_div_two_sub]
    refine le_trans ?_ one_sub_sq_div_two_le_cos
    norm_num at h1
    nlinarith
  have hss := sinb s (by norm_num at hs1 ⊢; linarith) hs2.le
  have hss1 := sin_le_one s
  norm_num at hss
  obtain ⟨M, hM⟩ : ∃ M, M = 2 * sin s := ⟨_, rfl⟩
  have hM1 : 1.99 ≤ M := by rw [hM]; norm_num; linarith
  have hM2 : M ≤ 2 := by rw [hM]; linarith
  norm_num at hM1
  have hMM : 3.96 ≤ M ^ 2 := by norm_num; nlinarith
  have hMM2 : M ^ 2 ≤ 4 := by nlinarith
  norm_num at hMM
  have hr1 : 1 < rhr M 1.4 := by
    unfold rhr
    rw [lt_div_iff₀ (by nlinarith)]
    norm_num; nlinarith
  have hr6 : rhr M 1.4 < 6 := by
    unfold rhr
    rw [div_lt_iff₀ (by nlinarith)]
    norm_num; nlinarith
  obtain ⟨b, hb⟩ : ∃ b, b = arctan (10000 / rhr M 1.4) := ⟨_, rfl⟩
  have hb1 : π / 2 - 0.0006 ≤ b := by
    have h1 := near (10000 / rhr M 1.4) (by positivity)
    rw [inv_div] at h1
    rw [hb]
    have : rhr M 1.4 / 10000 ≤ 0.0006 := by norm_num; linarith
    linarith
  have hb2 : b < π / 2 := hb ▸ arctan_lt_pi_div_two _
  have hbs : b < s := by
    rw [hb, hs]
    refine arctan_strictMono ?_
    rw [div_lt_iff₀ (by linarith)]
    nlinarith
  have hdeg : ∀ x : ℝ, Py.degrees x = x * 180 / π := fun x => by unfold Py.degrees; ring
  have hσ1 : 89 ≤ Py.degrees s := by rw [hdeg, le_div_iff₀ pi_pos]; norm_num at hs1; nlinarith
  have hσ2 : Py.degrees s < 90 := by rw [hdeg, div_lt_iff₀ pi_pos]; nlinarith
  have hth1 : 0 < Py.degrees s - Py.degrees b := by rw [← Py.degrees_sub, hdeg]; exact div_pos (by linarith) pi_pos
  have hth2 : Py.degrees s - Py.degrees b ≤ 0.04 := by
    rw [← Py.degrees_sub, hdeg, div_le_iff₀ pi_pos]
    norm_num at hb1 ⊢
    nlinarith
  have hdefl : deflection_Mach_sigma 2 (Py.degrees s) 1.4 = .ok (Py.degrees s - Py.degrees b) := by
    unfold deflection_Mach_sigma
    simp only []
    rw [Py.radians_degrees, ← hM, Py.tan_ok hcs.ne', Py.ok_bind, Rho_ratio_ok hg, Py.ok_bind, Py.arctan2_pos _ (by linarith), hs, tan_arctan, ← hb]
    rfl
  have hdown : downstream_Mn (2 * degree.sin (Py.degrees s)) 1.4 = .ok (Real.sqrt (mn2 M 1.4)) := by
    unfold degree.sin
    rw [Py.radians_degrees, ← hM, downstream_Mn_ok hg (dom_of_one_le hg (by linarith))]
  have hsb := sinb b (by norm_num at hb1 ⊢; linarith) hb2.le
  norm_num at hsb
  have hsinb : degree.sin (Py.degrees s - (Py.degrees s - Py.degrees b)) = sin b := by
    unfold degree.sin
    rw [sub_sub_cancel, Py.radians_degrees]
  have hmn0 := Real.sqrt_nonneg (mn2 M 1.4)
  have hmn : Real.sqrt (mn2 M 1.4) ≤ 0.6 := by
    rw [Real.sqrt_le_left (by norm_num)]
    unfold mn2
    rw [div_le_iff₀ (by norm_num; nlinarith)]
    norm_num; nlinarith
  have hma : |Real.sqrt (mn2 M 1.4) / sin b| ≤ 0.65 := by
    rw [abs_of_nonneg (div_nonneg hmn0 (by linarith)), div_le_iff₀ (by linarith)]
    norm_num at hmn ⊢
    linarith
  obtain ⟨dy, err, hk, hdy, herr⟩ := conical_rkf45 (σ := Py.degrees s) (y := ![Py.degrees s - Py.degrees b, Real.sqrt (mn2 M 1.4) / sin b])
    hσ1 hσ2.le (by show |Py.degrees s - Py.degrees b| ≤ _; rw [abs_of_pos hth1]; exact hth2) hma
  have hstep : ∃ s', conical_step 1.4 (Py.degrees s) ⟨Py.degrees s, ![Py.degrees s - Py.degrees b, Real.sqrt (mn2 M 1.4) / sin b],
      -Py.degrees s / 10.0, Py.degrees s⟩ = .ok s' ∧ |s'.conv| < Py.degrees s := by
    have hne : -Py.degrees s / 10.0 - dy 0 ≠ 0 := by
      rw [abs_le] at hdy
      norm_num
      intro h0
      linarith [hdy.1, hdy.2]
    have hconv : |Py.degrees s - Py.degrees b - Py.degrees s| < Py.degrees s := by
      rw [abs_lt]
      norm_num at hth2
      constructor <;> linarith
    unfold conical_step
    simp only []
    rw [hk, Py.ok_bind]
    simp only [if_pos (show err ≤ Py.degrees s by linarith)]
    rw [Py.div_ok hne, Py.ok_bind]
    split_ifs with hq
    · rw [Py.div_ok hne, Py.ok_bind]
      exact ⟨_, rfl, hconv⟩
    · exact ⟨_, rfl, hconv⟩
  obtain ⟨s', h1, h2⟩ := hstep
  refine ⟨Py.degrees s, 0.5 * (s'.thma 0 + s'.phi), hσ1, hσ2, ?_⟩
  unfold conical_deflection_Mach_sigma
  rw [hdefl, Py.ok_bind, hdown, Py.ok_bind, hsinb, Py.div_ok (by linarith), Py.ok_bind]
  simp only []
  unfold conical_loop
  rw [if_pos (le_abs_self _)]
  simp only []
  rw [h1, Py.ok_bind]
  unfold conical_loop
  rw [if_neg (not_le.2 h2)]

/-- non-vacuity of C80 -/
example : ∃ (fuel : ℕ) (Mach sigma gamma tol d : ℝ), tol ≤ |sigma| ∧ conical_deflection_Mach_sigma fuel Mach sigma gamma tol = .ok d := by
  obtain ⟨σ, d, h1, h2, h3⟩ := conical_returns
  exact ⟨1, 2, σ, 1.4, σ, d, le_abs_self _, h3⟩

end

end Aerokit.Props
