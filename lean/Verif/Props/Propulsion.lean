import Verif.Model.Propulsion
import Verif.Lemmas.MassFlow
import Verif.Props.Solve

/-! # Property C78 : `aerokit/aero/Propulsion.py` -/

namespace Aerokit.Props
open Propulsion Isentropic MassFlow IterativeSolve

/-- `(1 + γM²) / (M √(1 + (γ-1)/2 M²))`, the impulse function up to a constant -/
noncomputable def imp (M γ : ℝ) : ℝ := (1 + γ * M ^ 2) / (M * Real.sqrt (1 + (γ - 1) / 2 * M ^ 2))

/-- the constant -/
noncomputable def impC (γ : ℝ) : ℝ := (2 / (γ + 1)) ^ ((γ + 1) / (2 * (γ - 1)))

/-- C78: closed form of the thrust function. -/
theorem C78_closed_form {M γ : ℝ} (h : 1 < γ) (hM : 0 < M) :
    ThrustFunction M γ = .ok (impC γ * imp M γ) := by
  have ht := tt_pos (M := M) h
  have hg1 : γ - 1 ≠ 0 := by linarith
  have hb : (0:ℝ) < 2 / (γ + 1) := by apply div_pos <;> linarith
  unfold ThrustFunction
  rw [Sigma_Mach_ok h hM.ne', PtPs_Mach_ok h]
  simp only [Py.ok_bind]
  rw [Py.div_ok (Real.rpow_pos_of_pos ht _).ne']
  simp only [Py.ok_bind, Py.pure_eq]
  congr 1
  unfold sig imp impC
  change _ = _ * ((1 + γ * M ^ 2) / (M * Real.sqrt (tt M γ)))
  rw [Real.mul_rpow hb.le ht.le]
  have e : tt M γ ^ ((γ + 1) / (2 * (γ - 1))) = tt M γ ^ (γ / (γ - 1)) / Real.sqrt (tt M γ) := by
    rw [Real.sqrt_eq_rpow, ← Real.rpow_sub ht]
    congr 1
    field_simp
    ring
  rw [e]
  have h1 := (Real.rpow_pos_of_pos ht (γ / (γ - 1))).ne'
  have h2 := (Real.sqrt_pos.2 ht).ne'
  norm_num
  field_simp

theorem imp_sq {M γ : ℝ} (h : 1 < γ) (hM : 0 < M) :
    imp M γ ^ 2 = 2 * (γ + 1) + (1 - M ^ 2) ^ 2 / (M ^ 2 * tt M γ) := by
  have ht := tt_pos (M := M) h
  unfold imp
  change ((1 + γ * M ^ 2) / (M * Real.sqrt (tt M γ))) ^ 2 = _
  rw [div_pow, mul_pow, Real.sq_sqrt ht.le]
  have : M ^ 2 * tt M γ ≠ 0 := by positivity
  field_simp
  unfold tt
  ring

theorem imp_pos {M γ : ℝ} (h : 1 < γ) (hM : 0 < M) : 0 < imp M γ := by
  have ht := tt_pos (M := M) h
  unfold imp
  change 0 < (1 + γ * M ^ 2) / (M * Real.sqrt (tt M γ))
  have := Real.sqrt_pos.2 ht
  positivity

theorem impC_pos {γ : ℝ} (h : 1 < γ) : 0 < impC γ := by
  unfold impC
  apply Real.rpow_pos_of_pos
  apply div_pos <;> linarith

theorem imp_lt {M N γ : ℝ} (h : 1 < γ) (hM : 0 < M) (hN : 0 < N)
    (hlt : (1 - M ^ 2) ^ 2 * (N ^ 2 * tt N γ) < (1 - N ^ 2) ^ 2 * (M ^ 2 * tt M γ)) : imp M γ < imp N γ := by
  have h1 := tt_pos (M := M) h
  have h2 := tt_pos (M := N) h
  refine lt_of_pow_lt_pow_left₀ 2 (imp_pos h hN).le ?_
  rw [imp_sq h hM, imp_sq h hN, add_lt_add_iff_left, div_lt_div_iff₀ (by positivity) (by positivity)]
  exact hlt

/-- C78: the minimum is reached at M = 1 only. -/
theorem C78_minimum {M γ : ℝ} (h : 1 < γ) (hM : 0 < M) (hne : M ≠ 1) :
    ∃ f f1, ThrustFunction M γ = .ok f ∧ ThrustFunction 1 γ = .ok f1 ∧ f1 < f := by
  refine ⟨_, _, C78_closed_form h hM, C78_closed_form h one_pos, ?_⟩
  refine mul_lt_mul_of_pos_left (imp_lt h one_pos hM ?_) (impC_pos h)
  have h1 : 0 < (1 - M ^ 2) ^ 2 := by
    apply pow_pos_of_ne
    intro hc
    have : (M - 1) * (M + 1) = 0 := by nlinarith
    rcases mul_eq_zero.1 this with hc | hc
    · exact hne (by linarith)
    · linarith
  have h2 := tt_pos (M := 1) h
  nlinarith
where
  pow_pos_of_ne {a : ℝ} (h : a ≠ 0) : 0 < a ^ 2 := by positivity

/-- C78: strictly decreasing on (0, 1], strictly increasing on [1, ∞): one Mach number per branch. -/
theorem C78_monotone {M N γ : ℝ} (h : 1 < γ) (hM : 0 < M) (hMN : M < N) :
    ∃ f g, ThrustFunction M γ = .ok f ∧ ThrustFunction N γ = .ok g ∧ (N ≤ 1 → g < f) ∧ (1 ≤ M → f < g) := by
  have hN : 0 < N := hM.trans hMN
  refine ⟨_, _, C78_closed_form h hM, C78_closed_form h hN, fun h1 => ?_, fun h1 => ?_⟩
  all_goals
    refine mul_lt_mul_of_pos_left (imp_lt h (by assumption) (by assumption) ?_) (impC_pos h)
    unfold tt
  · obtain ⟨a, ha⟩ : ∃ a, a = M ^ 2 := ⟨_, rfl⟩
    obtain ⟨b, hb⟩ : ∃ b, b = N ^ 2 := ⟨_, rfl⟩
    have hab : a < b := by rw [ha, hb]; nlinarith
    have ha0 : 0 < a := by rw [ha]; positivity
    have hb1 : b ≤ 1 := by rw [hb]; nlinarith
    rw [← ha, ← hb]
    obtain ⟨k, hk⟩ : ∃ k, k = (γ - 1) / 2 := ⟨_, rfl⟩
    have hk0 : 0 < k := by rw [hk]; linarith
    rw [← hk]
    have h1 : (1 - b) ^ 2 ≤ (1 - a) ^ 2 := by nlinarith
    have h2 : a * (1 + k * a) < b * (1 + k * b) := by nlinarith [mul_pos hk0 (mul_pos (sub_pos.2 hab) (by linarith : 0 < a + b))]
    have h3 : 0 < (1 - a) ^ 2 := by have : 0 < 1 - a := by linarith
                                    positivity
    have h4 : 0 < a * (1 + k * a) := by positivity
    nlinarith
  · obtain ⟨a, ha⟩ : ∃ a, a = M ^ 2 := ⟨_, rfl⟩
    obtain ⟨b, hb⟩ : ∃ b, b = N ^ 2 := ⟨_, rfl⟩
    have hab : a < b := by rw [ha, hb]; nlinarith
    have ha1 : 1 ≤ a := by rw [ha]; nlinarith
    rw [← ha, ← hb]
    obtain ⟨k, hk⟩ : ∃ k, k = (γ - 1) / 2 := ⟨_, rfl⟩
    have hk0 : 0 < k := by rw [hk]; linarith
    rw [← hk]
    -- (1-a)²/(a(1+ka)) increasing for a ≥ 1
    have key : (1 - b) ^ 2 * (a * (1 + k * a)) - (1 - a) ^ 2 * (b * (1 + k * b))
        = (b - a) * ((a * b - 1) + k * (2 * a * b - a - b)) := by ring
    have h5 : 0 < (a * b - 1) + k * (2 * a * b - a - b) := by
      have e1 : 0 < a * b - 1 := by nlinarith
      have e2 : 0 ≤ 2 * a * b - a - b := by nlinarith
      positivity
    have := mul_pos (sub_pos.2 hab) h5
    linarith

/-- started at an exact solution, the secant iteration returns it (whenever it is resolvable) -/
theorem secant_exact_start (f : ℝ → Py ℝ) (y y1 x : ℝ) (hx : 0.01 < |x|) (h0 : f x = .ok y)
    (h1 : f (x * 0.999) = .ok y1) (hne : y1 ≠ y) : secant_solve f y x = .ok x := by
  unfold secant_solve secant_run
  simp only [h0, Py.ok_bind]
  rw [show itmax - 1 = 16 + 1 + 1 + 1 from rfl]
  have hxp : 0 < |x| := lt_trans (by norm_num) hx
  have ha : |x * 0.999 - x| = 0.001 * |x| := by
    rw [show x * 0.999 - x = -(0.001 * x) by ring, abs_neg, abs_mul, abs_of_pos (by norm_num : (0:ℝ) < 0.001)]
  have c1 : |x * 0.999 - x| > max defaultTol (defaultTol * |x * 0.999|) := by
    rw [ha, abs_mul, abs_of_pos (by norm_num : (0:ℝ) < 0.999)]
    unfold defaultTol
    apply max_lt <;> norm_num at hx ⊢ <;> linarith
  have c2 : |x - x * 0.999| > max defaultTol (defaultTol * |x|) := by
    rw [abs_sub_comm, ha]
    unfold defaultTol
    apply max_lt <;> norm_num at hx ⊢ <;> linarith
  have hd : y1 - y ≠ 0 := sub_ne_zero.2 hne
  have hd' : y - y1 ≠ 0 := sub_ne_zero.2 (Ne.symm hne)
  rw [secantLoop, if_pos c1, h1]
  simp only [Py.ok_bind]
  rw [Py.div_ok hd]
  simp only [Py.ok_bind]
  have e1 : x * 0.999 + (x * 0.999 - x) / (y1 - y) * (y - y1) = x := by
    field_simp; ring
  rw [e1, secantLoop, if_pos c2, h0]
  simp only [Py.ok_bind]
  rw [Py.div_ok hd']
  simp only [Py.ok_bind, sub_self, mul_zero, add_zero]
  rw [secantLoop, if_neg]
  · rfl
  · rw [sub_self, abs_zero, not_lt]
    exact le_max_of_le_left (by unfold defaultTol; norm_num)

/-- C78: `Mach_ThrustFunction` recovers a Mach number it is started from (M > 0.01, away from the
double root around 1). -/
theorem C78_inverse_partial {M γ : ℝ} (h : 1 < γ) (hM : 0.01 < M) (hne : M ≤ 1 ∨ 1 ≤ M * 0.999) :
    ∃ f, ThrustFunction M γ = .ok f ∧ Mach_ThrustFunction f M γ = .ok M := by
  have hM0 : 0 < M := lt_trans (by norm_num) hM
  have hM1 : 0 < M * 0.999 := by positivity
  obtain ⟨f, g, hf, hg, h1, h2⟩ := C78_monotone h hM1 (show M * 0.999 < M by norm_num; linarith)
  refine ⟨g, hg, ?_⟩
  unfold Mach_ThrustFunction
  refine secant_exact_start _ g f M (by rwa [abs_of_pos hM0]) hg hf ?_
  rcases hne with hne | hne
  · exact (h1 hne).ne'
  · exact (h2 hne).ne

/-- C78 is false in full: with a small starting Mach number the returned value does not satisfy the
equation (`thrust` is never looked at). -/
theorem C78_inverse_false {γ : ℝ} (h : 1 < γ) (thrust : ℝ) :
    Mach_ThrustFunction thrust 0.01 γ = .ok 0.00999 := by
  unfold Mach_ThrustFunction secant_solve
  rw [C29_false (fun m => ThrustFunction m γ) _ thrust 0.01 (C78_closed_form h (by norm_num : (0:ℝ) < 0.01)) (by norm_num [abs_of_pos])]
  simp only [Py.ok_bind, Py.pure_eq]; norm_num

example : ∃ f, ThrustFunction 2 1.4 = .ok f ∧ Mach_ThrustFunction f 2 1.4 = .ok 2 :=
  C78_inverse_partial (by norm_num) (by norm_num) (.inr (by norm_num))

end Aerokit.Props
