import Verif.Spec.ConicalFlow
import Verif.Model.ShockWave

/-! # C90 : the right-hand side of the conical flow integration is the Taylor–Maccoll equation -/

namespace Aerokit.Props
open Spec ShockWave

theorem cf_t_pos {γ : ℝ} (hγ : 1 < γ) (M : ℝ) : 0 < 1 + (γ - 1) / 2 * M ^ 2 := by
  have : 0 ≤ (γ - 1) / 2 * M ^ 2 := mul_nonneg (by linarith) (sq_nonneg M)
  linarith

theorem cf_t_deriv (γ : ℝ) {M : ℝ → ℝ} {M' x : ℝ} (h : HasDerivAt M M' x) :
    HasDerivAt (fun x => 1 + (γ - 1) / 2 * M x ^ 2) ((γ - 1) * M x * M') x := by
  have := ((h.fun_pow 2).const_mul ((γ - 1) / 2)).const_add 1
  refine this.congr_deriv ?_
  push_cast; ring

theorem speed_deriv {γ : ℝ} (hγ : 1 < γ) {M : ℝ → ℝ} {M' x : ℝ} (h : HasDerivAt M M' x) :
    HasDerivAt (fun x => speed γ (M x))
      (M' / (1 + (γ - 1) / 2 * M x ^ 2) / √(1 + (γ - 1) / 2 * M x ^ 2)) x := by
  have ht := cf_t_pos hγ (M x)
  have hs := Real.sqrt_pos.2 ht
  have h3 := h.fun_div ((cf_t_deriv γ h).sqrt ht.ne') hs.ne'
  refine h3.congr_deriv ?_
  have e : √(1 + (γ - 1) / 2 * M x ^ 2) ^ 2 = 1 + (γ - 1) / 2 * M x ^ 2 := Real.sq_sqrt ht.le
  obtain ⟨s, hsd⟩ : ∃ s, s = √(1 + (γ - 1) / 2 * M x ^ 2) := ⟨_, rfl⟩
  rw [← hsd] at hs e ⊢
  rw [e, ← e]
  field_simp
  linear_combination (2 * M') * e

theorem density_deriv {γ : ℝ} (hγ : 1 < γ) {M : ℝ → ℝ} {M' x : ℝ} (h : HasDerivAt M M' x) :
    HasDerivAt (fun x => density γ (M x))
      (-(density γ (M x) * M x * M' / (1 + (γ - 1) / 2 * M x ^ 2))) x := by
  have ht := cf_t_pos hγ (M x)
  have hg : γ - 1 ≠ 0 := by linarith
  have h2 := (cf_t_deriv γ h).rpow_const (p := -1 / (γ - 1)) (Or.inl ht.ne')
  refine h2.congr_deriv ?_
  unfold density
  rw [Real.rpow_sub_one ht.ne']
  obtain ⟨r, hr⟩ : ∃ r, r = (1 + (γ - 1) / 2 * M x ^ 2) ^ (-1 / (γ - 1)) := ⟨_, rfl⟩
  rw [← hr]
  obtain ⟨t, htd⟩ : ∃ t, t = 1 + (γ - 1) / 2 * M x ^ 2 := ⟨_, rfl⟩
  rw [← htd] at ht ⊢
  field_simp

/-- the conservation laws in terms of the derivatives of the flow angle and of the Mach number -/
theorem conicalLaws_iff {γ : ℝ} (hγ : 1 < γ) {Θ M : ℝ → ℝ} {a b x : ℝ} (hΘ : HasDerivAt Θ a x) (hM : HasDerivAt M b x) :
    ConicalLaws γ Θ M x ↔
      (b / (1 + (γ - 1) / 2 * M x ^ 2) * Real.cos (x - Θ x) = -(M x * a * Real.sin (x - Θ x)) ∧
       (1 - M x ^ 2) * (b / (1 + (γ - 1) / 2 * M x ^ 2)) * Real.sin (x - Θ x) * Real.sin x
          - M x * a * Real.cos (x - Θ x) * Real.sin x = M x * Real.sin (Θ x)) := by
  have ht := cf_t_pos hγ (M x)
  have hs := Real.sqrt_pos.2 ht
  have hρ : 0 < density γ (M x) := Real.rpow_pos_of_pos ht _
  have hsp := speed_deriv hγ hM
  have hde := density_deriv hγ hM
  have hδ : HasDerivAt (fun x => x - Θ x) (1 - a) x := (hasDerivAt_id' x).sub hΘ
  have hr : HasDerivAt (radialV γ Θ M) _ x := hsp.fun_mul hδ.cos
  have hp : HasDerivAt (polarV γ Θ M) _ x := (hsp.fun_mul hδ.sin).fun_neg
  have hm : HasDerivAt (fun x => density γ (M x) * polarV γ Θ M x * Real.sin x) _ x :=
    (hde.fun_mul hp).fun_mul (Real.hasDerivAt_sin x)
  have hsin : Real.sin (Θ x) = Real.sin x * Real.cos (x - Θ x) - Real.cos x * Real.sin (x - Θ x) := by
    rw [← Real.sin_sub]; congr 1; ring
  rw [hsin]
  have key1 : HasDerivAt (radialV γ Θ M) (polarV γ Θ M x) x ↔
      b / (1 + (γ - 1) / 2 * M x ^ 2) * Real.cos (x - Θ x) = -(M x * a * Real.sin (x - Θ x)) := by
    constructor
    · intro h
      have e := hr.unique h
      unfold polarV speed at e
      obtain ⟨s, hsd⟩ : ∃ s, s = √(1 + (γ - 1) / 2 * M x ^ 2) := ⟨_, rfl⟩
      obtain ⟨w, hw⟩ : ∃ w, w = b / (1 + (γ - 1) / 2 * M x ^ 2) := ⟨_, rfl⟩
      rw [← hsd, ← hw] at e
      rw [← hsd] at hs
      rw [← hw]
      field_simp at e
      linear_combination e
    · intro h
      refine hr.congr_deriv ?_
      unfold polarV speed
      obtain ⟨s, hsd⟩ : ∃ s, s = √(1 + (γ - 1) / 2 * M x ^ 2) := ⟨_, rfl⟩
      obtain ⟨w, hw⟩ : ∃ w, w = b / (1 + (γ - 1) / 2 * M x ^ 2) := ⟨_, rfl⟩
      rw [← hw] at h
      rw [← hsd] at hs
      rw [← hsd, ← hw]
      field_simp
      linear_combination h
  have key2 : HasDerivAt (fun x => density γ (M x) * polarV γ Θ M x * Real.sin x)
      (-(2 * density γ (M x) * radialV γ Θ M x * Real.sin x)) x ↔
      (1 - M x ^ 2) * (b / (1 + (γ - 1) / 2 * M x ^ 2)) * Real.sin (x - Θ x) * Real.sin x
          - M x * a * Real.cos (x - Θ x) * Real.sin x
        = M x * (Real.sin x * Real.cos (x - Θ x) - Real.cos x * Real.sin (x - Θ x)) := by
    obtain ⟨s, hsd⟩ : ∃ s, s = √(1 + (γ - 1) / 2 * M x ^ 2) := ⟨_, rfl⟩
    obtain ⟨w, hw⟩ : ∃ w, w = b / (1 + (γ - 1) / 2 * M x ^ 2) := ⟨_, rfl⟩
    obtain ⟨ρ, hρd⟩ : ∃ ρ, ρ = density γ (M x) := ⟨_, rfl⟩
    have hb : density γ (M x) * M x * b / (1 + (γ - 1) / 2 * M x ^ 2) = ρ * M x * w := by
      rw [hw, hρd]; ring
    rw [hb] at hm
    have main : ∀ d, d = -(2 * density γ (M x) * radialV γ Θ M x * Real.sin x) →
       ((-(ρ * M x * w) * polarV γ Θ M x + density γ (M x) * -(b / (1 + (γ - 1) / 2 * M x ^ 2) / √(1 + (γ - 1) / 2 * M x ^ 2) * Real.sin (x - Θ x) + speed γ (M x) * (Real.cos (x - Θ x) * (1 - a)))) * Real.sin x + density γ (M x) * polarV γ Θ M x * Real.cos x = d ↔
        (1 - M x ^ 2) * (b / (1 + (γ - 1) / 2 * M x ^ 2)) * Real.sin (x - Θ x) * Real.sin x
          - M x * a * Real.cos (x - Θ x) * Real.sin x
        = M x * (Real.sin x * Real.cos (x - Θ x) - Real.cos x * Real.sin (x - Θ x))) := by
      rintro d rfl
      unfold radialV polarV speed
      rw [← hsd, ← hw, ← hρd]
      rw [← hsd] at hs
      rw [← hρd] at hρ
      constructor
      · intro e
        have e' := sub_eq_zero.2 e
        have : -(ρ / s) * ((1 - M x ^ 2) * w * Real.sin (x - Θ x) * Real.sin x
          - M x * a * Real.cos (x - Θ x) * Real.sin x
          - M x * (Real.sin x * Real.cos (x - Θ x) - Real.cos x * Real.sin (x - Θ x))) = 0 := by
          rw [← e']; field_simp; ring
        rcases mul_eq_zero.1 this with h | h
        · exact absurd h (neg_ne_zero.2 (div_pos hρ hs).ne')
        · linarith
      · intro h
        field_simp
        linear_combination (-1) * h
    exact ⟨fun h => (main _ rfl).1 (hm.unique h), fun h => hm.congr_deriv ((main _ rfl).2 h)⟩
  exact ⟨fun h => ⟨key1.1 h.1, key2.1 h.2⟩, fun h => ⟨key1.2 h.1, key2.2 h.2⟩⟩

theorem conical_solve {M a w c s sx st : ℝ} (hcs : s ^ 2 + c ^ 2 = 1) (hsx : sx ≠ 0) (hk : 1 - (M * s) ^ 2 ≠ 0) (hM : M ≠ 0) :
    (w * c = -(M * a * s) ∧ (1 - M ^ 2) * w * s * sx - M * a * c * sx = M * st) ↔
      (a = -st * c / sx / (1 - (M * s) ^ 2) ∧ w = st * s / sx / (1 - (M * s) ^ 2) * M) := by
  constructor
  · rintro ⟨h1, h2⟩
    constructor
    · rw [eq_div_iff hk, eq_div_iff hsx]
      apply mul_left_cancel₀ hM
      linear_combination (-c) * h2 + (1 - M ^ 2) * s * sx * h1 - M * a * sx * hcs
    · rw [mul_comm, ← mul_div_assoc, eq_div_iff hk, ← mul_div_assoc, eq_div_iff hsx]
      linear_combination s * h2 + c * sx * h1 - w * sx * hcs
  · rintro ⟨h1, h2⟩
    obtain ⟨k, hkd⟩ : ∃ k, k = 1 - (M * s) ^ 2 := ⟨_, rfl⟩
    rw [← hkd] at h1 h2 hk
    subst h1 h2
    constructor
    · field_simp
    · field_simp
      linear_combination st * hcs - st * hkd

theorem cf_radians_sub (a b : ℝ) : Py.radians (a - b) = Py.radians a - Py.radians b := by unfold Py.radians; ring

theorem cf_degrees_radians (a : ℝ) : Py.degrees (Py.radians a) = a := by
  unfold Py.radians Py.degrees; have := Real.pi_ne_zero; field_simp

theorem cf_degrees_deriv (x : ℝ) : HasDerivAt Py.degrees (180 / Real.pi) x := by
  have := (hasDerivAt_id' x).mul_const (180 / Real.pi)
  exact this.congr_deriv (one_mul _)

/-- value of the right-hand side when it is defined -/
theorem conical_rhs_inv {γ φ : ℝ} {y f : Fin 2 → ℝ} (h : conical_rhs γ φ y = .ok f) :
    degree.sin φ ≠ 0 ∧ 1 - (y 1 * degree.sin (φ - y 0)) ^ 2 ≠ 0 ∧
      f 0 = -degree.sin (y 0) * degree.cos (φ - y 0) / degree.sin φ / (1 - (y 1 * degree.sin (φ - y 0)) ^ 2) ∧
      f 1 = Real.pi / 180 * (degree.sin (y 0) * degree.sin (φ - y 0) / degree.sin φ / (1 - (y 1 * degree.sin (φ - y 0)) ^ 2) * y 1)
        * (1 + (γ - 1) / 2 * y 1 ^ 2) := by
  unfold conical_rhs at h
  have e1 : (1.0 : ℝ) = 1 := by norm_num
  simp only [e1] at h
  by_cases h1 : degree.sin φ = 0
  · rw [h1, Py.div_err] at h; exact Except.noConfusion rfl rfl (heq_of_eq h)
  by_cases h2 : 1 - (y 1 * degree.sin (φ - y 0)) ^ 2 = 0
  · rw [Py.div_ok h1, Py.ok_bind, h2, Py.div_err] at h; exact Except.noConfusion rfl rfl (heq_of_eq h)
  rw [Py.div_ok h1, Py.ok_bind, Py.div_ok h2, Py.ok_bind, Py.div_ok h1, Py.ok_bind, Py.div_ok h2, Py.ok_bind] at h
  have := Except.ok.inj h
  subst this
  refine ⟨h1, h2, rfl, ?_⟩
  show _ * _ * _ = _
  norm_num
  ring

section
variable {γ φ : ℝ} {th ma : ℝ → ℝ} {f : Fin 2 → ℝ} (hγ : 1 < γ) (hf : conical_rhs γ φ ![th φ, ma φ] = .ok f)

theorem cf_chain_th {d : ℝ} (h : HasDerivAt th d φ) :
    HasDerivAt (fun x => Py.radians (th (Py.degrees x))) d (Py.radians φ) := by
  have h' : HasDerivAt th d (Py.degrees (Py.radians φ)) := by rw [cf_degrees_radians]; exact h
  have := (h'.comp (Py.radians φ) (cf_degrees_deriv _)).mul_const (Real.pi / 180)
  refine this.congr_deriv ?_
  have := Real.pi_ne_zero; field_simp

theorem cf_chain_ma {d : ℝ} (h : HasDerivAt ma d φ) :
    HasDerivAt (fun x => ma (Py.degrees x)) (d * (180 / Real.pi)) (Py.radians φ) := by
  have h' : HasDerivAt ma d (Py.degrees (Py.radians φ)) := by rw [cf_degrees_radians]; exact h
  exact h'.comp (Py.radians φ) (cf_degrees_deriv _)

include hγ hf in
/-- C90.  The right-hand side integrated by `conical_deflection_Mach_sigma` is the Taylor–Maccoll equation: a direction of the flow `th` and a Mach number `ma`
(as functions of the ray angle, in degrees) whose derivatives are the values computed by the code obey conservation of mass and irrotationality of the
axisymmetric conical flow, at any ray where the code computes a value; and conversely these laws leave no other derivatives. -/
theorem C90_conical {d0 d1 : ℝ} (h0 : HasDerivAt th d0 φ) (h1 : HasDerivAt ma d1 φ) (hm : ma φ ≠ 0) :
    ConicalLaws γ (fun x => Py.radians (th (Py.degrees x))) (fun x => ma (Py.degrees x)) (Py.radians φ) ↔ d0 = f 0 ∧ d1 = f 1 := by
  obtain ⟨hs, hk, e0, e1⟩ := conical_rhs_inv hf
  rw [conicalLaws_iff hγ (cf_chain_th h0) (cf_chain_ma h1)]
  simp only [cf_degrees_radians]
  have ht := cf_t_pos hγ (ma φ)
  simp only [Matrix.cons_val_zero, Matrix.cons_val_one] at hk e0 e1
  simp only [degree.sin, degree.cos] at hs hk e0 e1
  rw [cf_radians_sub] at hk e0 e1
  rw [conical_solve (Real.sin_sq_add_cos_sq _) hs hk hm, e0, e1, div_eq_iff ht.ne']
  refine and_congr_right fun _ => ?_
  have hpi := Real.pi_ne_zero
  constructor
  · intro h
    rw [mul_assoc, ← h]; field_simp
  · intro h
    rw [h]; field_simp

include hγ hf in
/-- the forward reading of C90 needs no condition on the Mach number -/
theorem C90_conical_laws (h0 : HasDerivAt th (f 0) φ) (h1 : HasDerivAt ma (f 1) φ) :
    ConicalLaws γ (fun x => Py.radians (th (Py.degrees x))) (fun x => ma (Py.degrees x)) (Py.radians φ) := by
  by_cases hm : ma φ = 0
  · obtain ⟨hs, hk, e0, e1⟩ := conical_rhs_inv hf
    rw [conicalLaws_iff hγ (cf_chain_th h0) (cf_chain_ma h1)]
    simp only [cf_degrees_radians, Matrix.cons_val_zero, Matrix.cons_val_one, hm] at e1 ⊢
    rw [e1]; simp
  · exact (C90_conical hγ hf h0 h1 hm).2 ⟨rfl, rfl⟩
end

/-- at Mach 3, on the ray of 90 degrees of a flow at 30 degrees from the axis, the code computes a value, and there are functions with these derivatives -/
example : ∃ (f : Fin 2 → ℝ) (th ma : ℝ → ℝ), conical_rhs 1.4 90 ![th 90, ma 90] = .ok f ∧ HasDerivAt th (f 0) 90 ∧ HasDerivAt ma (f 1) 90 ∧ ma 90 = 3 ∧
    th 90 = 30 := by
  have h90 : degree.sin 90 = 1 := by
    unfold degree.sin Py.radians; rw [show (90 : ℝ) * (Real.pi / 180) = Real.pi / 2 by ring]; exact Real.sin_pi_div_two
  have h60 : degree.sin (90 - 30) = √3 / 2 := by
    unfold degree.sin Py.radians; rw [show ((90 : ℝ) - 30) * (Real.pi / 180) = Real.pi / 3 by ring]; exact Real.sin_pi_div_three
  have h3 : (1.0 : ℝ) - (3 * (√3 / 2)) ^ 2 ≠ 0 := by
    have : (√3 : ℝ) ^ 2 = 3 := Real.sq_sqrt (by norm_num)
    rw [show (3 * (√3 / 2)) ^ 2 = 9 / 4 * (√3 : ℝ) ^ 2 by ring, this]; norm_num
  obtain ⟨f, hf⟩ : ∃ f, conical_rhs 1.4 90 ![30, 3] = .ok f := by
    unfold conical_rhs
    simp only [Matrix.cons_val_zero, Matrix.cons_val_one, h90, h60]
    rw [Py.div_ok one_ne_zero, Py.ok_bind, Py.div_ok h3, Py.ok_bind, Py.div_ok one_ne_zero, Py.ok_bind, Py.div_ok h3, Py.ok_bind]
    exact ⟨_, rfl⟩
  refine ⟨f, fun x => 30 + f 0 * (x - 90), fun x => 3 + f 1 * (x - 90), by simpa using hf, ?_, ?_, by norm_num, by norm_num⟩
  · exact ((((hasDerivAt_id' (90 : ℝ)).sub_const 90).const_mul (f 0)).const_add 30).congr_deriv (by ring)
  · exact ((((hasDerivAt_id' (90 : ℝ)).sub_const 90).const_mul (f 1)).const_add 3).congr_deriv (by ring)
end Aerokit.Props
