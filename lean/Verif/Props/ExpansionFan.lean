import Verif.Lemmas.ExpansionFan
import Verif.Props.SecantUses

/-! # Property C155: the expansion at a corner of `Caract-01-expansion.ipynb` -/

namespace Aerokit.Props
open Isentropic Supersonic MassFlow Real ExpansionFan

local notation "γ₀" => DefaultGas.gamma0

/-- the directions returned by `flow_prop` are those of a flow of Mach number `M` (angles in degrees): flow angle, flow angle ± Mach angle, and the invariant
`ω(M) + angle` of the family of characteristics that crosses the expansion is the one of the initial flow -/
def IsFlow (om0 : ℝ) (d : Dirs) (M : ℝ) : Prop :=
  1 ≤ M ∧ ∃ w μ, PrandtlMeyer_Mach M γ₀ = .ok w ∧ degree.asin (1 / M) = .ok μ ∧ w + d.ang = om0 ∧ d.cp = d.ang + μ ∧ d.cm = d.ang - μ

private theorem ef_angle {M μ : ℝ} (hM : 1 ≤ M) (h : degree.asin (1 / M) = .ok μ) : μ = Py.degrees (arcsin (1 / M)) := by
  rw [degree.asin_ok (by have : 0 < 1 / M := by positivity
                         linarith) (by rw [div_le_one (by linarith)]; exact hM)] at h
  exact (Except.ok.inj h).symm

/-- the rays of the expansion -/
theorem fan_range {newton : RootFinder} (hn : Spec.SoundRootFinder newton) {m ang : ℝ} (hm : 1 ≤ m) (ha : ang ≤ 0) {c : Case}
    (hc : init_case newton m ang = .ok c) (hpos : 0 ≤ c.M1) :
    1 ≤ c.M1 ∧ m ≤ c.M1 ∧ ∃ s t, 0 ≤ s ∧ s ≤ t ∧ t < π / 2 ∧ fanM γ₀ s = m ∧ fanM γ₀ t = c.M1 ∧ c.om0 - c.mu0 = Py.degrees (pmC γ₀ * s) - 90 ∧
      c.om0 - ang - c.mu1 = Py.degrees (pmC γ₀ * t) - 90 := by
  have g := Isentropic.one_lt_gamma0
  have hC := one_lt_pmC g
  obtain ⟨e1, -, e3, e4, p0, -, p1, -, a0, a1⟩ := init_case_inv hn hc
  have hM1 : 1 ≤ c.M1 := by
    have := sq_of_PM p1
    by_contra hh; push Not at hh; nlinarith
  have hmM : m ≤ c.M1 := by
    by_contra hh; push Not at hh
    have := pm_mono g hM1 hh.le p1 p0
    have : ang = 0 := by linarith
    subst this
    obtain ⟨a, b, ha', hb, hab⟩ := C19_strictly_increasing _ _ γ₀ g hM1 hh
    rw [p1] at ha'; rw [p0] at hb
    have := Except.ok.inj ha'; have := Except.ok.inj hb
    linarith
  obtain ⟨s0, s1, s2⟩ := fan_parameter g hm
  obtain ⟨t0, t1, t2⟩ := fan_parameter g hM1
  obtain ⟨s, hs⟩ : ∃ s, s = arctan (√(m ^ 2 - 1) / pmC γ₀) := ⟨_, rfl⟩
  obtain ⟨t, ht⟩ : ∃ t, t = arctan (√(c.M1 ^ 2 - 1) / pmC γ₀) := ⟨_, rfl⟩
  have k0 : c.om0 - c.mu0 = Py.degrees (pmC γ₀ * s) - 90 := by
    rw [ef_angle hm a0, hs, ← pm_sub_mu hm]
    rw [PM_ok g (by nlinarith)] at p0
    rw [Except.ok.inj p0]
  have k1 : c.om0 - ang - c.mu1 = Py.degrees (pmC γ₀ * t) - 90 := by
    rw [ef_angle hM1 a1, ht, ← pm_sub_mu hM1]
    rw [PM_ok g (by nlinarith)] at p1
    rw [Except.ok.inj p1]
  have hst : s ≤ t := by
    rw [hs, ht]
    apply Real.arctan_mono
    gcongr
  rw [← hs] at s0 s1 s2
  rw [← ht] at t0 t1 t2
  exact ⟨hM1, hmM, s, t, s0, hst, t1, s2, t2, k0, k1⟩

/-- **C155 (the flow).**  A uniform flow of Mach number `m ≥ 1` is turned by a convex corner of angle `ang ≤ 0`.  At every point of the plane `flow_prop` returns the directions of a
flow with the invariant of the initial flow: the initial flow above the first ray, the flow along the wall below the last one (with the Mach number `M1 ≥ m`), and in
between a flow whose `C+` characteristic is the ray through the corner, with a flow angle between those of the two walls.  Both descriptions agree on the two limiting rays. -/
theorem C155_flow (newton : RootFinder) (hn : Spec.SoundRootFinder newton) (m ang : ℝ) (hm : 1 ≤ m) (ha : ang ≤ 0) (c : Case)
    (hc : init_case newton m ang = .ok c) (hpos : 0 ≤ c.M1) :
    m ≤ c.M1 ∧ ang + c.mu1 ≤ c.mu0 ∧ ∀ x y, ∃ d M, flow_prop c x y = .ok d ∧ IsFlow c.om0 d M ∧ m ≤ M ∧ M ≤ c.M1 ∧ ang ≤ d.ang ∧ d.ang ≤ 0 ∧
      (c.mu0 ≤ degree.atan2 y x → M = m ∧ d.ang = 0) ∧
      (degree.atan2 y x ≤ ang + c.mu1 → M = c.M1 ∧ d.ang = ang) ∧
      (ang + c.mu1 ≤ degree.atan2 y x → degree.atan2 y x ≤ c.mu0 → d.cp = degree.atan2 y x) := by
  have g := Isentropic.one_lt_gamma0
  have hC := one_lt_pmC g
  obtain ⟨e1, -, e3, e4, p0, -, p1, -, a0, a1⟩ := init_case_inv hn hc
  obtain ⟨hM1, hmM, s, t, s0, hst, t1, s2, t2, k0, k1⟩ := fan_range hn hm ha hc hpos
  have hmu : ang + c.mu1 ≤ c.mu0 := by
    have : Py.degrees (pmC γ₀ * s) ≤ Py.degrees (pmC γ₀ * t) := by rw [Py.degrees_le]; gcongr
    linarith
  refine ⟨hmM, hmu, fun x y => ?_⟩
  obtain ⟨φ, hφ⟩ : ∃ φ, φ = degree.atan2 y x := ⟨_, rfl⟩
  unfold flow_prop
  rw [← hφ, e3, e4]
  simp only [zero_add, zero_sub]
  have f0 : IsFlow c.om0 ⟨0, c.mu0, -c.mu0⟩ m := ⟨hm, _, _, p0, a0, by simp, by simp, by simp⟩
  have f1 : IsFlow c.om0 ⟨ang, ang + c.mu1, ang - c.mu1⟩ c.M1 := ⟨hM1, _, _, p1, a1, by simp, rfl, rfl⟩
  by_cases c1 : φ > c.mu0
  · rw [if_pos c1]
    exact ⟨_, m, rfl, f0, le_rfl, hmM, ha, le_rfl, fun _ => ⟨rfl, rfl⟩, fun h => absurd h (by linarith), fun _ h => absurd h (by linarith)⟩
  rw [if_neg c1]
  by_cases c2 : φ < ang + c.mu1
  · rw [if_pos c2]
    exact ⟨_, c.M1, rfl, f1, hmM, le_rfl, le_rfl, ha, fun h => absurd h (by linarith), fun _ => ⟨rfl, rfl⟩, fun h => absurd h (by linarith)⟩
  rw [if_neg c2]
  push Not at c1 c2
  obtain ⟨τ, hτ⟩ : ∃ τ, τ = Py.radians (c.om0 - φ + 90) / pmC γ₀ := ⟨_, rfl⟩
  have eτ : Py.degrees (pmC γ₀ * τ) - 90 = c.om0 - φ := by
    rw [hτ, mul_div_cancel₀ _ (by linarith), Py.degrees_radians]; ring
  have b1 : s ≤ τ := by
    have : Py.degrees (pmC γ₀ * s) ≤ Py.degrees (pmC γ₀ * τ) := by linarith
    rw [Py.degrees_le] at this
    exact le_of_mul_le_mul_left this (by linarith)
  have b2 : τ ≤ t := by
    have : Py.degrees (pmC γ₀ * τ) ≤ Py.degrees (pmC γ₀ * t) := by linarith
    rw [Py.degrees_le] at this
    exact le_of_mul_le_mul_left this (by linarith)
  obtain ⟨w, μ, q1, q2, q3, q4⟩ := PMFmmu_fan g (s0.trans b1) (b2.trans_lt t1)
  rw [eτ] at q1 q4
  have u1 := one_le_fanM γ₀ τ
  have u2 : m ≤ fanM γ₀ τ := by rw [← s2]; exact fanM_mono g s0 b1 (b2.trans_lt t1)
  have u3 : fanM γ₀ τ ≤ c.M1 := by rw [← t2]; exact fanM_mono g (s0.trans b1) b2 t1
  have v1 := pm_mono g hm u2 p0 q2
  have v2 := pm_mono g u1 u3 q2 p1
  refine ⟨⟨φ - μ, φ, φ - 2 * μ⟩, fanM γ₀ τ, ?_, ⟨u1, w, μ, q2, q3, by simp only; linarith, by simp, by simp only; ring⟩, u2, u3, by simp only; linarith, by simp only; linarith, ?_, ?_,
    fun _ _ => rfl⟩
  · rw [q1, Py.ok_bind, show (1.0:ℝ) = 1 by norm_num, Py.div_ok (by linarith), Py.ok_bind, q3]; rfl
  · intro h
    have hφ0 : φ = c.mu0 := le_antisymm c1 h
    have : τ = s := by
      rw [hφ0, k0] at eτ
      have e5 : Py.degrees (pmC γ₀ * τ) = Py.degrees (pmC γ₀ * s) := by linarith
      rw [Py.degrees_inj] at e5
      exact mul_left_cancel₀ (by linarith) e5
    have e6 : fanM γ₀ τ = m := by rw [this, s2]
    refine ⟨e6, ?_⟩
    rw [e6, p0] at q2
    have := Except.ok.inj q2
    simp only; linarith
  · intro h
    have hφ1 : φ = ang + c.mu1 := le_antisymm h c2
    have : τ = t := by
      have e5 : Py.degrees (pmC γ₀ * τ) = Py.degrees (pmC γ₀ * t) := by linarith
      rw [Py.degrees_inj] at e5
      exact mul_left_cancel₀ (by linarith) e5
    have e6 : fanM γ₀ τ = c.M1 := by rw [this, t2]
    refine ⟨e6, ?_⟩
    rw [e6, p1] at q2
    have := Except.ok.inj q2
    simp only; linarith

/-! ### the equations of motion in the fan -/

/-- parameter of the ray of polar angle `a` (degrees) -/
noncomputable def fanT (om0 a : ℝ) : ℝ := Py.radians (om0 - a + 90) / pmC γ₀

private theorem ef_tt {γ t : ℝ} (h : 1 < γ) (hc : cos t ≠ 0) : tt (fanM γ t) γ = (γ + 1) / 2 / cos t ^ 2 := by
  have h1 : γ - 1 ≠ 0 := by linarith
  have e : pmC γ ^ 2 = (γ + 1) / (γ - 1) := by unfold pmC; exact Real.sq_sqrt (by apply div_nonneg <;> linarith)
  have e2 : fanM γ t ^ 2 = (γ + 1) / (γ - 1) * tan t ^ 2 + 1 := by
    unfold fanM; rw [Real.sq_sqrt (by positivity), mul_pow, e]
  unfold tt
  rw [e2, Real.tan_eq_sin_div_cos, div_pow, Real.sin_sq]
  field_simp
  ring

private theorem ef_T {om0 : ℝ} (a : ℝ) : HasDerivAt (fanT om0) (-(π / 180) / pmC γ₀) a := by
  unfold fanT Py.radians
  have := ((((hasDerivAt_id a).const_sub om0).add_const (90:ℝ)).mul_const (π / 180)).div_const (pmC γ₀)
  simpa using this

/-- **C155 (equations of motion).**  Between the two limiting rays `flow_prop` describes an exact steady flow of a perfect gas of uniform total temperature `Tt` and uniform entropy
(`rho0`: total density): with `V` the speed and `ρ` the density of the isentropic relations at the Mach number of the ray of polar angle `φ`, the radial
velocity `Vr = V cos (φ - θ)` and the azimuthal velocity `Vφ = - V sin (φ - θ)` satisfy `dVr/dφ = Vφ` (no vorticity) and `d(ρ Vφ)/dφ + ρ Vr = 0` (mass),
the derivatives being per degree. -/
theorem C155_euler (newton : RootFinder) (hn : Spec.SoundRootFinder newton) (m ang : ℝ) (hm : 1 ≤ m) (ha : ang ≤ 0) (c : Case)
    (hc : init_case newton m ang = .ok c) (hpos : 0 ≤ c.M1) (Tt r rho0 : ℝ) (hT : 0 < Tt) (hr : 0 < r) :
    ∃ M V θ ρ : ℝ → ℝ, ∀ φ, ang + c.mu1 < φ → φ < c.mu0 →
      (∀ x y, degree.atan2 y x = φ → ∃ d, flow_prop c x y = .ok d ∧ d.ang = θ φ ∧ IsFlow c.om0 d (M φ)) ∧
      Velocity_MachTt (M φ) Tt r γ₀ = .ok (V φ) ∧ (∃ k, TtTs_Mach (M φ) γ₀ = .ok k ∧ ρ φ * k ^ (1 / (γ₀ - 1)) = rho0) ∧
      HasDerivAt (fun a => V a * degree.cos (a - θ a)) (-(V φ * degree.sin (φ - θ φ)) * (π / 180)) φ ∧
      HasDerivAt (fun a => ρ a * -(V a * degree.sin (a - θ a))) (-(ρ φ * (V φ * degree.cos (φ - θ φ))) * (π / 180)) φ := by
  have g := Isentropic.one_lt_gamma0
  have hC := one_lt_pmC g
  obtain ⟨-, hmu, F⟩ := C155_flow newton hn m ang hm ha c hc hpos
  obtain ⟨hM1, hmM, s, t, s0, hst, t1, s2, t2, k0, k1⟩ := fan_range hn hm ha hc hpos
  obtain ⟨A, hA⟩ : ∃ A, A = √(2 * γ₀ * r * Tt / (γ₀ + 1)) := ⟨_, rfl⟩
  have eC : pmC γ₀ ^ 2 = (γ₀ + 1) / (γ₀ - 1) := by unfold pmC; exact Real.sq_sqrt (by apply div_nonneg <;> linarith)
  have range : ∀ φ, ang + c.mu1 < φ → φ < c.mu0 → 0 < fanT c.om0 φ ∧ fanT c.om0 φ < π / 2 ∧ Py.degrees (pmC γ₀ * fanT c.om0 φ) - 90 = c.om0 - φ := by
    intro φ h1 h2
    have e : Py.degrees (pmC γ₀ * fanT c.om0 φ) - 90 = c.om0 - φ := by
      unfold fanT; rw [mul_div_cancel₀ _ (by linarith), Py.degrees_radians]; ring
    have b1 : Py.degrees (pmC γ₀ * s) < Py.degrees (pmC γ₀ * fanT c.om0 φ) := by linarith
    have b2 : Py.degrees (pmC γ₀ * fanT c.om0 φ) < Py.degrees (pmC γ₀ * t) := by linarith
    rw [Py.degrees_lt] at b1 b2
    exact ⟨s0.trans_lt (lt_of_mul_lt_mul_left b1 (by linarith)), (lt_of_mul_lt_mul_left b2 (by linarith)).trans t1, e⟩
  refine ⟨fun a => fanM γ₀ (fanT c.om0 a), fun a => fanM γ₀ (fanT c.om0 a) * √(γ₀ * r * Tt / tt (fanM γ₀ (fanT c.om0 a)) γ₀),
    fun a => a - Py.degrees (arcsin (1 / fanM γ₀ (fanT c.om0 a))), fun a => rho0 * tt (fanM γ₀ (fanT c.om0 a)) γ₀ ^ (-(1 / (γ₀ - 1))), ?_⟩
  -- closed forms
  have vsin : ∀ a, 0 < fanT c.om0 a → fanT c.om0 a < π / 2 →
      fanM γ₀ (fanT c.om0 a) * √(γ₀ * r * Tt / tt (fanM γ₀ (fanT c.om0 a)) γ₀) * degree.sin (a - (a - Py.degrees (arcsin (1 / fanM γ₀ (fanT c.om0 a))))) = A * cos (fanT c.om0 a) ∧
      fanM γ₀ (fanT c.om0 a) * √(γ₀ * r * Tt / tt (fanM γ₀ (fanT c.om0 a)) γ₀) * degree.cos (a - (a - Py.degrees (arcsin (1 / fanM γ₀ (fanT c.om0 a))))) = A * pmC γ₀ * sin (fanT c.om0 a) := by
    intro a h1 h2
    obtain ⟨τ, hτ⟩ : ∃ τ, τ = fanT c.om0 a := ⟨_, rfl⟩
    rw [← hτ] at h1 h2 ⊢
    have hcos : 0 < cos τ := Real.cos_pos_of_mem_Ioo ⟨by linarith, h2⟩
    have u := one_le_fanM γ₀ τ
    have u0 : 0 < fanM γ₀ τ := by linarith
    have q0 : 0 < 1 / fanM γ₀ τ := by positivity
    have q1 : 1 / fanM γ₀ τ ≤ 1 := by rw [div_le_one u0]; exact u
    have e1 : √(γ₀ * r * Tt / tt (fanM γ₀ τ) γ₀) = A * cos τ := by
      rw [ef_tt g hcos.ne', hA, ← Real.sqrt_sq hcos.le, ← Real.sqrt_mul (by positivity), Real.sqrt_sq hcos.le]
      congr 1
      field_simp
    have e2 : degree.sin (Py.degrees (arcsin (1 / fanM γ₀ τ))) = 1 / fanM γ₀ τ := by
      unfold degree.sin; rw [Py.radians_degrees, Real.sin_arcsin (by linarith) q1]
    have e3 : degree.cos (Py.degrees (arcsin (1 / fanM γ₀ τ))) = pmC γ₀ * tan τ / fanM γ₀ τ := by
      unfold degree.cos
      rw [Py.radians_degrees, Real.cos_arcsin, ← fanM_beta g h1.le h2]
      rw [show 1 - (1 / fanM γ₀ τ) ^ 2 = (fanM γ₀ τ ^ 2 - 1) / fanM γ₀ τ ^ 2 by field_simp, Real.sqrt_div' _ (by positivity), Real.sqrt_sq u0.le]
    rw [sub_sub_cancel, e1, e2, e3, Real.tan_eq_sin_div_cos]
    constructor <;> field_simp
  have dens : ∀ a, 0 < fanT c.om0 a → fanT c.om0 a < π / 2 →
      rho0 * tt (fanM γ₀ (fanT c.om0 a)) γ₀ ^ (-(1 / (γ₀ - 1))) = rho0 * ((γ₀ + 1) / 2) ^ (-(1 / (γ₀ - 1))) * cos (fanT c.om0 a) ^ (2 / (γ₀ - 1)) := by
    intro a h1 h2
    have hcos : 0 < cos (fanT c.om0 a) := Real.cos_pos_of_mem_Ioo ⟨by linarith, h2⟩
    rw [ef_tt g hcos.ne', Real.div_rpow (by linarith) (by positivity), ← Real.rpow_natCast, ← Real.rpow_mul hcos.le, div_eq_mul_inv (_ ^ _), ← Real.rpow_neg hcos.le, mul_assoc]
    congr 3
    push_cast
    ring
  intro φ h1 h2
  obtain ⟨r1, r2, r3⟩ := range φ h1 h2
  have near : ∀ᶠ a in nhds φ, 0 < fanT c.om0 a ∧ fanT c.om0 a < π / 2 := by
    filter_upwards [lt_mem_nhds h1, gt_mem_nhds h2] with a b1 b2
    exact ⟨(range a b1 b2).1, (range a b1 b2).2.1⟩
  have hcos : 0 < cos (fanT c.om0 φ) := Real.cos_pos_of_mem_Ioo ⟨by linarith, r2⟩
  refine ⟨?_, Velocity_MachTt_ok g hr hT.le, ⟨_, TtTs_Mach_ok _ _, ?_⟩, ?_, ?_⟩
  · intro x y hxy
    obtain ⟨d, M, f1, f2, -, -, -, -, -, -, f3⟩ := F x y
    have f3 := f3 (by linarith) (by linarith)
    rw [hxy] at f3
    obtain ⟨u1, w, μ, u2, u3, u4, u5, u6⟩ := id f2
    obtain ⟨w', μ', v1, v2, v3⟩ := C20_inverse M γ₀ g u1
    rw [u2] at v1; rw [u3] at v2
    rw [← Except.ok.inj v1, ← Except.ok.inj v2, show w - μ = c.om0 - φ by linarith, ← r3] at v3
    obtain ⟨-, -, v4, -⟩ := PMFmmu_fan g r1.le r2
    rw [v4] at v3
    have eM := Except.ok.inj v3
    refine ⟨d, f1, ?_, by simp only [eM]; exact f2⟩
    have := ef_angle u1 u3
    simp only [eM, ← this]
    linarith
  · have : 0 < tt (fanM γ₀ (fanT c.om0 φ)) γ₀ := tt_pos g
    simp only
    rw [mul_assoc, ← Real.rpow_add this, neg_add_cancel, Real.rpow_zero, mul_one]
  · have D := ((ef_T (om0 := c.om0) φ).sin).const_mul (A * pmC γ₀)
    refine (D.congr_of_eventuallyEq ?_).congr_deriv ?_
    · filter_upwards [near] with a ha'
      exact (vsin a ha'.1 ha'.2).2
    · simp only
      rw [(vsin φ r1 r2).1]
      field_simp
  · have D := (((ef_T (om0 := c.om0) φ).cos).rpow_const (p := 2 / (γ₀ - 1) + 1) (Or.inl hcos.ne')).const_mul (-(rho0 * ((γ₀ + 1) / 2) ^ (-(1 / (γ₀ - 1))) * A))
    refine (D.congr_of_eventuallyEq ?_).congr_deriv ?_
    · filter_upwards [near] with a ha'
      have hcos' : 0 < cos (fanT c.om0 a) := Real.cos_pos_of_mem_Ioo ⟨by linarith [ha'.1], ha'.2⟩
      rw [(vsin a ha'.1 ha'.2).1, dens a ha'.1 ha'.2, Real.rpow_add hcos', Real.rpow_one]
      ring
    · simp only
      rw [(vsin φ r1 r2).2, dens φ r1 r2, add_sub_cancel_right]
      have e5 : 2 / (γ₀ - 1) + 1 = pmC γ₀ ^ 2 := by
        rw [eC]; have : γ₀ - 1 ≠ 0 := by linarith
        field_simp; ring
      rw [e5]
      field_simp

/-! ### the characteristics drawn in the fan -/

/-- the point at distance `R` from the corner on the ray of polar angle `φ` -/
noncomputable def ray (φ R : ℝ) : ℝ × ℝ := (R * degree.cos φ, R * degree.sin φ)

theorem atan2_ray {φ R : ℝ} (h1 : -180 < φ) (h2 : φ ≤ 180) (hR : 0 < R) : degree.atan2 (ray φ R).2 (ray φ R).1 = φ := by
  unfold degree.atan2 Py.arctan2 ray degree.cos degree.sin
  have hr : Py.radians φ ∈ Set.Ioc (-π) π := by
    have := Real.pi_pos
    unfold Py.radians
    constructor
    · nlinarith
    · nlinarith
  have e : (⟨R * cos (Py.radians φ), R * sin (Py.radians φ)⟩ : ℂ) = (R : ℂ) * (Complex.cos (Py.radians φ) + Complex.sin (Py.radians φ) * Complex.I) := by
    rw [← Complex.ofReal_cos, ← Complex.ofReal_sin]
    apply Complex.ext <;> simp [-Complex.ofReal_cos, -Complex.ofReal_sin]
  simp only
  rw [e, Complex.arg_mul_cos_add_sin_mul_I hR hr, Py.degrees_radians]

private theorem ef_step (φ R ds : ℝ) : step (ray φ R).1 (ray φ R).2 ds φ = ray φ (R + ds) := by
  unfold step ray; simp only; ext <;> simp only <;> ring

private theorem ef_march {dir : ℝ → ℝ → Py ℝ} {φ : ℝ} (hd : ∀ R, 0 < R → dir (ray φ R).1 (ray φ R).2 = .ok φ) (ds : ℝ) :
    ∀ (n : ℕ) (R : ℝ), 0 < R → 0 < R + n * ds →
      march dir ds n (ray φ R).1 (ray φ R).2 = .ok ((List.range n).map fun (k : ℕ) => ray φ (R + (k + 1) * ds)) := by
  intro n
  induction n with
  | zero => intro R _ _; rfl
  | succ n ih =>
    intro R h1 h2
    push_cast at h2
    have hn : (0:ℝ) ≤ n := Nat.cast_nonneg n
    have h3 : 0 < R + 0.5 * ds := by
      rcases le_total 0 ds with h | h
      · norm_num; positivity
      · have : (0:ℝ) ≤ n + 1 / 2 := by positivity
        norm_num; nlinarith
    have h4 : 0 < R + ds := by
      rcases le_total 0 ds with h | h
      · positivity
      · nlinarith
    unfold march
    rw [hd R h1, Py.ok_bind]
    simp only
    rw [ef_step, hd _ h3, Py.ok_bind, ef_step, ih _ h4 (by linarith), Py.ok_bind]
    show Except.ok _ = _
    rw [List.range_succ_eq_map, List.map_cons, List.map_map]
    congr 2
    · push_cast; simp
    · apply List.map_congr_left
      intro k _
      simp only [Function.comp]
      congr 1
      push_cast
      ring

/-- the abscissas along the curve of the points of `integ` -/
noncomputable def curve (smin smax : ℝ) (npts nforw : ℕ) : List ℝ :=
  ((List.range (npts - nforw)).map fun (k : ℕ) => ((k:ℝ) + 1) * (smin / (npts - nforw : ℕ))).reverse ++ 0 ::
    (List.range nforw).map fun (k : ℕ) => ((k:ℝ) + 1) * (smax / nforw)

/-- **C155 (characteristics).**  Started from a point of the expansion at the distance `R` of the corner (and not reaching back to the corner), `integ` with `'C+'` draws
the ray through the corner: `npts + 1` points of that ray, in order, at distances from `R + smin` to `R + smax`, the starting point being one of them. -/
theorem C155_characteristic (newton : RootFinder) (hn : Spec.SoundRootFinder newton) (m ang : ℝ) (hm : 1 ≤ m) (ha : ang ≤ 0) (c : Case)
    (hc : init_case newton m ang = .ok c) (hpos : 0 ≤ c.M1) (φ R smin smax : ℝ) (h1 : ang + c.mu1 ≤ φ) (h2 : φ ≤ c.mu0) (npts : ℕ)
    (hR : 0 < R + smin) (s1 : smin ≤ 0) (s2 : 0 ≤ smax) (s3 : smin < smax) :
    ∃ S : List ℝ, integ (fun x y => Dirs.cp <$> flow_prop c x y) (R * degree.cos φ) (R * degree.sin φ) smin smax npts
        = .ok (S.map fun s => ((R + s) * degree.cos φ, (R + s) * degree.sin φ)) ∧
      S.length = npts + 1 ∧ S.Pairwise (· < ·) ∧ 0 ∈ S ∧ ∀ s ∈ S, smin ≤ s ∧ s ≤ smax := by
  have g := Isentropic.one_lt_gamma0
  obtain ⟨-, -, F⟩ := C155_flow newton hn m ang hm ha c hc hpos
  obtain ⟨hM1, -⟩ := fan_range hn hm ha hc hpos
  obtain ⟨-, -, -, -, p0, -, p1, -, a0, a1⟩ := init_case_inv hn hc
  have m0 := ef_angle hm a0
  have m1 := ef_angle hM1 a1
  have b1 : c.mu0 ≤ 90 := by
    rw [m0, ← Py.degrees_pi_div_two, Py.degrees_le]; exact Real.arcsin_le_pi_div_two _
  have b2 : 0 ≤ c.mu1 := by
    rw [m1, ← Py.degrees_zero, Py.degrees_le]; exact Real.arcsin_nonneg.2 (by positivity)
  have b3 : -180 < ang := by
    obtain ⟨w, e1, e2, e3⟩ := C19_bounds _ γ₀ g hM1
    obtain ⟨w', e1', e2', -⟩ := C19_bounds _ γ₀ g hm
    rw [p1] at e1; rw [p0] at e1'
    have e1 := Except.ok.inj e1
    have e1' := Except.ok.inj e1'
    rw [Isentropic.gamma0_eq, show ((7:ℝ)/5 + 1) / (7/5 - 1) = 6 by norm_num] at e3
    have : √6 < 3 := by rw [Real.sqrt_lt' (by norm_num)]; norm_num
    linarith
  have hd : ∀ R, 0 < R → (fun x y => Dirs.cp <$> flow_prop c x y) (ray φ R).1 (ray φ R).2 = .ok φ := by
    intro R hR
    obtain ⟨d, M, f1, -, -, -, -, -, -, -, f3⟩ := F (ray φ R).1 (ray φ R).2
    rw [atan2_ray (by linarith) (by linarith) hR] at f3
    simp only
    rw [f1]
    show Except.ok d.cp = _
    rw [f3 h1 h2]
  have R0 : 0 < R := by linarith
  have hw : 0 < smax - smin := by linarith
  obtain ⟨nf, hnf⟩ : ∃ nf, nf = ⌊(npts:ℝ) * smax / (smax - smin)⌋₊ := ⟨_, rfl⟩
  have q0 : 0 ≤ (npts:ℝ) * smax / (smax - smin) := by positivity
  have q1 : (npts:ℝ) * smax / (smax - smin) ≤ npts := by
    rw [div_le_iff₀ hw]
    have : (0:ℝ) ≤ npts := Nat.cast_nonneg _
    nlinarith
  have q2 : nf ≤ npts := by
    rw [hnf]; exact Nat.floor_le_of_le q1
  have q3 : 0 < nf → 0 < smax := by
    intro h
    rcases s2.eq_or_lt with e | e
    · rw [hnf, ← e] at h; simp at h
    · exact e
  have q4 : 0 < npts - nf → smin < 0 := by
    intro h
    rcases s1.eq_or_lt with e | e
    · rw [hnf, e, sub_zero, mul_div_cancel_right₀ _ (by linarith), Nat.floor_natCast] at h; omega
    · exact e
  refine ⟨curve smin smax npts nf, ?_, ?_, ?_, ?_, ?_⟩
  · unfold integ
    rw [if_pos ⟨s1, s2⟩, Py.div_ok hw.ne', Py.ok_bind]
    simp only
    rw [← hnf]
    have B : half (fun x y => Dirs.cp <$> flow_prop c x y) (R * degree.cos φ) (R * degree.sin φ) smin (npts - nf)
        = .ok ((List.range (npts - nf)).map fun (k : ℕ) => ray φ (R + (k + 1) * (smin / (npts - nf : ℕ)))) := by
      unfold half
      by_cases h : 0 < npts - nf
      · have h' : (0:ℝ) < (npts - nf : ℕ) := by exact_mod_cast h
        rw [if_pos h, Py.div_ok h'.ne', Py.ok_bind]
        exact ef_march hd _ _ R R0 (by rw [mul_div_cancel₀ _ h'.ne']; exact hR)
      · rw [if_neg h, show npts - nf = 0 by omega]; rfl
    have Fw : half (fun x y => Dirs.cp <$> flow_prop c x y) (R * degree.cos φ) (R * degree.sin φ) smax nf
        = .ok ((List.range nf).map fun (k : ℕ) => ray φ (R + (k + 1) * (smax / nf))) := by
      unfold half
      by_cases h : 0 < nf
      · have h' : (0:ℝ) < nf := by exact_mod_cast h
        rw [if_pos h, Py.div_ok h'.ne', Py.ok_bind]
        exact ef_march hd _ _ R R0 (by rw [mul_div_cancel₀ _ h'.ne']; linarith)
      · rw [if_neg h, show nf = 0 by omega]; rfl
    rw [B, Py.ok_bind, Fw, Py.ok_bind]
    show Except.ok _ = _
    unfold curve ray
    simp [List.map_reverse, Function.comp]
    rfl
  · unfold curve
    simp only [List.length_append, List.length_reverse, List.length_map, List.length_range, List.length_cons]
    omega
  · unfold curve
    rw [List.pairwise_append, List.pairwise_reverse, List.pairwise_cons]
    refine ⟨?_, ⟨?_, ?_⟩, ?_⟩
    · rw [List.pairwise_map]
      refine List.pairwise_lt_range.imp_of_mem fun {a b} ha _ hab => ?_
      have hpos : 0 < npts - nf := by have := List.mem_range.1 ha; omega
      have h' : (0:ℝ) < (npts - nf : ℕ) := by exact_mod_cast hpos
      have : smin / (npts - nf : ℕ) < 0 := div_neg_of_neg_of_pos (q4 hpos) h'
      have : (a:ℝ) < b := by exact_mod_cast hab
      nlinarith
    · intro b hb
      obtain ⟨k, hk, rfl⟩ := List.mem_map.1 hb
      have hpos : 0 < nf := by have := List.mem_range.1 hk; omega
      have h' : (0:ℝ) < nf := by exact_mod_cast hpos
      have := q3 hpos
      positivity
    · rw [List.pairwise_map]
      refine List.pairwise_lt_range.imp_of_mem fun {a b} ha _ hab => ?_
      have hpos : 0 < nf := by have := List.mem_range.1 ha; omega
      have h' : (0:ℝ) < nf := by exact_mod_cast hpos
      have := q3 hpos
      have : (a:ℝ) < b := by exact_mod_cast hab
      gcongr
    · intro a ha' b hb
      obtain ⟨k, hk, rfl⟩ := List.mem_map.1 (List.mem_reverse.1 ha')
      have hpos : 0 < npts - nf := by have := List.mem_range.1 hk; omega
      have h' : (0:ℝ) < (npts - nf : ℕ) := by exact_mod_cast hpos
      have : smin / (npts - nf : ℕ) < 0 := div_neg_of_neg_of_pos (q4 hpos) h'
      have hk0 : (0:ℝ) < k + 1 := by positivity
      have l : ((k:ℝ) + 1) * (smin / (npts - nf : ℕ)) < 0 := mul_neg_of_pos_of_neg hk0 this
      rcases List.mem_cons.1 hb with e | e
      · rw [e]; exact l
      · obtain ⟨j, hj, rfl⟩ := List.mem_map.1 e
        have : 0 ≤ ((j:ℝ) + 1) * (smax / nf) := by positivity
        linarith
  · unfold curve; simp
  · intro x hx
    unfold curve at hx
    rcases List.mem_append.1 hx with h | h
    · obtain ⟨k, hk, rfl⟩ := List.mem_map.1 (List.mem_reverse.1 h)
      have hk := List.mem_range.1 hk
      have h' : (0:ℝ) < (npts - nf : ℕ) := by exact_mod_cast (by omega : 0 < npts - nf)
      have hk1 : (k:ℝ) + 1 ≤ (npts - nf : ℕ) := by exact_mod_cast hk
      have e : ((k:ℝ) + 1) * (smin / (npts - nf : ℕ)) = smin * (((k:ℝ) + 1) / (npts - nf : ℕ)) := by ring
      have l1 : ((k:ℝ) + 1) / (npts - nf : ℕ) ≤ 1 := by rw [div_le_one h']; exact hk1
      have l0 : 0 ≤ ((k:ℝ) + 1) / (npts - nf : ℕ) := by positivity
      rw [e]
      constructor <;> nlinarith
    · rcases List.mem_cons.1 h with e | e
      · rw [e]; exact ⟨s1, s2⟩
      · obtain ⟨k, hk, rfl⟩ := List.mem_map.1 e
        have hk := List.mem_range.1 hk
        have h' : (0:ℝ) < nf := by exact_mod_cast (by omega : 0 < nf)
        have hk1 : (k:ℝ) + 1 ≤ nf := by exact_mod_cast hk
        have e : ((k:ℝ) + 1) * (smax / nf) = smax * (((k:ℝ) + 1) / nf) := by ring
        have l1 : ((k:ℝ) + 1) / nf ≤ 1 := by rw [div_le_one h']; exact hk1
        have l0 : 0 ≤ ((k:ℝ) + 1) / nf := by positivity
        rw [e]
        constructor <;> nlinarith

/-! ### what is wrong -/

private theorem ef_case_ok {newton : RootFinder} {m ang om0 M1 M2 : ℝ} (hm : 1 ≤ m) (hM1 : 1 ≤ M1) (h0 : PrandtlMeyer_Mach m γ₀ = .ok om0)
    (h1 : Mach_PrandtlMeyer newton (om0 - ang) γ₀ = .ok M1) (h1' : PrandtlMeyer_Mach M1 γ₀ = .ok (om0 - ang))
    (h2 : Mach_PrandtlMeyer newton (om0 - ang - ang) γ₀ = .ok M2) :
    ∃ c, init_case newton m ang = .ok c ∧ c.M1 = M1 := by
  have g := Isentropic.one_lt_gamma0
  have q (M : ℝ) (h : 1 ≤ M) : ∃ μ, degree.asin (1 / M) = .ok μ :=
    ⟨_, degree.asin_ok (by have : 0 < 1 / M := by positivity
                           linarith) (by rw [div_le_one (by linarith)]; exact h)⟩
  obtain ⟨μ0, e0⟩ := q m hm
  obtain ⟨μ1, e1⟩ := q M1 hM1
  have hp : ∃ p, IsentropicPsratio_Mach_deflection newton M1 ang γ₀ = .ok p := by
    unfold IsentropicPsratio_Mach_deflection
    rw [h1', Py.ok_bind, h2, Py.ok_bind, PtPs_Mach_ok g, Py.ok_bind, PtPs_Mach_ok g, Py.ok_bind, Py.div_ok (Real.rpow_pos_of_pos (tt_pos g) _).ne']
    exact ⟨_, rfl⟩
  obtain ⟨p, hp⟩ := hp
  unfold init_case
  rw [show (1.0:ℝ) = 1 by norm_num, show (0.0:ℝ) = 0 by norm_num]
  simp only [sub_zero]
  rw [h0, Py.ok_bind, h1, Py.ok_bind, hp, Py.ok_bind, Py.div_ok (by linarith), Py.ok_bind, e0, Py.ok_bind, Py.div_ok (by linarith), Py.ok_bind, e1]
  exact ⟨_, rfl, rfl⟩

/-- **C155 (the case).**  With a root finder that finds the roots on the supersonic side, `init_case` returns when the gas can be turned by TWICE the angle of the wall. -/
theorem C155_case_partial : ∃ newton : RootFinder, Spec.SoundRootFinder newton ∧ ∀ m ang om0, 1 ≤ m → ang ≤ 0 → PrandtlMeyer_Mach m γ₀ = .ok om0 →
    om0 - 2 * ang < 90 * (√6 - 1) → ∃ c, init_case newton m ang = .ok c ∧ 0 ≤ c.M1 := by
  have g := Isentropic.one_lt_gamma0
  obtain ⟨nf, h1, h2, h3⟩ : ∃ nf : RootFinder, Spec.SoundRootFinder nf ∧ (∀ f x0 x, nf f x0 = .ok x → 1 ≤ x) ∧
      ∀ f x0, (∃ x, f x = .ok 0 ∧ 1 ≤ x) → ∃ x, nf f x0 = .ok x := by
    classical
    refine ⟨fun f _ => if h : ∃ x, f x = .ok 0 ∧ 1 ≤ x then .ok h.choose else .error .noConvergence, ?_, ?_, ?_⟩
    · intro f x0 x hx
      by_cases h : ∃ x, f x = .ok 0 ∧ 1 ≤ x
      · simp only [h, dite_true] at hx
        rw [← Except.ok.inj hx]; exact h.choose_spec.1
      · simp only [h, dite_false] at hx; cases hx
    · intro f x0 x hx
      by_cases h : ∃ x, f x = .ok 0 ∧ 1 ≤ x
      · simp only [h, dite_true] at hx
        rw [← Except.ok.inj hx]; exact h.choose_spec.2
      · simp only [h, dite_false] at hx; cases hx
    · intro f x0 h
      exact ⟨h.choose, by simp only [h, dite_true]⟩
  refine ⟨nf, h1, fun m ang om0 hm ha h0 hmax => ?_⟩
  have find : ∀ w, 0 ≤ w → w < 90 * (√6 - 1) → ∃ M, Mach_PrandtlMeyer nf w γ₀ = .ok M ∧ 1 ≤ M ∧ PrandtlMeyer_Mach M γ₀ = .ok w := by
    intro w w0 w1
    obtain ⟨M, ⟨a1, a2⟩, -⟩ := C19_bijective w γ₀ g w0 (by
      rw [Isentropic.gamma0_eq, show ((7:ℝ)/5 + 1) / (7/5 - 1) = 6 by norm_num]; exact w1)
    have e : (2.0:ℝ) + 0.0 * w = 2 := by norm_num
    unfold Mach_PrandtlMeyer
    rw [e]
    obtain ⟨x, hx⟩ := h3 (pm_residual w γ₀) 2 ⟨M, by unfold pm_residual; rw [a2, Py.ok_bind, sub_self]; rfl, a1⟩
    exact ⟨x, hx, h2 _ _ _ hx, pm_of_residual (h1 _ _ _ hx)⟩
  have o0 : 0 ≤ om0 := by
    obtain ⟨w, e1, e2, -⟩ := C19_bounds _ γ₀ g hm
    rw [h0] at e1; rw [Except.ok.inj e1]; exact e2
  obtain ⟨M1, a1, a2, a3⟩ := find (om0 - ang) (by linarith) (by linarith)
  obtain ⟨M2, b1, b2, b3⟩ := find (om0 - ang - ang) (by linarith) (by linarith)
  obtain ⟨c, c1, c2⟩ := ef_case_ok hm a2 h0 a1 a3 b1
  exact ⟨c, c1, by rw [c2]; linarith⟩

/-- the hypotheses of the theorems on the expansion are met: the flow at Mach 1 turned by 20 degrees -/
example : ∃ newton : RootFinder, Spec.SoundRootFinder newton ∧ ∃ c, init_case newton 1 (-20) = .ok c ∧ 0 ≤ c.M1 := by
  obtain ⟨nf, h1, h2⟩ := C155_case_partial
  refine ⟨nf, h1, h2 1 (-20) 0 le_rfl (by norm_num) (C19_zero_at_sonic _ Isentropic.one_lt_gamma0) ?_⟩
  have : (2:ℝ) < √6 := by rw [Real.lt_sqrt (by norm_num)]; norm_num
  linarith

/-- **C155 (the case) is false of the code beyond that**: a wall the flow can follow (`om0 - ang` below the maximum), but not twice: `init_case` fails, whatever the root
finder, because the pressure ratio is computed from the flow AFTER the corner. -/
theorem C155_case_false (newton : RootFinder) (hn : Spec.SoundRootFinder newton) (m ang om0 : ℝ) (hm : 1 ≤ m) (h0 : PrandtlMeyer_Mach m γ₀ = .ok om0)
    (hmax : 90 * (√6 - 1) ≤ om0 - 2 * ang) : ¬ ∃ c, init_case newton m ang = .ok c := by
  have g := Isentropic.one_lt_gamma0
  rintro ⟨c, hc⟩
  obtain ⟨-, -, -, -, p0, -, p1, p2, -, -⟩ := init_case_inv hn hc
  rw [h0] at p0
  have e := Except.ok.inj p0
  unfold IsentropicPsratio_Mach_deflection at p2
  rw [p1, Py.ok_bind] at p2
  obtain ⟨M2, b1, -⟩ := Py.bind_inv p2
  have b2 := pm_of_residual (hn _ _ _ b1)
  have b3 := sq_of_PM b2
  have b4 : 1 ≤ |M2| := by rw [← sq_abs] at b3; by_contra hh; push Not at hh; nlinarith [abs_nonneg M2]
  obtain ⟨w, e1, -, e3⟩ := C19_bounds |M2| γ₀ g b4
  rw [PM_ok g b3] at b2
  rw [PM_ok g (by rw [sq_abs]; exact b3), sq_abs] at e1
  rw [Isentropic.gamma0_eq, show ((7:ℝ)/5 + 1) / (7/5 - 1) = 6 by norm_num] at e3
  have e5 := Except.ok.inj b2
  have e6 := Except.ok.inj e1
  linarith

/-- such walls exist: from Mach 1, every angle between half the maximum and the maximum -/
example : ∃ ang : ℝ, 90 * (√6 - 1) ≤ 0 - 2 * ang ∧ 0 - ang < 90 * (√6 - 1) := by
  refine ⟨-80, ?_, ?_⟩
  · have : √6 ≤ 2.5 := by rw [Real.sqrt_le_left (by norm_num)]; norm_num
    norm_num at this ⊢; linarith
  · have : (2:ℝ) < √6 := by rw [Real.lt_sqrt (by norm_num)]; norm_num
    linarith

/-- **C155 is false of the notebook as it is**: in a new kernel nothing has called `init_case` when the second cell calls `plot_geom()` (nor when `plot_expansion()` is
called), and the cell raises `NameError`. -/
theorem C155_fresh_false : plot_geom none = .error .nameError ∧ plot_expansion none = .error .nameError := ⟨rfl, rfl⟩

/-! ### the pressure ratio -/

/-- logarithm of `PtPs_Mach` -/
private noncomputable def lnP (γ M : ℝ) : ℝ := γ / (γ - 1) * log (tt M γ)

private theorem ef_lnP {γ M : ℝ} (h : 1 < γ) : HasDerivAt (lnP γ) (γ * M / tt M γ) M := by
  have e : tt M γ ≠ 0 := (tt_pos h).ne'
  have d : HasDerivAt (fun M => tt M γ) ((γ - 1) * M) M := by
    unfold tt
    have := (((hasDerivAt_pow 2 M).const_mul ((γ - 1) / 2))).const_add 1
    refine (this.congr_of_eventuallyEq (Filter.Eventually.of_forall fun x => ?_)).congr_deriv ?_
    · rfl
    · push_cast; ring
  refine ((d.log e).const_mul (γ / (γ - 1))).congr_deriv ?_
  have : γ - 1 ≠ 0 := by linarith
  field_simp

/-- mean slope of the pressure along an expansion -/
private theorem ef_mean {γ M N : ℝ} (h : 1 < γ) (hM : 1 < M) (hMN : M < N) :
    ∃ ξ, M < ξ ∧ ξ < N ∧ lnP γ N - lnP γ M = (pmDeg γ N - pmDeg γ M) * (γ * ξ ^ 2 / √(ξ ^ 2 - 1) * (π / 180)) := by
  obtain ⟨ξ, ⟨h1, h2⟩, h3⟩ := exists_ratio_hasDerivAt_eq_ratio_slope (lnP γ) (fun x => γ * x / tt x γ) hMN
    (fun x _ => (ef_lnP h).continuousAt.continuousWithinAt) (fun x _ => ef_lnP h) (pmDeg γ) (fun x => pmSlope γ x * (180 / π))
    (fun x hx => (hasDerivAt_pmDeg h (by linarith [hx.1])).continuousAt.continuousWithinAt) (fun x hx => hasDerivAt_pmDeg h (by linarith [hx.1]))
  refine ⟨ξ, h1, h2, ?_⟩
  have hb : 0 < √(ξ ^ 2 - 1) := Real.sqrt_pos.2 (by nlinarith)
  have ht : 0 < tt ξ γ := tt_pos h
  have hp := Real.pi_pos
  have hξ : 0 < ξ := by linarith
  have e : pmSlope γ ξ = √(ξ ^ 2 - 1) / (ξ * tt ξ γ) := by unfold pmSlope tt; rfl
  simp only [e] at h3
  field_simp at h3 ⊢
  linarith

private theorem ef_slope {γ a b : ℝ} (h : 1 < γ) (ha : 2 ≤ a ^ 2) (ha0 : 0 < a) (hab : a < b) :
    γ * a ^ 2 / √(a ^ 2 - 1) < γ * b ^ 2 / √(b ^ 2 - 1) := by
  have hab2 : a ^ 2 < b ^ 2 := by nlinarith
  rw [mul_div_assoc, mul_div_assoc]
  apply mul_lt_mul_of_pos_left _ (by linarith)
  have e (x : ℝ) (hx : 1 < x ^ 2) : x ^ 2 / √(x ^ 2 - 1) = √((x ^ 2) ^ 2 / (x ^ 2 - 1)) := by
    rw [Real.sqrt_div' _ (by linarith), Real.sqrt_sq (by positivity)]
  rw [e a (by linarith), e b (by linarith)]
  apply Real.sqrt_lt_sqrt (div_nonneg (by positivity) (by linarith))
  rw [div_lt_div_iff₀ (by linarith) (by linarith)]
  nlinarith [mul_pos (sub_pos.2 hab2) (show 0 < (a ^ 2 - 1) * (b ^ 2 - 1) - 1 + (0:ℝ) by nlinarith)]

private theorem ef_ptps {M γ : ℝ} (h : 1 < γ) : PtPs_Mach M γ = .ok (exp (lnP γ M)) := by
  rw [PtPs_Mach_ok h, Real.rpow_def_of_pos (tt_pos h)]
  unfold lnP; rw [mul_comm]

private theorem ef_value {γ M w : ℝ} (hγ : 1 < γ) (hM : 1 ≤ M) (hw : PrandtlMeyer_Mach M γ = .ok w) : w = pmDeg γ M := by
  rw [PM_ok hγ (by nlinarith)] at hw
  exact (Except.ok.inj hw).symm

/-- **C155 (pressure ratio) is false of the code.**  `p1p0` is not the ratio of the pressure after the corner to the pressure before it: for every initial Mach number from `√2`
on and every non-zero angle of the wall it is strictly smaller. -/
theorem C155_pressure_false (newton : RootFinder) (hn : Spec.SoundRootFinder newton) (m ang : ℝ) (hm0 : 0 ≤ m) (hm : 2 ≤ m ^ 2) (ha : ang < 0) (c : Case)
    (hc : init_case newton m ang = .ok c) (hpos : 0 ≤ c.M1) :
    ∃ k0 k1, PtPs_Mach m γ₀ = .ok k0 ∧ PtPs_Mach c.M1 γ₀ = .ok k1 ∧ c.p1p0 < k0 / k1 := by
  have g := Isentropic.one_lt_gamma0
  have m1 : 1 < m := by nlinarith
  obtain ⟨-, -, -, -, p0, -, p1, p2, -, -⟩ := init_case_inv hn hc
  obtain ⟨hM1, -⟩ := fan_range hn m1.le ha.le hc hpos
  refine ⟨_, _, ef_ptps g, ef_ptps g, ?_⟩
  unfold IsentropicPsratio_Mach_deflection at p2
  rw [p1, Py.ok_bind] at p2
  obtain ⟨M2, b1, p2⟩ := Py.bind_inv p2
  have b2 := pm_of_residual (hn _ _ _ b1)
  have b3 := sq_of_PM b2
  have b4 : 1 ≤ |M2| := by rw [← sq_abs] at b3; by_contra hh; push Not at hh; nlinarith [abs_nonneg M2]
  have b5 : PrandtlMeyer_Mach |M2| γ₀ = .ok (c.om0 - ang - ang) := by
    rw [PM_ok g (by rw [sq_abs]; exact b3), sq_abs, ← PM_ok g b3]; exact b2
  rw [ef_ptps g, Py.ok_bind, ef_ptps g, Py.ok_bind, Py.div_ok (exp_pos _).ne'] at p2
  have e2 := Except.ok.inj p2
  have l1 : m < c.M1 := pm_lt_of g hM1 p0 p1 (by linarith)
  have l2 : c.M1 < |M2| := pm_lt_of g b4 p1 b5 (by linarith)
  have w0 := ef_value g m1.le p0
  have w1 := ef_value g hM1 p1
  have w2 := ef_value g b4 b5
  obtain ⟨ξ, x1, x2, x3⟩ := ef_mean g m1 l1
  obtain ⟨ζ, z1, z2, z3⟩ := ef_mean g (m1.trans l1) l2
  have e3 : lnP γ₀ |M2| = lnP γ₀ M2 := by unfold lnP tt; rw [sq_abs]
  have sl := ef_slope g (a := ξ) (b := ζ) (by nlinarith) (by linarith) (by linarith)
  rw [← w0, ← w1] at x3
  rw [← w1, ← w2, e3] at z3
  rw [← e2, ← Real.exp_sub, ← Real.exp_sub, Real.exp_lt_exp]
  have k : (-ang) * (γ₀ * ξ ^ 2 / √(ξ ^ 2 - 1) * (π / 180)) < (-ang) * (γ₀ * ζ ^ 2 / √(ζ ^ 2 - 1) * (π / 180)) := by
    apply mul_lt_mul_of_pos_left _ (by linarith)
    exact mul_lt_mul_of_pos_right sl (by positivity)
  have x3' : lnP γ₀ c.M1 - lnP γ₀ m = (-ang) * (γ₀ * ξ ^ 2 / √(ξ ^ 2 - 1) * (π / 180)) := by rw [x3]; ring
  have z3' : lnP γ₀ M2 - lnP γ₀ c.M1 = (-ang) * (γ₀ * ζ ^ 2 / √(ζ ^ 2 - 1) * (π / 180)) := by rw [z3]; ring
  linarith

/-- the hypotheses are met for every Mach number from `√2` on -/
example (m : ℝ) (hm : 1 ≤ m) : ∃ newton : RootFinder, Spec.SoundRootFinder newton ∧ ∃ ang c, ang < 0 ∧ init_case newton m ang = .ok c ∧ 0 ≤ c.M1 := by
  obtain ⟨nf, h1, h2⟩ := C155_case_partial
  obtain ⟨w, e1, e2, e3⟩ := C19_bounds m γ₀ Isentropic.one_lt_gamma0 hm
  rw [Isentropic.gamma0_eq, show ((7:ℝ)/5 + 1) / (7/5 - 1) = 6 by norm_num] at e3
  refine ⟨nf, h1, -((90 * (√6 - 1) - w) / 3), ?_⟩
  obtain ⟨c, c1, c2⟩ := h2 m (-((90 * (√6 - 1) - w) / 3)) w hm (by linarith) e1 (by linarith)
  exact ⟨c, by linarith, c1, c2⟩

end Aerokit.Props
