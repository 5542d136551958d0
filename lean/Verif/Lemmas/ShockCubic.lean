import Verif.Lemmas.Oblique

/-! The shock polar cubic `x³ + ka x² + kb x + kc` in `x = cot σ` and its trigonometric solution. -/

namespace Aerokit.ShockWave
open Real

/-- three real roots of the depressed cubic by the triple angle formula -/
theorem cubic_factor (ka kb kc kd ke a r : ℝ) (hkd : kd = (ka ^ 2 / 3 - kb) / 3)
    (hke : ke = 2 * ka ^ 3 / 27 - ka * kb / 3 + kc) (hr : r ^ 2 = kd)
    (hcos : 2 * r ^ 3 * cos (3 * a) = -ke) (x : ℝ) :
    x ^ 3 + ka * x ^ 2 + kb * x + kc =
      (x - (2 * r * cos a - ka / 3)) * (x - (2 * r * cos ((3 * a + 4 * π) / 3) - ka / 3)) *
        (x - (2 * r * cos ((3 * a + 2 * π) / 3) - ka / 3)) := by
  have h3 : (√3) ^ 2 = (3:ℝ) := Real.sq_sqrt (by norm_num)
  have c1 : cos ((3 * a + 4 * π) / 3) = -(cos a / 2) + √3 / 2 * sin a := by
    rw [show (3 * a + 4 * π) / 3 = (a + π / 3) + π by ring, Real.cos_add_pi, Real.cos_add,
      Real.cos_pi_div_three, Real.sin_pi_div_three]; ring
  have c2 : cos ((3 * a + 2 * π) / 3) = -(cos a / 2) - √3 / 2 * sin a := by
    rw [show (3 * a + 2 * π) / 3 = π - (π / 3 - a) by ring, Real.cos_pi_sub, Real.cos_sub,
      Real.cos_pi_div_three, Real.sin_pi_div_three]; ring
  rw [Real.cos_three_mul] at hcos
  rw [c1, c2]
  have hs : sin a ^ 2 = 1 - cos a ^ 2 := Real.sin_sq a
  obtain ⟨c, hc⟩ : ∃ c, c = cos a := ⟨_, rfl⟩
  obtain ⟨s, hs'⟩ : ∃ s, s = sin a := ⟨_, rfl⟩
  obtain ⟨w, hw⟩ : ∃ w, w = √3 := ⟨_, rfl⟩
  rw [← hc] at hcos hs ⊢
  rw [← hs'] at hs ⊢
  rw [← hw] at h3 ⊢
  -- product of the last two factors
  have hprod : (x - (2 * r * (-(c / 2) + w / 2 * s) - ka / 3)) *
      (x - (2 * r * (-(c / 2) - w / 2 * s) - ka / 3))
      = (x + ka / 3 + r * c) ^ 2 - 3 * r ^ 2 * (1 - c ^ 2) := by
    have : (x - (2 * r * (-(c / 2) + w / 2 * s) - ka / 3)) *
      (x - (2 * r * (-(c / 2) - w / 2 * s) - ka / 3))
      = (x + ka / 3 + r * c) ^ 2 - w ^ 2 * r ^ 2 * s ^ 2 := by ring
    rw [this, h3, hs]
  rw [mul_assoc, hprod]
  have e1 : kb = ka ^ 2 / 3 - 3 * r ^ 2 := by rw [hr, hkd]; ring
  have e2 : kc = -(2 * r ^ 3 * (4 * c ^ 3 - 3 * c)) - 2 * ka ^ 3 / 27 + ka * kb / 3 := by
    rw [hcos, neg_neg, hke]; ring
  rw [e2, e1]
  ring

/-- with `kb < 0`, `0 < kc` and roots `x₃ ≤ x₂ ≤ x₁`, the middle root is positive and the last
one negative -/
theorem roots_sign (ka kb kc x1 x2 x3 : ℝ) (hkb : kb < 0) (hkc : 0 < kc) (h12 : x2 ≤ x1)
    (h23 : x3 ≤ x2)
    (hf : ∀ x : ℝ, x ^ 3 + ka * x ^ 2 + kb * x + kc = (x - x1) * (x - x2) * (x - x3)) :
    0 < x2 ∧ x3 < 0 := by
  have f0 := hf 0
  have f1 := hf 1
  have fm := hf (-1)
  have e3 : x1 * x2 * x3 = -kc := by linarith
  have e2 : x1 * x2 + x2 * x3 + x1 * x3 = kb := by linarith
  have hx2 : 0 < x2 := by
    by_contra hn
    push Not at hn
    have hx3 : x3 ≤ 0 := h23.trans hn
    have h23' : 0 ≤ x2 * x3 := mul_nonneg_of_nonpos_of_nonpos hn hx3
    by_cases hx1 : 0 ≤ x1
    · have : 0 ≤ x1 * (x2 * x3) := mul_nonneg hx1 h23'
      linarith
    · push Not at hx1
      have a1 := mul_nonneg_of_nonpos_of_nonpos hx1.le hn
      have a2 := mul_nonneg_of_nonpos_of_nonpos hx1.le hx3
      linarith
  refine ⟨hx2, ?_⟩
  by_contra hn
  push Not at hn
  have : 0 ≤ x1 * x2 * x3 := mul_nonneg (mul_nonneg (by linarith) hx2.le) hn
  linarith

/-- no positive root when the discriminant is positive -/
theorem no_pos_root (ka kb kc kd ke : ℝ) (hkd : kd = (ka ^ 2 / 3 - kb) / 3)
    (hke : ke = 2 * ka ^ 3 / 27 - ka * kb / 3 + kc) (hka : 0 < ka) (hkb : kb < 0) (hkc : 0 < kc)
    (hdisc : 4 * kd ^ 3 < ke ^ 2) (x : ℝ) (hx : 0 < x) : x ^ 3 + ka * x ^ 2 + kb * x + kc ≠ 0 := by
  intro hf
  have hkd0 : 0 < kd := by rw [hkd]; nlinarith [sq_nonneg ka]
  obtain ⟨r, hr⟩ : ∃ r, r = √kd := ⟨_, rfl⟩
  have hr0 : 0 < r := by rw [hr]; exact Real.sqrt_pos.2 hkd0
  have hr2 : r ^ 2 = kd := by rw [hr]; exact Real.sq_sqrt hkd0.le
  have hdisc' : (2 * r ^ 3) ^ 2 < ke ^ 2 := by
    have : (2 * r ^ 3) ^ 2 = 4 * (r ^ 2) ^ 3 := by ring
    rw [this, hr2]; exact hdisc
  have hdep : ∀ z : ℝ, z ^ 3 + ka * z ^ 2 + kb * z + kc
      = (z + ka / 3) ^ 3 - 3 * r ^ 2 * (z + ka / 3) + ke := by
    intro z; rw [hr2, hkd, hke]; ring
  have hy : 0 < x + ka / 3 := by positivity
  rw [hdep] at hf
  have habs := sq_lt_sq.1 hdisc'
  rw [abs_of_pos (by positivity : 0 < 2 * r ^ 3)] at habs
  rcases lt_abs.1 habs with hpos | hneg
  · have : (x + ka / 3) ^ 3 - 3 * r ^ 2 * (x + ka / 3) + 2 * r ^ 3
        = (x + ka / 3 - r) ^ 2 * (x + ka / 3 + 2 * r) := by ring
    have : 0 ≤ (x + ka / 3 - r) ^ 2 * (x + ka / 3 + 2 * r) := by positivity
    linarith
  · have f0 := hdep 0
    have hy0 : ka / 3 < r := by
      apply lt_of_pow_lt_pow_left₀ 2 hr0.le
      rw [hr2, hkd]; nlinarith
    have e : (0 + ka / 3) ^ 3 - 3 * r ^ 2 * (0 + ka / 3) - 2 * r ^ 3
        = (ka / 3 + r) ^ 2 * (ka / 3 - 2 * r) := by ring
    have : (ka / 3 + r) ^ 2 * (ka / 3 - 2 * r) < 0 := by
      apply mul_neg_of_pos_of_neg
      · positivity
      · linarith
    have : (0:ℝ) ^ 3 + ka * 0 ^ 2 + kb * 0 + kc = kc := by ring
    linarith

end Aerokit.ShockWave

namespace Aerokit.ShockWave
open Real

/-- real form of the coefficients -/
noncomputable def rka (M T γ : ℝ) : ℝ := (1 + (γ + 1) / 2 * M ^ 2) * T
noncomputable def rkb (M : ℝ) : ℝ := 1 - M ^ 2
noncomputable def rkc (M T γ : ℝ) : ℝ := (1 + (γ - 1) / 2 * M ^ 2) * T
noncomputable def rkd (M T γ : ℝ) : ℝ := (rka M T γ ^ 2 / 3 - rkb M) / 3
noncomputable def rke (M T γ : ℝ) : ℝ :=
  2 * rka M T γ ^ 3 / 27 - rka M T γ * rkb M / 3 + rkc M T γ

theorem cubic_ok {M d γ : ℝ} (h0 : 0 < d) (h1 : d < 90) :
    cubic M d γ = .ok ⟨rka M (tan (Py.radians d)) γ, rkb M, rkc M (tan (Py.radians d)) γ,
      rkd M (tan (Py.radians d)) γ, rke M (tan (Py.radians d)) γ⟩ := by
  obtain ⟨g0, g1⟩ := Py.radians_mem h0 h1
  have hC := (sin_cos_pos g0 g1).2
  unfold cubic
  lits
  rw [degree.tan_ok hC.ne', Py.ok_bind]
  simp only [Py.pure_eq]
  have ea : (1 + 1 / 2 * (γ + 1) * M ^ 2) * tan (Py.radians d) = rka M (tan (Py.radians d)) γ := by
    unfold rka; ring
  have ec : (1 + 1 / 2 * (γ - 1) * M ^ 2) * tan (Py.radians d) = rkc M (tan (Py.radians d)) γ := by
    unfold rkc; ring
  rw [ea, ec]; rfl

/-- the deflection of a shock of angle `σ` is `d` iff `cot σ` is a root of the cubic -/
theorem deflection_iff {M σ d γ : ℝ} (h : 1 < γ) (hM : M ≠ 0) (h0 : 0 < σ) (h1 : σ < 90)
    (d0 : 0 < d) (d1 : d < 90) :
    deflection_Mach_sigma M σ γ = .ok d ↔
      (cos (Py.radians σ) / sin (Py.radians σ)) ^ 3
        + rka M (tan (Py.radians d)) γ * (cos (Py.radians σ) / sin (Py.radians σ)) ^ 2
        + rkb M * (cos (Py.radians σ) / sin (Py.radians σ)) + rkc M (tan (Py.radians d)) γ = 0 := by
  obtain ⟨s0, s1⟩ := Py.radians_mem h0 h1
  obtain ⟨g0, g1⟩ := Py.radians_mem d0 d1
  obtain ⟨hS, hC⟩ := sin_cos_pos s0 s1
  have hden := tanth_den_pos (M := M) (s := Py.radians σ) h
  rw [deflection_ok h hM h0 h1]
  have e1 : (Except.ok (Py.degrees (arctan (tanth M (Py.radians σ) γ))) : Py ℝ) = .ok d ↔
      tanth M (Py.radians σ) γ = tan (Py.radians d) := by
    constructor
    · intro hh
      have : Py.degrees (arctan (tanth M (Py.radians σ) γ)) = d := by injection hh
      rw [← this, Py.radians_degrees, tan_arctan]
    · intro hh
      rw [hh, arctan_tan (by linarith [Real.pi_pos]) g1, Py.degrees_radians]
  rw [e1]
  obtain ⟨T, hT⟩ : ∃ T, T = tan (Py.radians d) := ⟨_, rfl⟩
  have hcs : cos (Py.radians σ) ^ 2 = 1 - sin (Py.radians σ) ^ 2 := Real.cos_sq' _
  rw [← hT]
  unfold tanth
  rw [div_eq_iff hden.ne']
  obtain ⟨S, hSe⟩ : ∃ S, S = sin (Py.radians σ) := ⟨_, rfl⟩
  obtain ⟨C, hCe⟩ : ∃ C, C = cos (Py.radians σ) := ⟨_, rfl⟩
  rw [← hSe] at hS hcs hden ⊢
  rw [← hCe] at hC hcs ⊢
  have key : ((C / S) ^ 3 + rka M T γ * (C / S) ^ 2 + rkb M * (C / S) + rkc M T γ) * (2 * S ^ 2)
      = T * ((γ + 1) * M ^ 2 + 2 - 2 * (M ^ 2 * S ^ 2)) - 2 * (C / S) * (M ^ 2 * S ^ 2 - 1) := by
    unfold rka rkb rkc
    have : (C / S) ^ 2 * S ^ 2 = 1 - S ^ 2 := by rw [div_pow, div_mul_cancel₀ _ (by positivity), hcs]
    obtain ⟨x, hx⟩ : ∃ x, x = C / S := ⟨_, rfl⟩
    rw [← hx] at this ⊢
    linear_combination (2 * x + (2 + (γ + 1) * M ^ 2) * T) * this
  constructor
  · intro hh
    have : ((C / S) ^ 3 + rka M T γ * (C / S) ^ 2 + rkb M * (C / S) + rkc M T γ) * (2 * S ^ 2) = 0 := by
      rw [key]; linarith
    exact (mul_eq_zero.1 this).resolve_right (by positivity)
  · intro hh
    rw [hh, zero_mul] at key
    linarith

/-- evaluation of both closed forms when the discriminant is non-positive -/
theorem weak_strong_ok {M d γ : ℝ} (h : 1 < γ) (hM : 1 < M) (d0 : 0 < d) (d1 : d < 90)
    (hdisc : rke M (tan (Py.radians d)) γ ^ 2 ≤ 4 * rkd M (tan (Py.radians d)) γ ^ 3) :
    ∃ x1 x2 x3 : ℝ, 0 < x2 ∧ x2 ≤ x1 ∧ x3 < 0 ∧
      (∀ x : ℝ, x ^ 3 + rka M (tan (Py.radians d)) γ * x ^ 2 + rkb M * x + rkc M (tan (Py.radians d)) γ
        = (x - x1) * (x - x2) * (x - x3)) ∧
      weaksigma_Mach_deflection M d γ = .ok (Py.degrees (arctan (1 / x1))) ∧
      strongsigma_Mach_deflection M d γ = .ok (Py.degrees (arctan (1 / x2))) := by
  obtain ⟨g0, g1⟩ := Py.radians_mem d0 d1
  have hTpos : 0 < tan (Py.radians d) := Real.tan_pos_of_pos_of_lt_pi_div_two g0 g1
  obtain ⟨T, hT⟩ : ∃ T, T = tan (Py.radians d) := ⟨_, rfl⟩
  have hc := cubic_ok (M := M) (γ := γ) d0 d1
  rw [← hT] at hc hdisc hTpos ⊢
  have hkb : rkb M < 0 := by unfold rkb; nlinarith
  have hkc : 0 < rkc M T γ := by
    unfold rkc; have : 0 < γ - 1 := by linarith
    positivity
  have hkd : 0 < rkd M T γ := by unfold rkd; nlinarith [sq_nonneg (rka M T γ)]
  have hkd3 : 0 < rkd M T γ ^ 3 := by positivity
  obtain ⟨r, hr⟩ : ∃ r, r = √(rkd M T γ) := ⟨_, rfl⟩
  have hr0 : 0 < r := by rw [hr]; exact Real.sqrt_pos.2 hkd
  have hr2 : r ^ 2 = rkd M T γ := by rw [hr]; exact Real.sq_sqrt hkd.le
  have hsq3 : √(rkd M T γ ^ 3) = r ^ 3 := by
    rw [← hr2, show (r ^ 2) ^ 3 = (r ^ 3) ^ 2 by ring, Real.sqrt_sq (by positivity)]
  have hr3 : 0 < r ^ 3 := by positivity
  obtain ⟨q, hq⟩ : ∃ q, q = -(1 / 2) * rke M T γ / r ^ 3 := ⟨_, rfl⟩
  have hqq : q ^ 2 ≤ 1 := by
    rw [hq, div_pow, div_le_one (by positivity)]
    have : (r ^ 3) ^ 2 = rkd M T γ ^ 3 := by rw [← hr2]; ring
    rw [this]; nlinarith
  have hq1 : -1 ≤ q ∧ q ≤ 1 := abs_le.1 (by rwa [← sq_le_one_iff_abs_le_one])
  have hcosφ : cos (arccos q) = q := Real.cos_arccos hq1.1 hq1.2
  have hφ0 := Real.arccos_nonneg q
  have hφ1 := Real.arccos_le_pi q
  obtain ⟨φ, hφ⟩ : ∃ φ, φ = arccos q := ⟨_, rfl⟩
  rw [← hφ] at hcosφ hφ0 hφ1
  have hfac := cubic_factor (rka M T γ) (rkb M) (rkc M T γ) (rkd M T γ) (rke M T γ) (φ / 3) r rfl rfl hr2
    (by rw [show 3 * (φ / 3) = φ by ring, hcosφ, hq]; field_simp)
  rw [show 3 * (φ / 3) = φ by ring] at hfac
  have hpi := Real.pi_pos
  have hc1 : cos ((φ + 4 * π) / 3) ≤ cos (φ / 3) := by
    -- cos((φ+4π)/3) = cos((2π - φ)/3), with φ/3 ≤ (2π-φ)/3 ≤ π
    have : cos ((φ + 4 * π) / 3) = cos ((2 * π - φ) / 3) := by
      rw [← Real.cos_neg, show -((φ + 4 * π) / 3) = (2 * π - φ) / 3 - 2 * π by ring,
        Real.cos_sub_two_pi]
    rw [this]
    apply Real.cos_le_cos_of_nonneg_of_le_pi <;> linarith
  have hc2 : cos ((φ + 2 * π) / 3) ≤ cos ((φ + 4 * π) / 3) := by
    have : cos ((φ + 4 * π) / 3) = cos ((2 * π - φ) / 3) := by
      rw [← Real.cos_neg, show -((φ + 4 * π) / 3) = (2 * π - φ) / 3 - 2 * π by ring,
        Real.cos_sub_two_pi]
    rw [this]
    apply Real.cos_le_cos_of_nonneg_of_le_pi <;> linarith
  have hle1 : 2 * r * cos ((φ + 4 * π) / 3) - rka M T γ / 3 ≤ 2 * r * cos (φ / 3) - rka M T γ / 3 := by
    have := mul_le_mul_of_nonneg_left hc1 (by positivity : 0 ≤ 2 * r); linarith
  have hle2 : 2 * r * cos ((φ + 2 * π) / 3) - rka M T γ / 3
      ≤ 2 * r * cos ((φ + 4 * π) / 3) - rka M T γ / 3 := by
    have := mul_le_mul_of_nonneg_left hc2 (by positivity : 0 ≤ 2 * r); linarith
  obtain ⟨hx2, hx3⟩ := roots_sign _ _ _ _ _ _ hkb hkc hle1 hle2 hfac
  refine ⟨_, _, _, hx2, hle1, hx3, hfac, ?_, ?_⟩
  · unfold weaksigma_Mach_deflection
    rw [hc, Py.ok_bind]; lits
    rw [if_neg (by linarith), Py.sqrt_ok hkd3.le, Py.ok_bind, hsq3, Py.div_ok hr3.ne', Py.ok_bind,
      ← hq, Py.arccos_ok hq1.1 hq1.2, Py.ok_bind, Py.sqrt_ok hkd.le, Py.ok_bind, ← hr, ← hφ,
      Py.div_ok (by linarith)]
    rfl
  · unfold strongsigma_Mach_deflection
    rw [hc, Py.ok_bind]; lits
    rw [if_neg (by linarith), Py.sqrt_ok hkd3.le, Py.ok_bind, hsq3, Py.div_ok hr3.ne', Py.ok_bind,
      ← hq, Py.arccos_ok hq1.1 hq1.2, Py.ok_bind, Py.sqrt_ok hkd.le, Py.ok_bind, ← hr, ← hφ,
      Py.div_ok (by linarith)]
    rfl

end Aerokit.ShockWave
