import Verif.Lemmas.WeakSearch4
import Verif.Lemmas.OldPM2

/-! # The weak shock polar of air: starting points above the shock angle -/

namespace Aerokit.Props
open Real ShockWave IterativeSolve ScipyNewton

theorem eps_poly0 {τ : ℝ} (h0 : 47/1000 ≤ τ) (h1 : τ ≤ 6/25) : 36/25 * ((1 + τ ^ 2) * (τ - 47/1000)) ^ 2 ≤ 24/5 * τ ^ 4 + 4/5 * τ ^ 2 := by
  have a : 0 ≤ τ - 47/1000 := by linarith
  have b : 0 ≤ 6/25 - τ := by linarith
  have e : 24/5 * τ ^ 4 + 4/5 * τ ^ 2 - 36/25 * ((1 + τ ^ 2) * (τ - 47/1000)) ^ 2 = (1790622468800000/51682540549249) * ((τ - 47/1000) ^ 0 * (6/25 - τ) ^ 6) + (25642061321600000/51682540549249) * ((τ - 47/1000) ^ 1 * (6/25 - τ) ^ 5) + (1991103106491447516/1292063513731225) * ((τ - 47/1000) ^ 2 * (6/25 - τ) ^ 4) + (512526087605368576/258412702746245) * ((τ - 47/1000) ^ 3 * (6/25 - τ) ^ 3) + (61849678888203776/51682540549249) * ((τ - 47/1000) ^ 4 * (6/25 - τ) ^ 2) + (17221135651553280/51682540549249) * ((τ - 47/1000) ^ 5 * (6/25 - τ) ^ 1) + (2009566019174400/51682540549249) * ((τ - 47/1000) ^ 6 * (6/25 - τ) ^ 0) := by ring
  have : 0 ≤ (1790622468800000/51682540549249) * ((τ - 47/1000) ^ 0 * (6/25 - τ) ^ 6) + (25642061321600000/51682540549249) * ((τ - 47/1000) ^ 1 * (6/25 - τ) ^ 5) + (1991103106491447516/1292063513731225) * ((τ - 47/1000) ^ 2 * (6/25 - τ) ^ 4) + (512526087605368576/258412702746245) * ((τ - 47/1000) ^ 3 * (6/25 - τ) ^ 3) + (61849678888203776/51682540549249) * ((τ - 47/1000) ^ 4 * (6/25 - τ) ^ 2) + (17221135651553280/51682540549249) * ((τ - 47/1000) ^ 5 * (6/25 - τ) ^ 1) + (2009566019174400/51682540549249) * ((τ - 47/1000) ^ 6 * (6/25 - τ) ^ 0) := by positivity
  linarith

theorem eps_poly1 {τ : ℝ} (h0 : 6/25 ≤ τ) (h1 : τ ≤ 54/125) : 36/25 * ((1 + τ ^ 2) * (τ - 47/1000)) ^ 2 ≤ 24/5 * τ ^ 4 + 4/5 * τ ^ 2 := by
  have a : 0 ≤ τ - 6/25 := by linarith
  have b : 0 ≤ 54/125 - τ := by linarith
  have e : 24/5 * τ ^ 4 + 4/5 * τ ^ 2 - 36/25 * ((1 + τ ^ 2) * (τ - 47/1000)) ^ 2 = (13628241775/339738624) * ((τ - 6/25) ^ 0 * (54/125 - τ) ^ 6) + (23466022765/169869312) * ((τ - 6/25) ^ 1 * (54/125 - τ) ^ 5) + (23250341227/113246208) * ((τ - 6/25) ^ 2 * (54/125 - τ) ^ 4) + (2595712839/5242880) * ((τ - 6/25) ^ 3 * (54/125 - τ) ^ 3) + (8967336537881/8493465600) * ((τ - 6/25) ^ 4 * (54/125 - τ) ^ 2) + (93184445401/94371840) * ((τ - 6/25) ^ 5 * (54/125 - τ) ^ 1) + (108036290351/339738624) * ((τ - 6/25) ^ 6 * (54/125 - τ) ^ 0) := by ring
  have : 0 ≤ (13628241775/339738624) * ((τ - 6/25) ^ 0 * (54/125 - τ) ^ 6) + (23466022765/169869312) * ((τ - 6/25) ^ 1 * (54/125 - τ) ^ 5) + (23250341227/113246208) * ((τ - 6/25) ^ 2 * (54/125 - τ) ^ 4) + (2595712839/5242880) * ((τ - 6/25) ^ 3 * (54/125 - τ) ^ 3) + (8967336537881/8493465600) * ((τ - 6/25) ^ 4 * (54/125 - τ) ^ 2) + (93184445401/94371840) * ((τ - 6/25) ^ 5 * (54/125 - τ) ^ 1) + (108036290351/339738624) * ((τ - 6/25) ^ 6 * (54/125 - τ) ^ 0) := by positivity
  linarith

theorem eps_poly2 {τ : ℝ} (h0 : 54/125 ≤ τ) (h1 : τ ≤ 817/1000) : 36/25 * ((1 + τ ^ 2) * (τ - 47/1000)) ^ 2 ≤ 24/5 * τ ^ 4 + 4/5 * τ ^ 2 := by
  have a : 0 ≤ τ - 54/125 := by linarith
  have b : 0 ≤ 817/1000 - τ := by linarith
  have e : 24/5 * τ ^ 4 + 4/5 * τ ^ 2 - 36/25 * ((1 + τ ^ 2) * (τ - 47/1000)) ^ 2 = (1448236293636096/296054517171875) * ((τ - 54/125) ^ 0 * (817/1000 - τ) ^ 6) + (17096238257061888/296054517171875) * ((τ - 54/125) ^ 1 * (817/1000 - τ) ^ 5) + (80031016277172736/296054517171875) * ((τ - 54/125) ^ 2 * (817/1000 - τ) ^ 4) + (185979276065499904/296054517171875) * ((τ - 54/125) ^ 3 * (817/1000 - τ) ^ 3) + (223351666187811636/296054517171875) * ((τ - 54/125) ^ 4 * (817/1000 - τ) ^ 2) + (2351485607766448/5382809403125) * ((τ - 54/125) ^ 5 * (817/1000 - τ) ^ 1) + (27149985486368464/296054517171875) * ((τ - 54/125) ^ 6 * (817/1000 - τ) ^ 0) := by ring
  have : 0 ≤ (1448236293636096/296054517171875) * ((τ - 54/125) ^ 0 * (817/1000 - τ) ^ 6) + (17096238257061888/296054517171875) * ((τ - 54/125) ^ 1 * (817/1000 - τ) ^ 5) + (80031016277172736/296054517171875) * ((τ - 54/125) ^ 2 * (817/1000 - τ) ^ 4) + (185979276065499904/296054517171875) * ((τ - 54/125) ^ 3 * (817/1000 - τ) ^ 3) + (223351666187811636/296054517171875) * ((τ - 54/125) ^ 4 * (817/1000 - τ) ^ 2) + (2351485607766448/5382809403125) * ((τ - 54/125) ^ 5 * (817/1000 - τ) ^ 1) + (27149985486368464/296054517171875) * ((τ - 54/125) ^ 6 * (817/1000 - τ) ^ 0) := by positivity
  linarith

/-- `tan μ - tan β` is at most 0.047 in air from `M² = 2.5` on -/
theorem eps_air' {u τ t : ℝ} (hu : 5/2 ≤ u) (hτ : 0 < τ) (hτu : τ ^ 2 * (u - 1) = 1) (ht : 0 < t) :
    τ - (2 + (2 + 2/5 * u) * t ^ 2) / (12/5 * u * t) ≤ 47/1000 := by
  have hu0 : 0 < u := by linarith
  rw [sub_le_iff_le_add, ← sub_le_iff_le_add', le_div_iff₀ (by positivity)]
  rcases le_total τ (47/1000) with h | h
  · have : (τ - 47/1000) * (12/5 * u * t) ≤ 0 := mul_nonpos_of_nonpos_of_nonneg (by linarith) (by positivity)
    have : 0 < 2 + (2 + 2/5 * u) * t ^ 2 := by positivity
    linarith
  have hτ2 : τ ≤ 817/1000 := by
    by_contra hcon
    push Not at hcon
    nlinarith
  have hP : 36/25 * ((1 + τ ^ 2) * (τ - 47/1000)) ^ 2 ≤ 24/5 * τ ^ 4 + 4/5 * τ ^ 2 := by
    rcases le_total τ (6/25) with h1 | h1
    · exact eps_poly0 h h1
    rcases le_total τ (54/125) with h2 | h2
    · exact eps_poly1 h1 h2
    · exact eps_poly2 h2 hτ2
  have hut : τ ^ 2 * u = 1 + τ ^ 2 := by linarith
  -- the product of the two extreme terms of the quadratic in `t`
  have hQ : (6/5 * u * (τ - 47/1000)) ^ 2 ≤ 2 * (2 + 2/5 * u) := by
    have h4 : 0 < τ ^ 4 := by positivity
    refine le_of_mul_le_mul_left ?_ h4
    have e1 : τ ^ 4 * (6/5 * u * (τ - 47/1000)) ^ 2 = 36/25 * ((τ ^ 2 * u) * (τ - 47/1000)) ^ 2 := by ring
    have e2 : τ ^ 4 * (2 * (2 + 2/5 * u)) = 4 * τ ^ 4 + 4/5 * (τ ^ 2 * (τ ^ 2 * u)) := by ring
    rw [e1, e2, hut]
    linarith
  obtain ⟨k, hk⟩ : ∃ k, k = 6/5 * u * (τ - 47/1000) := ⟨_, rfl⟩
  rw [← hk] at hQ
  have e : (τ - 47/1000) * (12/5 * u * t) = 2 * k * t := by rw [hk]; ring
  rw [e]
  nlinarith [sq_nonneg (2 - k * t), mul_le_mul_of_nonneg_right hQ (sq_nonneg t)]

theorem arctan_sub_le {a b : ℝ} (h : a ≤ b) : arctan b - arctan a ≤ b - a := by
  rcases h.eq_or_lt with e | h
  · rw [e]; simp
  obtain ⟨c, -, hc⟩ := exists_hasDerivAt_eq_slope arctan (fun x => 1 / (1 + x ^ 2)) h (continuous_arctan.continuousOn) (fun x _ => hasDerivAt_arctan x)
  rw [eq_div_iff (by linarith)] at hc
  rw [← hc]
  have : 1 / (1 + c ^ 2) ≤ 1 := by rw [div_le_one (by positivity)]; nlinarith [sq_nonneg c]
  nlinarith

theorem tan_arctan_sub_le {a b : ℝ} (h0 : 0 ≤ a) (h : a ≤ b) : tan (arctan b - arctan a) ≤ b - a := by
  have e : arctan b - arctan a = arctan ((b - a) / (1 + b * a)) := by
    have h1 := arctan_add (x := b) (y := -a) (by nlinarith)
    rw [arctan_neg] at h1
    rw [sub_eq_add_neg, h1]
    congr 1
    ring
  rw [e, tan_arctan]
  exact div_le_self (by linarith) (by nlinarith [mul_nonneg h0 (h0.trans h)])

/-- the search where the slope of the polar varies little -/
theorem weak_slopes_run {M γ A B σ s0 d : ℝ} (h : 1 < γ) (hM : 0 < M) (A0 : 0 < A) (hA : A ≤ s0 * 0.999) (hB : s0 ≤ B) (B90 : B < 90) (hr : σ ∈ Set.Icc A B)
    (hp : 0 < 1 - betaSlope M γ (sin (Py.radians B) ^ 2))
    (hk : 1 - betaSlope M γ (sin (Py.radians A) ^ 2) ≤ (1 + 45/100) * (1 - betaSlope M γ (sin (Py.radians B) ^ 2)))
    (hd : |s0 * 0.999 - σ| ≤ d) (dA : A ≤ σ - 45/100 * d) (dB : σ + 45/100 * d ≤ B) (d3 : d ≤ 5) :
    ∃ m, secant_run (fun s => deflection_Mach_sigma M s γ) (devDeg M γ σ) s0 defaultTol = .ok ⟨m, false⟩ := by
  obtain ⟨y, hy⟩ : ∃ y, y = s0 * 0.999 := ⟨_, rfl⟩
  have hy' : y = 999/1000 * s0 := by rw [hy]; norm_num; ring
  rw [← hy] at hA hd
  have s00 : 0 < s0 := by nlinarith
  have mem : ∀ x ∈ Set.Icc A B, 0 < x ∧ x < 90 := fun x hx => ⟨A0.trans_le hx.1, hx.2.trans_lt B90⟩
  have hs0I : s0 ∈ Set.Icc A B := ⟨by linarith, hB⟩
  have hyI : y ∈ Set.Icc A B := ⟨hA, by linarith⟩
  have hAB : A ≤ B := hr.1.trans hr.2
  have smono : ∀ x z, 0 < x → x ≤ z → z < 90 → sin (Py.radians x) ^ 2 ≤ sin (Py.radians z) ^ 2 := by
    intro x z hx hxz hz
    have r1 := Py.radians_mem hx (by linarith)
    have r2 := Py.radians_mem (by linarith : 0 < z) hz
    refine pow_le_pow_left₀ (sin_pos' r1.1 r1.2).le (sin_le_sin_of_le_of_le_pi_div_two (by linarith [Real.pi_pos]) r2.2.le (Py.radians_strictMono.monotone hxz)) 2
  have S : Slopes (fun x => devDeg M γ x - devDeg M γ σ) A B (1 - betaSlope M γ (sin (Py.radians B) ^ 2)) (1 - betaSlope M γ (sin (Py.radians A) ^ 2)) := by
    refine Slopes.of_deriv (g := fun x => 1 - betaSlope M γ (sin (Py.radians x) ^ 2)) (fun x hx => (hasDerivAt_devDeg h hM (mem x hx).1 (mem x hx).2).sub_const _) ?_
    intro x hx
    have h1 := betaSlope_mono h hM (sq_nonneg _) (smono A x A0 hx.1 (mem x hx).2) (sin_sq_le_one _)
    have h2 := betaSlope_mono h hM (sq_nonneg _) (smono x B (mem x hx).1 hx.2 B90) (sin_sq_le_one _)
    exact ⟨by linarith, by linarith⟩
  have d0 : 0 ≤ d := (abs_nonneg _).trans hd
  have := is_slopes2 (f := fun s => deflection_Mach_sigma M s γ) (K := 1) (w := devDeg M γ σ) (tol := defaultTol) S hp hr (sub_self _) one_ne_zero
    (fun x hx => by rw [deflection_dev h hM (mem x hx).1 (mem x hx).2]; congr 1; ring) (κ := 45/100) (d := d)
    (by rw [sub_le_iff_le_add, div_le_iff₀ hp]; linarith) (by norm_num) (by norm_num) (by unfold defaultTol; norm_num) dA dB 17 s0 y hs0I hyI hd
    (by
      have : (45/100 : ℝ) ^ 17 * d * (1 + 45/100) ≤ (45/100 : ℝ) ^ 17 * 5 * (1 + 45/100) := by gcongr
      refine this.trans ?_
      unfold defaultTol
      norm_num)
  obtain ⟨m, hm, -⟩ := this
  refine ⟨m, ?_⟩
  unfold secant_run
  simp only []
  rw [deflection_dev h hM s00 (mem s0 hs0I).2, Py.ok_bind, ← hy]
  rw [show 1 * (devDeg M γ s0 - devDeg M γ σ) + devDeg M γ σ = devDeg M γ s0 by ring] at hm
  exact hm

end Aerokit.Props
