import Verif.Lemmas.WeakSearch

/-! # The secant search of the weak shock angle, from the left: one step, and the whole loop -/

namespace Aerokit.Props
open Real ShockWave IterativeSolve
open ScipyNewton (chord chord_slope)

/-! ## the sine near the root -/

theorem one_sub_cos_ge {e : ℝ} (h0 : 0 ≤ e) (h1 : e ≤ 23/20) : 4/9 * e ^ 2 ≤ 1 - cos e := by
  have h := sin_ge_sub_cube (x := e / 2) (by linarith)
  have hs : 1 - cos e = 2 * sin (e / 2) ^ 2 := by
    have h3 := cos_two_mul (e / 2)
    have h4 := sin_sq_add_cos_sq (e / 2)
    rw [show 2 * (e / 2) = e by ring] at h3
    linarith
  have e2 : e ^ 2 ≤ 1323/1000 := by nlinarith
  have h2 : 9428/10000 * (e / 2) ≤ sin (e / 2) := by
    refine le_trans ?_ h
    nlinarith [mul_nonneg h0 (sub_nonneg.2 e2)]
  rw [hs]
  have h3 : (9428/10000 * (e / 2)) ^ 2 ≤ sin (e / 2) ^ 2 := pow_le_pow_left₀ (by positivity) h2 2
  nlinarith [sq_nonneg e]

theorem sin_ge_cos {e : ℝ} (h0 : 0 ≤ e) (h1 : e ≤ 23/20) : e * (1 - 3/8 * (1 - cos e)) ≤ sin e := by
  have h := sin_ge_sub_cube h0
  have h2 := mul_le_mul_of_nonneg_left (one_sub_cos_ge h0 h1) h0
  nlinarith

/-- relative distance of the sine to that of the root -/
noncomputable def relSin (r s : ℝ) : ℝ := 1 - sin s / sin r

theorem one_sub_cos_le {r y : ℝ} (hy : y ≤ r) (h0 : 0 < r) (h1 : r < π / 2) (hd : r - y ≤ π) : 1 - cos (r - y) ≤ relSin r y := by
  obtain ⟨hS, hC⟩ := sin_cos_pos h0 h1
  have : sin y = sin r * cos (r - y) - cos r * sin (r - y) := by rw [← sin_sub]; congr 1; ring
  unfold relSin
  have h2 := mul_nonneg hC.le (sin_nonneg_of_nonneg_of_le_pi (by linarith : 0 ≤ r - y) hd)
  have : sin y / sin r ≤ cos (r - y) := by rw [div_le_iff₀ hS]; linarith
  linarith

theorem relSin_concave {r y c : ℝ} (hy0 : 0 ≤ y) (hyc : y ≤ c) (hc : c ≤ r) (h0 : 0 < r) (h1 : r < π / 2) : relSin r c * (r - y) ≤ relSin r y * (r - c) := by
  obtain ⟨hS, hC⟩ := sin_cos_pos h0 h1
  unfold relSin
  rcases hyc.eq_or_lt with e | e
  · rw [e]
  rcases hc.eq_or_lt with e' | e'
  · rw [e', div_self hS.ne']; simp
  have hcv := strictConcaveOn_sin_Icc.concaveOn.slope_anti_adjacent (x := y) (y := c) (z := r) ⟨hy0, by linarith⟩ ⟨by linarith, by linarith⟩ e e'
  rw [div_le_div_iff₀ (by linarith) (by linarith)] at hcv
  rw [one_sub_div hS.ne', one_sub_div hS.ne', div_mul_eq_mul_div, div_mul_eq_mul_div]
  gcongr ?_ / _
  linarith

/-! ## one step -/

theorem weak_step {M γ sm x y r c : ℝ} (h : 1 < γ) (hM : 0 < M) (hx : 0 < x) (hxy : x < y) (hyr : y < r) (hr : r ≤ sm) (hs : sm < π / 2)
    (hm : 1 - betaSlope M γ (sin sm ^ 2) = 0) (hd : r - y ≤ 23/20) (hyc : y ≤ c) (hcr : c ≤ r)
    (hc : (c - y) * (devRad M γ y - devRad M γ x) = (devRad M γ r - devRad M γ y) * (y - x)) :
    relSin r c * (1 - sin r ^ 2 / sin sm ^ 2 * ((1 - relSin r x) * (1 - relSin r y))) ≤ relSin r y * (1 - (1 - relSin r x) * (1 - 3/8 * relSin r y)) := by
  obtain ⟨k1, k2, k3, k4, k5⟩ := dev_compare h hM hx hxy hyr hr hs hm
  have hr2 : r < π / 2 := hr.trans_lt hs
  have Sx := sin_pos' hx (by linarith)
  have Sy := sin_pos' (hx.trans hxy) (by linarith)
  have Sr := sin_pos' (hx.trans (hxy.trans hyr)) hr2
  have Sm := sin_pos' (hx.trans (hxy.trans (hyr.trans_le hr))) hs
  have h1 : (cmp (sin sm ^ 2) r - cmp (sin sm ^ 2) y) * (y - x) ≤ (c - y) * (cmp (sin sm ^ 2) y - cmp (sin sm ^ 2) x) := by
    refine le_of_mul_le_mul_right ?_ k2
    have := mul_le_mul_of_nonneg_right k1 (sub_pos.2 hxy).le
    calc (cmp (sin sm ^ 2) r - cmp (sin sm ^ 2) y) * (y - x) * (devRad M γ y - devRad M γ x) =
        (devRad M γ y - devRad M γ x) * (cmp (sin sm ^ 2) r - cmp (sin sm ^ 2) y) * (y - x) := by ring
      _ ≤ _ := this
      _ = (devRad M γ r - devRad M γ y) * (y - x) * (cmp (sin sm ^ 2) y - cmp (sin sm ^ 2) x) := by ring
      _ = _ := by rw [← hc]; ring
  rw [cmp_diff Sx.ne' Sy.ne', cmp_diff Sy.ne' Sr.ne'] at h1
  have h2 : sin (y - x) / (sin x * sin y) - (y - x) / sin sm ^ 2 ≤ (y - x) * (1 / (sin x * sin y) - 1 / sin sm ^ 2) := by
    have : sin (y - x) / (sin x * sin y) ≤ (y - x) / (sin x * sin y) := by
      gcongr; exact sin_le (by linarith)
    have e : (y - x) * (1 / (sin x * sin y) - 1 / sin sm ^ 2) = (y - x) / (sin x * sin y) - (y - x) / sin sm ^ 2 := by ring
    linarith
  have h3 : sin (r - y) / (sin y * sin r) - (r - y) / sin sm ^ 2 ≤ (c - y) * (1 / (sin x * sin y) - 1 / sin sm ^ 2) := by
    have := mul_le_mul_of_nonneg_left h2 (sub_nonneg.2 hyc)
    refine le_of_mul_le_mul_right ?_ (sub_pos.2 hxy)
    refine (h1.trans this).trans_eq (by ring)
  -- multiply by sin x * sin y
  have h4 : (r - c) * (1 - sin r ^ 2 / sin sm ^ 2 * ((1 - relSin r x) * (1 - relSin r y))) ≤ (r - y) - (1 - relSin r x) * sin (r - y) := by
    have := mul_le_mul_of_nonneg_right h3 (mul_pos Sx Sy).le
    have e1 : (sin (r - y) / (sin y * sin r) - (r - y) / sin sm ^ 2) * (sin x * sin y) = sin x / sin r * sin (r - y) - (r - y) * (sin x * sin y / sin sm ^ 2) := by
      field_simp
    have e2 : (c - y) * (1 / (sin x * sin y) - 1 / sin sm ^ 2) * (sin x * sin y) = (c - y) * (1 - sin x * sin y / sin sm ^ 2) := by
      field_simp
    rw [e1, e2] at this
    unfold relSin
    have e3 : sin r ^ 2 / sin sm ^ 2 * ((1 - (1 - sin x / sin r)) * (1 - (1 - sin y / sin r))) = sin x * sin y / sin sm ^ 2 := by
      field_simp; ring
    rw [e3, sub_sub_cancel]
    linarith
  have hx1 : 0 ≤ 1 - relSin r x := by unfold relSin; rw [sub_sub_cancel]; positivity
  have hcos := one_sub_cos_le hyr.le (hx.trans (hxy.trans hyr)) hr2 (by linarith [Real.pi_gt_three])
  have hsc := sin_ge_cos (e := r - y) (by linarith) hd
  have h5 : (r - y) - (1 - relSin r x) * sin (r - y) ≤ (r - y) * (1 - (1 - relSin r x) * (1 - 3/8 * relSin r y)) := by
    have a1 : (r - y) * (1 - 3/8 * relSin r y) ≤ sin (r - y) := by
      refine le_trans (mul_le_mul_of_nonneg_left ?_ (by linarith)) hsc
      linarith
    have := mul_le_mul_of_nonneg_left a1 hx1
    linarith
  have hcc := relSin_concave (by linarith : 0 ≤ y) hyc hcr (hx.trans (hxy.trans hyr)) hr2
  have hD : 0 ≤ 1 - sin r ^ 2 / sin sm ^ 2 * ((1 - relSin r x) * (1 - relSin r y)) := by
    unfold relSin
    have e3 : sin r ^ 2 / sin sm ^ 2 * ((1 - (1 - sin x / sin r)) * (1 - (1 - sin y / sin r))) = sin x * sin y / sin sm ^ 2 := by
      field_simp; ring
    rw [e3, sub_nonneg, div_le_one (by positivity), pow_two]
    have hm1 : sin x ≤ sin sm := sin_le_sin_of_le_of_le_pi_div_two (by linarith [Real.pi_pos]) hs.le (by linarith)
    have hm2 : sin y ≤ sin sm := sin_le_sin_of_le_of_le_pi_div_two (by linarith [Real.pi_pos]) hs.le (by linarith)
    exact mul_le_mul hm1 hm2 Sy.le Sm.le
  have hEy : 0 ≤ relSin r y := by
    have := cos_le_one (r - y)
    linarith
  refine le_of_mul_le_mul_right ?_ (sub_pos.2 hyr)
  have b1 := mul_le_mul_of_nonneg_right hcc hD
  have b2 := mul_le_mul_of_nonneg_left (h4.trans h5) hEy
  obtain ⟨D, hDD⟩ : ∃ D, D = 1 - sin r ^ 2 / sin sm ^ 2 * ((1 - relSin r x) * (1 - relSin r y)) := ⟨_, rfl⟩
  rw [← hDD] at b1 b2 ⊢
  linarith

/-! ## algebra of the step -/

/-- what the bounds of two successive points give for the next one -/
structure WeakGood (η0 A B C : ℝ) : Prop where
  main : B * (A + 3/8 * B * (1 - η0 * A)) ≤ C * (1 + (1 - η0) * (A + B - η0 * (A * B)))
  slope : 3/8 * B * (A * B) ≤ C * (A + B + A * B - 2 * η0 * (A * B))

theorem sum_prod_nonneg {η A B : ℝ} (A0 : 0 ≤ A) (B0 : 0 ≤ B) (h : η * A ≤ 1) : 0 ≤ A + B - η * (A * B) := by
  have := mul_le_mul_of_nonneg_right h B0
  linarith

theorem good_mono {η A B a b : ℝ} (hη : 0 ≤ η) (η1 : 0 ≤ 1 - η) (a0 : 0 ≤ a) (b0 : 0 ≤ b) (ha : a ≤ A) (hb : b ≤ B) (hA : η * A ≤ 1) (hB : η * B ≤ 1) :
    b * (a + 3/8 * b * (1 - η * a)) * (1 + (1 - η) * (A + b - η * (A * b))) ≤ b * (A + 3/8 * b * (1 - η * A)) * (1 + (1 - η) * (a + b - η * (a * b))) ∧
    b * (A + 3/8 * b * (1 - η * A)) * (1 + (1 - η) * (A + B - η * (A * B))) ≤ B * (A + 3/8 * B * (1 - η * A)) * (1 + (1 - η) * (A + b - η * (A * b))) := by
  have hηb : η * b ≤ 1 := (mul_le_mul_of_nonneg_left hb hη).trans hB
  constructor
  · have e : b * (A + 3/8 * b * (1 - η * A)) * (1 + (1 - η) * (a + b - η * (a * b))) - b * (a + 3/8 * b * (1 - η * a)) * (1 + (1 - η) * (A + b - η * (A * b))) =
        b * (A - a) * ((1 - 3/8 * (η * b)) * (1 + (1 - η) * b) - 3/8 * b * ((1 - η) * (1 - η * b))) := by ring
    have p : 0 ≤ (1 - 3/8 * (η * b)) * (1 + (1 - η) * b) - 3/8 * b * ((1 - η) * (1 - η * b)) := by
      have q1 : 0 ≤ (1 - η) * b := mul_nonneg η1 b0
      have q3 : 0 ≤ η * b := mul_nonneg hη b0
      have : (1 - 3/8 * (η * b)) * (1 + (1 - η) * b) - 3/8 * b * ((1 - η) * (1 - η * b)) = (1 - 3/8 * (η * b)) + 5/8 * ((1 - η) * b) := by ring
      rw [this]; linarith
    have := mul_nonneg (mul_nonneg b0 (sub_nonneg.2 ha)) p
    linarith
  · have e : B * (A + 3/8 * B * (1 - η * A)) * (1 + (1 - η) * (A + b - η * (A * b))) - b * (A + 3/8 * b * (1 - η * A)) * (1 + (1 - η) * (A + B - η * (A * B))) =
        (B - b) * ((1 + (1 - η) * A) * (A + 3/8 * (1 - η * A) * (B + b)) + (1 - η) * (1 - η * A) * (b * B) * (3/8 * (1 - η * A))) := by ring
    have q1 : 0 ≤ 1 - η * A := by linarith
    have q0 : 0 ≤ B - b := by linarith
    have A0 := a0.trans ha
    have B0 := b0.trans hb
    have p : 0 ≤ (B - b) * ((1 + (1 - η) * A) * (A + 3/8 * (1 - η * A) * (B + b)) + (1 - η) * (1 - η * A) * (b * B) * (3/8 * (1 - η * A))) := by positivity
    linarith

theorem weakGood_step {η0 η A B C a b c l : ℝ} (G : WeakGood η0 A B C) (hη : 0 < η) (hη0 : η ≤ η0) (h1 : η0 ≤ 1) (hA : η0 * A ≤ 1) (hB : η0 * B ≤ 1) (C0 : 0 ≤ C)
    (a0 : 0 ≤ a) (b0 : 0 ≤ b) (ha : a ≤ η * A) (hb : b ≤ η * B) (hl : l ≤ 1 - η)
    (hc0 : 0 ≤ c) (hc : c * (1 - l * ((1 - a) * (1 - b))) ≤ b * (1 - (1 - a) * (1 - 3/8 * b))) : c ≤ η * C := by
  obtain ⟨α, hα⟩ : ∃ α, α = a / η := ⟨_, rfl⟩
  obtain ⟨β, hβ⟩ : ∃ β, β = b / η := ⟨_, rfl⟩
  obtain ⟨κ, hκ⟩ : ∃ κ, κ = c / η := ⟨_, rfl⟩
  have ea : a = η * α := by rw [hα]; field_simp
  have eb : b = η * β := by rw [hβ]; field_simp
  have ec : c = η * κ := by rw [hκ]; field_simp
  have α0 : 0 ≤ α := by rw [hα]; positivity
  have β0 : 0 ≤ β := by rw [hβ]; positivity
  have κ0 : 0 ≤ κ := by rw [hκ]; positivity
  have αA : α ≤ A := by rw [ea] at ha; exact le_of_mul_le_mul_left ha hη
  have βB : β ≤ B := by rw [eb] at hb; exact le_of_mul_le_mul_left hb hη
  have A0 := α0.trans αA
  have B0 := β0.trans βB
  have hηA : η * A ≤ 1 := (mul_le_mul_of_nonneg_right hη0 A0).trans hA
  have hηB : η * B ≤ 1 := (mul_le_mul_of_nonneg_right hη0 B0).trans hB
  have hηa : η * α ≤ 1 := (mul_le_mul_of_nonneg_left αA hη.le).trans hηA
  have hηb : η * β ≤ 1 := (mul_le_mul_of_nonneg_left βB hη.le).trans hηB
  have η1 : 0 ≤ 1 - η := by linarith
  -- at the given η, for the bounds
  have main : B * (A + 3/8 * B * (1 - η * A)) ≤ C * (1 + (1 - η) * (A + B - η * (A * B))) := by
    have e1 : C * (1 + (1 - η) * (A + B - η * (A * B))) - B * (A + 3/8 * B * (1 - η * A)) =
        (C * (1 + (1 - η0) * (A + B - η0 * (A * B))) - B * (A + 3/8 * B * (1 - η0 * A))) +
        (η0 - η) * (C * (A + B + A * B - (η0 + η) * (A * B)) - 3/8 * B * (A * B)) := by ring
    have e2 : 0 ≤ C * (A + B + A * B - (η0 + η) * (A * B)) - 3/8 * B * (A * B) := by
      have h2 : C * (A + B + A * B - 2 * η0 * (A * B)) ≤ C * (A + B + A * B - (η0 + η) * (A * B)) := by
        refine mul_le_mul_of_nonneg_left ?_ C0
        have := mul_le_mul_of_nonneg_right hη0 (mul_nonneg A0 B0)
        linarith
      linarith [G.slope]
    have := mul_nonneg (sub_nonneg.2 hη0) e2
    linarith [G.main]
  -- from the bounds to the values
  have hD : 0 < 1 + (1 - η) * (A + B - η * (A * B)) := by
    have : 0 ≤ A + B - η * (A * B) := sum_prod_nonneg A0 B0 hηA
    have := mul_nonneg η1 this
    linarith
  obtain ⟨m1, m2⟩ := good_mono hη.le η1 α0 β0 αA βB hηA hηB
  have hDa : 0 < 1 + (1 - η) * (α + β - η * (α * β)) := by
    have : 0 ≤ α + β - η * (α * β) := sum_prod_nonneg α0 β0 hηa
    have := mul_nonneg η1 this
    linarith
  have hDm : 0 < 1 + (1 - η) * (A + β - η * (A * β)) := by
    have : 0 ≤ A + β - η * (A * β) := sum_prod_nonneg A0 β0 hηA
    have := mul_nonneg η1 this
    linarith
  have m3 : β * (A + 3/8 * β * (1 - η * A)) ≤ C * (1 + (1 - η) * (A + β - η * (A * β))) := by
    refine le_of_mul_le_mul_right ?_ hD
    have := mul_le_mul_of_nonneg_right main hDm.le
    linarith
  have m4 : β * (α + 3/8 * β * (1 - η * α)) ≤ C * (1 + (1 - η) * (α + β - η * (α * β))) := by
    refine le_of_mul_le_mul_right ?_ hDm
    have := mul_le_mul_of_nonneg_right m3 hDa.le
    linarith
  have m5 : κ * (1 + (1 - η) * (α + β - η * (α * β))) ≤ β * (α + 3/8 * β * (1 - η * α)) := by
    rw [ea, eb, ec] at hc
    have hll : (1 - (1 - η)) + (1 - η) * (η * α + η * β - η * α * (η * β)) ≤ 1 - l * ((1 - η * α) * (1 - η * β)) := by
      have : 0 ≤ (1 - η * α) * (1 - η * β) := mul_nonneg (by linarith) (by linarith)
      have := mul_le_mul_of_nonneg_right hl this
      linarith
    have h3 := (mul_le_mul_of_nonneg_left hll (mul_nonneg hη.le κ0)).trans hc
    refine le_of_mul_le_mul_left ?_ (mul_pos hη hη)
    linarith
  have m6 : κ ≤ C := le_of_mul_le_mul_right (m5.trans m4) hDa
  rw [ec]; exact mul_le_mul_of_nonneg_left m6 hη.le

/-! ## the loop -/

/-- a list of bounds each of which follows from the two before it -/
def Descends (η0 : ℝ) : ℝ → ℝ → List ℝ → Prop
  | _, _, [] => True
  | A, B, C :: l => WeakGood η0 A B C ∧ 0 ≤ C ∧ η0 * C ≤ 1 ∧ Descends η0 B C l

/-- the bound on the older point after all the steps -/
def lastTwo : ℝ → ℝ → List ℝ → ℝ
  | A, _, [] => A
  | _, B, C :: l => lastTwo B C l

theorem weak_loop {G : ℝ → ℝ} {e : ℝ → ℝ} {f : ℝ → Py ℝ} {a r d tol η η0 l : ℝ} (ha : 0 ≤ a) (hη : 0 < η) (hη0 : η ≤ η0) (h1 : η0 ≤ 1) (hl : l ≤ 1 - η) (hr : G r = d)
    (hf : ∀ x ∈ Set.Icc a r, f x = .ok (G x)) (hlt : ∀ x ∈ Set.Icc a r, ∀ y ∈ Set.Icc a r, x < y → G x < G y)
    (conc : ∀ x ∈ Set.Icc a r, ∀ y ∈ Set.Icc a r, x < y → (d - G y) * (y - x) ≤ (G y - G x) * (r - y))
    (he : ∀ x ∈ Set.Icc a r, 0 ≤ e x)
    (step : ∀ x ∈ Set.Icc a r, ∀ y ∈ Set.Icc a r, ∀ c ∈ Set.Icc a r, x < y → y < r → y ≤ c → (c - y) * (G y - G x) = (d - G y) * (y - x) →
      e c * (1 - l * ((1 - e x) * (1 - e y))) ≤ e y * (1 - (1 - e x) * (1 - 3/8 * e y))) (ht : 0 < tol) :
    ∀ (L : List ℝ) (A B x y : ℝ), Descends η0 A B L → η0 * A ≤ 1 → η0 * B ≤ 1 → x ∈ Set.Icc a r → y ∈ Set.Icc a r → x ≤ y → e x ≤ η * A → e y ≤ η * B →
      (∀ z ∈ Set.Icc a r, e z ≤ η * lastTwo A B L → r - z ≤ tol * z) →
      ∃ m, secantLoop f d tol (L.length + 1) x (G x) y = .ok ⟨m, false⟩ := by
  intro L
  induction L with
  | nil =>
    intro A B x y _ hA hB hx hy hxy hex hey hz
    refine ⟨y, is_stop (le_max_of_le_right ?_)⟩
    rw [abs_of_nonneg (sub_nonneg.2 hxy), abs_of_nonneg (ha.trans hy.1)]
    have h2 := hz x hx hex
    have := mul_le_mul_of_nonneg_left hxy ht.le
    linarith [hy.2]
  | cons C L ih =>
    intro A B x y hD hA hB hx hy hxy hex hey hz
    by_cases hst : |y - x| ≤ max tol (tol * |y|)
    · exact ⟨y, is_stop hst⟩
    push Not at hst
    obtain ⟨hG, hC0, hC1, hD'⟩ := hD
    have hxy' : x < y := by
      rcases hxy.eq_or_lt with e' | e'
      · rw [e', sub_self, abs_zero] at hst
        exact absurd hst (not_lt.2 (le_max_of_le_left ht.le))
      · exact e'
    have hg := hlt x hx y hy hxy'
    obtain ⟨c, hc⟩ : ∃ c, c = y + (y - x) / (G y - G x) * (d - G y) := ⟨_, rfl⟩
    have hc' : (c - y) * (G y - G x) = (d - G y) * (y - x) := by
      have : G y - G x ≠ 0 := by linarith
      rw [hc]; field_simp; ring
    have hdy : 0 ≤ d - G y := by
      rcases hy.2.eq_or_lt with e' | e'
      · rw [e', hr]; simp
      · have := hlt y hy r ⟨hy.1.trans hy.2, le_rfl⟩ e'
        rw [hr] at this; linarith
    have hyc : y ≤ c := by
      have : 0 ≤ (c - y) * (G y - G x) := by rw [hc']; exact mul_nonneg hdy (by linarith)
      have := nonneg_of_mul_nonneg_left this (by linarith)
      linarith
    have hcr : c ≤ r := by
      have h3 := conc x hx y hy hxy'
      rw [← hc'] at h3
      have := le_of_mul_le_mul_left (by linarith : (G y - G x) * (c - y) ≤ (G y - G x) * (r - y)) (by linarith)
      linarith
    have hcm : c ∈ Set.Icc a r := ⟨hy.1.trans hyc, hcr⟩
    have hnext : secantLoop f d tol (L.length + 1 + 1) x (G x) y = secantLoop f d tol (L.length + 1) y (G y) c := by
      rw [secantLoop, if_pos hst, hf y hy, Py.ok_bind, Py.div_ok (by linarith), Py.ok_bind, ← hc]
    rw [List.length_cons, hnext]
    rcases hy.2.eq_or_lt with e' | e'
    · have : c = y := by linarith
      refine ⟨c, is_stop ?_⟩
      rw [this, sub_self, abs_zero]; exact le_max_of_le_left ht.le
    · exact ih B C y c hD' hB hC1 hy hcm hyc hey
        (weakGood_step hG hη hη0 h1 hA hB hC0 (he x hx) (he y hy) hex hey hl (he c hcm) (step x hx y hy c hcm hxy' e' hyc hc')) hz

end Aerokit.Props
