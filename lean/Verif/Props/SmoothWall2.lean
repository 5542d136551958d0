import Verif.Props.SmoothWall

/-! # C161 — the smooth wall notebook: its walls, its flow and its end-to-end runs -/

namespace Aerokit.Props
open Real Supersonic Isentropic ScipyNewton SmoothWall
open MassFlow (RootFinder)

/-- the wall of slope `max 0 (min x 1)`: flat, parabolic, straight -/
noncomputable def unitRamp (x : ℝ) : ℝ := if x < 0 then 0 else if x < 1 then x ^ 2 / 2 else x - 1 / 2

theorem unitRamp_tangent {s : ℝ} (h0 : 0 ≤ s) (h1 : s ≤ 1) (z : ℝ) : s * z - s ^ 2 / 2 ≤ unitRamp z := by
  unfold unitRamp
  split_ifs with a b
  · nlinarith
  · nlinarith [sq_nonneg (z - s)]
  · nlinarith

theorem unitRamp_contact (x : ℝ) : 0 ≤ max 0 (min x 1) ∧ max 0 (min x 1) ≤ 1 ∧ unitRamp x = max 0 (min x 1) * x - max 0 (min x 1) ^ 2 / 2 := by
  refine ⟨le_max_left _ _, max_le (by norm_num) (min_le_right _ _), ?_⟩
  unfold unitRamp
  split_ifs with a b
  · rw [max_eq_left ((min_le_left _ _).trans a.le)]; ring
  · rw [min_eq_left b.le, max_eq_right (by linarith)]; ring
  · rw [min_eq_right (by linarith), max_eq_right (by norm_num)]; ring

theorem unitRamp_convex : ConvexOn ℝ Set.univ unitRamp := by
  refine ⟨convex_univ, fun x _ y _ a b ha hb hab => ?_⟩
  simp only [smul_eq_mul]
  obtain ⟨h0, h1, h2⟩ := unitRamp_contact (a * x + b * y)
  rw [h2]
  generalize max 0 (min (a * x + b * y) 1) = s at *
  have e1 := unitRamp_tangent h0 h1 x
  have e2 := unitRamp_tangent h0 h1 y
  have : b = 1 - a := by linarith
  subst this
  nlinarith [mul_le_mul_of_nonneg_left e1 ha, mul_le_mul_of_nonneg_left e2 hb]

theorem ramp_value {ang : ℝ} (h1 : -90 < ang) (h2 : ang < 90) (x : ℝ) : ramp ang x = .ok (Real.tan (Py.radians ang) * unitRamp x) := by
  unfold ramp
  rw [tanDeg_ok h1 h2, Py.ok_bind, Py.pure_eq]
  congr 1
  unfold unitRamp
  split_ifs <;> norm_num <;> ring

/-- the mean slope of the unit ramp over `[x - 1e-4, x + 1e-4]` -/
noncomputable def meanSlope (x : ℝ) : ℝ := (unitRamp (x + 1e-4) - unitRamp (x - 1e-4)) / (2 * 1e-4)

theorem meanSlope_le (x : ℝ) : meanSlope x ≤ max 0 (min (x + 1e-4) 1) := by
  obtain ⟨h0, h1, h2⟩ := unitRamp_contact (x + 1e-4)
  have := unitRamp_tangent h0 h1 (x - 1e-4)
  unfold meanSlope
  generalize max 0 (min (x + 1e-4) 1) = s at *
  rw [div_le_iff₀ (by norm_num)]
  linarith

theorem le_meanSlope (x : ℝ) : max 0 (min (x - 1e-4) 1) ≤ meanSlope x := by
  obtain ⟨h0, h1, h2⟩ := unitRamp_contact (x - 1e-4)
  have := unitRamp_tangent h0 h1 (x + 1e-4)
  unfold meanSlope
  generalize max 0 (min (x - 1e-4) 1) = s at *
  rw [le_div_iff₀ (by norm_num)]
  linarith

theorem meanSlope_mid {x : ℝ} (h0 : 1e-4 ≤ x) (h1 : x ≤ 1 - 1e-4) : meanSlope x = x := by
  have e1 : unitRamp (x + 1e-4) = (x + 1e-4) ^ 2 / 2 := by
    have : ¬ x + 1e-4 < 0 := by norm_num at h0 ⊢; linarith
    unfold unitRamp
    rw [if_neg this]
    split_ifs with b
    · rfl
    · have : x + 1e-4 = 1 := by linarith
      rw [this]; norm_num
  have e2 : unitRamp (x - 1e-4) = (x - 1e-4) ^ 2 / 2 := by
    have a : ¬ x - 1e-4 < 0 := by linarith
    have b : x - 1e-4 < 1 := by norm_num at h1 ⊢; linarith
    unfold unitRamp
    rw [if_neg a, if_pos b]
  unfold meanSlope
  rw [e1, e2]
  norm_num
  ring

theorem meanSlope_flat {x : ℝ} (h : x ≤ -1e-4) : meanSlope x = 0 := by
  have := meanSlope_le x
  have h2 := le_meanSlope x
  rw [max_eq_left ((min_le_left _ _).trans (by linarith))] at this h2
  linarith

theorem meanSlope_top {x : ℝ} (h : 1 + 1e-4 ≤ x) : meanSlope x = 1 := by
  have := meanSlope_le x
  have h2 := le_meanSlope x
  have h3 : (0:ℝ) < 1e-4 := by norm_num
  rw [min_eq_right (by linarith), max_eq_right (by norm_num)] at this h2
  linarith

theorem meanSlope_mem (x : ℝ) : 0 ≤ meanSlope x ∧ meanSlope x ≤ 1 :=
  ⟨(le_max_left _ _).trans (le_meanSlope x), (meanSlope_le x).trans (max_le (by norm_num) (min_le_right _ _))⟩

theorem ramp_angle {ang : ℝ} (h1 : -90 < ang) (h2 : ang < 90) (x : ℝ) :
    wall_angle (ramp ang) x = .ok (degree.atan (Real.tan (Py.radians ang) * meanSlope x)) := by
  rw [wall_angle_value (ramp_value h1 h2)]
  congr 2
  unfold meanSlope
  ring

/-- **C161 (the wall angle).** For the wall made of a flat part, a parabola and a straight part at the angle `ang`, `wall_angle` is the direction of a slope `s · tan ang`, `s` within
`1e-4` of the true one, `max 0 (min x 1)`, and exact more than `1e-4` away from the junctions: `0`, the slope of the parabola, and `ang`. -/
theorem C161_angle (ang x : ℝ) (h1 : -90 < ang) (h2 : ang < 90) : ∃ s, wall_angle (ramp ang) x = .ok (180 / π * arctan (s * Real.tan (ang * (π / 180)))) ∧
    0 ≤ s ∧ s ≤ 1 ∧ |s - max 0 (min x 1)| ≤ 1e-4 ∧ (1e-4 ≤ x → x ≤ 1 - 1e-4 → s = x) ∧
    (x ≤ -1e-4 → s = 0 ∧ wall_angle (ramp ang) x = .ok 0) ∧ (1 + 1e-4 ≤ x → s = 1 ∧ wall_angle (ramp ang) x = .ok ang) := by
  have hr := ramp_angle h1 h2 x
  obtain ⟨m0, m1⟩ := meanSlope_mem x
  refine ⟨meanSlope x, ?_, m0, m1, ?_, meanSlope_mid, ?_, ?_⟩
  · rw [hr]
    congr 1
    unfold degree.atan Py.degrees Py.radians
    rw [mul_comm (meanSlope x)]
    ring
  · have a := meanSlope_le x
    have b := le_meanSlope x
    have hd : (0:ℝ) < 1e-4 := by norm_num
    set d : ℝ := 1e-4
    have c1 : max 0 (min (x + d) 1) ≤ max 0 (min x 1) + d := by
      refine max_le (by have := le_max_left 0 (min x 1); linarith) ?_
      rcases le_total x 1 with h | h
      · have := le_max_right 0 (min x 1); rw [min_eq_left h] at this ⊢
        exact (min_le_left _ _).trans (by linarith)
      · have := le_max_right 0 (min x 1); rw [min_eq_right h] at this ⊢
        exact (min_le_right _ _).trans (by linarith)
    have c2 : max 0 (min x 1) - d ≤ max 0 (min (x - d) 1) := by
      rw [sub_le_iff_le_add]
      refine max_le (by have := le_max_left 0 (min (x - d) 1); linarith) ?_
      rcases le_total (x - d) 1 with h | h
      · have := le_max_right 0 (min (x - d) 1); rw [min_eq_left h] at this ⊢
        exact (min_le_left _ _).trans (by linarith)
      · have := le_max_right 0 (min (x - d) 1); rw [min_eq_right h] at this ⊢
        exact (min_le_right _ _).trans (by linarith)
    rw [abs_le]
    constructor <;> linarith
  · intro h
    refine ⟨meanSlope_flat h, ?_⟩
    rw [hr, meanSlope_flat h]
    simp [degree.atan, Py.degrees]
  · intro h
    refine ⟨meanSlope_top h, ?_⟩
    rw [hr, meanSlope_top h, mul_one]
    congr 1
    unfold degree.atan
    rw [arctan_tan (by unfold Py.radians; nlinarith [pi_pos]) (by unfold Py.radians; nlinarith [pi_pos]), Py.degrees_radians]

example : ∃ s, wall_angle (ramp (-20)) 0.5 = .ok (180 / π * arctan (s * Real.tan (-20 * (π / 180)))) ∧ s = 0.5 := by
  obtain ⟨s, h1, -, -, -, h2, -⟩ := C161_angle (-20) 0.5 (by norm_num) (by norm_num)
  exact ⟨s, h1, h2 (by norm_num) (by norm_num)⟩

/-! ## numbers -/

theorem pm_two : pmDeg 1.4 1.2 < 5 ∧ 26 < pmDeg 1.4 2 := by
  have hp := Real.pi_gt_d4
  have hp2 := Real.pi_lt_d4
  obtain ⟨s1, s2⟩ := sqrt_six_bounds
  have deg : ∀ a : ℝ, a = Py.degrees (Py.radians a) := fun a => (Py.degrees_radians a).symm
  have hdiv : ∀ β : ℝ, 0 ≤ β → √β / √6 = √(β / 6) := fun β h => (Real.sqrt_div h 6).symm
  norm_num at hp hp2 s1 s2
  constructor
  · rw [deg 5]
    unfold pmDeg
    rw [Py.degrees_lt]
    unfold pmRad Py.radians
    rw [pmC_air, hdiv _ (by norm_num)]
    have a1 : arctan √((1.2 ^ 2 - 1) / 6) ≤ 271/1000 :=
      (arctan_le_self' (sqrt_nonneg _)).trans ((Real.sqrt_le_left (by norm_num)).2 (by norm_num))
    have a2 : π / 4 - 337/1663 ≤ arctan √(1.2 ^ 2 - 1) := by
      have h1 : (663/1000:ℝ) ≤ √(1.2 ^ 2 - 1) := Real.le_sqrt_of_sq_le (by norm_num)
      refine le_trans ?_ (Real.arctan_strictMono.monotone h1)
      have h2 := Real.arctan_add (x := 663/1000) (y := 337/1663) (by norm_num)
      rw [show ((663/1000:ℝ) + 337/1663) / (1 - 663/1000 * (337/1663)) = 1 by norm_num, Real.arctan_one] at h2
      have := arctan_le_self' (x := 337/1663) (by norm_num)
      linarith
    have h3 : √6 * arctan √((1.2 ^ 2 - 1) / 6) ≤ 24495/10000 * (271/1000) :=
      mul_le_mul (by linarith) a1 (Real.arctan_nonneg.2 (sqrt_nonneg _)) (by norm_num)
    norm_num at a2 h3 ⊢
    linarith
  · rw [deg 26]
    unfold pmDeg
    rw [Py.degrees_lt]
    unfold pmRad Py.radians
    rw [pmC_air, hdiv _ (by norm_num)]
    have a1 : arctan √((2:ℝ) ^ 2 - 1) = π / 3 := by
      rw [show ((2:ℝ) ^ 2 - 1) = 3 by norm_num, Real.arctan_sqrt_three]
    have a2 : π / 4 - 293/1707 ≤ arctan √((2 ^ 2 - 1) / 6) := by
      have h1 : (707/1000:ℝ) ≤ √((2 ^ 2 - 1) / 6) := Real.le_sqrt_of_sq_le (by norm_num)
      refine le_trans ?_ (Real.arctan_strictMono.monotone h1)
      have h2 := Real.arctan_add (x := 707/1000) (y := 293/1707) (by norm_num)
      rw [show ((707/1000:ℝ) + 293/1707) / (1 - 707/1000 * (293/1707)) = 1 by norm_num, Real.arctan_one] at h2
      have := arctan_le_self' (x := 293/1707) (by norm_num)
      linarith
    rw [a1]
    have h3 : 2449/1000 * (π / 4 - 293/1707) ≤ √6 * arctan √((2 ^ 2 - 1) / 6) :=
      mul_le_mul s1.le a2 (by linarith) (by positivity)
    norm_num at h3 ⊢
    linarith

/-- every angle between 5 degrees and 51 degrees above that of Mach 2 is that of a Mach number between 1.2 and 10 -/
theorem pm_room {w : ℝ} (h1 : 5 ≤ w) (h2 : w ≤ pmDeg 1.4 2 + 51) : ∃ M, 1.2 ≤ M ∧ M ≤ 10 ∧ PrandtlMeyer_Mach M 1.4 = .ok w := by
  have hγ : (1:ℝ) < 1.4 := by norm_num
  have hmono := pmDeg_strictMono hγ
  have hcont : ContinuousOn (pmDeg 1.4) (Set.Icc 1.2 10) := by
    intro y hy
    have : (1:ℝ) < y := by have := hy.1; norm_num at this; linarith
    exact (hasDerivAt_pmDeg hγ this).continuousAt.continuousWithinAt
  have l1 := pm_two.1
  have l2 := pm_landmarks.2
  have l3 := hmono.monotoneOn (Set.mem_Ici.2 (by norm_num : (1:ℝ) ≤ 2)) (Set.mem_Ici.2 (by norm_num : (1:ℝ) ≤ 2.2)) (by norm_num)
  obtain ⟨n, hn1, hn2⟩ := intermediate_value_Icc (by norm_num) hcont (show w ∈ _ from ⟨by linarith, by linarith⟩)
  have hn : (1:ℝ) ≤ n := by have := hn1.1; norm_num at this; linarith
  exact ⟨n, hn1.1, hn1.2, by rw [← hn2]; exact PM_ok hγ (by nlinarith)⟩

theorem om2_ok : PrandtlMeyer_Mach 2 1.4 = .ok (pmDeg 1.4 2) := PM_ok (by norm_num) (by norm_num)

theorem mu_1_2 : muDeg 1.2 < 60 := by
  have e : (60:ℝ) = Py.degrees (π / 3) := by unfold Py.degrees; field_simp; norm_num
  unfold muDeg
  rw [e, Py.degrees_lt, arcsin_lt_iff_lt_sin' ⟨by linarith [pi_pos], by linarith [pi_pos]⟩, sin_pi_div_three]
  have := sqrt_three_bounds.1
  norm_num at this ⊢
  linarith

/-- at Mach 2, every characteristic from a wall point whose direction is within 20 degrees is drawn -/
theorem cp_runs {y : Wall} {x a X yw : ℝ} (ha : wall_angle y x = .ok a) (hy : y x = .ok yw) (h1 : -20 ≤ a) (h2 : a ≤ 20) :
    ∃ s, cp_slope scipy 1.4 (pmDeg 1.4 2) y x = .ok s ∧ cp_line scipy 1.4 (pmDeg 1.4 2) y X x = .ok ((x, yw), (X, yw + s * (X - x))) := by
  obtain ⟨l1, l2⟩ := pm_two
  obtain ⟨M, k1, k2, k3⟩ := pm_room (w := pmDeg 1.4 2 - a) (by linarith) (by linarith)
  have hM1 : 1 ≤ M := by norm_num at k1; linarith
  obtain ⟨m, e1, e2, e3, e4⟩ := cp_found ha hM1 (k2.trans (by norm_num)) k3
  have hm : 1.2 ≤ m := by
    refine pm_order (by norm_num) e2 ?_
    have := (abs_le.1 e3).1
    norm_num at this ⊢
    linarith
  have l3 := muDeg_anti (by norm_num) hm
  have l4 := muDeg_pos e2
  have l5 := mu_1_2
  have t := tanDeg_ok (a := a + muDeg m) (by linarith) (by linarith)
  rw [← e4] at t
  refine ⟨_, t, ?_⟩
  unfold cp_line
  rw [t, Py.ok_bind, hy, Py.ok_bind]
  rfl

theorem plot_runs {y : Wall} {xs : List ℝ} {X : ℝ} (h : ∀ x ∈ xs, ∃ a yw, wall_angle y x = .ok a ∧ y x = .ok yw ∧ -20 ≤ a ∧ a ≤ 20) :
    ∃ L, plot_CP scipy 1.4 (pmDeg 1.4 2) y X xs = .ok L ∧ L.length = xs.length := by
  classical
  have hex : ∀ x, ∃ l, x ∈ xs → cp_line scipy 1.4 (pmDeg 1.4 2) y X x = .ok l := by
    intro x
    by_cases hx : x ∈ xs
    · obtain ⟨a, yw, e1, e2, e3, e4⟩ := h x hx
      obtain ⟨s, -, e5⟩ := cp_runs (X := X) e1 e2 e3 e4
      exact ⟨_, fun _ => e5⟩
    · exact ⟨((0, 0), (0, 0)), fun k => absurd k hx⟩
  choose g hg using hex
  exact ⟨xs.map g, ListPy.mapM_of_forall hg, by simp⟩

/-! ## the walls -/

theorem bump_value (x : ℝ) : bump x = .ok (0.1 * exp (-((x / 0.5) ^ 2))) := by
  unfold bump
  rw [Py.div_ok (by norm_num), Py.ok_bind]
  rfl

theorem bump_slope (x : ℝ) : |0.8 * x * exp (-(4 * x ^ 2))| ≤ 0.2 := by
  have h := add_one_le_exp (4 * x ^ 2)
  rw [abs_mul, abs_of_pos (exp_pos _), exp_neg, mul_inv_le_iff₀ (exp_pos _), abs_mul, abs_of_nonneg (by norm_num : (0:ℝ) ≤ 0.8)]
  have : |x| ≤ (4 * x ^ 2 + 1) / 4 := by
    rw [← sq_abs x]
    nlinarith [sq_nonneg (2 * |x| - 1)]
  norm_num
  linarith

theorem bump_lip (a b : ℝ) (h : a < b) : |0.1 * exp (-((b / 0.5) ^ 2)) - 0.1 * exp (-((a / 0.5) ^ 2))| ≤ 0.2 * (b - a) := by
  have hd : ∀ x : ℝ, HasDerivAt (fun x : ℝ => 0.1 * exp (-((x / 0.5) ^ 2))) (-(0.8 * x * exp (-(4 * x ^ 2)))) x := by
    intro x
    have h1 : HasDerivAt (fun x : ℝ => x / 0.5) (1 / 0.5) x := (hasDerivAt_id x).div_const _
    have h2 := ((h1.pow 2).neg.exp).const_mul 0.1
    refine h2.congr_deriv ?_
    have : (x / 0.5) ^ 2 = 4 * x ^ 2 := by ring
    simp only [Pi.pow_apply, Pi.neg_apply] 
    rw [this]
    norm_num
    ring
  obtain ⟨c, -, hc⟩ := exists_hasDerivAt_eq_slope _ _ h (fun x _ => (hd x).continuousAt.continuousWithinAt) (fun x _ => hd x)
  rw [eq_div_iff (by linarith)] at hc
  rw [← hc, abs_mul, abs_neg, abs_of_pos (sub_pos.2 h)]
  exact mul_le_mul_of_nonneg_right (bump_slope c) (by linarith)

theorem atan_small {q : ℝ} (h : |q| ≤ 0.2) : -20 ≤ degree.atan q ∧ degree.atan q ≤ 20 := by
  have hp := Real.pi_gt_d4
  norm_num at hp
  have up : ∀ r : ℝ, 0 ≤ r → r ≤ 0.2 → degree.atan r ≤ 20 := by
    intro r h0 h1
    rw [show (20:ℝ) = Py.degrees (Py.radians 20) from (Py.degrees_radians 20).symm]
    unfold degree.atan
    rcases lt_or_ge (arctan r) (Py.radians 20) with k | k
    · exact ((Py.degrees_lt).2 k).le
    · exfalso
      have := arctan_le_self' h0
      unfold Py.radians at k
      norm_num at h1
      linarith
  rcases le_total 0 q with s | s
  · rw [abs_of_nonneg s] at h
    refine ⟨?_, up q s h⟩
    have : 0 ≤ arctan q := arctan_nonneg.2 s
    unfold degree.atan Py.degrees
    have : 0 ≤ arctan q * (180 / π) := by positivity
    linarith
  · rw [abs_of_nonpos s] at h
    have k := up (-q) (by linarith) h
    have e : degree.atan (-q) = -degree.atan q := by unfold degree.atan Py.degrees; rw [arctan_neg]; ring
    rw [e] at k
    refine ⟨by linarith, ?_⟩
    have : 0 ≤ arctan (-q) := arctan_nonneg.2 (by linarith)
    rw [arctan_neg] at this
    unfold degree.atan Py.degrees
    have : 0 ≤ -arctan q * (180 / π) := by positivity
    linarith

theorem atan_mono {p q : ℝ} (h : p ≤ q) : degree.atan p ≤ degree.atan q := by
  unfold degree.atan Py.degrees
  exact mul_le_mul_of_nonneg_right (arctan_strictMono.monotone h) (by positivity)

theorem atan_tanDeg {a : ℝ} (h1 : -90 < a) (h2 : a < 90) : degree.atan (Real.tan (Py.radians a)) = a := by
  unfold degree.atan
  rw [arctan_tan (by unfold Py.radians; nlinarith [pi_pos]) (by unfold Py.radians; nlinarith [pi_pos]), Py.degrees_radians]

theorem tanDeg_zero : Real.tan (Py.radians 0) = 0 := by simp [Py.radians]

theorem atan_zero' : degree.atan 0 = 0 := by simp [degree.atan, Py.degrees]

theorem ramp_range {ang : ℝ} (h1 : -20 ≤ ang) (h2 : ang ≤ 20) (x : ℝ) : -20 ≤ degree.atan (Real.tan (Py.radians ang) * meanSlope x) ∧
    degree.atan (Real.tan (Py.radians ang) * meanSlope x) ≤ 20 := by
  obtain ⟨m0, m1⟩ := meanSlope_mem x
  have e := atan_tanDeg (a := ang) (by linarith) (by linarith)
  rcases le_total 0 ang with h | h
  · have : 0 ≤ Real.tan (Py.radians ang) := by
      rcases eq_or_lt_of_le h with k | k
      · rw [← k, tanDeg_zero]
      · rw [← tanDeg_zero]; exact (tanDeg_lt (by norm_num) k (by linarith)).le
    have a := atan_mono (p := 0) (q := Real.tan (Py.radians ang) * meanSlope x) (by positivity)
    have b := atan_mono (p := Real.tan (Py.radians ang) * meanSlope x) (q := Real.tan (Py.radians ang)) (by nlinarith)
    rw [atan_zero'] at a
    rw [e] at b
    constructor <;> linarith
  · have : Real.tan (Py.radians ang) ≤ 0 := by
      rcases eq_or_lt_of_le h with k | k
      · rw [k, tanDeg_zero]
      · rw [← tanDeg_zero]; exact (tanDeg_lt (by linarith) k (by norm_num)).le
    have a := atan_mono (p := Real.tan (Py.radians ang) * meanSlope x) (q := 0) (by nlinarith)
    have b := atan_mono (p := Real.tan (Py.radians ang)) (q := Real.tan (Py.radians ang) * meanSlope x) (by nlinarith)
    rw [atan_zero'] at a
    rw [e] at b
    constructor <;> linarith

/-- **C161 (the cells run).** At the Mach number 2 of the notebook and with scipy's `newton`, `plot_CP` draws one characteristic per abscissa for the bump, for the expansion ramp
and for the compression ramp (any ramp angle up to 20 degrees), whatever the abscissas. -/
theorem C161_runs (xs : List ℝ) (X : ℝ) : ∃ om0, PrandtlMeyer_Mach 2 1.4 = .ok om0 ∧
    (∃ L, plot_CP scipy 1.4 om0 bump X xs = .ok L ∧ L.length = xs.length) ∧
    ∀ ang : ℝ, -20 ≤ ang → ang ≤ 20 → ∃ L, plot_CP scipy 1.4 om0 (ramp ang) X xs = .ok L ∧ L.length = xs.length := by
  refine ⟨_, om2_ok, plot_runs fun x _ => ?_, fun ang h1 h2 => plot_runs fun x _ => ?_⟩
  · refine ⟨_, _, wall_angle_value bump_value x, bump_value x, atan_small ?_⟩
    have := bump_lip (x - 1e-4) (x + 1e-4) (by norm_num; linarith)
    rw [abs_div, abs_of_pos (by norm_num : (0:ℝ) < 2 * 1e-4), div_le_iff₀ (by norm_num)]
    refine this.trans (le_of_eq ?_)
    ring
  · exact ⟨_, _, ramp_angle (by linarith) (by linarith) x, ramp_value (by linarith) (by linarith) x, ramp_range h1 h2 x⟩

end Aerokit.Props
