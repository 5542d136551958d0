import Verif.Model.SmoothWall
import Verif.Props.WedgeNotebook
import Verif.Lemmas.ListPy
import Verif.Lemmas.CharNet
import Mathlib.Analysis.Convex.Slope

/-! # C161 — the smooth wall notebook, `notebooks/aero/Caract-02-smooth wall.ipynb` -/

namespace Aerokit.Props
open Real Supersonic Isentropic ScipyNewton SmoothWall
open MassFlow (RootFinder)

/-- the Mach angle, in degrees -/
noncomputable def muDeg (m : ℝ) : ℝ := Py.degrees (arcsin (1 / m))

theorem muDeg_ok {m : ℝ} (h : 1 ≤ m) : (Py.div 1 m >>= degree.asin) = .ok (muDeg m) := by
  rw [Py.div_ok (by linarith), Py.ok_bind, degree.asin_ok]
  · rfl
  · have : 0 ≤ 1 / m := by positivity
    linarith
  · rw [div_le_one (by linarith)]; exact h

theorem muDeg_pos {m : ℝ} (h : 1 ≤ m) : 0 < muDeg m := by
  unfold muDeg Py.degrees
  have : 0 < arcsin (1 / m) := arcsin_pos.2 (by positivity)
  positivity

theorem muDeg_anti {a b : ℝ} (ha : 1 ≤ a) (hab : a ≤ b) : muDeg b ≤ muDeg a := by
  have h : arcsin (1 / b) ≤ arcsin (1 / a) := monotone_arcsin (one_div_le_one_div_of_le (by linarith) hab)
  unfold muDeg Py.degrees
  exact mul_le_mul_of_nonneg_right h (by positivity)

theorem muDeg_le {m : ℝ} : muDeg m ≤ 90 := by
  unfold muDeg Py.degrees
  have := arcsin_le_pi_div_two (1 / m)
  calc arcsin (1 / m) * (180 / π) ≤ π / 2 * (180 / π) := mul_le_mul_of_nonneg_right this (by positivity)
    _ = 90 := by field_simp; norm_num

theorem muDeg_lt {m : ℝ} (h : 1 < m) : muDeg m < 90 := by
  unfold muDeg Py.degrees
  have : arcsin (1 / m) < π / 2 := arcsin_lt_pi_div_two.2 (by rw [div_lt_one (by linarith)]; exact h)
  calc arcsin (1 / m) * (180 / π) < π / 2 * (180 / π) := mul_lt_mul_of_pos_right this (by positivity)
    _ = 90 := by field_simp; norm_num

theorem tanDeg_ok {a : ℝ} (h1 : -90 < a) (h2 : a < 90) : degree.tan a = .ok (Real.tan (Py.radians a)) :=
  degree.tan_ok (cos_pos_of_mem_Ioo ⟨by unfold Py.radians; nlinarith [pi_pos], by unfold Py.radians; nlinarith [pi_pos]⟩).ne'

theorem tanDeg_lt {a b : ℝ} (h1 : -90 < a) (hab : a < b) (h2 : b < 90) : Real.tan (Py.radians a) < Real.tan (Py.radians b) :=
  tan_lt_tan_of_lt_of_lt_pi_div_two (by unfold Py.radians; nlinarith [pi_pos]) (by unfold Py.radians; nlinarith [pi_pos]) (Py.radians_strictMono hab)

theorem tanDeg_atan (q : ℝ) : Real.tan (Py.radians (degree.atan q)) = q := by
  unfold degree.atan; rw [Py.radians_degrees, tan_arctan]

theorem atan_range (q : ℝ) : -90 < degree.atan q ∧ degree.atan q < 90 := by
  have e1 : (-90:ℝ) = Py.degrees (-(π / 2)) := by unfold Py.degrees; field_simp; norm_num
  have e2 : (90:ℝ) = Py.degrees (π / 2) := by unfold Py.degrees; field_simp; norm_num
  unfold degree.atan
  constructor
  · rw [e1, Py.degrees_lt]; exact neg_pi_div_two_lt_arctan q
  · rw [e2, Py.degrees_lt]; exact arctan_lt_pi_div_two q

theorem wall_angle_value {y : Wall} {f : ℝ → ℝ} (hf : ∀ x, y x = .ok (f x)) (x : ℝ) :
    wall_angle y x = .ok (degree.atan ((f (x + 1e-4) - f (x - 1e-4)) / (2 * 1e-4))) := by
  unfold wall_angle
  simp only []
  rw [hf, Py.ok_bind, hf, Py.ok_bind, Py.div_ok (by norm_num), Py.ok_bind]
  rfl

/-- the Mach number and the slope found at a wall point -/
theorem cp_found {y : Wall} {om0 x a M : ℝ} (ha : wall_angle y x = .ok a) (hM1 : 1 ≤ M) (hM2 : M ≤ 10 ^ 8)
    (hM : PrandtlMeyer_Mach M 1.4 = .ok (om0 - a)) : ∃ m, mach_wall scipy 1.4 om0 y x = .ok m ∧ 1 ≤ m ∧ |pmDeg 1.4 m - (om0 - a)| ≤ 1e-6 ∧
      cp_slope scipy 1.4 om0 y x = degree.tan (a + muDeg m) := by
  obtain ⟨m, w', e1, e2, e3, e4⟩ := C141_inverse_partial M _ hM1 hM2 hM
  have hmw : mach_wall scipy 1.4 om0 y x = .ok m := by unfold mach_wall; rw [ha, Py.ok_bind, e1]
  rw [pm_value (by norm_num) e2 e3] at e4
  refine ⟨m, hmw, e2, e4, ?_⟩
  unfold cp_slope
  have := muDeg_ok e2
  rw [ha, Py.ok_bind, hmw, Py.ok_bind]
  calc (Py.div 1 m >>= fun q => degree.asin q >>= fun mu => degree.tan (a + mu))
      = ((Py.div 1 m >>= degree.asin) >>= fun mu => degree.tan (a + mu)) := by
        rcases Py.div 1 m with e | v <;> rfl
    _ = _ := by rw [this, Py.ok_bind]

theorem pm_order {m n : ℝ} (hm : 1 ≤ m) (hn : 1 ≤ n) (h : pmDeg 1.4 m ≤ pmDeg 1.4 n) : m ≤ n := by
  by_contra hc
  push Not at hc
  have := pmDeg_strictMono (γ := 1.4) (by norm_num) (Set.mem_Ici.2 hn) (Set.mem_Ici.2 hm) hc
  linarith

/-- **C161 (an expansion wall, partial).** Along a wall `f` that nowhere turns up (concave), at two wall points more than `1e-4` apart whose directions `a₁ ≤ 0` and `a₂` are equal
or differ by more than `2e-6` degrees, with the supersonic flows `M₁`, `M₂` of the simple wave: the two characteristics are drawn, the second is not steeper than the
first, and it stays below it at every abscissa `X` from the second wall point on: they do not cross.  (`C161_expansion` is a case where all hypotheses hold.)
Missing: walls that turn by less than the accuracy of scipy's solution. -/
theorem C161_expansion_partial (y : Wall) (f : ℝ → ℝ) (hf : ∀ x, y x = .ok (f x)) (hconc : ConcaveOn ℝ Set.univ f) (om0 x₁ x₂ X a₁ a₂ M₁ M₂ : ℝ)
    (ha1 : wall_angle y x₁ = .ok a₁) (ha2 : wall_angle y x₂ = .ok a₂) (hx : x₁ + 1e-4 ≤ x₂) (hX : x₂ ≤ X) (hneg : a₁ ≤ 0) (hsep : a₁ = a₂ ∨ 2e-6 ≤ a₁ - a₂)
    (h1 : 1 ≤ M₁) (h1' : M₁ ≤ 10 ^ 8) (hM1 : PrandtlMeyer_Mach M₁ 1.4 = .ok (om0 - a₁)) (hsup : 1e-6 < om0 - a₁)
    (h2 : 1 ≤ M₂) (h2' : M₂ ≤ 10 ^ 8) (hM2 : PrandtlMeyer_Mach M₂ 1.4 = .ok (om0 - a₂)) :
    ∃ s₁ s₂, cp_slope scipy 1.4 om0 y x₁ = .ok s₁ ∧ cp_slope scipy 1.4 om0 y x₂ = .ok s₂ ∧ s₂ ≤ s₁ ∧
      cp_line scipy 1.4 om0 y X x₁ = .ok ((x₁, f x₁), (X, f x₁ + s₁ * (X - x₁))) ∧
      cp_line scipy 1.4 om0 y X x₂ = .ok ((x₂, f x₂), (X, f x₂ + s₂ * (X - x₂))) ∧
      f x₂ + s₂ * (X - x₂) < f x₁ + s₁ * (X - x₁) := by
  obtain ⟨m1, b1, b2, b3, b4⟩ := cp_found ha1 h1 h1' hM1
  obtain ⟨m2, c1, c2, c3, c4⟩ := cp_found ha2 h2 h2' hM2
  have er : a₁ = degree.atan ((f (x₁ + 1e-4) - f (x₁ - 1e-4)) / (2 * 1e-4)) := by
    have := wall_angle_value hf x₁
    rw [ha1] at this
    exact Except.ok.inj this
  have er2 : a₂ = degree.atan ((f (x₂ + 1e-4) - f (x₂ - 1e-4)) / (2 * 1e-4)) := by
    have := wall_angle_value hf x₂
    rw [ha2] at this
    exact Except.ok.inj this
  obtain ⟨r1, -⟩ := atan_range ((f (x₁ + 1e-4) - f (x₁ - 1e-4)) / (2 * 1e-4))
  obtain ⟨r2, -⟩ := atan_range ((f (x₂ + 1e-4) - f (x₂ - 1e-4)) / (2 * 1e-4))
  rw [← er] at r1
  rw [← er2] at r2
  have hzero : pmDeg 1.4 1 = 0 := by
    have := Real.sqrt_zero
    unfold pmDeg pmRad; norm_num [Py.degrees]
  have hm1 : 1 < m1 := by
    rcases eq_or_lt_of_le b2 with e | e
    · rw [← e, hzero] at b3
      have := (abs_le.1 b3).1
      linarith
    · exact e
  have p1 := muDeg_pos b2
  have p2 := muDeg_pos c2
  have q1 := muDeg_lt hm1
  have hsum : a₂ + muDeg m2 ≤ a₁ + muDeg m1 := by
    rcases hsep with e | e
    · have : m1 = m2 := by
        have e0 : mach_wall scipy 1.4 om0 y x₁ = mach_wall scipy 1.4 om0 y x₂ := by
          unfold mach_wall; rw [ha1, ha2, e]
        rw [b1, c1] at e0
        exact Except.ok.inj e0
      rw [this, e]
    · have hle : m1 ≤ m2 := by
        refine pm_order b2 c2 ?_
        have u := (abs_le.1 b3).2
        have v := (abs_le.1 c3).1
        norm_num at e u v
        linarith
      have := muDeg_anti b2 hle
      norm_num at e
      linarith
  have t1 := tanDeg_ok (a := a₁ + muDeg m1) (by linarith) (by linarith)
  have t2 := tanDeg_ok (a := a₂ + muDeg m2) (by linarith) (by linarith)
  have hs : Real.tan (Py.radians (a₂ + muDeg m2)) ≤ Real.tan (Py.radians (a₁ + muDeg m1)) := by
    rcases eq_or_lt_of_le hsum with e | e
    · rw [e]
    · exact (tanDeg_lt (by linarith) e (by linarith)).le
  have hs1 : Real.tan (Py.radians a₁) < Real.tan (Py.radians (a₁ + muDeg m1)) := tanDeg_lt r1 (by linarith) (by linarith)
  -- the chord between the wall points is not above the wall direction at the first
  have hchord : f x₂ - f x₁ ≤ Real.tan (Py.radians a₁) * (x₂ - x₁) := by
    rw [er, tanDeg_atan]
    have hd : (0:ℝ) < 1e-4 := by norm_num
    set d : ℝ := 1e-4 with hdd
    have s1 : (f x₂ - f x₁) / (x₂ - x₁) ≤ (f (x₁ + d) - f x₁) / (x₁ + d - x₁) := by
      rcases eq_or_lt_of_le hx with e | e
      · rw [e]
      · have := hconc.neg.secant_mono (a := x₁) (x := x₁ + d) (y := x₂) trivial trivial trivial (by linarith) (by linarith) e.le
        simp only [Pi.neg_apply] at this
        rw [show -f (x₁ + d) - -f x₁ = -(f (x₁ + d) - f x₁) by ring, show -f x₂ - -f x₁ = -(f x₂ - f x₁) by ring, neg_div, neg_div] at this
        linarith
    have s2 : (f (x₁ + d) - f x₁) / (x₁ + d - x₁) ≤ (f x₁ - f (x₁ - d)) / (x₁ - (x₁ - d)) :=
      hconc.slope_anti_adjacent trivial trivial (by linarith) (by linarith)
    have g1 : (f (x₁ + d) - f x₁) / (x₁ + d - x₁) ≤ (f (x₁ + d) - f (x₁ - d)) / (2 * d) := by
      have e1 : x₁ + d - x₁ = d := by ring
      have e2 : x₁ - (x₁ - d) = d := by ring
      rw [e1, e2] at s2
      rw [e1, div_le_div_iff₀ hd (by linarith)]
      rw [div_le_div_iff₀ hd hd] at s2
      have := le_of_mul_le_mul_right s2 hd
      nlinarith
    have := s1.trans g1
    rw [div_le_iff₀ (by linarith)] at this
    exact this
  rw [← b4] at t1
  rw [← c4] at t2
  refine ⟨_, _, t1, t2, hs, ?_, ?_, ?_⟩
  · unfold cp_line; rw [t1, Py.ok_bind, hf, Py.ok_bind]; rfl
  · unfold cp_line; rw [t2, Py.ok_bind, hf, Py.ok_bind]; rfl
  · have hx' : 0 < x₂ - x₁ := by have : (0:ℝ) < 1e-4 := by norm_num
                                 linarith
    nlinarith [mul_lt_mul_of_pos_right hs1 hx', mul_le_mul_of_nonneg_right hs (sub_nonneg.2 hX)]

/-- **C161 (the crossing of two lines).** When the slopes differ, `xy_intersect_rate` returns the one point of both lines. -/
theorem C161_intersect (x₁ y₁ r₁ x₂ y₂ r₂ : ℝ) (h : r₁ ≠ r₂) : ∃ p, xy_intersect_rate x₁ y₁ r₁ x₂ y₂ r₂ = .ok p ∧
    p.2 - y₁ = r₁ * (p.1 - x₁) ∧ p.2 - y₂ = r₂ * (p.1 - x₂) ∧ ∀ u v, v - y₁ = r₁ * (u - x₁) → v - y₂ = r₂ * (u - x₂) → (u, v) = p := by
  have hd : r₂ - r₁ ≠ 0 := sub_ne_zero.2 (Ne.symm h)
  refine ⟨((-y₂ + y₁ + x₂ * r₂ - x₁ * r₁) / (r₂ - r₁), y₁ + r₁ * ((-y₂ + y₁ + x₂ * r₂ - x₁ * r₁) / (r₂ - r₁) - x₁)), ?_, ?_, ?_, ?_⟩
  · unfold xy_intersect_rate; rw [Py.div_ok hd, Py.ok_bind]; rfl
  · simp only []; ring
  · simp only []; field_simp; ring
  · intro u v e1 e2
    have hu : u = (-y₂ + y₁ + x₂ * r₂ - x₁ * r₁) / (r₂ - r₁) := by
      rw [eq_div_iff hd]; linarith
    rw [← hu]
    ext
    · rfl
    · simp only []; linarith

example : ∃ p, xy_intersect_rate 0 0 1 1 0 2 = .ok p ∧ p = (2, 2) := by
  obtain ⟨p, h1, h2, h3, -⟩ := C161_intersect 0 0 1 1 0 2 (by norm_num)
  refine ⟨p, h1, ?_⟩
  ext <;> simp only [] <;> linarith

/-- **C161 (a compression wall, partial).** Where the wall turns up by more than `2e-6` degrees between `x₁` and `x₁ + 1e-4`, with the supersonic flows `M₁`, `M₂` of the simple
wave there (`N`, slower than `M₂`, bounds its Mach angle), the two characteristics converge, and `plot_CP_focus` draws the first one to the point where they cross.  (`C161_compression` is a case where all hypotheses hold.)
Missing: walls that turn by less than the accuracy of scipy's solution. -/
theorem C161_focus_partial (y : Wall) (f : ℝ → ℝ) (hf : ∀ x, y x = .ok (f x)) (om0 x X a₁ a₂ M₁ M₂ N w : ℝ)
    (ha1 : wall_angle y x = .ok a₁) (ha2 : wall_angle y (x + 1e-4) = .ok a₂) (hturn : a₁ + 2e-6 ≤ a₂)
    (h1 : 1 ≤ M₁) (h1' : M₁ ≤ 10 ^ 8) (hM1 : PrandtlMeyer_Mach M₁ 1.4 = .ok (om0 - a₁))
    (h2 : 1 ≤ M₂) (h2' : M₂ ≤ 10 ^ 8) (hM2 : PrandtlMeyer_Mach M₂ 1.4 = .ok (om0 - a₂))
    (hN : 1 ≤ N) (hw : PrandtlMeyer_Mach N 1.4 = .ok w) (hNM : w + 1e-6 ≤ om0 - a₂) (hmu : a₂ + 180 / π * arcsin (1 / N) < 90) :
    ∃ s₁ s₂ p, cp_slope scipy 1.4 om0 y x = .ok s₁ ∧ cp_slope scipy 1.4 om0 y (x + 1e-4) = .ok s₂ ∧ s₁ < s₂ ∧
      focus_line scipy 1.4 om0 y X x = .ok ((x, f x), p) ∧ p.2 - f x = s₁ * (p.1 - x) ∧ p.2 - f (x + 1e-4) = s₂ * (p.1 - (x + 1e-4)) ∧
      (f (x + 1e-4) - f x ≤ s₁ * 1e-4 → x + 1e-4 ≤ p.1) := by
  obtain ⟨m1, b1, b2, b3, b4⟩ := cp_found ha1 h1 h1' hM1
  obtain ⟨m2, c1, c2, c3, c4⟩ := cp_found ha2 h2 h2' hM2
  have r1 : -90 < a₁ := by
    have := wall_angle_value hf x
    rw [ha1] at this
    rw [Except.ok.inj this]
    exact (atan_range _).1
  have hw' := pm_value (by norm_num) hN hw
  have hNm : N ≤ m2 := by
    refine pm_order hN c2 ?_
    have := (abs_le.1 c3).1
    rw [← hw']
    linarith
  have hle : m2 ≤ m1 := by
    refine pm_order c2 b2 ?_
    have u := (abs_le.1 b3).1
    have v := (abs_le.1 c3).2
    norm_num at hturn u v
    linarith
  have p1 := muDeg_pos b2
  have p2 := muDeg_pos c2
  have l1 := muDeg_anti hN hNm
  have l2 := muDeg_anti c2 hle
  have l3 : muDeg N = 180 / π * arcsin (1 / N) := by unfold muDeg Py.degrees; ring
  norm_num at hturn
  have t1 := tanDeg_ok (a := a₁ + muDeg m1) (by linarith) (by linarith)
  have t2 := tanDeg_ok (a := a₂ + muDeg m2) (by linarith) (by linarith)
  have hs := tanDeg_lt (a := a₁ + muDeg m1) (b := a₂ + muDeg m2) (by linarith) (by linarith) (by linarith)
  rw [← b4] at t1
  rw [← c4] at t2
  obtain ⟨p, i1, i2, i3, -⟩ := C161_intersect x (f x) _ (x + 1e-4) (f (x + 1e-4)) _ hs.ne
  refine ⟨_, _, p, t1, t2, hs, ?_, i2, i3, ?_⟩
  · unfold focus_line
    simp only []
    rw [t1, Py.ok_bind, t2, Py.ok_bind, hf, Py.ok_bind, hf, Py.ok_bind, if_pos hs, i1, Py.ok_bind]
    rw [← i2]
    simp
  · intro hc
    generalize Real.tan (Py.radians (a₁ + muDeg m1)) = s1 at *
    generalize Real.tan (Py.radians (a₂ + muDeg m2)) = s2 at *
    by_contra hcon
    push Not at hcon
    have : 0 < (s2 - s1) * (x + 1e-4 - p.1) := mul_pos (by linarith) (by linarith)
    nlinarith

end Aerokit.Props
