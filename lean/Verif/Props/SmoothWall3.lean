import Verif.Props.SmoothWall2

/-! # C161 — the smooth wall notebook: expansion, compression, and the flow found by iteration -/

namespace Aerokit.Props
open Real Supersonic Isentropic ScipyNewton SmoothWall
open MassFlow (RootFinder)

theorem arctan_gap {u v : ℝ} (hu : -1 ≤ u) (huv : u ≤ v) (hv : v ≤ 1) : (v - u) / 2 ≤ arctan v - arctan u := by
  have h := Convex.mul_sub_le_image_sub_of_le_deriv (f := arctan) (C := 1/2) (convex_Icc (-1) 1) continuous_arctan.continuousOn
    differentiable_arctan.differentiableOn (fun x hx => by
      rw [interior_Icc] at hx
      rw [Real.deriv_arctan, one_div_le_one_div (by norm_num) (by positivity)]
      nlinarith [hx.1, hx.2]) u ⟨hu, huv.trans hv⟩ v ⟨hu.trans huv, hv⟩ huv
  linarith

theorem atan_gap {u v : ℝ} (hu : -1 ≤ u) (huv : u ≤ v) (hv : v ≤ 1) : 28 * (v - u) ≤ degree.atan v - degree.atan u := by
  have h := arctan_gap hu huv hv
  have hp := pi_lt_d4
  have h57 : (56:ℝ) ≤ 180 / π := by rw [le_div_iff₀ pi_pos]; norm_num at hp; linarith
  unfold degree.atan Py.degrees
  nlinarith [mul_le_mul_of_nonneg_left h (by positivity : (0:ℝ) ≤ 180 / π), mul_le_mul_of_nonneg_right h57 (sub_nonneg.2 huv)]

theorem tanDeg_neg (a : ℝ) : Real.tan (Py.radians (-a)) = -Real.tan (Py.radians a) := by
  rw [← tan_neg]; congr 1; unfold Py.radians; ring

theorem tan_range {a : ℝ} (h1 : 15 ≤ a) (h2 : a ≤ 20) : 0.26 ≤ Real.tan (Py.radians a) ∧ Real.tan (Py.radians a) < 1 := by
  constructor
  · have hp := pi_gt_d4
    norm_num at hp
    have h := lt_tan (x := Py.radians a) (by unfold Py.radians; positivity) (by unfold Py.radians; nlinarith [pi_pos])
    have : 15 * (π / 180) ≤ Py.radians a := by
      unfold Py.radians
      exact mul_le_mul_of_nonneg_right h1 (by positivity)
    norm_num
    linarith
  · have := tanDeg_lt (a := a) (b := 45) (by linarith) (by linarith) (by norm_num)
    rwa [show Py.radians 45 = π / 4 by unfold Py.radians; ring, tan_pi_div_four] at this

/-- a wall point that is not within `1e-4` of the two junctions of the ramp -/
def Clear (x : ℝ) : Prop := (x ≤ -1e-4 ∨ 1e-4 ≤ x) ∧ (x ≤ 1 - 1e-4 ∨ 1 + 1e-4 ≤ x)

theorem clear_sep {x z : ℝ} (hx : Clear x) (hz : Clear z) (h : x + 1e-4 ≤ z) : meanSlope x = meanSlope z ∨ meanSlope x + 1e-4 ≤ meanSlope z := by
  have ex : ∀ v, Clear v → (v ≤ -1e-4 ∧ meanSlope v = 0) ∨ (1e-4 ≤ v ∧ v ≤ 1 - 1e-4 ∧ meanSlope v = v) ∨ (1 + 1e-4 ≤ v ∧ meanSlope v = 1) := by
    rintro v ⟨h1 | h1, h2⟩
    · exact Or.inl ⟨h1, meanSlope_flat h1⟩
    · rcases h2 with h2 | h2
      · exact Or.inr (Or.inl ⟨h1, h2, meanSlope_mid h1 h2⟩)
      · exact Or.inr (Or.inr ⟨h2, meanSlope_top h2⟩)
  norm_num at h ⊢
  rcases ex x hx with ⟨a1, a2⟩ | ⟨a1, a3, a2⟩ | ⟨a1, a2⟩ <;> rcases ex z hz with ⟨b1, b2⟩ | ⟨b1, b3, b2⟩ | ⟨b1, b2⟩ <;> rw [a2, b2]
  · left; rfl
  · right; norm_num at b1; linarith
  · right; norm_num
  · exfalso; norm_num at a1 b1; linarith
  · right; linarith
  · right; norm_num at a3; linarith
  · exfalso; norm_num at a1 b1; linarith
  · exfalso; norm_num at a1 b3; linarith
  · left; rfl

/-- **C161 (the progressive expansion).** At Mach 2, on the ramp down at 20 degrees, the characteristics drawn from any two wall points (more than `1e-4` apart and not within
`1e-4` of the junctions) never cross: the one from upstream is above the other everywhere downstream of the second wall point. -/
theorem C161_expansion : ∃ om0, PrandtlMeyer_Mach 2 1.4 = .ok om0 ∧ ∀ x₁ x₂ X, Clear x₁ → Clear x₂ → x₁ + 1e-4 ≤ x₂ → x₂ ≤ X →
    ∃ y₁ y₂ Y₁ Y₂, cp_line scipy 1.4 om0 (ramp (-20)) X x₁ = .ok ((x₁, y₁), (X, Y₁)) ∧
      cp_line scipy 1.4 om0 (ramp (-20)) X x₂ = .ok ((x₂, y₂), (X, Y₂)) ∧ Y₂ < Y₁ := by
  refine ⟨_, om2_ok, fun x₁ x₂ X c1 c2 hx hX => ?_⟩
  have hv := ramp_value (ang := -20) (by norm_num) (by norm_num)
  have hang := ramp_angle (ang := -20) (by norm_num) (by norm_num)
  obtain ⟨l1, l2⟩ := pm_two
  obtain ⟨p1, p2⟩ := ramp_range (ang := -20) le_rfl (by norm_num) x₁
  obtain ⟨q1, q2⟩ := ramp_range (ang := -20) le_rfl (by norm_num) x₂
  obtain ⟨t1, t2⟩ := tan_range (a := 20) (by norm_num) le_rfl
  obtain ⟨m0, m1⟩ := meanSlope_mem x₁
  obtain ⟨n0, n1⟩ := meanSlope_mem x₂
  have hconc : ConcaveOn ℝ Set.univ (fun x => Real.tan (Py.radians (-20)) * unitRamp x) := by
    have h := (unitRamp_convex.smul (c := Real.tan (Py.radians 20)) (by linarith)).neg
    have e : (fun x => Real.tan (Py.radians (-20)) * unitRamp x) = -(fun x => Real.tan (Py.radians 20) • unitRamp x) := by
      funext x
      rw [tanDeg_neg]
      simp
    rw [e]
    exact h
  have hneg : degree.atan (Real.tan (Py.radians (-20)) * meanSlope x₁) ≤ 0 := by
    rw [← atan_zero']
    refine atan_mono ?_
    rw [tanDeg_neg]
    nlinarith
  have hsep : degree.atan (Real.tan (Py.radians (-20)) * meanSlope x₁) = degree.atan (Real.tan (Py.radians (-20)) * meanSlope x₂) ∨
      2e-6 ≤ degree.atan (Real.tan (Py.radians (-20)) * meanSlope x₁) - degree.atan (Real.tan (Py.radians (-20)) * meanSlope x₂) := by
    rcases clear_sep c1 c2 hx with h | h
    · left; rw [h]
    · right
      rw [tanDeg_neg]
      norm_num at h t1
      have g := atan_gap (u := -Real.tan (Py.radians 20) * meanSlope x₂) (v := -Real.tan (Py.radians 20) * meanSlope x₁) (by nlinarith) (by nlinarith) (by nlinarith)
      refine le_trans ?_ g
      have : 13/50 * (1/10000) ≤ Real.tan (Py.radians 20) * (meanSlope x₂ - meanSlope x₁) :=
        mul_le_mul t1 (by linarith) (by norm_num) (by linarith)
      norm_num
      linarith
  obtain ⟨M₁, j1, j2, j3⟩ := pm_room (w := pmDeg 1.4 2 - degree.atan (Real.tan (Py.radians (-20)) * meanSlope x₁)) (by linarith) (by linarith)
  obtain ⟨M₂, k1, k2, k3⟩ := pm_room (w := pmDeg 1.4 2 - degree.atan (Real.tan (Py.radians (-20)) * meanSlope x₂)) (by linarith) (by linarith)
  obtain ⟨s₁, s₂, -, -, -, e1, e2, e3⟩ := C161_expansion_partial (ramp (-20)) _ hv hconc (pmDeg 1.4 2) x₁ x₂ X _ _ M₁ M₂ (hang x₁) (hang x₂) hx hX hneg hsep
    (by norm_num at j1; linarith) (j2.trans (by norm_num)) j3 (by linarith) (by norm_num at k1; linarith) (k2.trans (by norm_num)) k3
  exact ⟨_, _, _, _, e1, e2, e3⟩

example : ∃ om0 y₁ y₂ Y₁ Y₂, PrandtlMeyer_Mach 2 1.4 = .ok om0 ∧ cp_line scipy 1.4 om0 (ramp (-20)) 5 0.1 = .ok ((0.1, y₁), (5, Y₁)) ∧
    cp_line scipy 1.4 om0 (ramp (-20)) 5 2 = .ok ((2, y₂), (5, Y₂)) ∧ Y₂ < Y₁ := by
  obtain ⟨om0, h0, H⟩ := C161_expansion
  obtain ⟨y₁, y₂, Y₁, Y₂, h⟩ := H 0.1 2 5 ⟨Or.inr (by norm_num), Or.inl (by norm_num)⟩ ⟨Or.inr (by norm_num), Or.inr (by norm_num)⟩ (by norm_num) (by norm_num)
  exact ⟨om0, y₁, y₂, Y₁, Y₂, h0, h⟩

/-- the abscissas `np.linspace(-.5, 5., 51)` of the expansion cell are clear of the junctions -/
theorem clear_cell (k : ℕ) : Clear (-0.5 + k * (5.5 / 50)) := by
  unfold Clear
  norm_num
  constructor
  · rcases Nat.lt_or_ge k 5 with h | h
    · left
      have : (k:ℝ) ≤ 4 := by exact_mod_cast Nat.lt_succ_iff.1 h
      linarith
    · right
      have : (5:ℝ) ≤ k := by exact_mod_cast h
      linarith
  · rcases Nat.lt_or_ge k 14 with h | h
    · left
      have : (k:ℝ) ≤ 13 := by exact_mod_cast Nat.lt_succ_iff.1 h
      linarith
    · right
      have : (14:ℝ) ≤ k := by exact_mod_cast h
      linarith

/-- **C161 (the figure of the progressive expansion).** The 51 characteristics of the figure are drawn, in order, and they do not cross: each ends below all the preceding ones. -/
theorem C161_expansion_figure : ∃ om0 L, PrandtlMeyer_Mach 2 1.4 = .ok om0 ∧
    plot_CP scipy 1.4 om0 (ramp (-20)) 5 ((List.range 51).map fun k : ℕ => -0.5 + k * (5.5 / 50)) = .ok L ∧ L.length = 51 ∧
    L.Pairwise (fun l l' => l.1.1 < l'.1.1 ∧ l'.2.2 < l.2.2) := by
  obtain ⟨om0, h0, H⟩ := C161_expansion
  obtain ⟨om', h0', -, hr⟩ := C161_runs ((List.range 51).map fun k : ℕ => -0.5 + k * (5.5 / 50)) 5
  rw [h0] at h0'
  rw [← Except.ok.inj h0'] at hr
  obtain ⟨L, h1, h2⟩ := hr (-20) le_rfl (by norm_num)
  refine ⟨om0, L, h0, h1, by simpa using h2, ?_⟩
  have hF := ListPy.mapM_ok h1
  rw [List.pairwise_iff_getElem]
  intro i j hi hj hij
  have hlen : L.length = 51 := by simpa using h2
  have gi := List.forall₂_iff_get.1 hF
  have ei := gi.2 i (by simpa using (by omega : i < 51)) hi
  have ej := gi.2 j (by simpa using (by omega : j < 51)) hj
  simp only [List.get_eq_getElem, List.getElem_map, List.getElem_range] at ei ej
  have hij' : (i:ℝ) + 1 ≤ j := by exact_mod_cast hij
  have hj' : (j:ℝ) ≤ 50 := by exact_mod_cast (by omega : j ≤ 50)
  obtain ⟨y1, y2, Y1, Y2, e1, e2, e3⟩ := H _ _ 5 (clear_cell i) (clear_cell j) (by norm_num; linarith) (by norm_num; linarith)
  rw [ei] at e1
  rw [ej] at e2
  rw [Except.ok.inj e1, Except.ok.inj e2]
  exact ⟨by norm_num; linarith, e3⟩

set_option maxHeartbeats 400000 in
/-- **C161 (the compression ramp).** At Mach 2, on the parabola of the ramp up at 15 degrees, `plot_CP_focus` draws the characteristic from `x` to its crossing with the
characteristic from `x + 1e-4`, which is downstream of both wall points: the lines converge. -/
theorem C161_compression : ∃ om0, PrandtlMeyer_Mach 2 1.4 = .ok om0 ∧ ∀ x X : ℝ, 1e-4 ≤ x → x ≤ 1 - 2e-4 →
    ∃ y₁ y₂ s₁ s₂ p, ramp 15 x = .ok y₁ ∧ ramp 15 (x + 1e-4) = .ok y₂ ∧ cp_slope scipy 1.4 om0 (ramp 15) x = .ok s₁ ∧
      cp_slope scipy 1.4 om0 (ramp 15) (x + 1e-4) = .ok s₂ ∧ s₁ < s₂ ∧ focus_line scipy 1.4 om0 (ramp 15) X x = .ok ((x, y₁), p) ∧
      p.2 - y₁ = s₁ * (p.1 - x) ∧ p.2 - y₂ = s₂ * (p.1 - (x + 1e-4)) ∧ x + 1e-4 < p.1 := by
  refine ⟨_, om2_ok, fun x X h0 h1 => ?_⟩
  have hv := ramp_value (ang := 15) (by norm_num) (by norm_num)
  have hang := ramp_angle (ang := 15) (by norm_num) (by norm_num)
  obtain ⟨l1, l2⟩ := pm_two
  obtain ⟨p1, p2⟩ := ramp_range (ang := 15) (by norm_num) (by norm_num) x
  obtain ⟨q1, q2⟩ := ramp_range (ang := 15) (by norm_num) (by norm_num) (x + 1e-4)
  obtain ⟨t1, t2⟩ := tan_range (a := 15) le_rfl (by norm_num)
  have a1 := hang x
  have a2 := hang (x + 1e-4)
  norm_num at h0 h1 t1
  have e1 : meanSlope x = x := meanSlope_mid (by norm_num; linarith) (by norm_num; linarith)
  have e2 : meanSlope (x + 1e-4) = x + 1e-4 := meanSlope_mid (by norm_num; linarith) (by norm_num; linarith)
  rw [e1] at a1 p1 p2
  rw [e2] at a2 q1 q2
  generalize Real.tan (Py.radians 15) = T at *
  have hturn : degree.atan (T * x) + 2e-6 ≤ degree.atan (T * (x + 1e-4)) := by
    have g := atan_gap (u := T * x) (v := T * (x + 1e-4)) (by nlinarith) (by norm_num; nlinarith) (by norm_num; nlinarith)
    norm_num at g ⊢
    nlinarith
  obtain ⟨M₁, j1, j2, j3⟩ := pm_room (w := pmDeg 1.4 2 - degree.atan (T * x)) (by linarith) (by linarith)
  obtain ⟨M₂, k1, k2, k3⟩ := pm_room (w := pmDeg 1.4 2 - degree.atan (T * (x + 1e-4))) (by linarith) (by linarith)
  have hmu : muDeg 1.2 = 180 / π * arcsin (1 / 1.2) := by unfold muDeg Py.degrees; ring
  have hmu2 := mu_1_2
  obtain ⟨s₁, s₂, p, f1, f2, f3, f4, f5, f6, f7⟩ := C161_focus_partial (ramp 15) _ hv (pmDeg 1.4 2) x X _ _ M₁ M₂ 1.2 _ a1 a2 hturn
    (by norm_num at j1; linarith) (j2.trans (by norm_num)) j3 (by norm_num at k1; linarith) (k2.trans (by norm_num)) k3
    (by norm_num) (PM_ok (by norm_num) (by norm_num)) (by change pmDeg 1.4 1.2 + _ ≤ _; norm_num at l1 l2 q2 ⊢; linarith) (by rw [← hmu]; linarith)
  refine ⟨_, _, s₁, s₂, p, hv x, hv _, f1, f2, f3, f4, f5, f6, ?_⟩
  -- the slope of the first characteristic exceeds that of the wall at its end
  obtain ⟨m, b1, b2, b3, b4⟩ := cp_found a1 (by norm_num at j1; linarith) (j2.trans (by norm_num)) j3
  have hm1 : 1.2 ≤ m := by
    refine pm_order (by norm_num) b2 ?_
    have := (abs_le.1 b3).1
    norm_num at this l1 ⊢
    linarith
  have hm2 : m ≤ 10 := by
    refine pm_order b2 (by norm_num) ?_
    have := (abs_le.1 b3).2
    have l3 := pm_landmarks.2
    have l4 := (pmDeg_strictMono (γ := 1.4) (by norm_num)).monotoneOn (Set.mem_Ici.2 (by norm_num : (1:ℝ) ≤ 2)) (Set.mem_Ici.2 (by norm_num : (1:ℝ) ≤ 2.2)) (by norm_num)
    norm_num at this l3 l4 p1 ⊢
    linarith
  have hmu3 : 1 / 10 ≤ Py.radians (muDeg m) := by
    unfold muDeg
    rw [Py.radians_degrees]
    have h1 : (1:ℝ) / 10 ≤ 1 / m := one_div_le_one_div_of_le (by linarith) hm2
    have h2 : (1:ℝ) / m ≤ 1 := by rw [div_le_one (by linarith)]; exact b2
    have h3 : 0 ≤ 1 / m := by linarith
    have h4 := sin_le (x := arcsin (1 / m)) (arcsin_nonneg.2 h3)
    rw [sin_arcsin (by linarith) h2] at h4
    linarith
  have hmu4 := muDeg_anti (by norm_num) hm1
  have hup : degree.atan (T * x) + muDeg m < 90 := by linarith
  have hs : T * x + 1 / 10 ≤ s₁ := by
    rw [b4, tanDeg_ok (by linarith [muDeg_pos b2]) hup] at f1
    rw [← Except.ok.inj f1]
    have ha : 0 ≤ degree.atan (T * x) := by
      rw [← atan_zero']; exact atan_mono (by nlinarith)
    have hra : Py.radians (degree.atan (T * x)) = arctan (T * x) := by unfold degree.atan; rw [Py.radians_degrees]
    have hadd : Py.radians (degree.atan (T * x) + muDeg m) = arctan (T * x) + Py.radians (muDeg m) := by
      rw [← hra]; unfold Py.radians; ring
    have hlt : Py.radians (degree.atan (T * x) + muDeg m) < π / 2 := by unfold Py.radians; nlinarith [pi_pos]
    have ha' : 0 ≤ arctan (T * x) := arctan_nonneg.2 (by nlinarith)
    have hle : arctan (T * x) + 1 / 10 ≤ arctan (tan (Py.radians (degree.atan (T * x) + muDeg m))) := by
      rw [arctan_tan (by linarith [pi_pos]) hlt, hadd]; linarith
    rcases le_or_gt (T * x + 1 / 10) (tan (Py.radians (degree.atan (T * x) + muDeg m))) with k | k
    · exact k
    · exfalso
      have k1 := arctan_strictMono k
      -- arctan is 1-Lipschitz
      have k2 := Convex.image_sub_le_mul_sub_of_deriv_le (f := arctan) (C := 1) convex_univ continuous_arctan.continuousOn
        differentiable_arctan.differentiableOn (fun z _ => by
          rw [Real.deriv_arctan, div_le_one (by positivity)]; nlinarith [sq_nonneg z]) (T * x) trivial (T * x + 1/10) trivial (by linarith)
      linarith
  have hchord : T * unitRamp (x + 1e-4) - T * unitRamp x = T * (x + 1e-4 / 2) * 1e-4 := by
    have u1 : unitRamp (x + 1e-4) = (x + 1e-4) ^ 2 / 2 := by
      unfold unitRamp; rw [if_neg (by norm_num; linarith), if_pos (by norm_num; linarith)]
    have u2 : unitRamp x = x ^ 2 / 2 := by
      unfold unitRamp; rw [if_neg (by linarith), if_pos (by linarith)]
    rw [u1, u2]; ring
  have hlt : T * unitRamp (x + 1e-4) - T * unitRamp x < s₁ * 1e-4 := by
    rw [hchord]
    refine mul_lt_mul_of_pos_right ?_ (by norm_num)
    have : T * (x + 1e-4 / 2) = T * x + T * (1e-4 / 2) := by ring
    rw [this]
    have : T * (1e-4 / 2) < 1 / 10 := by norm_num; linarith
    linarith
  have hge := f7 hlt.le
  rcases eq_or_lt_of_le hge with e | e
  · exfalso
    rw [← e, add_sub_cancel_left] at f5
    rw [← e, sub_self, mul_zero] at f6
    linarith
  · exact e

example : ∃ om0 y₁ p, PrandtlMeyer_Mach 2 1.4 = .ok om0 ∧ focus_line scipy 1.4 om0 (ramp 15) 3 0.5 = .ok ((0.5, y₁), p) ∧ 0.5 < p.1 := by
  obtain ⟨om0, h0, H⟩ := C161_compression
  obtain ⟨y₁, y₂, s₁, s₂, p, -, -, -, -, -, h1, -, -, h2⟩ := H 0.5 3 (by norm_num) (by norm_num)
  exact ⟨om0, y₁, p, h0, h1, by norm_num at h2 ⊢; linarith⟩

/-! ## the flow found by iteration -/

theorem pass_inv {newton fsolve : RootFinder} (hn : Spec.SoundRootFinder newton) (hs : Spec.SoundRootFinder fsolve) {gam om0 x y m : ℝ} {yw : Wall} {r : ℝ × ℝ}
    (h : pass newton fsolve gam om0 yw x y m = .ok r) : ∃ ω sl xw v a, PrandtlMeyer_Mach m gam = .ok ω ∧ m ≠ 0 ∧
      degree.tan (om0 - ω + 180 / π * arcsin (1 / m)) = .ok sl ∧ yw xw = .ok v ∧ y - v = sl * (x - xw) ∧ wall_angle yw xw = .ok a ∧
      PrandtlMeyer_Mach r.1 gam = .ok (om0 - a) ∧ r.2 = (m + r.1) / 2 := by
  unfold pass at h
  obtain ⟨ω, h1, h⟩ := Py.bind_inv h
  obtain ⟨q, h2, h⟩ := Py.bind_inv h
  obtain ⟨mu, h3, h⟩ := Py.bind_inv h
  obtain ⟨sl, h4, h⟩ := Py.bind_inv h
  obtain ⟨d, h5, h⟩ := Py.bind_inv h
  obtain ⟨xw, h6, h⟩ := Py.bind_inv h
  obtain ⟨mw, h7, h⟩ := Py.bind_inv h
  rw [Py.pure_eq] at h
  obtain ⟨hm, hq⟩ := Py.div_inv h2
  have hr := hs _ _ _ h6
  obtain ⟨v, h8, h9⟩ := Py.bind_inv hr
  unfold mach_wall at h7
  obtain ⟨a, h10, h11⟩ := Py.bind_inv h7
  have hz := hn _ _ _ h11
  unfold pm_residual at hz
  obtain ⟨w, h12, h13⟩ := Py.bind_inv hz
  rw [Py.pure_eq] at h13 h9
  have e13 := Except.ok.inj h13
  have e9 := Except.ok.inj h9
  have hmu : mu = 180 / π * arcsin (1 / m) := by
    unfold degree.asin at h3
    obtain ⟨z, h14, h15⟩ := Py.bind_inv h3
    rw [Py.pure_eq] at h15
    unfold Py.arcsin at h14
    split_ifs at h14
    rw [← Except.ok.inj h15, ← Except.ok.inj h14, hq]
    unfold Py.degrees
    ring
  rw [← Except.ok.inj h]
  refine ⟨ω, sl, xw, v, a, h1, hm, ?_, h8, by linarith, h10, ?_, ?_⟩
  · rw [← hmu]; exact h4
  · rw [h12]; congr 1; linarith
  · simp only []; norm_num; ring

theorem loop_inv {newton fsolve : RootFinder} {gam om0 x y : ℝ} {yw : Wall} : ∀ (n : ℕ) (m mw r : ℝ), 1e-6 < |m - mw| →
    loop newton fsolve gam om0 yw x y n m mw = .ok r → ∃ m' mw', pass newton fsolve gam om0 yw x y m' = .ok (mw', r) ∧ |r - mw'| ≤ 1e-6
  | 0, m, mw, r, _, h => by simp [loop] at h
  | n + 1, m, mw, r, hgt, h => by
    rw [loop, if_pos hgt] at h
    obtain ⟨p, h1, h2⟩ := Py.bind_inv h
    rcases le_or_gt |p.2 - p.1| 1e-6 with hc | hc
    · cases n with
      | zero => simp [loop] at h2
      | succ n =>
        rw [loop, if_neg (not_lt.2 hc)] at h2
        have := Except.ok.inj h2
        refine ⟨m, p.1, ?_, ?_⟩
        · rw [h1, ← this]
        · rw [← this]; exact hc
    · exact loop_inv n _ _ r hc h2

/-- **C161 (the Mach number found by the iteration, partial).** When `mach` returns `m` at the point `(x, y)`, with solvers that return exact roots: there is a wall point `(xw, yw)` and a flow `m'`
within `1e-6` of `m` whose downstream-running characteristic (direction: its angle in the simple wave plus its Mach angle) joins the wall point to `(x, y)`; the flow `mw` of the
simple wave that follows the wall there is within `1e-6` of `m`.  Missing: that the loop ends. -/
theorem C161_mach_partial (newton fsolve : RootFinder) (hn : Spec.SoundRootFinder newton) (hs : Spec.SoundRootFinder fsolve) (gam M0 om0 x y m : ℝ) (ywall : Wall)
    (fuel : ℕ) (hM0 : 1 ≤ M0) (h : mach newton fsolve gam M0 om0 ywall fuel x y = .ok m) : ∃ m' ω slope xw yw a mw, |m - m'| ≤ 1e-6 ∧ |m - mw| ≤ 1e-6 ∧
      PrandtlMeyer_Mach m' gam = .ok ω ∧ degree.tan (om0 - ω + 180 / π * arcsin (1 / m')) = .ok slope ∧
      ywall xw = .ok yw ∧ y - yw = slope * (x - xw) ∧ wall_angle ywall xw = .ok a ∧ PrandtlMeyer_Mach mw gam = .ok (om0 - a) := by
  have hgt : (1e-6:ℝ) < |M0 - 0| := by
    rw [sub_zero, abs_of_nonneg (by linarith)]; norm_num; linarith
  obtain ⟨m', mw, h1, h2⟩ := loop_inv fuel M0 0 m hgt h
  obtain ⟨ω, sl, xw, v, a, e1, -, e2, e3, e4, e5, e6, e7⟩ := pass_inv hn hs h1
  simp only [] at e6 e7
  refine ⟨m', ω, sl, xw, v, a, mw, ?_, h2, e1, e2, e3, e4, e5, e6⟩
  rw [show m - m' = -(m - mw) by rw [e7]; ring, abs_neg]
  exact h2

/-- the secant search stops at its starting point when it is a root -/
theorem pm_at_two : Mach_PrandtlMeyer scipy (pmDeg 1.4 2) 1.4 = .ok 2 := by
  have hγ : (1:ℝ) < 1.4 := by norm_num
  rw [pm_search hγ, sub_self, abs_zero, if_neg (not_lt.2 (abs_nonneg _))]
  have hq : pmr 1.4 (20003/10000) - pmr 1.4 2 ≠ 0 := (sub_pos.2 (pmr_lt hγ (by norm_num) (by norm_num))).ne'
  have c1 : ∀ p0 p1 q : ℝ, q ≠ 0 → chord p0 p1 0 q = p0 := by
    intro p0 p1 q h
    unfold chord; field_simp; ring
  have c2 : ∀ p0 p1 q : ℝ, chord p0 p1 q 0 = p1 := by
    intro p0 p1 q
    unfold chord; ring
  rw [loop_succ hq, c1 _ _ _ hq, if_neg (by norm_num), pmFun_ok hγ (by norm_num), Py.ok_bind, sub_self, loop_succ (Ne.symm hq), c2, if_pos (by norm_num)]

theorem undisturbed_gen {newton fsolve : RootFinder} (h22 : Mach_PrandtlMeyer newton (pmDeg 1.4 2) 1.4 = .ok 2) (hs : Spec.SoundRootFinder fsolve)
    (hc : ∀ f x₀, (∃ r, f r = .ok 0) → ∃ r, fsolve f x₀ = .ok r) {ang x y : ℝ}
    (h1 : -90 < ang) (h2 : ang < 30) (hx : x - √3 * y ≤ -1e-4) {fuel : ℕ} (hf : 2 ≤ fuel) : mach newton fsolve 1.4 2 (pmDeg 1.4 2) (ramp ang) fuel x y = .ok 2 := by
  have hv := ramp_value h1 (by linarith : ang < 90)
  have h30 : muDeg 2 = 30 := by
    unfold muDeg
    rw [show (1:ℝ) / 2 = sin (π / 6) by rw [sin_pi_div_six], arcsin_sin (by linarith [pi_pos]) (by linarith [pi_pos])]
    unfold Py.degrees; field_simp; norm_num
  have hs3 : 0 < √3 := sqrt_pos.2 (by norm_num)
  have ht : Real.tan (Py.radians 30) = 1 / √3 := by
    rw [show Py.radians 30 = π / 6 by unfold Py.radians; ring, tan_pi_div_six]
  have hT : Real.tan (Py.radians ang) < 1 / √3 := by rw [← ht]; exact tanDeg_lt h1 h2 (by norm_num)
  have h3 : √3 * √3 = 3 := Real.mul_self_sqrt (by norm_num)
  -- the slope in the undisturbed flow
  have hroot : ∀ r, (do
      let yw ← ramp ang r
      return y - yw + 1 / √3 * (r - x) : Py ℝ) = .ok (y - Real.tan (Py.radians ang) * unitRamp r + 1 / √3 * (r - x)) := by
    intro r; rw [hv, Py.ok_bind]; rfl
  have huniq : ∀ r, y - Real.tan (Py.radians ang) * unitRamp r + 1 / √3 * (r - x) = 0 → r ≤ -1e-4 := by
    intro r hr
    by_contra hcon
    push Not at hcon
    have hy : y = √3 * y * (1 / √3) := by field_simp
    have k : Real.tan (Py.radians ang) * unitRamp r = 1 / √3 * (r - (x - √3 * y)) := by
      have : 1 / √3 * (r - (x - √3 * y)) = 1 / √3 * (r - x) + y := by field_simp; ring
      linarith
    have hpos : 0 < r - (x - √3 * y) := by linarith
    have hp3 : 0 < 1 / √3 := by positivity
    have hu0 : 0 ≤ unitRamp r := by have := unitRamp_tangent le_rfl zero_le_one r; linarith
    rcases lt_or_ge r 0 with hr0 | hr0
    · have : unitRamp r = 0 := by unfold unitRamp; rw [if_pos hr0]
      rw [this, mul_zero] at k
      have := mul_pos hp3 hpos
      linarith
    · have hur : unitRamp r ≤ r := by
        unfold unitRamp
        rw [if_neg (not_lt.2 hr0)]
        split_ifs with hr1
        · nlinarith
        · linarith
      have hd : (0:ℝ) < 1e-4 := by norm_num
      have a1 : Real.tan (Py.radians ang) * unitRamp r ≤ 1 / √3 * unitRamp r := mul_le_mul_of_nonneg_right hT.le hu0
      have a2 : 1 / √3 * unitRamp r ≤ 1 / √3 * r := mul_le_mul_of_nonneg_left hur hp3.le
      have a3 : 1 / √3 * r < 1 / √3 * (r - (x - √3 * y)) := mul_lt_mul_of_pos_left (by linarith) hp3
      linarith
  obtain ⟨r, hr⟩ := hc (fun xw => do
      let yw ← ramp ang xw
      return y - yw + 1 / √3 * (xw - x)) (x - y / (1 / √3)) ⟨x - √3 * y, by
        rw [hroot]
        have : unitRamp (x - √3 * y) = 0 := by
          have hd : (0:ℝ) < 1e-4 := by norm_num
          unfold unitRamp; rw [if_pos (by linarith)]
        rw [this]
        congr 1
        field_simp
        ring⟩
  have hr0 := hs _ _ _ hr
  rw [hroot] at hr0
  have hrl := huniq r (Except.ok.inj hr0)
  have hwall : mach_wall newton 1.4 (pmDeg 1.4 2) (ramp ang) r = .ok 2 := by
    unfold mach_wall
    rw [ramp_angle h1 (by linarith), meanSlope_flat hrl, mul_zero, atan_zero', Py.ok_bind, sub_zero, h22]
  have hmu : (Py.div 1 2 >>= degree.asin) = .ok (muDeg 2) := muDeg_ok (by norm_num)
  have hpass : pass newton fsolve 1.4 (pmDeg 1.4 2) (ramp ang) x y 2 = .ok (2, 2) := by
    unfold pass
    simp only []
    rw [om2_ok, Py.ok_bind, Py.div_ok (by norm_num), Py.ok_bind]
    rw [Py.div_ok (by norm_num), Py.ok_bind] at hmu
    rw [hmu, Py.ok_bind, h30, sub_self, zero_add, tanDeg_ok (by norm_num) (by norm_num), Py.ok_bind, ht, Py.div_ok (by positivity), Py.ok_bind, hr, Py.ok_bind, hwall, Py.ok_bind,
      Py.pure_eq]
    norm_num
  obtain ⟨k, rfl⟩ : ∃ k, fuel = k + 2 := ⟨fuel - 2, by omega⟩
  unfold mach
  rw [loop, if_pos (by norm_num), hpass, Py.ok_bind, loop, if_neg (by norm_num)]

/-- **C161 (the undisturbed flow).** At the Mach number 2 of the notebook, on a ramp at less than 30 degrees, `mach` returns 2 at every point above the wall and upstream of
the first characteristic (the Mach line, at 30 degrees, from `x = -1e-4`), in two turns of the loop, when `fsolve` returns roots and finds one if there is one. -/
theorem C161_undisturbed (fsolve : RootFinder) (hs : Spec.SoundRootFinder fsolve) (hc : ∀ f x₀, (∃ r, f r = .ok 0) → ∃ r, fsolve f x₀ = .ok r) (ang x y : ℝ)
    (h1 : -90 < ang) (h2 : ang < 30) (hx : x - √3 * y ≤ -1e-4) (fuel : ℕ) (hf : 2 ≤ fuel) :
    ∃ om0, PrandtlMeyer_Mach 2 1.4 = .ok om0 ∧ mach scipy fsolve 1.4 2 om0 (ramp ang) fuel x y = .ok 2 := 
  ⟨_, om2_ok, undisturbed_gen pm_at_two hs hc h1 h2 hx hf⟩

example : ∃ fsolve om0, Spec.SoundRootFinder fsolve ∧ PrandtlMeyer_Mach 2 1.4 = .ok om0 ∧ mach scipy fsolve 1.4 2 om0 (ramp (-20)) 10 (-0.1) 0.4 = .ok 2 := by
  obtain ⟨fsolve, h1, h2⟩ := Spec.exists_soundRootFinder
  obtain ⟨om0, e1, e2⟩ := C161_undisturbed fsolve h1 h2 (-20) (-0.1) 0.4 (by norm_num) (by norm_num) (by
    have : 0 ≤ √(3:ℝ) := sqrt_nonneg _
    have h3 : (1:ℝ) ≤ √3 := Real.one_le_sqrt.2 (by norm_num)
    norm_num; linarith) 10 (by norm_num)
  exact ⟨fsolve, om0, h1, e1, e2⟩

example : ∃ newton fsolve om0, Spec.SoundRootFinder newton ∧ Spec.SoundRootFinder fsolve ∧ mach newton fsolve 1.4 2 om0 (ramp (-20)) 10 (-0.1) 0.4 = .ok 2 := by
  classical
  obtain ⟨fsolve, h1, h2⟩ := Spec.exists_soundRootFinder
  refine ⟨fun f _ => if f 2 = .ok 0 then .ok 2 else .error .noConvergence, fsolve, pmDeg 1.4 2, ?_, h1, ?_⟩
  · intro f x0 x h
    simp only [] at h
    split_ifs at h with k
    rw [← Except.ok.inj h]; exact k
  · refine undisturbed_gen ?_ h1 h2 (by norm_num) (by norm_num) ?_ (by norm_num)
    · unfold Mach_PrandtlMeyer pm_residual
      refine if_pos ?_
      beta_reduce
      rw [om2_ok, Py.ok_bind, sub_self, Py.pure_eq]
    · have h3 : (1:ℝ) ≤ √3 := Real.one_le_sqrt.2 (by norm_num)
      norm_num; linarith

end Aerokit.Props
