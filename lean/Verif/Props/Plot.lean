import Verif.Model.Plot
import Verif.Spec.Polar
import Verif.Lemmas.Oblique
import Verif.Props.Oblique
import Verif.Props.Supersonic

/-! # C91, C92 : polar plots, `aerokit/aero/plot` -/

namespace Aerokit.Props
open Plot ShockWave Real

/-- the points (both coordinates finite) drawn by a series -/
def Series.Draws (s : Series) (x y : ℝ) : Prop := (Except.ok x, Except.ok y) ∈ s.x.zip s.y

theorem linspace_ok (a b : ℝ) (n : ℕ) :
    linspace (.ok a) (.ok b) n = (List.range (n + 1)).map fun (i : ℕ) => (Except.ok (a + (i : ℝ) * ((b - a) / (n : ℝ))) : Py ℝ) := by
  unfold linspace
  rfl

theorem mem_linspace {a b : ℝ} (hab : a ≤ b) {n : ℕ} {v : Py ℝ} (h : v ∈ linspace (.ok a) (.ok b) n) :
    ∃ s, v = .ok s ∧ a ≤ s ∧ s ≤ b := by
  rw [linspace_ok] at h
  obtain ⟨i, hi, rfl⟩ := List.mem_map.1 h
  have hi' : i ≤ n := by have := List.mem_range.1 hi; omega
  have h1 : (0 : ℝ) ≤ b - a := by linarith
  refine ⟨_, rfl, ?_, ?_⟩
  · have : 0 ≤ (i : ℝ) * ((b - a) / (n : ℝ)) := by positivity
    linarith
  · rcases Nat.eq_zero_or_pos n with h0 | h0
    · subst h0; simp only [Nat.cast_zero, div_zero, mul_zero, add_zero]; exact hab
    · have hn : (0 : ℝ) < n := by exact_mod_cast h0
      have hin : (i : ℝ) ≤ n := by exact_mod_cast hi'
      have : (i : ℝ) * ((b - a) / (n : ℝ)) ≤ n * ((b - a) / (n : ℝ)) := by
        apply mul_le_mul_of_nonneg_right hin; positivity
      have e : (n : ℝ) * ((b - a) / (n : ℝ)) = b - a := by field_simp
      linarith

theorem machAngle_ok {M : ℝ} (hM : 1 < M) : machAngle M = .ok (Py.degrees (arcsin (1 / M))) := by
  unfold machAngle
  lits
  have h1 : 1 / M ≤ 1 := by rw [div_le_one (by linarith)]; linarith
  have h0 : 0 < 1 / M := by positivity
  rw [Py.div_ok (by linarith), Py.ok_bind, degree.asin_ok (by linarith) h1]

theorem deflection_90 (M γ : ℝ) : deflection_Mach_sigma M 90 γ = .error .nonFinite := by
  unfold deflection_Mach_sigma
  simp only [Py.radians_90]
  unfold Py.tan
  rw [if_pos Real.cos_pi_div_two]
  rfl

/-- what the code computes at a shock angle between the Mach angle and 90 degrees -/
theorem polar_point {M γ s d : ℝ} (hγ : 1 < γ) (hM : 1 < M) (h0 : Py.degrees (arcsin (1 / M)) ≤ s) (h1 : s ≤ 90)
    (hd : deflection_Mach_sigma M s γ = .ok d) :
    0 ≤ d ∧ d < 90 ∧ Spec.OnAnglePolar γ M d s ∧ Spec.OnPressurePolar γ M d (psr (M * degree.sin s) γ) ∧
      1 ≤ psr (M * degree.sin s) γ ∧ psr (M * degree.sin s) γ < psr M γ ∧ 0 < s ∧ s < 90 := by
  have hlt : s < 90 := by
    rcases h1.lt_or_eq with h | h
    · exact h
    · rw [h, deflection_90] at hd; cases hd
  have hM0 : 0 < M := by linarith
  have hq : 0 < 1 / M := by positivity
  have hq1 : 1 / M < 1 := by rw [div_lt_one hM0]; exact hM
  have m0 : 0 < arcsin (1 / M) := Real.arcsin_pos.2 hq
  have hs0 : 0 < s := lt_of_lt_of_le (Py.degrees_mem m0 (Real.arcsin_lt_pi_div_two.2 hq1)).1 h0
  obtain ⟨s0, s1⟩ := Py.radians_mem hs0 hlt
  obtain ⟨hS, hC⟩ := sin_cos_pos s0 s1
  have hr : arcsin (1 / M) ≤ Py.radians s := by
    rw [← Py.degrees_le, Py.degrees_radians]; exact h0
  have hMs : 1 ≤ M * sin (Py.radians s) := by
    have := Real.sin_le_sin_of_le_of_le_pi_div_two (by linarith [Real.pi_pos]) s1.le hr
    rw [Real.sin_arcsin (by linarith) hq1.le, div_le_iff₀ hM0] at this
    linarith
  have hX : 0 ≤ M ^ 2 * sin (Py.radians s) ^ 2 - 1 := by
    have := one_le_pow₀ (n := 2) hMs; rw [mul_pow] at this; linarith
  have hden := tanth_den_pos (M := M) (s := Py.radians s) hγ
  rw [deflection_ok hγ hM0.ne' hs0 hlt] at hd
  have hd' : Py.degrees (arctan (tanth M (Py.radians s) γ)) = d := by injection hd
  have ht0 : 0 ≤ tanth M (Py.radians s) γ := by unfold tanth; positivity
  have htan : tan (d * (π / 180)) = tanth M (Py.radians s) γ := by
    rw [← hd']; show tan (Py.radians _) = _; rw [Py.radians_degrees, Real.tan_arctan]
  have hcs : cos (Py.radians s) ^ 2 = 1 - sin (Py.radians s) ^ 2 := Real.cos_sq' _
  have hs2 : sin (Py.radians s) ^ 2 < 1 := by
    have : 0 < cos (Py.radians s) ^ 2 := by positivity
    linarith
  have hP : psr (M * degree.sin s) γ = 1 + 2 * γ / (γ + 1) * (M ^ 2 * sin (Py.radians s) ^ 2 - 1) := by
    unfold psr degree.sin; rw [mul_pow]
  have hg1 : 0 < γ + 1 := by linarith
  have hk : 0 < 2 * γ / (γ + 1) := by apply div_pos <;> linarith
  refine ⟨?_, ?_, ?_, ?_, ?_, ?_, hs0, hlt⟩
  · rw [← hd', ← Py.degrees_zero, Py.degrees_le]; exact Real.arctan_nonneg.2 ht0
  · rw [← hd', ← Py.degrees_pi_div_two, Py.degrees_lt]; exact Real.arctan_lt_pi_div_two _
  · unfold Spec.OnAnglePolar
    rw [htan]
    show tanth M (Py.radians s) γ * (M ^ 2 * (γ + cos (2 * Py.radians s)) + 2) * sin (Py.radians s) = 2 * cos (Py.radians s) * (M ^ 2 * sin (Py.radians s) ^ 2 - 1)
    rw [Real.cos_two_mul, hcs]
    unfold tanth
    have e : M ^ 2 * (γ + (2 * (1 - sin (Py.radians s) ^ 2) - 1)) + 2 = (γ + 1) * M ^ 2 + 2 - 2 * (M ^ 2 * sin (Py.radians s) ^ 2) := by ring
    rw [e]
    obtain ⟨D, hD⟩ : ∃ D, D = (γ + 1) * M ^ 2 + 2 - 2 * (M ^ 2 * sin (Py.radians s) ^ 2) := ⟨_, rfl⟩
    rw [← hD] at hden ⊢
    field_simp
  · unfold Spec.OnPressurePolar
    rw [htan, hP]
    have e1 : γ * M ^ 2 - (1 + 2 * γ / (γ + 1) * (M ^ 2 * sin (Py.radians s) ^ 2 - 1) - 1)
      = γ / (γ + 1) * ((γ + 1) * M ^ 2 + 2 - 2 * (M ^ 2 * sin (Py.radians s) ^ 2)) := by field_simp; ring
    have e2 : (γ + 1) * (1 + 2 * γ / (γ + 1) * (M ^ 2 * sin (Py.radians s) ^ 2 - 1)) + (γ - 1) = 2 * γ * M ^ 2 * sin (Py.radians s) ^ 2 := by
      field_simp; ring
    have e3 : 2 * γ * M ^ 2 - (γ - 1) - (γ + 1) * (1 + 2 * γ / (γ + 1) * (M ^ 2 * sin (Py.radians s) ^ 2 - 1)) = 2 * γ * M ^ 2 * cos (Py.radians s) ^ 2 := by
      rw [hcs]; field_simp; ring
    rw [e1, e2, e3]
    unfold tanth
    obtain ⟨D, hD⟩ : ∃ D, D = (γ + 1) * M ^ 2 + 2 - 2 * (M ^ 2 * sin (Py.radians s) ^ 2) := ⟨_, rfl⟩
    rw [← hD] at hden ⊢
    field_simp
    ring
  · rw [hP]; have := mul_nonneg hk.le hX; linarith
  · rw [hP]; unfold psr
    have : M ^ 2 * sin (Py.radians s) ^ 2 < M ^ 2 := by
      have : 0 < M ^ 2 := by positivity
      nlinarith
    have := mul_lt_mul_of_pos_left (sub_lt_sub_right this 1) hk
    linarith

theorem sigma_DevMax_range {M γ s : ℝ} (hγ : 1 < γ) (hM : 1 < M) (h : sigma_DevMax M γ = .ok s) :
    Py.degrees (arcsin (1 / M)) ≤ s ∧ s < 90 := by
  obtain ⟨σm, θm, μ, h1, h2, h3, h4, h5, _⟩ := C17_max_deflection M γ hγ hM
  rw [h1] at h
  have e : σm = s := by injection h
  have hq : 0 < 1 / M := by positivity
  have hq1 : 1 / M < 1 := by rw [div_lt_one (by linarith)]; exact hM
  rw [degree.asin_ok (by linarith) hq1.le] at h3
  have e' : Py.degrees (arcsin (1 / M)) = μ := by injection h3
  rw [e', ← e]; exact ⟨h4.le, h5⟩

theorem sigma_Sonic_range {M γ s : ℝ} (hγ : 1 < γ) (hM : 1 < M) (h : sigma_Sonic M γ = .ok s) :
    Py.degrees (arcsin (1 / M)) ≤ s ∧ s < 90 := by
  obtain ⟨xs, hx1, _, hxm, hroot, hσ⟩ := sigma_Sonic_ok hγ hM.le
  rw [hσ] at h
  have e : Py.degrees (arcsin √(xs / M ^ 2)) = s := by injection h
  have hM0 : 0 < M := by linarith
  obtain ⟨a0, a1, hx, q1, q0⟩ := shock_angle hM0 (by linarith) (hxm hM)
  rw [← e]
  refine ⟨?_, (Py.degrees_mem a0 a1).2⟩
  rw [Py.degrees_le]
  apply Real.monotone_arcsin
  apply Real.le_sqrt_of_sq_le
  rw [div_pow, one_pow]
  apply div_le_div_of_nonneg_right hx1; positivity

theorem draws_map {l : List (Py ℝ)} {f g : Py ℝ → Py ℝ} {st : Style} {x y : ℝ} (h : Series.Draws ⟨l.map f, l.map g, st⟩ x y) :
    ∃ v ∈ l, f v = .ok x ∧ g v = .ok y := by
  unfold Series.Draws at h
  simp only [List.zip_map'] at h
  obtain ⟨v, hv, e⟩ := List.mem_map.1 h
  exact ⟨v, hv, (Prod.mk.inj e).1, (Prod.mk.inj e).2⟩

theorem mem_if {b : Bool} {s : Series} {l : List Series} : s ∈ (if b then l else []) ↔ b = true ∧ s ∈ l := by
  cases b <;> simp

/-- shape of all series of the pressure polar: a list of shock angles between the Mach angle and 90 degrees, the curve on the right or on the left -/
theorem pressure_series {M γ θ0 p0 : ℝ} {n : ℕ} {curve : String} {devmax sonic : Bool} (hγ : 1 < γ) (hM : 1 < M) {s : Series}
    (hs : s ∈ plot_theta_pressure M γ n θ0 p0 curve devmax sonic) {x y : ℝ} (h : Series.Draws s x y) :
    ∃ σ d, Py.degrees (arcsin (1 / M)) ≤ σ ∧ σ ≤ 90 ∧ deflection_Mach_sigma M σ γ = .ok d ∧ y = p0 * psr (M * degree.sin σ) γ ∧
      ((x = θ0 + d ∧ isRight curve = true) ∨ (x = θ0 - d ∧ isLeft curve = true)) := by
  have hμ90 : Py.degrees (arcsin (1 / M)) ≤ 90 := by
    rw [← Py.degrees_pi_div_two, Py.degrees_le]; exact Real.arcsin_le_pi_div_two _
  have key : ∀ (l : List (Py ℝ)), (∀ v ∈ l, ∀ σ, v = .ok σ → Py.degrees (arcsin (1 / M)) ≤ σ ∧ σ ≤ 90) → ∀ (c : ℝ → ℝ) (st : Style),
      ((c = (fun d => θ0 + d) ∧ isRight curve = true) ∨ (c = (fun d => θ0 - d) ∧ isLeft curve = true)) →
      Series.Draws ⟨elementwise (fun d => .ok (c d)) (elementwise (fun s => deflection_Mach_sigma M s γ) l),
        elementwise (fun s => do let p ← Ps_ratio (M * degree.sin s) γ; return p0 * p) l, st⟩ x y →
      ∃ σ d, Py.degrees (arcsin (1 / M)) ≤ σ ∧ σ ≤ 90 ∧ deflection_Mach_sigma M σ γ = .ok d ∧ y = p0 * psr (M * degree.sin σ) γ ∧
      ((x = θ0 + d ∧ isRight curve = true) ∨ (x = θ0 - d ∧ isLeft curve = true)) := by
    intro l hl c st hc hd
    unfold elementwise at hd
    rw [List.map_map] at hd
    obtain ⟨v, hv, e1, e2⟩ := draws_map hd
    cases v with
    | error e => cases e1
    | ok σ =>
      obtain ⟨a1, a2⟩ := hl _ hv σ rfl
      simp only [Function.comp, Py.ok_bind] at e1 e2
      rw [Ps_ratio_ok hγ, Py.ok_bind] at e2
      cases hdef : deflection_Mach_sigma M σ γ with
      | error e => rw [hdef] at e1; cases e1
      | ok d =>
        rw [hdef, Py.ok_bind] at e1
        refine ⟨σ, d, a1, a2, hdef, ?_, ?_⟩
        · injection e2 with e2; exact e2.symm
        · have : c d = x := by injection e1
          rcases hc with ⟨rfl, hc⟩ | ⟨rfl, hc⟩
          · exact Or.inl ⟨this.symm, hc⟩
          · exact Or.inr ⟨this.symm, hc⟩
  have hlin : ∀ v ∈ linspace (machAngle M) (.ok 90.0) n, ∀ σ, v = .ok σ → Py.degrees (arcsin (1 / M)) ≤ σ ∧ σ ≤ 90 := by
    intro v hv σ hvσ
    rw [machAngle_ok hM, show (90.0 : ℝ) = 90 by norm_num] at hv
    obtain ⟨t, ht, h1, h2⟩ := mem_linspace hμ90 hv
    rw [ht] at hvσ
    have : t = σ := by injection hvσ
    rw [← this]; exact ⟨h1, h2⟩
  have hmax : ∀ v ∈ [sigma_DevMax M γ], ∀ σ, v = .ok σ → Py.degrees (arcsin (1 / M)) ≤ σ ∧ σ ≤ 90 := by
    intro v hv σ hvσ
    rw [List.mem_singleton.1 hv] at hvσ
    exact ⟨(sigma_DevMax_range hγ hM hvσ).1, (sigma_DevMax_range hγ hM hvσ).2.le⟩
  have hson : ∀ v ∈ [sigma_Sonic M γ], ∀ σ, v = .ok σ → Py.degrees (arcsin (1 / M)) ≤ σ ∧ σ ≤ 90 := by
    intro v hv σ hvσ
    rw [List.mem_singleton.1 hv] at hvσ
    exact ⟨(sigma_Sonic_range hγ hM hvσ).1, (sigma_Sonic_range hγ hM hvσ).2.le⟩
  unfold plot_theta_pressure at hs
  simp only [List.mem_append, mem_if, List.mem_singleton] at hs
  rcases hs with ((⟨hc, rfl⟩ | ⟨hc, rfl⟩) | ⟨_, ⟨hc, rfl⟩ | ⟨hc, rfl⟩⟩) | ⟨_, ⟨hc, rfl⟩ | ⟨hc, rfl⟩⟩
  · exact key _ hlin _ _ (Or.inl ⟨rfl, hc⟩) h
  · exact key _ hlin _ _ (Or.inr ⟨rfl, hc⟩) h
  · exact key _ hmax _ _ (Or.inl ⟨rfl, hc⟩) h
  · exact key _ hmax _ _ (Or.inr ⟨rfl, hc⟩) h
  · exact key _ hson _ _ (Or.inl ⟨rfl, hc⟩) h
  · exact key _ hson _ _ (Or.inr ⟨rfl, hc⟩) h

theorem onPressurePolar_neg {γ M θ P : ℝ} : Spec.OnPressurePolar γ M (-θ) P ↔ Spec.OnPressurePolar γ M θ P := by
  unfold Spec.OnPressurePolar
  rw [neg_mul, Real.tan_neg, neg_sq]

/-- C91.  Every (finite) point drawn by `shockpolar.plot_theta_pressure`, lines and markers, whatever the options, lies on the classical pressure–deflection
shock polar of the flow, shifted to `(thet_init, p_init)`, between no shock and the normal shock. -/
theorem C91_pressure_points (M γ θ0 p0 : ℝ) (n : ℕ) (curve : String) (devmax sonic : Bool) (hγ : 1 < γ) (hM : 1 < M) (hp : 0 < p0) (s : Series)
    (hs : s ∈ plot_theta_pressure M γ n θ0 p0 curve devmax sonic) (x y : ℝ) (h : Series.Draws s x y) :
    Spec.OnPressurePolar γ M (x - θ0) (y / p0) ∧ |x - θ0| < 90 ∧ 1 ≤ y / p0 ∧ y / p0 < 1 + 2 * γ / (γ + 1) * (M ^ 2 - 1) ∧
      (curve = "right" → θ0 ≤ x) ∧ (curve = "left" → x ≤ θ0) := by
  obtain ⟨σ, d, h0, h1, hd, hy, hx⟩ := pressure_series hγ hM hs h
  obtain ⟨g1, g2, _, g4, g5, g6, _, _⟩ := polar_point hγ hM h0 h1 hd
  have e : y / p0 = psr (M * degree.sin σ) γ := by rw [hy]; field_simp
  rw [e]
  refine ⟨?_, ?_, g5, g6, ?_, ?_⟩
  · rcases hx with ⟨rfl, hcv⟩ | ⟨rfl, hcv⟩
    · rw [add_sub_cancel_left]; exact g4
    · rw [show θ0 - d - θ0 = -d by ring, onPressurePolar_neg]; exact g4
  · rcases hx with ⟨rfl, hcv⟩ | ⟨rfl, hcv⟩
    · rw [add_sub_cancel_left, abs_of_nonneg g1]; exact g2
    · rw [show θ0 - d - θ0 = -d by ring, abs_neg, abs_of_nonneg g1]; exact g2
  · rintro rfl
    rcases hx with ⟨rfl, hcv⟩ | ⟨rfl, hcv⟩
    · linarith
    · exact absurd hcv (by decide)
  · rintro rfl
    rcases hx with ⟨rfl, hcv⟩ | ⟨rfl, hcv⟩
    · exact absurd hcv (by decide)
    · linarith

/-- C91.  The marker of the maximal deflection, drawn when asked for, has the largest deviation of all points drawn. -/
theorem C91_pressure_devmax (M γ θ0 p0 : ℝ) (n : ℕ) (curve : String) (sonic : Bool) (hγ : 1 < γ) (hM : 1 < M)
    (hc : curve = "right" ∨ curve = "left" ∨ curve = "both") :
    ∃ s xm ym, s ∈ plot_theta_pressure M γ n θ0 p0 curve true sonic ∧ s.style = .ro ∧ Series.Draws s xm ym ∧
      ∀ s' ∈ plot_theta_pressure M γ n θ0 p0 curve true sonic, ∀ x y, Series.Draws s' x y → |x - θ0| ≤ |xm - θ0| := by
  obtain ⟨σm, θm, μ, h1, h2, h3, h4, h5, h6⟩ := C17_max_deflection M γ hγ hM
  have bound : ∀ s' ∈ plot_theta_pressure M γ n θ0 p0 curve true sonic, ∀ x y, Series.Draws s' x y → |x - θ0| ≤ |θm| := by
    intro s' hs' x y hd
    obtain ⟨σ, d, g0, g1, hd', hy, hx⟩ := pressure_series hγ hM hs' hd
    obtain ⟨k1, k2, _, _, _, _, k3, k4⟩ := polar_point hγ hM g0 g1 hd'
    obtain ⟨θ, hθ, hle, _⟩ := h6 σ k3 k4
    rw [hd'] at hθ
    have e : d = θ := by injection hθ
    have : |x - θ0| = d := by
      rcases hx with ⟨rfl, hcv⟩ | ⟨rfl, hcv⟩
      · rw [add_sub_cancel_left, abs_of_nonneg k1]
      · rw [show θ0 - d - θ0 = -d by ring, abs_neg, abs_of_nonneg k1]
    rw [this, e]; exact hle.trans (le_abs_self _)
  have hright : isRight curve = true → ∃ s xm ym, s ∈ plot_theta_pressure M γ n θ0 p0 curve true sonic ∧ s.style = .ro ∧ Series.Draws s xm ym ∧
      |xm - θ0| = |θm| := by
    intro hr
    refine ⟨⟨[.ok (θ0 + θm)], [.ok (p0 * psr (M * degree.sin σm) γ)], .ro⟩, θ0 + θm, p0 * psr (M * degree.sin σm) γ, ?_, rfl, ?_, ?_⟩
    · unfold plot_theta_pressure
      simp only [List.mem_append, if_true, mem_if, List.mem_singleton]
      refine Or.inl (Or.inr (Or.inl ⟨hr, ?_⟩))
      simp only [elementwise, h1, h2, List.map_cons, List.map_nil, Py.ok_bind, Ps_ratio_ok hγ, Py.pure_eq]
    · simp [Series.Draws]
    · rw [add_sub_cancel_left]
  have hleft : isLeft curve = true → ∃ s xm ym, s ∈ plot_theta_pressure M γ n θ0 p0 curve true sonic ∧ s.style = .ro ∧ Series.Draws s xm ym ∧
      |xm - θ0| = |θm| := by
    intro hr
    refine ⟨⟨[.ok (θ0 - θm)], [.ok (p0 * psr (M * degree.sin σm) γ)], .ro⟩, θ0 - θm, p0 * psr (M * degree.sin σm) γ, ?_, rfl, ?_, ?_⟩
    · unfold plot_theta_pressure
      simp only [List.mem_append, if_true, mem_if, List.mem_singleton]
      refine Or.inl (Or.inr (Or.inr ⟨hr, ?_⟩))
      simp only [elementwise, h1, h2, List.map_cons, List.map_nil, Py.ok_bind, Ps_ratio_ok hγ, Py.pure_eq]
    · simp [Series.Draws]
    · rw [show θ0 - θm - θ0 = -θm by ring, abs_neg]
  have hex : ∃ s xm ym, s ∈ plot_theta_pressure M γ n θ0 p0 curve true sonic ∧ s.style = .ro ∧ Series.Draws s xm ym ∧ |xm - θ0| = |θm| := by
    rcases hc with rfl | rfl | rfl
    · exact hright (by decide)
    · exact hleft (by decide)
    · exact hright (by decide)
  obtain ⟨s, xm, ym, a, b, c, d⟩ := hex
  exact ⟨s, xm, ym, a, b, c, by rw [d]; exact bound⟩

/-- C91.  The sonic marker, drawn when asked for, is the point of the polar behind which the flow is exactly sonic. -/
theorem C91_pressure_sonic (M γ θ0 p0 : ℝ) (n : ℕ) (curve : String) (devmax : Bool) (hγ : 1 < γ) (hM : 1 < M) (hp : 0 < p0)
    (s : Series) (hs : s ∈ plot_theta_pressure M γ n θ0 p0 curve devmax true) (hst : s.style = .ko) :
    ∃ x y, s.x = [.ok x] ∧ s.y = [.ok y] ∧ downstreamMach_Mach_ShockPsratio M (y / p0) γ = .ok 1 := by
  obtain ⟨σ, p, h1, h2, h3, h4, h5⟩ := C16_sonic_downstream M γ hγ hM
  have hd : dev_Sonic M γ = .ok (Py.degrees (arctan (tanth M (Py.radians σ) γ))) := by
    unfold dev_Sonic
    rw [h1, Py.ok_bind, deflection_ok hγ (by linarith) h2 h3]
  unfold plot_theta_pressure at hs
  simp only [List.mem_append, if_true, mem_if, List.mem_singleton] at hs
  rcases hs with ((⟨_, rfl⟩ | ⟨_, rfl⟩) | ⟨_, ⟨_, rfl⟩ | ⟨_, rfl⟩⟩) | ⟨_, rfl⟩ | ⟨_, rfl⟩
  · cases hst
  · cases hst
  · cases hst
  · cases hst
  · refine ⟨θ0 + Py.degrees (arctan (tanth M (Py.radians σ) γ)), p0 * p, ?_, ?_, ?_⟩
    · simp only [elementwise, hd, List.map_cons, List.map_nil, Py.ok_bind]
    · simp only [elementwise, h1, h4, List.map_cons, List.map_nil, Py.ok_bind, Py.pure_eq]
    · rw [mul_div_cancel_left₀ _ hp.ne']; exact h5
  · refine ⟨θ0 - Py.degrees (arctan (tanth M (Py.radians σ) γ)), p0 * p, ?_, ?_, ?_⟩
    · simp only [elementwise, hd, List.map_cons, List.map_nil, Py.ok_bind]
    · simp only [elementwise, h1, h4, List.map_cons, List.map_nil, Py.ok_bind, Py.pure_eq]
    · rw [mul_div_cancel_left₀ _ hp.ne']; exact h5

/-- reflection of a series about the vertical line of abscissa `c` -/
noncomputable def mirrorSeries (c : ℝ) (s : Series) : Series := { s with x := s.x.map fun v => v.map fun x => 2 * c - x }

theorem mirror_elementwise (c : ℝ) (f g : ℝ → ℝ) (hfg : ∀ d, 2 * c - f d = g d) (l y : List (Py ℝ)) (st : Style) :
    mirrorSeries c ⟨elementwise (fun d => .ok (f d)) l, y, st⟩ = ⟨elementwise (fun d => .ok (g d)) l, y, st⟩ := by
  unfold mirrorSeries elementwise
  simp only [List.map_map]
  congr 1
  apply List.map_congr_left
  intro v _
  cases v with
  | error e => rfl
  | ok d => simp only [Function.comp, Py.ok_bind]; rw [← hfg d]; rfl

/-- C91.  The left polar is the mirror image of the right one (markers included) about the direction of the incoming flow. -/
theorem C91_mirror (M γ θ0 p0 : ℝ) (n : ℕ) (devmax sonic : Bool) :
    plot_theta_pressure M γ n θ0 p0 "left" devmax sonic = (plot_theta_pressure M γ n θ0 p0 "right" devmax sonic).map (mirrorSeries θ0) ∧
    plot_theta_sigma M γ n "left" devmax sonic = (plot_theta_sigma M γ n "right" devmax sonic).map (mirrorSeries 0) := by
  have e1 : isRight "left" = false := by decide
  have e2 : isLeft "left" = true := by decide
  have e3 : isRight "right" = true := by decide
  have e4 : isLeft "right" = false := by decide
  have hr : ∀ d : ℝ, 2 * θ0 - (θ0 + d) = θ0 - d := fun d => by ring
  have hz : ∀ l y st, mirrorSeries 0 ⟨l, y, st⟩ = ⟨elementwise (fun d => .ok (-d)) l, y, st⟩ := by
    intro l y st
    unfold mirrorSeries elementwise
    congr 1
    apply List.map_congr_left
    intro v _
    cases v with
    | error e => rfl
    | ok d =>
      show (Except.ok _ : Py ℝ) = Except.ok _
      congr 1; ring
  constructor
  · unfold plot_theta_pressure
    cases devmax <;> cases sonic <;> simp [e1, e2, e3, e4, mirror_elementwise θ0 _ _ hr]
  · unfold plot_theta_sigma
    cases devmax <;> cases sonic <;> simp [e1, e2, e3, e4, hz]

/-- C91.  `curve='both'` draws exactly the series of the right and of the left polars; any other word draws nothing. -/
theorem C91_curve (M γ θ0 p0 : ℝ) (n : ℕ) (devmax sonic : Bool) (s : Series) (curve : String) (hc : curve ≠ "right" ∧ curve ≠ "left" ∧ curve ≠ "both") :
    (s ∈ plot_theta_pressure M γ n θ0 p0 "both" devmax sonic ↔
      s ∈ plot_theta_pressure M γ n θ0 p0 "right" devmax sonic ∨ s ∈ plot_theta_pressure M γ n θ0 p0 "left" devmax sonic) ∧
    (s ∈ plot_theta_sigma M γ n "both" devmax sonic ↔
      s ∈ plot_theta_sigma M γ n "right" devmax sonic ∨ s ∈ plot_theta_sigma M γ n "left" devmax sonic) ∧
    plot_theta_pressure M γ n θ0 p0 curve devmax sonic = [] ∧ plot_theta_sigma M γ n curve devmax sonic = [] := by
  have e1 : isRight "left" = false := by decide
  have e2 : isLeft "left" = true := by decide
  have e3 : isRight "right" = true := by decide
  have e4 : isLeft "right" = false := by decide
  have e5 : isRight "both" = true := by decide
  have e6 : isLeft "both" = true := by decide
  have e7 : isRight curve = false := by
    unfold isRight; simp [hc.1, hc.2.2]
  have e8 : isLeft curve = false := by
    unfold isLeft; simp [hc.2.1, hc.2.2]
  refine ⟨?_, ?_, ?_, ?_⟩
  · unfold plot_theta_pressure
    simp only [e1, e2, e3, e4, e5, e6, if_true, if_false, Bool.false_eq_true, List.mem_append, List.append_nil, List.nil_append]
    cases devmax <;> cases sonic <;> simp <;> tauto
  · unfold plot_theta_sigma
    simp only [e1, e2, e3, e4, e5, e6, if_true, if_false, Bool.false_eq_true, List.mem_append, List.append_nil, List.nil_append]
    cases devmax <;> cases sonic <;> simp <;> tauto
  · unfold plot_theta_pressure; simp [e7, e8]
  · unfold plot_theta_sigma; simp [e7, e8]

/-- shock angle of the point `i` -/
noncomputable def gridAngle (M : ℝ) (n i : ℕ) : ℝ :=
  Py.degrees (arcsin (1 / M)) + (i : ℝ) * ((90 - Py.degrees (arcsin (1 / M))) / (n : ℝ))

theorem gridAngle_props {M : ℝ} (hM : 1 < M) {n : ℕ} (hn : 0 < n) :
    gridAngle M n 0 = Py.degrees (arcsin (1 / M)) ∧ gridAngle M n n = 90 ∧ StrictMono (gridAngle M n) := by
  have hn' : (0 : ℝ) < n := by exact_mod_cast hn
  have hq1 : 1 / M < 1 := by rw [div_lt_one (by linarith)]; exact hM
  have h90 : Py.degrees (arcsin (1 / M)) < 90 := by
    rw [← Py.degrees_pi_div_two, Py.degrees_lt]; exact Real.arcsin_lt_pi_div_two.2 hq1
  refine ⟨by simp [gridAngle], ?_, ?_⟩
  · unfold gridAngle; field_simp; ring
  · intro i j hij
    unfold gridAngle
    have : (i : ℝ) < j := by exact_mod_cast hij
    have h2 : 0 < (90 - Py.degrees (arcsin (1 / M))) / (n : ℝ) := by apply div_pos <;> linarith
    have := mul_lt_mul_of_pos_right this h2
    linarith

theorem psr_sin_strictMono {M γ : ℝ} (hγ : 1 < γ) (hM : 1 < M) {a b : ℝ} (h0 : 0 < a) (hab : a < b) (h1 : b ≤ 90) :
    psr (M * degree.sin a) γ < psr (M * degree.sin b) γ := by
  have hk : 0 < 2 * γ / (γ + 1) := by apply div_pos <;> linarith
  have hra : 0 < Py.radians a := by rw [← Py.radians_zero, Py.radians_lt]; exact h0
  have hrb : Py.radians b ≤ π / 2 := by rw [← Py.radians_90]; exact Py.radians_strictMono.monotone h1
  have hs : sin (Py.radians a) < sin (Py.radians b) :=
    Real.sin_lt_sin_of_lt_of_le_pi_div_two (by linarith [Real.pi_pos]) hrb (Py.radians_lt.2 hab)
  have hs0 : 0 < sin (Py.radians a) := Real.sin_pos_of_pos_of_lt_pi hra (by have := Py.radians_lt.2 hab; linarith [Real.pi_pos])
  unfold psr degree.sin
  have : (M * sin (Py.radians a)) ^ 2 < (M * sin (Py.radians b)) ^ 2 := by
    apply pow_lt_pow_left₀ _ (by positivity) two_ne_zero
    exact mul_lt_mul_of_pos_left hs (by linarith)
  have := mul_lt_mul_of_pos_left (sub_lt_sub_right this 1) hk
  linarith

/-- C91.  The line of the right polar has `npts + 1` points; it starts at `(thet_init, p_init)` (Mach wave), the pressure increases strictly from point to point
and ends at the normal shock.  All points but the last (the normal shock, where the tangent of the shock angle is infinite in exact arithmetic) have a finite deviation. -/
theorem C91_pressure_line (M γ θ0 p0 : ℝ) (n : ℕ) (curve : String) (devmax sonic : Bool) (hγ : 1 < γ) (hM : 1 < M) (hp : 0 < p0) (hn : 0 < n)
    (hc : curve = "right" ∨ curve = "both") :
    ∃ (s : Series) (X Y : ℕ → ℝ), s ∈ plot_theta_pressure M γ n θ0 p0 curve devmax sonic ∧ s.style = .line ∧
      s.x.length = n + 1 ∧ s.x.take n = (List.range n).map (fun i => .ok (X i)) ∧ s.y = (List.range (n + 1)).map (fun i => .ok (Y i)) ∧
      X 0 = θ0 ∧ Y 0 = p0 ∧ (∀ i < n, θ0 ≤ X i) ∧ (∀ i j, i < j → j ≤ n → Y i < Y j) ∧ Y n = p0 * (1 + 2 * γ / (γ + 1) * (M ^ 2 - 1)) := by
  obtain ⟨ga, gb, gm⟩ := gridAngle_props hM hn
  have hM0 : 0 < M := by linarith
  have hq : 0 < 1 / M := by positivity
  have hq1 : 1 / M < 1 := by rw [div_lt_one hM0]; exact hM
  have m0 : 0 < arcsin (1 / M) := Real.arcsin_pos.2 hq
  have g0 : 0 < gridAngle M n 0 := by rw [ga]; exact (Py.degrees_mem m0 (Real.arcsin_lt_pi_div_two.2 hq1)).1
  have gpos : ∀ i, 0 < gridAngle M n i := fun i => lt_of_lt_of_le g0 (gm.monotone (Nat.zero_le i))
  have glt : ∀ i, i < n → gridAngle M n i < 90 := fun i hi => gb ▸ gm hi
  have gle : ∀ i, i ≤ n → gridAngle M n i ≤ 90 := fun i hi => gb ▸ gm.monotone hi
  have hlin : linspace (machAngle M) (.ok 90.0) n = (List.range (n + 1)).map fun i => (Except.ok (gridAngle M n i) : Py ℝ) := by
    rw [machAngle_ok hM, show (90.0 : ℝ) = 90 by norm_num]; rfl
  have hdef : ∀ i, i < n → deflection_Mach_sigma M (gridAngle M n i) γ = .ok (Py.degrees (arctan (tanth M (Py.radians (gridAngle M n i)) γ))) :=
    fun i hi => deflection_ok hγ hM0.ne' (gpos i) (glt i hi)
  have hcr : isRight curve = true := by rcases hc with rfl | rfl <;> decide
  have hsin0 : M * degree.sin (gridAngle M n 0) = 1 := by
    rw [ga]; unfold degree.sin; rw [Py.radians_degrees, Real.sin_arcsin (by linarith) hq1.le]; field_simp
  refine ⟨⟨elementwise (fun d => .ok (θ0 + d)) (elementwise (fun s => deflection_Mach_sigma M s γ) (linspace (machAngle M) (.ok 90.0) n)),
    elementwise (fun s => do let p ← Ps_ratio (M * degree.sin s) γ; return p0 * p) (linspace (machAngle M) (.ok 90.0) n), .line⟩,
    fun i => θ0 + Py.degrees (arctan (tanth M (Py.radians (gridAngle M n i)) γ)),
    fun i => p0 * psr (M * degree.sin (gridAngle M n i)) γ, ?_, rfl, ?_, ?_, ?_, ?_, ?_, ?_, ?_, ?_⟩
  · unfold plot_theta_pressure
    simp only [List.mem_append, mem_if, List.mem_singleton]
    exact Or.inl (Or.inl (Or.inl ⟨hcr, trivial⟩))
  · simp [elementwise, linspace]
  · rw [hlin]
    unfold elementwise
    rw [List.map_map, List.map_map, ← List.map_take, List.take_range, min_eq_left (Nat.le_succ n)]
    apply List.map_congr_left
    intro i hi
    simp only [Function.comp, Py.ok_bind, hdef i (List.mem_range.1 hi)]
  · rw [hlin]
    show elementwise _ _ = _
    unfold elementwise
    rw [List.map_map]
    apply List.map_congr_left
    intro i hi
    simp only [Function.comp, Py.ok_bind, Ps_ratio_ok hγ, Py.pure_eq]
  · show θ0 + _ = _
    have e : M ^ 2 * sin (Py.radians (gridAngle M n 0)) ^ 2 - 1 = 0 := by
      have := congrArg (· ^ 2) hsin0
      simp only [mul_pow, one_pow] at this
      unfold degree.sin at this; linarith
    have : tanth M (Py.radians (gridAngle M n 0)) γ = 0 := by unfold tanth; rw [e]; simp
    rw [this, Real.arctan_zero, Py.degrees_zero, add_zero]
  · show p0 * _ = _
    rw [hsin0]; unfold psr; simp
  · intro i hi
    have := polar_point hγ hM (by rw [← ga]; exact gm.monotone (Nat.zero_le i)) (glt i hi).le (hdef i hi)
    show θ0 ≤ θ0 + _
    linarith [this.1]
  · intro i j hij hj
    exact mul_lt_mul_of_pos_left (psr_sin_strictMono hγ hM (gpos i) (gm hij) (gle j hj)) hp
  · show p0 * _ = _
    rw [gb]; unfold degree.sin; rw [Py.radians_90, Real.sin_pi_div_two, mul_one]; rfl

/-- C91.  Every (finite) point drawn by `shockpolar.plot_theta_sigma`, lines and markers, satisfies the θ–β–M relation (on the left, with the opposite deviation),
at a shock angle from the Mach angle to 90 degrees. -/
theorem C91_angle_points (M γ : ℝ) (n : ℕ) (curve : String) (devmax sonic : Bool) (hγ : 1 < γ) (hM : 1 < M) (s : Series)
    (hs : s ∈ plot_theta_sigma M γ n curve devmax sonic) (x y : ℝ) (h : Series.Draws s x y) :
    Spec.OnAnglePolar γ M |x| y ∧ |x| < 90 ∧ 1 ≤ M * sin (y * (π / 180)) ∧ 0 < y ∧ y < 90 ∧
      (curve = "right" → 0 ≤ x) ∧ (curve = "left" → x ≤ 0) := by
  have hμ90 : Py.degrees (arcsin (1 / M)) ≤ 90 := by
    rw [← Py.degrees_pi_div_two, Py.degrees_le]; exact Real.arcsin_le_pi_div_two _
  have hM0 : 0 < M := by linarith
  have hq : 0 < 1 / M := by positivity
  have hq1 : 1 / M < 1 := by rw [div_lt_one hM0]; exact hM
  have fin : ∀ σ d, Py.degrees (arcsin (1 / M)) ≤ σ → σ ≤ 90 → deflection_Mach_sigma M σ γ = .ok d → ((x = d ∧ isRight curve = true) ∨ (x = -d ∧ isLeft curve = true)) → y = σ →
      Spec.OnAnglePolar γ M |x| y ∧ |x| < 90 ∧ 1 ≤ M * sin (y * (π / 180)) ∧ 0 < y ∧ y < 90 ∧
      (curve = "right" → 0 ≤ x) ∧ (curve = "left" → x ≤ 0) := by
    intro σ d h0 h1 hd hx hy
    subst hy
    obtain ⟨g1, g2, g3, _, _, _, g7, g8⟩ := polar_point hγ hM h0 h1 hd
    have e : |x| = d := by
      rcases hx with ⟨rfl, _⟩ | ⟨rfl, _⟩
      · exact abs_of_nonneg g1
      · rw [abs_neg]; exact abs_of_nonneg g1
    rw [e]
    have hside : (curve = "right" → 0 ≤ x) ∧ (curve = "left" → x ≤ 0) := by
      constructor
      · rintro rfl
        rcases hx with ⟨rfl, hcv⟩ | ⟨rfl, hcv⟩
        · exact g1
        · exact absurd hcv (by decide)
      · rintro rfl
        rcases hx with ⟨rfl, hcv⟩ | ⟨rfl, hcv⟩
        · exact absurd hcv (by decide)
        · linarith
    refine ⟨g3, g2, ?_, g7, g8, hside⟩
    have hr : arcsin (1 / M) ≤ Py.radians y := by rw [← Py.degrees_le, Py.degrees_radians]; exact h0
    have := Real.sin_le_sin_of_le_of_le_pi_div_two (by linarith [Real.pi_pos, Real.arcsin_pos.2 hq]) (Py.radians_mem g7 g8).2.le hr
    rw [Real.sin_arcsin (by linarith) hq1.le, div_le_iff₀ hM0] at this
    show 1 ≤ M * sin (Py.radians y)
    linarith
  have mark : ∀ (f : Py ℝ) (τ : Py ℝ) (hτ : ∀ σ, τ = .ok σ → Py.degrees (arcsin (1 / M)) ≤ σ ∧ σ ≤ 90)
      (hf : f = τ >>= fun σ => deflection_Mach_sigma M σ γ) (st : Style), ((Series.Draws ⟨[f], [τ], st⟩ x y ∧ isRight curve = true) ∨
      (Series.Draws ⟨elementwise (fun d => .ok (-d)) [f], [τ], st⟩ x y ∧ isLeft curve = true)) →
      Spec.OnAnglePolar γ M |x| y ∧ |x| < 90 ∧ 1 ≤ M * sin (y * (π / 180)) ∧ 0 < y ∧ y < 90 ∧
      (curve = "right" → 0 ≤ x) ∧ (curve = "left" → x ≤ 0) := by
    intro f τ hτ hf st hd
    have hy : τ = .ok y := by
      rcases hd with ⟨hd, hcv⟩ | ⟨hd, hcv⟩ <;> simp only [Series.Draws, elementwise, List.map_cons, List.map_nil, List.zip_cons_cons, List.zip_nil_right,
        List.mem_singleton, Prod.mk.injEq] at hd <;> exact hd.2.symm
    rw [hy, Py.ok_bind] at hf
    cases hdef : deflection_Mach_sigma M y γ with
    | error e =>
      rw [hdef] at hf
      rcases hd with ⟨hd, hcv⟩ | ⟨hd, hcv⟩ <;> simp only [Series.Draws, elementwise, List.map_cons, List.map_nil, List.zip_cons_cons, List.zip_nil_right,
        List.mem_singleton, Prod.mk.injEq, hf] at hd <;> cases hd.1
    | ok d =>
      rw [hdef] at hf
      refine fin y d (hτ y hy).1 (hτ y hy).2 hdef ?_ rfl
      rcases hd with ⟨hd, hcv⟩ | ⟨hd, hcv⟩ <;> simp only [Series.Draws, elementwise, List.map_cons, List.map_nil, List.zip_cons_cons, List.zip_nil_right,
        List.mem_singleton, Prod.mk.injEq, hf, Py.ok_bind] at hd
      · exact Or.inl ⟨by injection hd.1, hcv⟩
      · exact Or.inr ⟨by injection hd.1, hcv⟩
  have hlin : ∀ v ∈ linspace (machAngle M) (.ok 90.0) n, ∃ σ, v = .ok σ ∧ Py.degrees (arcsin (1 / M)) ≤ σ ∧ σ ≤ 90 := by
    intro v hv
    rw [machAngle_ok hM, show (90.0 : ℝ) = 90 by norm_num] at hv
    exact mem_linspace hμ90 hv
  have lin : ∀ (f : ℝ → ℝ) (hf : ∀ d, (f d = d ∧ isRight curve = true) ∨ (f d = -d ∧ isLeft curve = true)) (st : Style), Series.Draws ⟨(linspace (machAngle M) (.ok 90.0) n).map
      (fun v => v >>= fun σ => (fun d => f d) <$> deflection_Mach_sigma M σ γ), (linspace (machAngle M) (.ok 90.0) n).map id, st⟩ x y →
      Spec.OnAnglePolar γ M |x| y ∧ |x| < 90 ∧ 1 ≤ M * sin (y * (π / 180)) ∧ 0 < y ∧ y < 90 ∧
      (curve = "right" → 0 ≤ x) ∧ (curve = "left" → x ≤ 0) := by
    intro f hf st hd
    obtain ⟨v, hv, e1, e2⟩ := draws_map hd
    obtain ⟨σ, rfl, a1, a2⟩ := hlin v hv
    have hy : σ = y := by injection e2
    rw [Py.ok_bind] at e1
    cases hdef : deflection_Mach_sigma M σ γ with
    | error e => rw [hdef] at e1; cases e1
    | ok d =>
      rw [hdef, Py.map_ok] at e1
      have hx : f d = x := by injection e1
      exact fin σ d a1 a2 hdef (by rw [← hx]; exact hf d) hy.symm
  have e1 : elementwise (fun s => deflection_Mach_sigma M s γ) (linspace (machAngle M) (.ok 90.0) n) =
      (linspace (machAngle M) (.ok 90.0) n).map (fun v => v >>= fun σ => (fun d => d) <$> deflection_Mach_sigma M σ γ) := by
    unfold elementwise; simp
  have e2 : elementwise (fun d => .ok (-d)) (elementwise (fun s => deflection_Mach_sigma M s γ) (linspace (machAngle M) (.ok 90.0) n)) =
      (linspace (machAngle M) (.ok 90.0) n).map (fun v => v >>= fun σ => (fun d => -d) <$> deflection_Mach_sigma M σ γ) := by
    unfold elementwise
    rw [List.map_map]
    apply List.map_congr_left
    intro v hv
    obtain ⟨σ, rfl, _⟩ := hlin v hv
    simp only [Function.comp, Py.ok_bind]
    cases deflection_Mach_sigma M σ γ <;> rfl
  have hmax : ∀ σ, sigma_DevMax M γ = .ok σ → Py.degrees (arcsin (1 / M)) ≤ σ ∧ σ ≤ 90 := fun σ h =>
    ⟨(sigma_DevMax_range hγ hM h).1, (sigma_DevMax_range hγ hM h).2.le⟩
  have hson : ∀ σ, sigma_Sonic M γ = .ok σ → Py.degrees (arcsin (1 / M)) ≤ σ ∧ σ ≤ 90 := fun σ h =>
    ⟨(sigma_Sonic_range hγ hM h).1, (sigma_Sonic_range hγ hM h).2.le⟩
  unfold plot_theta_sigma at hs
  simp only [List.mem_append, mem_if, List.mem_singleton] at hs
  rcases hs with ((⟨hc, rfl⟩ | ⟨hc, rfl⟩) | ⟨_, ⟨hc, rfl⟩ | ⟨hc, rfl⟩⟩) | ⟨_, ⟨hc, rfl⟩ | ⟨hc, rfl⟩⟩
  · rw [e1] at h; exact lin _ (fun d => Or.inl ⟨rfl, hc⟩) _ (by rw [List.map_id]; exact h)
  · rw [e2] at h; exact lin _ (fun d => Or.inr ⟨rfl, hc⟩) _ (by rw [List.map_id]; exact h)
  · exact mark _ _ hmax rfl _ (Or.inl ⟨h, hc⟩)
  · exact mark _ _ hmax rfl _ (Or.inr ⟨h, hc⟩)
  · exact mark _ _ hson rfl _ (Or.inl ⟨h, hc⟩)
  · exact mark _ _ hson rfl _ (Or.inr ⟨h, hc⟩)

/-- the polar of a flow at Mach 2 drawn with 100 segments: its first point is drawn -/
example : ∃ s ∈ plot_theta_pressure 2 1.4 100 10 3 "right" true true, Series.Draws s 10 3 := by
  obtain ⟨s, X, Y, h1, _, h3, h4, h5, h6, h7, _⟩ := C91_pressure_line 2 1.4 10 3 100 "right" true true (by norm_num) (by norm_num) (by norm_num) (by norm_num)
    (Or.inl rfl)
  refine ⟨s, h1, ?_⟩
  unfold Series.Draws
  have hx : s.x[0]? = some (.ok 10) := by
    have := congrArg (·[0]?) h4
    simp only [List.getElem?_take] at this
    simpa [h6] using this
  have hy : s.y[0]? = some (.ok 3) := by rw [h5]; simp [h7]
  have : (s.x.zip s.y)[0]? = some (.ok 10, .ok 3) := by
    rw [List.getElem?_zip_eq_some]; exact ⟨hx, hy⟩
  exact List.mem_of_getElem? this

end Aerokit.Props
