import Verif.Props.Plot

/-! # C92 : isentropic polars, `aerokit/aero/plot/isentropicpolar.py` -/

namespace Aerokit.Props
open Plot Isentropic Supersonic MassFlow Real

theorem prandtlMeyer_eq {γ M : ℝ} (hγ : 1 < γ) (hM : 1 ≤ M) : Spec.prandtlMeyer γ M = Py.degrees (pmRad (pmC γ) (√(M ^ 2 - 1))) := by
  unfold Spec.prandtlMeyer Py.degrees pmRad pmC
  have h1 : 0 ≤ M ^ 2 - 1 := by nlinarith
  have h2 : 0 < γ - 1 := by linarith
  have h3 : 0 < γ + 1 := by linarith
  have : √((γ - 1) / (γ + 1) * (M ^ 2 - 1)) = √(M ^ 2 - 1) / √((γ + 1) / (γ - 1)) := by
    rw [← Real.sqrt_div h1]; congr 1; field_simp
  rw [this]

/-- the specification's Prandtl–Meyer function is strictly increasing -/
theorem prandtlMeyer_lt {γ m m' : ℝ} (hγ : 1 < γ) (hm : 1 ≤ m) (hm' : 1 ≤ m') : Spec.prandtlMeyer γ m < Spec.prandtlMeyer γ m' ↔ m < m' := by
  have mono : ∀ {a b : ℝ}, 1 ≤ a → a < b → Spec.prandtlMeyer γ a < Spec.prandtlMeyer γ b := by
    intro a b ha hab
    rw [prandtlMeyer_eq hγ ha, prandtlMeyer_eq hγ (ha.trans hab.le), Py.degrees_lt]
    exact pmRad_strictMono (one_lt_pmC hγ) (Set.mem_Ici.2 (Real.sqrt_nonneg _)) (Set.mem_Ici.2 (Real.sqrt_nonneg _))
      (Real.sqrt_lt_sqrt (by nlinarith) (by nlinarith))
  constructor
  · intro h
    by_contra hn
    rcases (not_lt.1 hn).lt_or_eq with h' | h'
    · exact absurd (mono hm' h') (not_lt.2 h.le)
    · rw [h'] at h; exact lt_irrefl _ h
  · exact mono hm

/-- pressure increases with the turning angle of a simple wave -/
theorem simpleWave_mono {γ M δ δ' m m' P P' : ℝ} (hγ : 1 < γ) (h : Spec.SimpleWave γ M δ m P) (h' : Spec.SimpleWave γ M δ' m' P') :
    (δ < δ' → P < P') ∧ (δ = δ' → P = P') := by
  have pos : ∀ m : ℝ, 0 < (1 + (γ - 1) / 2 * m ^ 2) ^ (γ / (γ - 1)) := fun m => by
    apply Real.rpow_pos_of_pos
    have : 0 ≤ (γ - 1) / 2 * m ^ 2 := mul_nonneg (by linarith) (sq_nonneg m)
    linarith
  have hP : P = (1 + (γ - 1) / 2 * M ^ 2) ^ (γ / (γ - 1)) / (1 + (γ - 1) / 2 * m ^ 2) ^ (γ / (γ - 1)) := by
    rw [eq_div_iff (pos m).ne']; exact h.isentropic
  have hP' : P' = (1 + (γ - 1) / 2 * M ^ 2) ^ (γ / (γ - 1)) / (1 + (γ - 1) / 2 * m' ^ 2) ^ (γ / (γ - 1)) := by
    rw [eq_div_iff (pos m').ne']; exact h'.isentropic
  constructor
  · intro hd
    have hmm : m' < m := by
      rw [← prandtlMeyer_lt hγ h'.supersonic h.supersonic, h.turning, h'.turning]; linarith
    rw [hP, hP']
    apply div_lt_div_of_pos_left (pos M) (pos m')
    apply Real.rpow_lt_rpow
    · have : 0 ≤ (γ - 1) / 2 * m' ^ 2 := mul_nonneg (by linarith) (sq_nonneg m')
      linarith
    · have h1 := h'.supersonic
      have : m' ^ 2 < m ^ 2 := by nlinarith
      have := mul_lt_mul_of_pos_left this (show 0 < (γ - 1) / 2 by linarith)
      linarith
    · apply div_pos <;> linarith
  · intro hd
    have hmm : m = m' := by
      rcases lt_trichotomy m m' with hlt | heq | hlt
      · rw [← prandtlMeyer_lt hγ h.supersonic h'.supersonic, h.turning, h'.turning] at hlt; linarith
      · exact heq
      · rw [← prandtlMeyer_lt hγ h'.supersonic h.supersonic, h.turning, h'.turning] at hlt; linarith
    rw [hP, hP', hmm]

/-- what `IsentropicPsratio_Mach_deflection` computes is a simple wave -/
theorem psratio_simpleWave {newton : RootFinder} (hn : Spec.SoundRootFinder newton) {M γ dev p : ℝ} (hγ : 1 < γ) (hM : 1 ≤ M)
    (hp : IsentropicPsratio_Mach_deflection newton M dev γ = .ok p) : ∃ m, Spec.SimpleWave γ M dev m p := by
  unfold IsentropicPsratio_Mach_deflection at hp
  rw [PM_ok hγ (by nlinarith), Py.ok_bind, ← prandtlMeyer_eq hγ hM] at hp
  cases hm : Mach_PrandtlMeyer newton (Spec.prandtlMeyer γ M - dev) γ with
  | error e => rw [hm] at hp; cases hp
  | ok m =>
    have h2 := pm_of_residual (hn _ _ _ hm)
    have hsq := sq_of_PM h2
    have h1m : 1 ≤ |m| := by
      rw [← sq_abs] at hsq
      by_contra hlt
      nlinarith [abs_nonneg m]
    have hPMabs : PrandtlMeyer_Mach |m| γ = PrandtlMeyer_Mach m γ := by unfold PrandtlMeyer_Mach; rw [sq_abs]
    rw [← hPMabs, PM_ok hγ (by nlinarith), ← prandtlMeyer_eq hγ h1m] at h2
    rw [hm, Py.ok_bind, PtPs_Mach_ok hγ, Py.ok_bind, PtPs_Mach_ok hγ, Py.ok_bind,
      Py.div_ok (Real.rpow_pos_of_pos (tt_pos hγ) _).ne'] at hp
    have hp' : tt M γ ^ (γ / (γ - 1)) / tt m γ ^ (γ / (γ - 1)) = p := by injection hp
    refine ⟨|m|, h1m, by injection h2, ?_⟩
    have e : ∀ m, tt m γ = 1 + (γ - 1) / 2 * m ^ 2 := fun m => by unfold tt; ring
    rw [← e, ← e, ← hp']
    have habs : tt |m| γ = tt m γ := by unfold tt; rw [sq_abs]
    rw [habs, div_mul_cancel₀ _ (Real.rpow_pos_of_pos (tt_pos hγ) _).ne']

section
variable (newton : RootFinder) (hn : Spec.SoundRootFinder newton) (M γ θ0 p0 : ℝ) (rng : ℝ × ℝ) (n : ℕ) (devmax sonic : Bool) (hγ : 1 < γ) (hM : 1 ≤ M)
  (hp : 0 < p0)

include hn hγ hM hp in
theorem iso_series {c : ℝ} {st : Style} {x y : ℝ} (h : Series.Draws
    ⟨elementwise (fun d => .ok (θ0 + d)) (linspace (.ok rng.1) (.ok rng.2) n),
     elementwise (fun d => do let p ← IsentropicPsratio_Mach_deflection newton M (c * d) γ; return p0 * p) (linspace (.ok rng.1) (.ok rng.2) n), st⟩ x y) :
    ∃ m, Spec.SimpleWave γ M (c * (x - θ0)) m (y / p0) := by
  unfold elementwise at h
  obtain ⟨v, hv, e1, e2⟩ := draws_map h
  cases v with
  | error e => cases e1
  | ok d =>
    rw [Py.ok_bind] at e1 e2
    have hx : θ0 + d = x := by injection e1
    cases hd : IsentropicPsratio_Mach_deflection newton M (c * d) γ with
    | error e => rw [hd] at e2; cases e2
    | ok p =>
      rw [hd, Py.ok_bind] at e2
      have hy : p0 * p = y := by injection e2
      obtain ⟨m, hm⟩ := psratio_simpleWave hn hγ hM hd
      refine ⟨m, ?_⟩
      rw [← hx, ← hy, add_sub_cancel_left, mul_div_cancel_left₀ _ hp.ne']; exact hm

/-- the series drawn for a curve of type C+ -/
theorem iso_plus {curve : String} (hc : curve = "c+" ∨ curve = "C+") : plot_isentropic newton M rng γ n θ0 p0 curve devmax sonic =
    [⟨elementwise (fun d => .ok (θ0 + d)) (linspace (.ok rng.1) (.ok rng.2) n),
     elementwise (fun d => do let p ← IsentropicPsratio_Mach_deflection newton M (1 * d) γ; return p0 * p) (linspace (.ok rng.1) (.ok rng.2) n), .line⟩] := by
  have h1 : isPlus curve = true := by rcases hc with rfl | rfl <;> decide
  have h2 : isMinus curve = false := by rcases hc with rfl | rfl <;> decide
  unfold plot_isentropic
  simp [h1, h2]

/-- the series drawn for a curve of type C- -/
theorem iso_minus {curve : String} (hc : curve = "c-" ∨ curve = "C-") : plot_isentropic newton M rng γ n θ0 p0 curve devmax sonic =
    [⟨elementwise (fun d => .ok (θ0 + d)) (linspace (.ok rng.1) (.ok rng.2) n),
     elementwise (fun d => do let p ← IsentropicPsratio_Mach_deflection newton M (-1 * d) γ; return p0 * p) (linspace (.ok rng.1) (.ok rng.2) n), .line⟩] := by
  have h1 : isPlus curve = false := by rcases hc with rfl | rfl <;> decide
  have h2 : isMinus curve = true := by rcases hc with rfl | rfl <;> decide
  unfold plot_isentropic
  simp [h1, h2]

include hn hγ hM hp in
/-- C92.  Every point drawn on a `C+` polar is the state behind an isentropic simple wave that turns the flow by its deviation from `thet_init`; on a `C-` polar, by
the opposite of it. -/
theorem C92_points (curve : String) (s : Series) (hs : s ∈ plot_isentropic newton M rng γ n θ0 p0 curve devmax sonic) (x y : ℝ) (h : Series.Draws s x y) :
    ((curve = "c+" ∨ curve = "C+") → ∃ m, Spec.SimpleWave γ M (x - θ0) m (y / p0)) ∧
    ((curve = "c-" ∨ curve = "C-") → ∃ m, Spec.SimpleWave γ M (θ0 - x) m (y / p0)) := by
  constructor
  · intro hc
    rw [iso_plus _ _ _ _ _ _ _ _ _ hc, List.mem_singleton] at hs
    rw [hs] at h
    have := iso_series newton hn M γ θ0 p0 rng n hγ hM hp h
    rwa [one_mul] at this
  · intro hc
    rw [iso_minus _ _ _ _ _ _ _ _ _ hc, List.mem_singleton] at hs
    rw [hs] at h
    have := iso_series newton hn M γ θ0 p0 rng n hγ hM hp h
    rwa [show -1 * (x - θ0) = θ0 - x by ring] at this

include hn hγ hM hp in
/-- C92.  Along a `C+` polar the pressure increases strictly with the deviation, along a `C-` polar it decreases strictly, and a point drawn at the direction of the
incoming flow is at the pressure of the incoming flow. -/
theorem C92_monotone (curve : String) (s : Series) (hs : s ∈ plot_isentropic newton M rng γ n θ0 p0 curve devmax sonic) (x y x' y' : ℝ)
    (h : Series.Draws s x y) (h' : Series.Draws s x' y') :
    ((curve = "c+" ∨ curve = "C+") → x < x' → y < y') ∧ ((curve = "c-" ∨ curve = "C-") → x < x' → y' < y) ∧
    ((curve = "c+" ∨ curve = "C+" ∨ curve = "c-" ∨ curve = "C-") → x = θ0 → y = p0) := by
  obtain ⟨a1, a2⟩ := C92_points newton hn M γ θ0 p0 rng n devmax sonic hγ hM hp curve s hs x y h
  obtain ⟨b1, b2⟩ := C92_points newton hn M γ θ0 p0 rng n devmax sonic hγ hM hp curve s hs x' y' h'
  refine ⟨?_, ?_, ?_⟩
  · intro hc hx
    obtain ⟨m, hm⟩ := a1 hc
    obtain ⟨m', hm'⟩ := b1 hc
    have := (simpleWave_mono hγ hm hm').1 (by linarith)
    rwa [div_lt_div_iff_of_pos_right hp] at this
  · intro hc hx
    obtain ⟨m, hm⟩ := a2 hc
    obtain ⟨m', hm'⟩ := b2 hc
    have := (simpleWave_mono hγ hm' hm).1 (by linarith)
    rwa [div_lt_div_iff_of_pos_right hp] at this
  · intro hc hx
    have : ∃ m, Spec.SimpleWave γ M 0 m (y / p0) := by
      rcases hc with hc | hc | hc | hc
      · have := a1 (Or.inl hc); rwa [hx, sub_self] at this
      · have := a1 (Or.inr hc); rwa [hx, sub_self] at this
      · have := a2 (Or.inl hc); rwa [hx, sub_self] at this
      · have := a2 (Or.inr hc); rwa [hx, sub_self] at this
    obtain ⟨m, hm⟩ := this
    have h1 : Spec.SimpleWave γ M 0 M 1 := ⟨hM, by ring, by ring⟩
    have := (simpleWave_mono hγ hm h1).2 rfl
    rw [div_eq_one_iff_eq hp.ne'] at this
    exact this

/-- C92.  `curve='both'` draws the `C+` and the `C-` polars; the options `devmax` and `sonic` change nothing; every other word than the five listed draws nothing. -/
theorem C92_curve (curve : String) (hc : curve ≠ "c+" ∧ curve ≠ "C+" ∧ curve ≠ "c-" ∧ curve ≠ "C-" ∧ curve ≠ "both") (any : String) (b b' : Bool) :
    plot_isentropic newton M rng γ n θ0 p0 "both" devmax sonic =
      plot_isentropic newton M rng γ n θ0 p0 "C+" devmax sonic ++ plot_isentropic newton M rng γ n θ0 p0 "C-" devmax sonic ∧
    plot_isentropic newton M rng γ n θ0 p0 curve devmax sonic = [] ∧
    plot_isentropic newton M rng γ n θ0 p0 any devmax sonic = plot_isentropic newton M rng γ n θ0 p0 any b b' := by
  refine ⟨?_, ?_, rfl⟩
  · rw [iso_plus _ _ _ _ _ _ _ _ _ (Or.inr rfl), iso_minus _ _ _ _ _ _ _ _ _ (Or.inr rfl)]
    have h1 : isPlus "both" = true := by decide
    have h2 : isMinus "both" = true := by decide
    unfold plot_isentropic
    simp [h1, h2]
  · have h1 : isPlus curve = false := by unfold isPlus; simp [hc.1, hc.2.1, hc.2.2.2.2]
    have h2 : isMinus curve = false := by unfold isMinus; simp [hc.2.2.1, hc.2.2.2.1, hc.2.2.2.2]
    unfold plot_isentropic
    simp [h1, h2]

/-- C92.  Over a symmetric range the `C-` polar is the mirror image of the `C+` polar: the same pressures in the opposite order, at the same abscissas. -/
theorem C92_mirror (a : ℝ) (hn0 : 0 < n) : ∃ X Y Y' : List (Py ℝ),
    plot_isentropic newton M (-a, a) γ n θ0 p0 "C+" devmax sonic = [⟨X, Y, .line⟩] ∧
    plot_isentropic newton M (-a, a) γ n θ0 p0 "C-" devmax sonic = [⟨X, Y', .line⟩] ∧ Y' = Y.reverse ∧ X.length = n + 1 ∧
    X = (List.range (n + 1)).map (fun (i : ℕ) => .ok (θ0 + (-a + (i : ℝ) * ((a - -a) / n)))) := by
  refine ⟨_, _, _, iso_plus _ _ _ _ _ _ _ _ _ (Or.inr rfl), iso_minus _ _ _ _ _ _ _ _ _ (Or.inr rfl), ?_, by simp [elementwise, linspace], ?_⟩
  · simp only [linspace_ok, elementwise, List.map_map]
    apply List.ext_getElem
    · simp
    · intro i h1 h2
      have hi : i < n + 1 := by simpa using h1
      have hn' : (n : ℝ) ≠ 0 := by exact_mod_cast hn0.ne'
      simp only [List.getElem_reverse, List.getElem_map, List.getElem_range, List.length_map, List.length_range, Function.comp, Py.ok_bind]
      have e : -1 * (-a + (i : ℝ) * ((a - -a) / n)) = 1 * (-a + ((n + 1 - 1 - i : ℕ) : ℝ) * ((a - -a) / n)) := by
        rw [Nat.add_sub_cancel, Nat.cast_sub (by omega)]
        field_simp
        ring
      rw [e]
  · simp only [linspace_ok, elementwise, List.map_map]
    rfl
end

/-- the expansion by ten degrees from Mach 1 is drawn -/
example : ∃ newton : RootFinder, Spec.SoundRootFinder newton ∧ ∃ s ∈ plot_isentropic newton 1 (-10, 0) 1.4 1 0 1 "C+" false false,
    ∃ p, Series.Draws s (-10) p := by
  obtain ⟨nf, h1, h2⟩ := Spec.exists_soundRootFinder
  refine ⟨nf, h1, _, by rw [iso_plus _ _ _ _ _ _ _ _ _ (Or.inr rfl)]; exact List.mem_singleton_self _, ?_⟩
  have hγ : (1:ℝ) < 1.4 := by norm_num
  obtain ⟨M, ⟨hM, hPM⟩, _⟩ := C19_bijective 10 1.4 hγ (by norm_num) (by
    have : (2:ℝ) < √((1.4 + 1) / (1.4 - 1)) := by rw [Real.lt_sqrt (by norm_num)]; norm_num
    linarith)
  have hr : pm_residual (0 - -10) 1.4 M = .ok 0 := by
    unfold pm_residual; rw [hPM]; simp
  obtain ⟨m, hm⟩ := h2 (pm_residual (0 - -10) 1.4) (2.0 + 0.0 * (0 - -10)) ⟨M, hr⟩
  have hv : IsentropicPsratio_Mach_deflection nf 1 (-10) 1.4 = .ok (tt 1 1.4 ^ ((1.4:ℝ) / (1.4 - 1)) / tt m 1.4 ^ ((1.4:ℝ) / (1.4 - 1))) := by
    unfold IsentropicPsratio_Mach_deflection Mach_PrandtlMeyer
    rw [C19_zero_at_sonic 1.4 hγ, Py.ok_bind, hm, Py.ok_bind, PtPs_Mach_ok hγ, Py.ok_bind,
      PtPs_Mach_ok hγ, Py.ok_bind, Py.div_ok (Real.rpow_pos_of_pos (tt_pos hγ) _).ne']
  refine ⟨1 * (tt 1 1.4 ^ ((1.4:ℝ) / (1.4 - 1)) / tt m 1.4 ^ ((1.4:ℝ) / (1.4 - 1))), ?_⟩
  unfold Series.Draws
  simp only [linspace_ok, elementwise, List.map_map, List.range_succ, List.range_zero, List.map_append, List.map_cons, List.map_nil, List.nil_append,
    List.cons_append, List.zip_cons_cons, Function.comp, Py.ok_bind, Nat.cast_zero, zero_mul, add_zero, zero_add, one_mul, hv, Py.pure_eq]
  exact List.mem_cons_self

end Aerokit.Props
