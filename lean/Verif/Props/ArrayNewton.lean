import Verif.Lemmas.ArrayPM
import Verif.Props.ArraySearch
import Verif.Props.ScipyPM

/-!
# C144: area ratio and Prandtl–Meyer searches on arrays
-/

namespace Aerokit.Props
open Nd Spec
variable {ι : Type}

private theorem an_entries {X : Nd ι} {v : ι → ℝ} (h : ∀ i, X.at' i = some (v i)) : ArrayNewton.entries X = .ok v := by
  unfold ArrayNewton.entries
  have hx : ∃ v : ι → ℝ, ∀ i, X.at' i = some (v i) := ⟨v, h⟩
  rw [dif_pos hx]
  congr 1
  funext i
  exact Option.some.inj ((hx.choose_spec i).symm.trans (h i))

private theorem an_k : Py.div (4.0 * (DefaultGas.gamma0 - 1.0)) (3.0 - DefaultGas.gamma0) = .ok (1 : ℝ) := by
  rw [Isentropic.gamma0_eq, Py.div_ok (by norm_num)]; norm_num

private theorem an_sub {X : Nd ι} {i : ι} {σ : ℝ} (hX : X.at' i = some σ) (h : 1 ≤ σ) :
    (ArrayFns.MachSub_sigma X (num (some DefaultGas.gamma0))).at' i = some (1 - Real.sqrt (1 - 1 / σ)) := by
  have h2 : 1 / σ ≤ 1 := by rw [div_le_one (by linarith)]; exact h
  unfold ArrayFns.MachSub_sigma
  nd_entry [hX]
  rw [an_k, Py.div_ok (by linarith)]
  simp only [toOption_ok, Option.bind_some]
  rw [Py.sqrt_ok (by norm_num; rw [← one_div]; exact h2)]
  simp only [toOption_ok, Option.bind_some]
  norm_num

private theorem an_sup {X : Nd ι} {i : ι} {σ : ℝ} (hX : X.at' i = some σ) (h : 1 ≤ σ) :
    (ArrayFns.MachSup_sigma X (num (some DefaultGas.gamma0))).at' i = some (1 + Real.sqrt (σ - 1)) := by
  unfold ArrayFns.MachSup_sigma
  nd_entry [hX]
  rw [an_k]
  simp only [toOption_ok, Option.bind_some]
  rw [Py.sqrt_ok (by norm_num; exact h)]
  simp only [toOption_ok, Option.bind_some]
  norm_num

open ArrayNewton ScipyNewton in
private theorem an_start_sub {σ : ℝ} (h0 : 1.000002 ≤ σ) (h1 : σ ≤ 2000) :
    ∃ r, 0 < r ∧ r < 1 ∧ P r = σ ∧ Starts σ (1 - Real.sqrt (1 - 1 / σ)) r (fun m => 0 < m ∧ m < 1) := by
  have h0' : (1000002 / 1000000 : ℝ) ≤ σ := by norm_num at h0 ⊢; exact h0
  have hσ : 0 < σ := by linarith
  obtain ⟨z, hz⟩ : ∃ z, z = Real.sqrt (1 - 1 / σ) := ⟨_, rfl⟩
  have i1 : 1 / σ ≤ 1000000 / 1000002 := by
    rw [div_le_div_iff₀ hσ (by norm_num)]; linarith
  have i2 : 1 / 2000 ≤ 1 / σ := one_div_le_one_div_of_le hσ h1
  have z2 : z ^ 2 = 1 - 1 / σ := by rw [hz, Real.sq_sqrt (by linarith)]
  have z0 : 0 ≤ z := by rw [hz]; positivity
  have z1 : 1 / 1000 ≤ z := by nlinarith
  have z3 : z ≤ 1 - 1 / 4000 := by nlinarith
  have es : 1 / ((1 - z) * (2 - (1 - z))) = σ := by
    have : (1 - z) * (2 - (1 - z)) = 1 / σ := by linear_combination -z2
    rw [this, one_div_one_div]
  rw [← hz]
  refine sub_cases (y := 1 - z) (by norm_num; linarith) (by norm_num; linarith) ?_
  rw [es]
  intro lo xl hi a1 a2 a3 a4 a5 a6 a7 a8 a9 a10
  exact subStarts a1 a2 a3 a4 a5 a6 a7 a8 a9 a10

open ArrayNewton ScipyNewton in
private theorem an_start_sup {σ : ℝ} (h0 : 1.000001 ≤ σ) (h1 : σ ≤ 50) :
    ∃ r, 1 < r ∧ P r = σ ∧ Starts σ (1 + Real.sqrt (σ - 1)) r (fun m => 1 < m) := by
  have h0' : (1000001 / 1000000 : ℝ) ≤ σ := by norm_num at h0 ⊢; exact h0
  obtain ⟨s, hs⟩ : ∃ s, s = Real.sqrt (σ - 1) := ⟨_, rfl⟩
  have s2 : s ^ 2 = σ - 1 := by rw [hs, Real.sq_sqrt (by linarith)]
  have s0 : 0 ≤ s := by rw [hs]; positivity
  have s1 : 1 / 1000 ≤ s := by nlinarith
  have s3 : s ≤ 7 := by nlinarith
  have es : 1 + s ^ 2 = σ := by linarith
  rw [← hs]
  refine sup_cases (s := s) (by norm_num; linarith) s3 ?_ ?_
  · rw [es]
    intro lo xu hi a1 a2 a3 a4 a5 a6 a7 a8 a9 a10
    exact supStarts a1 a2 a3 a4 a5 a6 a7 a8 a9 a10
  · rw [es]
    intro xl hi a1 a2 a3 a4 a5 a6 a7 a8
    exact supStarts_right a1 a2 a3 a4 a5 a6 a7 a8

/-- what is shown of the Mach number `m` found for the area ratio `σ` on the side of the guess `M` -/
private def Found (σ M m : ℝ) : Prop :=
  ∃ r, MassFlow.Sigma_Mach r DefaultGas.gamma0 = .ok σ ∧ |m - r| ≤ 3.2e-8 ∧
    (M ≤ 1 → 0 < r ∧ r ≤ 1 ∧ 0 < m ∧ m ≤ 1) ∧ (1 < M → 1 ≤ r ∧ 1 ≤ m) ∧ (σ = 1 → m = 1)

/-- the domain of an entry -/
private def Dom (σ M : ℝ) : Prop :=
  σ = 1 ∨ (M ≤ 1 ∧ 1.000002 ≤ σ ∧ σ ≤ 2000) ∨ (1 < M ∧ 1.000001 ≤ σ ∧ σ ≤ 50)

open ArrayNewton ScipyNewton in
private theorem an_start {σ M : ℝ} (h : Dom σ M) : ∃ r, Starts σ (if M ≤ 1 then 1 - Real.sqrt (1 - 1 / σ) else 1 + Real.sqrt (σ - 1)) r
    (fun m => |m - r| ≤ 3.2e-8 → Found σ M m) := by
  have sig : ∀ {x : ℝ}, 0 < x → MassFlow.Sigma_Mach x DefaultGas.gamma0 = .ok (P x) := fun h => by
    rw [MassFlow.Sigma_Mach_ok Isentropic.one_lt_gamma0 h.ne', sig_P]
  have mono : ∀ {σ x r : ℝ} {Q Q' : ℝ → Prop}, (∀ m, Q m → Q' m) → Starts σ x r Q → Starts σ x r Q' := by
    rintro σ x r Q Q' hQ ⟨R, D, K, a1, a2, a3, a4, a5, a6⟩
    exact ⟨R, D, K, a1, a2, a3, a4, a5, fun m h h' => hQ m (a6 m h h')⟩
  have P1 : P 1 = 1 := by unfold P; norm_num
  rcases h with rfl | ⟨hM, h0, h1⟩ | ⟨hM, h0, h1⟩
  · refine ⟨1, ?_⟩
    have e : (if M ≤ 1 then 1 - Real.sqrt (1 - 1 / 1) else 1 + Real.sqrt ((1 : ℝ) - 1)) = 1 := by split_ifs <;> norm_num
    rw [e]
    refine mono ?_ throatStarts
    rintro m rfl -
    exact ⟨1, by rw [sig one_pos, P1], by norm_num, by norm_num, by norm_num, fun _ => rfl⟩
  · obtain ⟨r, r0, r1, er, S⟩ := an_start_sub h0 h1
    rw [if_pos hM]
    refine ⟨r, mono ?_ S⟩
    rintro m ⟨m0, m1⟩ hm
    refine ⟨r, by rw [sig r0, er], hm, fun _ => ⟨r0, r1.le, m0, m1.le⟩, fun h => absurd hM (not_le.2 h), fun h => ?_⟩
    norm_num at h0; linarith
  · obtain ⟨r, r1, er, S⟩ := an_start_sup h0 h1
    rw [if_neg (not_le.2 hM)]
    refine ⟨r, mono ?_ S⟩
    intro m m1 hm
    refine ⟨r, by rw [sig (by linarith), er], hm, fun h => absurd hM (not_lt.2 h), fun _ => ⟨r1.le, m1.le⟩, fun h => ?_⟩
    norm_num at h0; linarith

open ArrayNewton ScipyNewton in
private theorem an_main (hι : Several ι) (Sigma Mach : Nd ι) (σ M : ι → ℝ) (hA : Mach.isArr = true) (hS : ∀ i, Sigma.at' i = some (σ i))
    (hM : ∀ i, Mach.at' i = some (M i)) (hd : ∀ i, Dom (σ i) (M i)) :
    ∃ m : ι → ℝ, ArrayNewton.Mach_Sigma Sigma Mach (num (some DefaultGas.gamma0)) = .ok (arr fun i => some (m i)) ∧ ∀ i, Found (σ i) (M i) (m i) := by
  have : Nonempty ι := by obtain ⟨i, -, -⟩ := hι; exact ⟨i⟩
  choose r St using fun i => an_start (hd i)
  choose R D K E hR hD0 hDp hK hQ using St
  have h1 : ∀ i, 1 ≤ σ i := by
    intro i
    rcases hd i with h | ⟨-, h, -⟩ | ⟨-, h, -⟩
    · exact h.ge
    · norm_num at h; linarith
    · norm_num at h; linarith
  obtain ⟨f, hf⟩ : ∃ f : (ι → ℝ) → Py (ι → ℝ), f = fun p => entries (ArrayFns.Sigma_Mach (arr fun i => some (p i)) (num (some DefaultGas.gamma0)) - Sigma) := ⟨_, rfl⟩
  have hfe : ∀ v : ι → ℝ, (∀ i, D i (v i)) → f v = .ok fun i => P (v i) - σ i := by
    intro v hv
    rw [hf]
    apply an_entries
    intro i
    rw [at_sub, (C143_massflow (ι := ι) 0 0).1.2 _ _ i (v i) _ rfl rfl, hS i,
      MassFlow.Sigma_Mach_ok Isentropic.one_lt_gamma0 (hDp i _ (hv i)).ne', sig_P]
    rfl
  obtain ⟨m, hm, hr⟩ := arrayNewton_converges E hfe 49 _ hD0 hR
  refine ⟨m, ?_, fun i => hQ i _ (hr i).1 (hr i).2 ((hr i).1.trans (hK i))⟩
  unfold ArrayNewton.Mach_Sigma
  simp only []
  rw [if_pos ⟨hA, hι⟩]
  unfold whereLe1 ArrayNewton.newton
  simp only []
  rw [if_pos hι, an_entries (v := fun i => if M i ≤ 1 then 1 - Real.sqrt (1 - 1 / σ i) else 1 + Real.sqrt (σ i - 1)), Py.ok_bind, ← hf, hm, Py.ok_bind]
  · rfl
  · intro i
    rw [at_arr]
    simp only [hM i]
    rw [show (1.0 : ℝ) = 1 by norm_num]
    split_ifs
    · exact an_sub (hS i) (h1 i)
    · exact an_sup (hS i) (h1 i)

/-- **C144 (arrays of area ratios, proved domain).**  With the default gas and scipy's vectorised secant search as it is, `Mach_Sigma(sigma, Mach)`
accepts an array of guesses with at least two entries (and a float or an array of area ratios).  It never raises, and every entry is
solved, whatever the other entries are: if the guess is at most 1 the entry is within 3.2e-8 of a subsonic Mach number whose area ratio is exactly
the requested one, otherwise of a supersonic one.  Domain: every entry has an area ratio equal to 1, or in [1.000002, 2000] on the subsonic side and
[1.000001, 50] on the supersonic side. -/
theorem C144_guesses_partial (hι : Several ι) (Sigma Mach : Nd ι) (σ M : ι → ℝ) (hA : Mach.isArr = true) (hS : ∀ i, Sigma.at' i = some (σ i))
    (hM : ∀ i, Mach.at' i = some (M i))
    (hd : ∀ i, σ i = 1 ∨ (M i ≤ 1 ∧ 1.000002 ≤ σ i ∧ σ i ≤ 2000) ∨ (1 < M i ∧ 1.000001 ≤ σ i ∧ σ i ≤ 50)) :
    ∃ m : ι → ℝ, ArrayNewton.Mach_Sigma Sigma Mach (num (some DefaultGas.gamma0)) = .ok (arr fun i => some (m i)) ∧
      ∀ i, ∃ r, MassFlow.Sigma_Mach r DefaultGas.gamma0 = .ok (σ i) ∧ |m i - r| ≤ 3.2e-8 ∧
        (M i ≤ 1 → 0 < r ∧ r ≤ 1 ∧ 0 < m i ∧ m i ≤ 1) ∧ (1 < M i → 1 ≤ r ∧ 1 ≤ m i) ∧ (σ i = 1 → m i = 1) :=
  an_main hι Sigma Mach σ M hA hS hM hd

/-- **C144 (`MachSub_Sigma` on arrays, proved domain).**  For every array of area ratios, each equal to 1 or in [1.000002, 2000], every entry of the
result is within 3.2e-8 of the subsonic Mach number of that area ratio. -/
theorem C144_sub_partial (hι : Several ι) (σ : ι → ℝ) (hd : ∀ i, σ i = 1 ∨ (1.000002 ≤ σ i ∧ σ i ≤ 2000)) :
    ∃ m : ι → ℝ, ArrayNewton.MachSub_Sigma (arr fun i => some (σ i)) (num (some DefaultGas.gamma0)) = .ok (arr fun i => some (m i)) ∧
      ∀ i, ∃ r, MassFlow.Sigma_Mach r DefaultGas.gamma0 = .ok (σ i) ∧ |m i - r| ≤ 3.2e-8 ∧ 0 < r ∧ r ≤ 1 ∧ 0 < m i ∧ m i ≤ 1 := by
  have h1 : ∀ i, 1 ≤ σ i := by
    intro i
    rcases hd i with h | ⟨h, -⟩
    · exact h.ge
    · norm_num at h; linarith
  have hM : ∀ i, 1 - Real.sqrt (1 - 1 / σ i) ≤ 1 := fun i => by linarith [Real.sqrt_nonneg (1 - 1 / σ i)]
  obtain ⟨m, e1, e2⟩ := an_main hι (arr fun i => some (σ i)) (ArrayFns.MachSub_sigma (arr fun i => some (σ i)) (num (some DefaultGas.gamma0))) σ
    (fun i => 1 - Real.sqrt (1 - 1 / σ i)) (by unfold ArrayFns.MachSub_sigma; nd_shape) (fun _ => rfl) (fun i => an_sub rfl (h1 i))
    (fun i => (hd i).imp id fun h => Or.inl ⟨hM i, h⟩)
  refine ⟨m, e1, fun i => ?_⟩
  obtain ⟨r, a1, a2, a3, -⟩ := e2 i
  exact ⟨r, a1, a2, a3 (hM i)⟩

/-- **C144 (`MachSup_Sigma` on arrays, proved domain).**  For every array of area ratios, each equal to 1 or in [1.000001, 50], every entry of the
result is within 3.2e-8 of the supersonic Mach number of that area ratio. -/
theorem C144_sup_partial (hι : Several ι) (σ : ι → ℝ) (hd : ∀ i, σ i = 1 ∨ (1.000001 ≤ σ i ∧ σ i ≤ 50)) :
    ∃ m : ι → ℝ, ArrayNewton.MachSup_Sigma (arr fun i => some (σ i)) (num (some DefaultGas.gamma0)) = .ok (arr fun i => some (m i)) ∧
      ∀ i, ∃ r, MassFlow.Sigma_Mach r DefaultGas.gamma0 = .ok (σ i) ∧ |m i - r| ≤ 3.2e-8 ∧ 1 ≤ r ∧ 1 ≤ m i := by
  have h1 : ∀ i, 1 ≤ σ i := by
    intro i
    rcases hd i with h | ⟨h, -⟩
    · exact h.ge
    · norm_num at h; linarith
  have hM : ∀ i, σ i ≠ 1 → 1 < 1 + Real.sqrt (σ i - 1) := fun i h => by
    have : 0 < Real.sqrt (σ i - 1) := Real.sqrt_pos.2 (by
      have := lt_of_le_of_ne (h1 i) (Ne.symm h)
      linarith)
    linarith
  obtain ⟨m, e1, e2⟩ := an_main hι (arr fun i => some (σ i)) (ArrayFns.MachSup_sigma (arr fun i => some (σ i)) (num (some DefaultGas.gamma0))) σ
    (fun i => 1 + Real.sqrt (σ i - 1)) (by unfold ArrayFns.MachSup_sigma; nd_shape) (fun _ => rfl) (fun i => an_sup rfl (h1 i))
    (fun i => by
      rcases hd i with h | h
      · exact Or.inl h
      · exact Or.inr (Or.inr ⟨hM i (by have := h.1; norm_num at this; intro e; linarith), h⟩))
  refine ⟨m, e1, fun i => ?_⟩
  obtain ⟨r, a1, a2, a3, a4, a5⟩ := e2 i
  by_cases hs : σ i = 1
  · rw [a5 hs]
    refine ⟨1, ?_, by norm_num, le_rfl, le_rfl⟩
    rw [hs, MassFlow.Sigma_Mach_ok Isentropic.one_lt_gamma0 one_ne_zero, ScipyNewton.sig_P]
    unfold ScipyNewton.P; norm_num
  · exact ⟨r, a1, a2, a4 (hM i hs)⟩

/-- the domains contain mixed arrays: area ratios 1.5 (subsonic guess 0.5), 1 and 3 (supersonic guess 2) -/
example : ∃ m : Fin 3 → ℝ, ArrayNewton.Mach_Sigma (arr ![some 1.5, some 1, some 3] : Nd (Fin 3)) (arr ![some 0.5, some 0.5, some 2])
    (num (some DefaultGas.gamma0)) = .ok (arr fun i => some (m i)) ∧ m 0 ≤ 1 ∧ m 1 = 1 ∧ 1 ≤ m 2 := by
  obtain ⟨m, e1, e2⟩ := C144_guesses_partial (ι := Fin 3) ⟨0, 1, by decide⟩ (arr ![some 1.5, some 1, some 3]) (arr ![some 0.5, some 0.5, some 2])
    ![1.5, 1, 3] ![0.5, 0.5, 2] rfl (by intro i; fin_cases i <;> rfl) (by intro i; fin_cases i <;> rfl)
    (by intro i; fin_cases i <;> norm_num)
  refine ⟨m, e1, ?_, ?_, ?_⟩
  · obtain ⟨r, -, -, h, -⟩ := e2 0; exact (h (by norm_num)).2.2.2
  · obtain ⟨r, -, -, -, -, h⟩ := e2 1; exact h (by norm_num)
  · obtain ⟨r, -, -, -, h, -⟩ := e2 2; exact (h (by show (1 : ℝ) < 2; norm_num)).2

/-- **C144 (defect).**  An array of area ratios with a float guess is refused: `Mach_Sigma(sigma)` with its default guess 2.0, or any other float, raises
`ValueError` for every array of at least two area ratios, whatever the gas. -/
theorem C144_float_guess_false (hι : Several ι) (σ : ι → Option ℝ) (x : ℝ) (g : Option ℝ) :
    ArrayNewton.Mach_Sigma (arr σ) (num (some x)) (num g) = .error .valueError := by
  unfold ArrayNewton.Mach_Sigma
  simp only []
  rw [if_neg (by simp)]
  unfold ArrayNewton.newton
  simp only []
  rw [if_pos (by nd_shape; simp), if_pos hι]

example : ArrayNewton.Mach_Sigma (arr ![some 1.5, some 3] : Nd (Fin 2)) 2.0 (num (some DefaultGas.gamma0)) = .error .valueError :=
  C144_float_guess_false several_fin2 _ _ _

/-! ## Prandtl–Meyer angle -/

open ArrayNewton ScipyNewton Supersonic Real in
private theorem an_pm (hι : Several ι) (γ : ℝ) (hγ : 1 < γ) (M : ι → ℝ) {Q : ι → ℝ → Prop} (S : ∀ i, PMStarts γ (M i) (Q i)) :
    ∃ m : ι → ℝ, ArrayNewton.Mach_PrandtlMeyer (arr fun i => some (pmDeg γ (M i))) (num (some γ)) = .ok (arr fun i => some (m i)) ∧ ∀ i, Q i (m i) ∧ 1 ≤ m i := by
  have : Nonempty ι := by obtain ⟨i, -, -⟩ := hι; exact ⟨i⟩
  choose R E hR using S
  have hk : 180 / π ≠ 0 := by have := Real.pi_pos; positivity
  obtain ⟨f, hf⟩ : ∃ f : (ι → ℝ) → Py (ι → ℝ), f = fun p => entries (ArrayFns.PrandtlMeyer_Mach (arr fun i => some (p i)) (num (some γ)) - arr fun i => some (pmDeg γ (M i))) := ⟨_, rfl⟩
  have hfe : ∀ v : ι → ℝ, (∀ i, 1 ≤ v i) → f v = .ok fun i => 180 / π * (pmr γ (v i) - pmr γ (M i)) := by
    intro v hv
    rw [hf]
    apply an_entries
    intro i
    rw [at_sub, (C143_supersonic (ι := ι)).1.2 _ _ i (v i) _ rfl rfl, PM_ok hγ (by nlinarith [hv i])]
    show some (pmDeg γ (v i) - pmDeg γ (M i)) = _
    rw [pmDeg_eq_pmr, pmDeg_eq_pmr, mul_sub]
  obtain ⟨m, hm, hr⟩ := arrayNewton_converges (fun i => (E i).scale hk) hfe 49 (fun _ => 2) (fun _ => by norm_num) hR
  refine ⟨m, ?_, hr⟩
  unfold ArrayNewton.Mach_PrandtlMeyer
  have e : (2.0 + 0.0 * arr fun i => some (pmDeg γ (M i)) : Nd ι) = arr fun _ => some 2 := by
    show Nd.arr _ = Nd.arr _
    congr 1
    funext i
    show some ((2.0 : ℝ) + 0.0 * pmDeg γ (M i)) = some 2
    norm_num
  rw [e]
  unfold ArrayNewton.newton
  simp only []
  rw [if_pos hι, an_entries (v := fun _ => (2 : ℝ)) fun _ => rfl, Py.ok_bind, ← hf, hm, Py.ok_bind]
  rfl

open Supersonic in
/-- **C144 (`Mach_PrandtlMeyer` on arrays, default gas, proved domain).**  For every array of turning angles, each of them the Prandtl–Meyer angle of a Mach
number from 1 to 10⁸, no exception is raised, and every entry is a Mach number of at least 1 whose angle is within 10⁻⁶ degree of the request; above
Mach 1.2 the relative error of the Mach number is at most 10⁻⁸. -/
theorem C144_prandtl_meyer_partial (hι : Several ι) (M ω : ι → ℝ) (h1 : ∀ i, 1 ≤ M i) (h2 : ∀ i, M i ≤ 10 ^ 8)
    (hω : ∀ i, PrandtlMeyer_Mach (M i) DefaultGas.gamma0 = .ok (ω i)) :
    ∃ m : ι → ℝ, ArrayNewton.Mach_PrandtlMeyer (arr fun i => some (ω i)) (num (some DefaultGas.gamma0)) = .ok (arr fun i => some (m i)) ∧
      ∀ i, 1 ≤ m i ∧ (∃ w, PrandtlMeyer_Mach (m i) DefaultGas.gamma0 = .ok w ∧ |w - ω i| ≤ 1e-6) ∧ (1.2 ≤ M i → |m i - M i| ≤ 1e-8 * M i) := by
  rw [Isentropic.gamma0_eq] at hω ⊢
  have e : ω = fun i => pmDeg (7/5) (M i) := funext fun i => pm_value (by norm_num) (h1 i) (hω i)
  rw [e]
  obtain ⟨m, a1, a2⟩ := an_pm hι (7/5) (by norm_num) M fun i => ArrayNewton.pmStarts_air (h1 i) (h2 i)
  refine ⟨m, a1, fun i => ⟨(a2 i).2, ⟨_, PM_ok (by norm_num) (by nlinarith [(a2 i).2]), ?_⟩, (a2 i).1.2⟩⟩
  exact pm_residual_deg (a2 i).1.1 le_rfl

open Supersonic in
/-- **C144 (`Mach_PrandtlMeyer` on arrays, other gases).**  For `gamma ≥ 1.11` and Mach numbers from 2.0003 to 10⁸ every entry is approached from below, with
a relative error of at most 7.4e-9. -/
theorem C144_prandtl_meyer_high_partial (hι : Several ι) (γ : ℝ) (M ω : ι → ℝ) (hγ : 1.11 ≤ γ) (h1 : ∀ i, 2.0003 ≤ M i) (h2 : ∀ i, M i ≤ 10 ^ 8)
    (hω : ∀ i, PrandtlMeyer_Mach (M i) γ = .ok (ω i)) :
    ∃ m : ι → ℝ, ArrayNewton.Mach_PrandtlMeyer (arr fun i => some (ω i)) (num (some γ)) = .ok (arr fun i => some (m i)) ∧
      ∀ i, 2 ≤ m i ∧ m i ≤ M i ∧ M i - m i ≤ 7.4e-9 * M i ∧ ∃ w, PrandtlMeyer_Mach (m i) γ = .ok w ∧ |w - ω i| ≤ 1e-6 := by
  have g1 : 1 < γ := lt_of_lt_of_le (by norm_num) hγ
  have h1' : ∀ i, (20003 / 10000 : ℝ) ≤ M i := fun i => by have := h1 i; norm_num at this ⊢; exact this
  have e : ω = fun i => pmDeg γ (M i) := funext fun i => pm_value g1 (by linarith [h1' i]) (hω i)
  rw [e]
  obtain ⟨m, a1, a2⟩ := an_pm hι γ g1 M fun i => ArrayNewton.pmStarts_left hγ (by
    have := ArrayNewton.second_two.2
    have := h1' i
    norm_num at *
    linarith) (h2 i)
  refine ⟨m, a1, fun i => ?_⟩
  obtain ⟨⟨b1, b2, b3, b4⟩, b5⟩ := a2 i
  refine ⟨b1, b2, b3, _, PM_ok g1 (by nlinarith), pm_residual_deg (e := 1.48e-8) ?_ le_rfl⟩
  have : pmr γ (m i) ≤ pmr γ (M i) := by
    rcases b2.eq_or_lt with e | e
    · rw [e]
    · exact (pmr_lt g1 b5 e).le
  rw [abs_sub_comm, abs_of_nonneg (by linarith)]
  exact b4

/-- an array of the angles of Mach 1, 1.5 and 20 -/
example : ∃ (ω m : Fin 3 → ℝ), ArrayNewton.Mach_PrandtlMeyer (arr fun i => some (ω i)) (num (some DefaultGas.gamma0)) = .ok (arr fun i => some (m i)) ∧
    |m 1 - 1.5| ≤ 1.5e-8 ∧ |m 2 - 20| ≤ 2e-7 := by
  have hM : ∀ i : Fin 3, 1 ≤ (![1, 1.5, 20] : Fin 3 → ℝ) i := by intro i; fin_cases i <;> norm_num
  have hM' : ∀ i : Fin 3, (![1, 1.5, 20] : Fin 3 → ℝ) i ≤ 10 ^ 8 := by intro i; fin_cases i <;> norm_num
  obtain ⟨m, e1, e2⟩ := C144_prandtl_meyer_partial (ι := Fin 3) ⟨0, 1, by decide⟩ ![1, 1.5, 20] _ hM hM'
    (fun i => PM_ok Isentropic.one_lt_gamma0 (by nlinarith [hM i]))
  refine ⟨_, m, e1, ?_, ?_⟩
  · have := (e2 1).2.2 (by norm_num)
    norm_num at this ⊢; exact this
  · have := (e2 2).2.2 (by show (1.2 : ℝ) ≤ 20; norm_num)
    rw [show (![1, 1.5, 20] : Fin 3 → ℝ) 2 = 20 from rfl] at this
    norm_num at this ⊢; exact this

open ArrayNewton ScipyNewton Supersonic Real in
private theorem an_lost {γ w : ℝ} (hγ : 1.11 ≤ γ) (hw : 90 * (√((γ + 1) / (γ - 1)) - 1) ≤ w) :
    Lost (fun x => 180 / π * (pmr γ x - π / 180 * w)) 1.48e-8 (fun p p1 => 2 ≤ p ∧ p < p1) (fun x => 1 ≤ x) := by
  have g1 : 1 < γ := lt_of_lt_of_le (by norm_num) hγ
  have hk : 0 < 180 / π := by have := Real.pi_pos; positivity
  have hch : ∀ p p1 q q1 : ℝ, chord p p1 (180 / π * q) (180 / π * q1) = chord p p1 q q1 := by
    intro p p1 q q1; unfold chord
    rw [← mul_sub, ← mul_div_mul_left (p1 - p) (q1 - q) hk.ne']; ring
  have st := fun (p p1 : ℝ) (h : 2 ≤ p ∧ p < p1) => pm_beyond_step hγ (pmr_lt_beyond g1 hw) h.1 h.2
  refine ⟨fun p p1 h => by linarith [h.1, h.2], ?_, ?_, ?_⟩
  · intro p p1 h e
    have := mul_left_cancel₀ hk.ne' e
    linarith [(st p p1 h).1]
  · intro p p1 h
    have h2 := (st p p1 h).2
    simp only [hch]
    rw [abs_of_nonneg (by linarith)]
    norm_num; linarith
  · intro p p1 h
    have h2 := (st p p1 h).2
    simp only [hch]
    exact ⟨by linarith [h.1, h.2], by linarith⟩

open ArrayNewton ScipyNewton Supersonic Real in
private theorem an_pm_mixed (hι : Several ι) (M ω : ι → ℝ) {j : ι} (hj : 90 * (√6 - 1) ≤ ω j)
    (hd : ∀ i, (1 ≤ M i ∧ M i ≤ 10 ^ 8 ∧ PrandtlMeyer_Mach (M i) (7/5) = .ok (ω i)) ∨ 90 * (√6 - 1) ≤ ω i) :
    ((∃ i, ω i < 90 * (√6 - 1)) → ∃ m : ι → ℝ, ArrayNewton.Mach_PrandtlMeyer (arr fun i => some (ω i)) (num (some (7/5))) = .ok (arr fun i => some (m i)) ∧ (∀ i, 1 ≤ m i) ∧
      ∀ i, ω i < 90 * (√6 - 1) → |pmr (7/5) (m i) - pmr (7/5) (M i)| ≤ 2.9e-8) ∧
    ((∀ i, 90 * (√6 - 1) ≤ ω i) → ArrayNewton.Mach_PrandtlMeyer (arr fun i => some (ω i)) (num (some (7/5))) = .error .noConvergence) := by
  have h6 : (7 / 5 + 1 : ℝ) / (7 / 5 - 1) = 6 := by norm_num
  have hk : 180 / π ≠ 0 := by have := Real.pi_pos; positivity
  have good : ∀ i, ¬ 90 * (√6 - 1) ≤ ω i → 1 ≤ M i ∧ M i ≤ 10 ^ 8 ∧ π / 180 * ω i = pmr (7/5) (M i) := by
    intro i h
    rcases hd i with ⟨a, b, c⟩ | h'
    · refine ⟨a, b, ?_⟩
      rw [pm_value (by norm_num) a c, pmDeg_eq_pmr]
      field_simp
    · exact absurd h' h
  choose R E hR using fun (i : ι) (h : ¬ 90 * (√6 - 1) ≤ ω i) => pmStarts_air (good i h).1 (good i h).2.1
  classical
  obtain ⟨R', hR'⟩ : ∃ R' : ι → ℕ → ℝ → ℝ → Prop, ∀ i h, R' i = R i h :=
    ⟨fun i => if h : ¬ 90 * (√6 - 1) ≤ ω i then R i h else fun _ _ _ => True, fun i h => dif_pos h⟩
  have E' : ∀ i, ¬ 90 * (√6 - 1) ≤ ω i → Entry (fun x => 180 / π * (pmr (7/5) x - π / 180 * ω i)) 1.48e-8
      (fun m => |pmr (7/5) m - pmr (7/5) (M i)| ≤ 1.48e-8 ∧ (1.2 ≤ M i → |m - M i| ≤ 1e-8 * M i)) (M i) (R' i) (fun x => 1 ≤ x) := by
    intro i h
    rw [hR' i h, (good i h).2.2]
    exact (E i h).scale hk
  obtain ⟨f, hf⟩ : ∃ f : (ι → ℝ) → Py (ι → ℝ), f = fun p => entries (ArrayFns.PrandtlMeyer_Mach (arr fun i => some (p i)) (num (some (7/5))) - arr fun i => some (ω i)) := ⟨_, rfl⟩
  have hfe : ∀ v : ι → ℝ, (∀ i, 1 ≤ v i) → f v = .ok fun i => 180 / π * (pmr (7/5) (v i) - π / 180 * ω i) := by
    intro v hv
    rw [hf]
    apply an_entries
    intro i
    rw [at_sub, (C143_supersonic (ι := ι)).1.2 _ _ i (v i) _ rfl rfl, PM_ok (by norm_num) (by nlinarith [hv i])]
    show some (pmDeg (7/5) (v i) - ω i) = _
    rw [pmDeg_eq_pmr]
    congr 1
    have := Real.pi_pos
    field_simp
  have K := arrayNewton_mixed (fun i => 90 * (√6 - 1) ≤ ω i) E' (fun i h => an_lost (by norm_num) (by rw [h6]; exact h)) hfe hj 49 (fun _ => 2) (fun _ => by norm_num)
    (fun i h => by rw [hR' i h]; exact hR i h) (fun i _ => ⟨le_rfl, by have := second_two.1; norm_num at this; linarith⟩)
  have e : (2.0 + 0.0 * arr fun i => some (ω i) : Nd ι) = arr fun _ => some 2 := by
    show Nd.arr _ = Nd.arr _
    congr 1
    funext i
    show some ((2.0 : ℝ) + 0.0 * ω i) = some 2
    norm_num
  have run : ArrayNewton.Mach_PrandtlMeyer (arr fun i => some (ω i)) (num (some (7/5))) = arrayNewton 1.48e-8 50 f (fun _ => 2) >>= fun p => .ok (arr fun i => some (p i)) := by
    unfold ArrayNewton.Mach_PrandtlMeyer
    rw [e]
    unfold ArrayNewton.newton
    simp only []
    rw [if_pos hι, an_entries (v := fun _ => (2 : ℝ)) fun _ => rfl, Py.ok_bind, ← hf]
    rfl
  rw [run]
  constructor
  · rintro ⟨i, hi⟩
    obtain ⟨m, a1, a2, a3⟩ := K.1 ⟨i, not_le.2 hi⟩
    refine ⟨m, by rw [a1, Py.ok_bind], a2, fun i hi => ?_⟩
    obtain ⟨c, c1, ⟨c2, -⟩, c3⟩ := a3 i (not_le.2 hi)
    have h1 := pra_lip (a2 i) c1
    unfold pra at h1
    rw [abs_sub_comm (m i)] at h1
    have h3 : |pmr (7/5) (m i) - pmr (7/5) (M i)| ≤ |pmr (7/5) (m i) - pmr (7/5) c| + |pmr (7/5) c - pmr (7/5) (M i)| := abs_sub_le _ _ _
    norm_num at h1 c2 c3 ⊢
    linarith
  · intro h
    rw [K.2 h]; rfl

open Supersonic in
/-- **C144 (defect: unattainable angles in an array are answered silently).**  Default gas.  The largest turning angle is `90 (√6 - 1)` (130.45°), and the float
call raises "failed to converge" from there on (C141).  But in an array with at least one attainable angle (of a Mach number from 1 to 10⁸) and any number
of unattainable ones the search does not raise: it returns a Mach number for each unattainable angle too, whose own angle is smaller than the requested one.  (The
attainable entries are still right, within 2e-6 degree.) -/
theorem C144_unattainable_false (hι : Several ι) (M ω : ι → ℝ)
    (hd : ∀ i, (1 ≤ M i ∧ M i ≤ 10 ^ 8 ∧ PrandtlMeyer_Mach (M i) DefaultGas.gamma0 = .ok (ω i)) ∨ 90 * (Real.sqrt 6 - 1) ≤ ω i)
    (good : ∃ i, ω i < 90 * (Real.sqrt 6 - 1)) (bad : ∃ i, 90 * (Real.sqrt 6 - 1) ≤ ω i) :
    ∃ m : ι → ℝ, ArrayNewton.Mach_PrandtlMeyer (arr fun i => some (ω i)) (num (some DefaultGas.gamma0)) = .ok (arr fun i => some (m i)) ∧
      ∀ i, ∃ w, PrandtlMeyer_Mach (m i) DefaultGas.gamma0 = .ok w ∧ (90 * (Real.sqrt 6 - 1) ≤ ω i → w < ω i) ∧ (ω i < 90 * (Real.sqrt 6 - 1) → |w - ω i| ≤ 2e-6) := by
  rw [Isentropic.gamma0_eq] at hd ⊢
  obtain ⟨j, hj⟩ := bad
  obtain ⟨m, a1, a2, a3⟩ := (an_pm_mixed hι M ω hj hd).1 good
  have h6 : (7 / 5 + 1 : ℝ) / (7 / 5 - 1) = 6 := by norm_num
  have hp := Real.pi_gt_three
  have h60 : (180 : ℝ) / Real.pi ≤ 60 := by rw [div_le_iff₀ (by linarith)]; linarith
  have hk : 0 < 180 / Real.pi := by positivity
  refine ⟨m, a1, fun i => ⟨_, PM_ok (by norm_num) (by nlinarith [a2 i]), ?_, ?_⟩⟩
  · intro h
    have := pmr_lt_beyond (γ := 7/5) (w := ω i) (by norm_num) (by rw [h6]; exact h) (m i) (a2 i)
    have := mul_lt_mul_of_pos_left this hk
    show pmDeg (7/5) (m i) < ω i
    rw [pmDeg_eq_pmr]
    refine this.trans_eq ?_
    field_simp
  · intro h
    have h3 := a3 i h
    rcases hd i with ⟨b1, -, b2⟩ | h'
    · show |pmDeg (7/5) (m i) - ω i| ≤ 2e-6
      rw [pm_value (by norm_num) b1 b2, pmDeg_eq_pmr, pmDeg_eq_pmr, ← mul_sub, abs_mul, abs_of_pos hk]
      calc 180 / Real.pi * |pmr (7/5) (m i) - pmr (7/5) (M i)| ≤ 60 * 2.9e-8 := mul_le_mul h60 h3 (abs_nonneg _) (by norm_num)
        _ ≤ _ := by norm_num
    · exact absurd h (not_lt.2 h')

open Supersonic in
/-- **C144 (only unattainable angles).**  When no entry is attainable the search raises "failed to converge" (default gas). -/
theorem C144_all_unattainable (hι : Several ι) (ω : ι → ℝ) (h : ∀ i, 90 * (Real.sqrt 6 - 1) ≤ ω i) :
    ArrayNewton.Mach_PrandtlMeyer (arr fun i => some (ω i)) (num (some DefaultGas.gamma0)) = .error .noConvergence := by
  rw [Isentropic.gamma0_eq]
  obtain ⟨j, hj⟩ := id hι
  exact (an_pm_mixed hι (fun _ => 1) ω (h j) fun i => Or.inr (h i)).2 h

private theorem an_max : 90 * (Real.sqrt 6 - 1) ≤ 150 := by
  have : Real.sqrt 6 ≤ 2.5 := by rw [Real.sqrt_le_left (by norm_num)]; norm_num
  norm_num at this ⊢; linarith

/-- `Mach_PrandtlMeyer(np.array([0., 150.]))` returns, `Mach_PrandtlMeyer(150.)` and `Mach_PrandtlMeyer(np.array([150., 160.]))` raise -/
example : (∃ m : Fin 2 → ℝ, ArrayNewton.Mach_PrandtlMeyer (arr fun i => some (![0, 150] i)) (num (some DefaultGas.gamma0)) = .ok (arr fun i => some (m i))) ∧
    Supersonic.Mach_PrandtlMeyer ScipyNewton.scipy 150 1.4 = .error .noConvergence ∧
    ArrayNewton.Mach_PrandtlMeyer (arr fun i => some ((![150, 160] : Fin 2 → ℝ) i)) (num (some DefaultGas.gamma0)) = .error .noConvergence := by
  refine ⟨?_, ?_, ?_⟩
  · have h0 : (0 : ℝ) < 90 * (Real.sqrt 6 - 1) := by
      have : 1 < Real.sqrt 6 := by rw [Real.lt_sqrt (by norm_num)]; norm_num
      linarith
    obtain ⟨m, e, -⟩ := C144_unattainable_false (ι := Fin 2) several_fin2 (fun _ => 1) ![0, 150]
      (by
        intro i
        fin_cases i
        · exact Or.inl ⟨le_rfl, by norm_num, C19_zero_at_sonic _ Isentropic.one_lt_gamma0⟩
        · exact Or.inr an_max) ⟨0, h0⟩ ⟨1, an_max⟩
    exact ⟨m, e⟩
  · refine C141_beyond 1.4 150 (by norm_num) ?_
    rw [show ((1.4 : ℝ) + 1) / (1.4 - 1) = 6 by norm_num]
    exact an_max
  · refine C144_all_unattainable (ι := Fin 2) several_fin2 _ ?_
    intro i
    fin_cases i
    · exact an_max
    · exact an_max.trans (by norm_num)

end Aerokit.Props
