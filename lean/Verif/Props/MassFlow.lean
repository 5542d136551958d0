import Verif.Lemmas.MassFlow
import Verif.Spec.Solver

/-! # Properties C05–C08 : `aerokit/aero/MassFlow.py` -/

namespace Aerokit.Props
open Isentropic MassFlow

/-- C05: `Sigma_Mach(M) = WeightMassFlow(1)/WeightMassFlow(M)` whatever gas constants are given. -/
theorem C05_sigma_is_massflow_ratio (M r r' γ : ℝ) (hγ : 1 < γ) (hM : 0 < M) :
    ∃ w1 wM, WeightMassFlow 1 r γ = Except.ok w1 ∧ WeightMassFlow M r' γ = Except.ok wM ∧
      0 < w1 ∧ 0 < wM ∧ Sigma_Mach M γ = Except.ok (w1 / wM) := by
  have h1 : γ + 1 ≠ 0 := by linarith
  have h2 : γ - 1 ≠ 0 := by linarith
  have hs : 0 < Real.sqrt γ := Real.sqrt_pos.2 (by linarith)
  refine ⟨_, _, WeightMassFlow_ok hγ, WeightMassFlow_ok hγ, ?_, ?_, ?_⟩
  · have := Real.rpow_pos_of_pos (tt_pos (M := 1) hγ) (-(γ + 1) / (2 * (γ - 1))); positivity
  · have := Real.rpow_pos_of_pos (tt_pos (M := M) hγ) (-(γ + 1) / (2 * (γ - 1))); positivity
  · rw [Sigma_Mach_ok hγ hM.ne']
    congr 1
    unfold sig
    have hc : 2 / (γ + 1) = (tt 1 γ)⁻¹ := by
      exact eq_inv_of_mul_eq_one_left (tt_one hγ)
    have p1 := tt_pos (M := 1) hγ
    have pM := tt_pos (M := M) hγ
    rw [hc, Real.mul_rpow (by positivity) pM.le, Real.inv_rpow p1.le, neg_div,
      Real.rpow_neg p1.le, Real.rpow_neg pM.le]
    have q1 := Real.rpow_pos_of_pos p1 ((γ + 1) / (2 * (γ - 1)))
    have qM := Real.rpow_pos_of_pos pM ((γ + 1) / (2 * (γ - 1)))
    field_simp

example : (1:ℝ) < 1.4 ∧ (0:ℝ) < 2 ∧ Sigma_Mach 1 1.4 = Except.ok 1 := by
  refine ⟨by norm_num, by norm_num, ?_⟩
  rw [Sigma_Mach_ok (by norm_num) (by norm_num), sig_one (by norm_num)]

/-- C06: `Sigma ≥ 1`, equal to 1 exactly at the sonic throat. -/
theorem C06_minimum_at_throat (M γ : ℝ) (hγ : 1 < γ) (hM : 0 < M) :
    ∃ s, Sigma_Mach M γ = Except.ok s ∧ 1 ≤ s ∧ (s = 1 ↔ M = 1) := by
  refine ⟨_, Sigma_Mach_ok hγ hM.ne', one_le_sig hγ hM, ?_, ?_⟩
  · intro h
    by_contra hne
    rcases lt_or_gt_of_ne hne with h1 | h1
    · have := one_lt_sig_sub hγ hM h1; linarith
    · have := one_lt_sig_sup hγ h1; linarith
  · rintro rfl; exact sig_one hγ

/-- C06: strictly decreasing on the subsonic branch. -/
theorem C06_decreasing_subsonic (M N γ : ℝ) (hγ : 1 < γ) (hM : 0 < M) (hMN : M < N) (hN : N ≤ 1) :
    ∃ s s', Sigma_Mach M γ = Except.ok s ∧ Sigma_Mach N γ = Except.ok s' ∧ s' < s :=
  ⟨_, _, Sigma_Mach_ok hγ hM.ne', Sigma_Mach_ok hγ (hM.trans hMN).ne',
    sig_strictAnti hγ ⟨hM, hMN.le.trans hN⟩ ⟨hM.trans hMN, hN⟩ hMN⟩

/-- C06: strictly increasing on the supersonic branch. -/
theorem C06_increasing_supersonic (M N γ : ℝ) (hγ : 1 < γ) (hM : 1 ≤ M) (hMN : M < N) :
    ∃ s s', Sigma_Mach M γ = Except.ok s ∧ Sigma_Mach N γ = Except.ok s' ∧ s < s' :=
  ⟨_, _, Sigma_Mach_ok hγ (by linarith), Sigma_Mach_ok hγ (by linarith),
    sig_strictMono hγ (Set.mem_Ici.2 hM) (Set.mem_Ici.2 (hM.trans hMN.le)) hMN⟩

example : (1:ℝ) < 1.4 ∧ (0:ℝ) < 0.3 ∧ (0.3:ℝ) < 0.6 ∧ (0.6:ℝ) ≤ 1 ∧ (1:ℝ) ≤ 2 ∧ (2:ℝ) < 3 := by
  norm_num

/-- C07: for every area ratio above 1 there is exactly one subsonic and exactly one supersonic
Mach number. -/
theorem C07_two_solutions (σ γ : ℝ) (hγ : 1 < γ) (hσ : 1 < σ) :
    (∃! M, 0 < M ∧ M < 1 ∧ Sigma_Mach M γ = Except.ok σ) ∧
    (∃! M, 1 < M ∧ Sigma_Mach M γ = Except.ok σ) := by
  constructor
  · obtain ⟨M, h0, h1, hs⟩ := exists_sub hγ hσ
    refine ⟨M, ⟨h0, h1, by rw [Sigma_Mach_ok hγ h0.ne', hs]⟩, ?_⟩
    rintro N ⟨g0, g1, gs⟩
    rw [Sigma_Mach_ok hγ g0.ne'] at gs
    have gs' : sig N γ = σ := by injection gs
    exact (sig_strictAnti hγ).injOn ⟨g0, g1.le⟩ ⟨h0, h1.le⟩ (by simp [gs', hs])
  · obtain ⟨M, h1, hs⟩ := exists_sup hγ hσ
    refine ⟨M, ⟨h1, by rw [Sigma_Mach_ok hγ (by linarith), hs]⟩, ?_⟩
    rintro N ⟨g1, gs⟩
    rw [Sigma_Mach_ok hγ (by linarith)] at gs
    have gs' : sig N γ = σ := by injection gs
    exact (sig_strictMono hγ).injOn (Set.mem_Ici.2 g1.le) (Set.mem_Ici.2 h1.le) (by simp [gs', hs])

/-- every Mach number with a given area ratio is the subsonic or the supersonic one -/
theorem C07_no_other_solution (σ γ m : ℝ) (hγ : 1 < γ) (hσ : 1 < σ)
    (hm : Sigma_Mach m γ = Except.ok σ) : (0 < m ∧ m < 1) ∨ 1 < m := by
  obtain ⟨h0, hs⟩ := pos_of_Sigma hγ hσ.le hm
  rcases lt_trichotomy m 1 with h1 | h1 | h1
  · exact Or.inl ⟨h0, h1⟩
  · rw [h1, sig_one hγ] at hs; linarith
  · exact Or.inr h1

/-- C07: whatever the root finder does, a value returned by `MachSub_Sigma` or `MachSup_Sigma` has
the requested area ratio. -/
theorem C07_returned_value_is_a_solution (newton : RootFinder) (hn : Spec.SoundRootFinder newton)
    (σ γ m : ℝ) (hm : MachSub_Sigma newton σ γ = Except.ok m ∨ MachSup_Sigma newton σ γ = Except.ok m) :
    Sigma_Mach m γ = Except.ok σ := by
  rcases hm with hm | hm
  · unfold MachSub_Sigma at hm
    cases hi : MachSub_sigma_init σ γ with
    | error e => rw [hi] at hm; cases hm
    | ok x => rw [hi] at hm; exact residual_zero (hn _ _ _ hm)
  · unfold MachSup_Sigma at hm
    cases hi : MachSup_sigma_init σ γ with
    | error e => rw [hi] at hm; cases hm
    | ok x => rw [hi] at hm; exact residual_zero (hn _ _ _ hm)

/-- C07: Mach → Sigma → Mach on the subsonic branch, when the root finder stays on its branch. -/
theorem C07_subsonic_roundtrip (newton : RootFinder) (hn : Spec.SoundRootFinder newton)
    (M γ σ m : ℝ) (hγ : 1 < γ) (hM0 : 0 < M) (hM : M ≤ 1) (hs : Sigma_Mach M γ = Except.ok σ)
    (hm : MachSub_Sigma newton σ γ = Except.ok m) (hbranch : m ≤ 1) : m = M := by
  have h1 := C07_returned_value_is_a_solution newton hn σ γ m (Or.inl hm)
  rw [Sigma_Mach_ok hγ hM0.ne'] at hs
  have hs' : sig M γ = σ := by injection hs
  obtain ⟨m0, hms⟩ := pos_of_Sigma hγ (hs' ▸ one_le_sig hγ hM0) h1
  exact (sig_strictAnti hγ).injOn ⟨m0, hbranch⟩ ⟨hM0, hM⟩ (by simp [hms, hs'])

/-- C07: Mach → Sigma → Mach on the supersonic branch. -/
theorem C07_supersonic_roundtrip (newton : RootFinder) (hn : Spec.SoundRootFinder newton)
    (M γ σ m : ℝ) (hγ : 1 < γ) (hM : 1 ≤ M) (hs : Sigma_Mach M γ = Except.ok σ)
    (hm : MachSup_Sigma newton σ γ = Except.ok m) (hbranch : 1 ≤ m) : m = M := by
  have h1 := C07_returned_value_is_a_solution newton hn σ γ m (Or.inr hm)
  rw [Sigma_Mach_ok hγ (by linarith)] at hs
  have hs' : sig M γ = σ := by injection hs
  obtain ⟨m0, hms⟩ := pos_of_Sigma hγ (hs' ▸ one_le_sig hγ (by linarith)) h1
  exact (sig_strictMono hγ).injOn (Set.mem_Ici.2 hbranch) (Set.mem_Ici.2 hM) (by simp [hms, hs'])

/-- non-vacuity: there is a sound root finder with which both functions return the root on their
branch, at γ = 1.4 and σ = 2. -/
example : ∃ newton : RootFinder, Spec.SoundRootFinder newton ∧
    ∃ m, MachSub_Sigma newton 2 1.4 = Except.ok m ∧ m ≤ 1 := by
  obtain ⟨M, h0, h1, hs⟩ := exists_sub (σ := 2) (γ := 1.4) (by norm_num) (by norm_num)
  classical
  refine ⟨fun f _ => if f M = .ok 0 then .ok M else .error .noConvergence, ?_, M, ?_, h1.le⟩
  · intro f x0 x h
    by_cases hx : f M = .ok 0
    · simp only [hx, if_true] at h; cases h; exact hx
    · simp [hx] at h
  · have hres : sigma_residual 2 1.4 M = Except.ok 0 := by
      unfold sigma_residual
      rw [Sigma_Mach_ok (by norm_num) h0.ne', Py.ok_bind, hs]; simp
    have hi : ∃ x, MachSub_sigma_init 2 1.4 = Except.ok x := by
      unfold MachSub_sigma_init
      rw [Py.div_ok (by norm_num), Py.ok_bind, Py.div_ok (by norm_num), Py.ok_bind, Py.sqrt_ok (by norm_num)]
      exact ⟨_, rfl⟩
    obtain ⟨x, hx⟩ := hi
    unfold MachSub_Sigma Mach_Sigma
    rw [hx, Py.ok_bind]; simp [hres]

/-- evaluation of the subsonic guess -/
theorem MachSub_init_ok {σ γ : ℝ} (hσ : 1 ≤ σ) (h1 : 1 < γ) (h3 : γ < 3) :
    MachSub_sigma_init σ γ = .ok (1 - Real.sqrt ((1 - 1 / σ) * (4 * (γ - 1) / (3 - γ)))) := by
  unfold MachSub_sigma_init; lits
  rw [Py.div_ok (by linarith), Py.ok_bind, Py.div_ok (by linarith), Py.ok_bind, Py.sqrt_ok]
  · rfl
  · apply mul_nonneg
    · have : 1 / σ ≤ 1 := by rw [div_le_one] <;> linarith
      linarith
    · apply div_nonneg <;> linarith

theorem MachSup_init_ok {σ γ : ℝ} (hσ : 1 ≤ σ) (h1 : 1 < γ) (h3 : γ < 3) :
    MachSup_sigma_init σ γ = .ok (1 + Real.sqrt ((σ - 1) * (4 * (γ - 1) / (3 - γ)))) := by
  unfold MachSup_sigma_init; lits
  rw [Py.div_ok (by linarith), Py.ok_bind, Py.sqrt_ok]
  · rfl
  · apply mul_nonneg
    · linarith
    · apply div_nonneg <;> linarith

/-- C08: the guesses are on the right side of the throat. -/
theorem C08_guess_sides (σ γ : ℝ) (hσ : 1 ≤ σ) (h1 : 1 < γ) (h3 : γ < 3) :
    (∃ m, MachSub_sigma_init σ γ = Except.ok m ∧ m ≤ 1) ∧
    (∃ m, MachSup_sigma_init σ γ = Except.ok m ∧ 1 ≤ m) := by
  refine ⟨⟨_, MachSub_init_ok hσ h1 h3, ?_⟩, ⟨_, MachSup_init_ok hσ h1 h3, ?_⟩⟩
  · have := Real.sqrt_nonneg ((1 - 1 / σ) * (4 * (γ - 1) / (3 - γ))); linarith
  · have := Real.sqrt_nonneg ((σ - 1) * (4 * (γ - 1) / (3 - γ))); linarith

/-- C08 (the part that holds): the subsonic guess is a positive Mach number for every area ratio
exactly when `γ ≤ 7/5`.  Missing with respect to the property: `7/5 < γ < 3`, where it is false. -/
theorem C08_sub_guess_positive_partial (γ : ℝ) (h1 : 1 < γ) (h3 : γ < 3) :
    (∀ σ, 1 ≤ σ → ∃ m, MachSub_sigma_init σ γ = Except.ok m ∧ 0 < m) ↔ γ ≤ 7 / 5 := by
  have hk3 : 0 < 3 - γ := by linarith
  constructor
  · intro h
    by_contra hg
    push Not at hg
    set k := 4 * (γ - 1) / (3 - γ) with hk
    have hk1 : 1 < k := by rw [hk, lt_div_iff₀ hk3]; linarith
    -- take σ = k/(k-1): (1 - 1/σ) k = 1
    have hs : 1 ≤ k / (k - 1) := by rw [le_div_iff₀] <;> linarith
    obtain ⟨m, hm, hpos⟩ := h (k / (k - 1)) hs
    rw [MachSub_init_ok hs h1 h3] at hm
    have : (1 - 1 / (k / (k - 1))) * k = 1 := by
      have : k ≠ 0 := by linarith
      have : k - 1 ≠ 0 := by linarith
      field_simp; ring
    rw [← hk, this, Real.sqrt_one] at hm
    have : (1:ℝ) - 1 = m := by injection hm
    linarith
  · intro hg σ hσ
    refine ⟨_, MachSub_init_ok hσ h1 h3, ?_⟩
    have hk1 : 4 * (γ - 1) / (3 - γ) ≤ 1 := by rw [div_le_one hk3]; linarith
    have hk0 : 0 < 4 * (γ - 1) / (3 - γ) := by apply div_pos <;> linarith
    have hi : 0 < 1 / σ := by apply div_pos <;> linarith
    have hi1 : 1 / σ ≤ 1 := by rw [div_le_one] <;> linarith
    have : (1 - 1 / σ) * (4 * (γ - 1) / (3 - γ)) < 1 := by nlinarith
    have : Real.sqrt ((1 - 1 / σ) * (4 * (γ - 1) / (3 - γ))) < 1 := by
      rw [Real.sqrt_lt' one_pos]; simpa using this
    linarith

/-- C08 is false of the code: for a monatomic gas (γ = 5/3) and σ = 3 the subsonic guess is
negative. -/
theorem C08_negative_guess : ∃ σ γ m : ℝ, 1 ≤ σ ∧ 1 < γ ∧ γ < 3 ∧
    MachSub_sigma_init σ γ = Except.ok m ∧ m < 0 := by
  refine ⟨3, 5 / 3, _, by norm_num, by norm_num, by norm_num,
    MachSub_init_ok (by norm_num) (by norm_num) (by norm_num), ?_⟩
  have : (1:ℝ) < Real.sqrt ((1 - 1 / 3) * (4 * (5 / 3 - 1) / (3 - 5 / 3))) := by
    rw [Real.lt_sqrt (by norm_num)]; norm_num
  linarith

/-- for `γ ≥ 3` no inversion is possible at all (NaN or division by zero), whatever `σ > 1` -/
theorem C08_fails_above_three (newton : RootFinder) (σ γ : ℝ) (hσ : 1 < σ) (h3 : 3 ≤ γ) :
    MachSub_Sigma newton σ γ = Except.error .nonFinite ∧
    MachSup_Sigma newton σ γ = Except.error .nonFinite := by
  have hi1 : 1 / σ < 1 := by rw [div_lt_one] <;> linarith
  rcases h3.eq_or_lt with h | h
  · subst h
    unfold MachSub_Sigma MachSup_Sigma MachSub_sigma_init MachSup_sigma_init; lits
    rw [Py.div_ok (by linarith), Py.ok_bind, show (3:ℝ) - 3 = 0 by norm_num, Py.div_err]
    simp
  · have hk : 4 * (γ - 1) / (3 - γ) < 0 := div_neg_of_pos_of_neg (by linarith) (by linarith)
    unfold MachSub_Sigma MachSup_Sigma MachSub_sigma_init MachSup_sigma_init; lits
    rw [Py.div_ok (by linarith), Py.ok_bind, Py.div_ok (by linarith), Py.ok_bind, Py.ok_bind,
      Py.sqrt_err (by nlinarith), Py.sqrt_err (by nlinarith)]
    simp

example : (1:ℝ) ≤ 2 ∧ (1:ℝ) < 1.4 ∧ (1.4:ℝ) < 3 := by norm_num

end Aerokit.Props
