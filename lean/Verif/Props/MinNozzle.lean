import Verif.Lemmas.MinRun
import Verif.Lemmas.CharNet
import Verif.Lemmas.MassFlow

/-! # Properties C133–C136 : the nozzle of minimum length (`notebooks/Minimum_length_nozzle.py`) -/

namespace Aerokit.Props
open Real MinNozzle

/-! ### C133 : the functions of the script are those of the library -/

/-- **C133** `pmeyer` is the Prandtl–Meyer function of the library (in radians), with the same failures. -/
theorem C133_pmeyer (M : ℝ) : Py.degrees <$> pmeyer M = Supersonic.PrandtlMeyer_Mach M gamma := by
  rcases le_or_gt 1 (M ^ 2) with h | h
  · rw [npm_ok h, PM_ok mn_gamma_one_lt h]; rfl
  · rw [npm_err h, PM_err h]; rfl

/-- **C133** `pmeyer_prime` is the derivative of `pmeyer` (at `M = 1`, from the right). -/
theorem C133_derivative : ∃ g : ℝ → ℝ, (∀ M, 1 ≤ M → pmeyer M = .ok (g M)) ∧
    (∀ M, 1 < M → ∃ d, pmeyer_prime M = .ok d ∧ HasDerivAt g d M) ∧
    ∃ d, pmeyer_prime 1 = .ok d ∧ HasDerivWithinAt g d (Set.Ici 1) 1 := by
  refine ⟨npm, fun M hM => npm_ok (by nlinarith), fun M hM => ⟨_, nsl_ok hM, npm_hasDeriv hM⟩, 0, ?_, ?_⟩
  · unfold pmeyer_prime; rw [if_pos rfl]; norm_num
  · refine hasDerivWithinAt_Ici_of_tendsto_deriv (s := Set.Ioi 1)
      (fun M hM => (npm_hasDeriv hM).differentiableAt.differentiableWithinAt)
      npm_continuous.continuousAt.continuousWithinAt self_mem_nhdsWithin ?_
    have hc : ContinuousAt nsl 1 := by
      unfold nsl pmSlope
      rw [mn_gamma_eq]
      apply ContinuousAt.div (by fun_prop) (by fun_prop)
      norm_num
    have h0 : nsl 1 = 0 := by unfold nsl pmSlope; norm_num
    have ht : Filter.Tendsto nsl (nhdsWithin 1 (Set.Ioi 1)) (nhds 0) := by
      rw [← h0]; exact hc.tendsto.mono_left nhdsWithin_le_nhds
    refine ht.congr' ?_
    filter_upwards [self_mem_nhdsWithin] with M hM
    exact (npm_hasDeriv hM).deriv.symm

/-- **C133** `rapport_expansion` is `Sigma_Mach` of the library. -/
theorem C133_expansion (M : ℝ) : rapport_expansion M = MassFlow.Sigma_Mach M gamma := by
  unfold rapport_expansion MassFlow.Sigma_Mach
  rw [mn_gamma_eq]
  lits
  rw [Py.div_ok (by norm_num), Py.div_ok (by norm_num), Py.div_ok (by norm_num), Py.div_ok (by norm_num)]
  simp only [Py.ok_bind]
  congr 2
  · ring
  · norm_num

/-- **C133** `mach_angle` is the angle whose sine is `1/M`. -/
theorem C133_mach_angle {M : ℝ} (hM : 1 ≤ M) : ∃ m, MinNozzle.mach_angle M = .ok m ∧ 0 < m ∧ m ≤ π / 2 ∧ sin m = 1 / M := by
  have h0 : 0 < M := by linarith
  have h1 : 1 / M ≤ 1 := (div_le_one h0).2 hM
  have h2 : 0 < 1 / M := by positivity
  refine ⟨arcsin (1 / M), ?_, Real.arcsin_pos.2 h2, Real.arcsin_le_pi_div_two _, Real.sin_arcsin (by linarith) h1⟩
  unfold MinNozzle.mach_angle
  rw [Py.div_ok h0.ne', Py.ok_bind, Py.arcsin_ok (by linarith) h1]

/-! ### C134 : the Newton search -/

/-- largest turning angle of the gas of the script -/
noncomputable def nuMax : ℝ := π / 2 * (√((gamma + 1) / (gamma - 1)) - 1)

theorem nuMax_eq : nuMax = npmMax := rfl

/-- **C134** what `mach_via_pmeyer` returns has the requested angle, within its tolerance. -/
theorem C134_sound {fuel : ℕ} {v M : ℝ} (h : mach_via_pmeyer fuel v = .ok M) :
    ∃ p, pmeyer M = .ok p ∧ |v - p| ≤ 0.00001 := by
  unfold mach_via_pmeyer at h
  split_ifs at h with h0
  · have := (Except.ok.inj h).symm
    subst this h0
    refine ⟨npm 1, ?_, ?_⟩
    · rw [show (1.0 : ℝ) = 1 by norm_num]; exact npm_ok (by norm_num)
    · rw [npm_one]; norm_num
  · exact newton_sound h

theorem newton_far {v : ℝ} (hv : npmMax ≤ v) (hv2 : v < npmMax + 0.00001) : ∃ F, ∃ x, 2 ≤ x ∧
    ∀ n, F ≤ n → newton v n 2 = .ok x := by
  have hmax : (0.5 : ℝ) < npmMax := by
    -- the tangent angle of Mach 3 is already larger
    refine lt_trans ?_ (npm_lt_max 3)
    obtain ⟨c, h1, h2, e⟩ := npm_mvt (a := 1.065) (b := 3) (by norm_num) (by norm_num)
    have := nsl_ge (M := c) h1.le h2.le
    have := npm_nonneg (M := 1.065)
    norm_num at *
    linarith
  norm_num at hmax hv2
  obtain ⟨r, hr, hrv⟩ := npm_surj (v := v - 0.00001) (by norm_num; linarith) (by norm_num; linarith)
  have hm := mStar_bounds.2
  norm_num at hm
  have hs2 := nsl_pos (M := 2) (by norm_num)
  have main : ∀ k : ℕ, ∀ M, 2 ≤ M → r ≤ M + k * (0.00001 / nsl 2) → ∃ F, ∃ x, 2 ≤ x ∧ ∀ n, F ≤ n → newton v n M = .ok x := by
    intro k
    induction k with
    | zero =>
      intro M hM hr'
      have hr'' : r ≤ M := by simpa using hr'
      have h1 := npm_le hr.le hr''
      have h2 := npm_lt_max M
      have : |v - npm M| ≤ 0.00001 := by
        rw [abs_le]; norm_num at hrv ⊢; constructor <;> linarith
      exact ⟨0, M, hM, fun n _ => newton_stop (by nlinarith) this n⟩
    | succ k ih =>
      intro M hM hr'
      by_cases hs : |v - npm M| ≤ 0.00001
      · exact ⟨0, M, hM, fun n _ => newton_stop (by nlinarith) hs n⟩
      · have h2 := npm_lt_max M
        have hpos : (0.00001 : ℝ) < v - npm M := by
          rw [abs_of_pos (by linarith)] at hs; exact not_le.1 hs
        have hsM := nsl_pos (M := M) (by linarith)
        have hle : nsl M ≤ nsl 2 := nsl_anti (by linarith) hM
        have hstep : M + 0.00001 / nsl 2 ≤ nstep v M := by
          unfold nstep
          have := div_le_div₀ (by linarith [show (0:ℝ) < 0.00001 by norm_num]) hpos.le hsM hle
          linarith
        have hp : 0 < 0.00001 / nsl 2 := div_pos (by norm_num) hs2
        obtain ⟨F, x, hx, hF⟩ := ih (nstep v M) (by linarith) (by push_cast at hr'; linarith)
        refine ⟨F + 1, x, hx, fun n hn => ?_⟩
        obtain ⟨n, rfl⟩ : ∃ j, n = j + 1 := ⟨n - 1, by omega⟩
        rw [newton_more (by linarith) hs, hF n (by omega)]
  obtain ⟨k, hk⟩ := exists_nat_ge (r / (0.00001 / nsl 2))
  refine main k 2 le_rfl ?_
  rw [div_le_iff₀ (div_pos (by norm_num) hs2)] at hk
  linarith

/-- **C134** `mach_via_pmeyer` terminates for every angle from 0 to the largest one (tolerance included),
with a Mach number at least 1, larger than 1 for a positive angle. -/
theorem C134_total {v : ℝ} (h0 : 0 ≤ v) (h1 : v < nuMax + 0.00001) :
    ∃ F M, 1 ≤ M ∧ (0 < v → 1 < M) ∧ ∀ fuel, F ≤ fuel → mach_via_pmeyer fuel v = .ok M := by
  rw [nuMax_eq] at h1
  rcases h0.eq_or_lt with h | h
  · subst h
    refine ⟨0, 1, le_rfl, fun h => absurd h (lt_irrefl _), fun fuel _ => ?_⟩
    unfold mach_via_pmeyer; rw [if_pos rfl]; norm_num
  · rcases lt_or_ge v npmMax with h2 | h2
    · obtain ⟨F, x, hx, -, -, hF⟩ := newton_total h h2
      refine ⟨F, x, hx.le, fun _ => hx, fun fuel hf => ?_⟩
      unfold mach_via_pmeyer
      rw [if_neg h.ne', show (2.0 : ℝ) = 2 by norm_num, hF fuel hf]
    · obtain ⟨F, x, hx, hF⟩ := newton_far h2 h1
      refine ⟨F, x, by linarith, fun _ => by linarith, fun fuel hf => ?_⟩
      unfold mach_via_pmeyer
      rw [if_neg h.ne', show (2.0 : ℝ) = 2 by norm_num, hF fuel hf]

/-- **C134** beyond the largest angle (and the tolerance) it never stops. -/
theorem C134_diverges {v : ℝ} (h : nuMax + 0.00001 ≤ v) (fuel : ℕ) :
    mach_via_pmeyer fuel v = .error .outOfFuel := by
  rw [nuMax_eq] at h
  have hv : v ≠ 0 := by
    have := npm_lt_max 1
    rw [npm_one] at this
    have : (0:ℝ) < 0.00001 := by norm_num
    linarith
  have main : ∀ n M, 1 < M → newton v n M = .error .outOfFuel := by
    intro n
    induction n with
    | zero =>
      intro M hM
      have hp := npm_lt_max M
      have : ¬ |v - npm M| ≤ 0.00001 := by
        have := le_abs_self (v - npm M)
        intro hc; linarith
      unfold newton f
      rw [npm_ok (by nlinarith), Py.ok_bind, Py.pure_eq, Py.ok_bind, if_pos (not_le.1 this)]
    | succ n ih =>
      intro M hM
      have hp := npm_lt_max M
      have : ¬ |v - npm M| ≤ 0.00001 := by
        have := le_abs_self (v - npm M)
        intro hc; linarith
      rw [newton_more hM this]
      apply ih
      unfold nstep
      have : 0 < (v - npm M) / nsl M := div_pos (by linarith [show (0:ℝ) < 0.00001 by norm_num]) (nsl_pos hM)
      linarith
  unfold mach_via_pmeyer
  rw [if_neg hv]
  exact main fuel _ (by norm_num)

/-- **C134** a negative angle never gives a Mach number. -/
theorem C134_negative {v : ℝ} (h : v < -0.00001) (fuel : ℕ) (M : ℝ) : mach_via_pmeyer fuel v ≠ .ok M := by
  intro hc
  obtain ⟨p, hp, hv⟩ := C134_sound hc
  have h2 : 0 ≤ p := by
    rcases le_or_gt 1 (M ^ 2) with h1 | h1
    · rw [npm_ok h1] at hp; rw [← Except.ok.inj hp]; exact npm_nonneg
    · rw [npm_err h1] at hp; cases hp
  have := (abs_le.1 hv).1
  linarith

/-- **C134** the result does not depend on when the loop is looked at. -/
theorem C134_unique {f₁ f₂ : ℕ} {v M₁ M₂ : ℝ} (h1 : mach_via_pmeyer f₁ v = .ok M₁) (h2 : mach_via_pmeyer f₂ v = .ok M₂) :
    M₁ = M₂ := by
  unfold mach_via_pmeyer at h1 h2
  split_ifs at h1 h2 with h0
  · rw [← Except.ok.inj h1, ← Except.ok.inj h2]
  · have e1 := newton_mono h1 (le_max_left f₁ f₂)
    have e2 := newton_mono h2 (le_max_right f₁ f₂)
    exact Except.ok.inj (e1.symm.trans e2)

/-- **C134** accuracy: searching the angle of a Mach number between 1.1 and 2.9 gives it back within
`3.4e-5`. -/
theorem C134_accuracy {r p : ℝ} (h1 : 1.1 ≤ r) (h2 : r ≤ 2.9) (hp : pmeyer r = .ok p) :
    ∃ F M, (∀ fuel, F ≤ fuel → mach_via_pmeyer fuel p = .ok M) ∧ |M - r| ≤ 0.000034 := by
  have h1' : 11/10 ≤ r := by norm_num at h1 ⊢; exact h1
  have h2' : r ≤ 29/10 := by norm_num at h2 ⊢; exact h2
  rw [npm_ok (by nlinarith)] at hp
  have := Except.ok.inj hp
  subst this
  have hpos : 0 < npm r := by
    have := npm_lt (M := 1) (N := r) le_rfl (by linarith)
    rwa [npm_one] at this
  obtain ⟨F, x, hx, hxs, -, hF⟩ := newton_total hpos (npm_lt_max r)
  refine ⟨F, x, fun fuel hf => ?_, ?_⟩
  · unfold mach_via_pmeyer
    rw [if_neg hpos.ne', show (2.0 : ℝ) = 2 by norm_num, hF fuel hf]
  · have hab := abs_le.1 hxs
    norm_num at hab
    have lo : 213/200 ≤ x := by
      by_contra hc
      have hc := not_le.1 hc
      obtain ⟨c, c1, c2, e⟩ := npm_mvt (a := 213/200) (b := r) (by norm_num) (by linarith)
      have g := nsl_ge (M := c) (by norm_num; linarith) (by linarith)
      have := npm_lt hx.le hc
      norm_num at g
      nlinarith
    have hi : x ≤ 3 := by
      by_contra hc
      have hc := not_le.1 hc
      obtain ⟨c, c1, c2, e⟩ := npm_mvt (a := r) (b := 3) (by linarith) (by linarith)
      have g := nsl_ge (M := c) (by norm_num; linarith) (by linarith)
      have := npm_lt (M := 3) (by norm_num) hc
      norm_num at g
      nlinarith
    rcases lt_trichotomy x r with h | h | h
    · obtain ⟨c, c1, c2, e⟩ := npm_mvt hx.le h
      have g := nsl_ge (M := c) (by norm_num; linarith) (by linarith)
      norm_num at g
      rw [abs_sub_comm, abs_of_pos (by linarith)]
      norm_num; nlinarith
    · rw [h]; norm_num
    · obtain ⟨c, c1, c2, e⟩ := npm_mvt (by linarith : 1 ≤ r) h
      have g := nsl_ge (M := c) (by norm_num; linarith) (by linarith)
      norm_num at g
      rw [abs_of_pos (by linarith)]
      norm_num; nlinarith

/-- the hypotheses of `C134_total`, `C134_accuracy` are met -/
example : ∃ F M, 1 ≤ M ∧ ((0:ℝ) < 0.01 → 1 < M) ∧ ∀ fuel, F ≤ fuel → mach_via_pmeyer fuel 0.01 = .ok M := by
  refine C134_total (by norm_num) ?_
  have h : npm 1 < npmMax := npm_lt_max 1
  have h2 : (2:ℝ) < √((gamma + 1) / (gamma - 1)) := by
    apply Real.lt_sqrt_of_sq_lt; rw [mn_gamma_eq]; norm_num
  unfold nuMax
  have := Real.pi_gt_d2
  norm_num at *
  nlinarith

end Aerokit.Props
