import Verif.Model.SigmaPlot
import Verif.Props.ArrayNewton
import Verif.Lemmas.MassFlow
import Mathlib.Analysis.Calculus.LHopital

/-!
# C146: the validation script of the area ratio search
-/

namespace Aerokit.Props
open Nd Spec SigmaPlot MassFlow Isentropic Filter Topology
variable {ι : Type}

private theorem sp_sig (M : ℝ) : sig M (7/5) = ((5 + M ^ 2) / 6) ^ (3:ℕ) / M := by
  unfold sig tt
  rw [show (7/5 + 1 : ℝ) / (2 * (7/5 - 1)) = ((3:ℕ):ℝ) by norm_num, Real.rpow_natCast]
  congr 2; ring

/-- **C146 (round trip).**  `Mach_Sigma(Sigma_Mach(Mach), Mach)` on an array of Mach numbers, each 1, or from 3e-4 to 0.9984, or from 1.0012 to 5.8,
returns every Mach number within 3.2e-8. -/
theorem C146_round_trip_partial (hι : Several ι) (M : ι → ℝ)
    (hd : ∀ i, M i = 1 ∨ (3e-4 ≤ M i ∧ M i ≤ 0.9984) ∨ (1.0012 ≤ M i ∧ M i ≤ 5.8)) :
    ∃ m : ι → ℝ, Mres (arr fun i => some (M i)) = .ok (arr fun i => some (m i)) ∧
      ∀ i, |m i - M i| ≤ 3.2e-8 ∧ (M i = 1 → m i = 1) := by
  have g1 := Isentropic.one_lt_gamma0
  have hd' : ∀ i, M i = 1 ∨ (3/10000 ≤ M i ∧ M i ≤ 9984/10000) ∨ (10012/10000 ≤ M i ∧ M i ≤ 58/10) := by
    intro i; have := hd i; norm_num at this ⊢; exact this
  have pos : ∀ i, 0 < M i := by
    intro i; rcases hd' i with h | h | h <;> linarith [h]
  have hS : ∀ i, (ArrayFns.Sigma_Mach (arr fun i => some (M i)) (num (some DefaultGas.gamma0))).at' i = some (sig (M i) DefaultGas.gamma0) := by
    intro i
    have := ((C143_massflow (ι := ι) (num none) 0).1).2 (arr fun i => some (M i)) (num (some DefaultGas.gamma0)) i (M i) DefaultGas.gamma0 rfl rfl
    rw [this, Sigma_Mach_ok g1 (pos i).ne']; rfl
  have g7 := Isentropic.gamma0_eq
  obtain ⟨m, e1, e2⟩ := C144_guesses_partial hι _ (arr fun i => some (M i)) (fun i => sig (M i) DefaultGas.gamma0) M rfl hS (fun _ => rfl) (by
    intro i
    rw [g7]
    have sa := sig_strictAnti (γ := 7/5) (by norm_num)
    have sm := sig_strictMono (γ := 7/5) (by norm_num)
    rcases hd' i with h | ⟨h1, h2⟩ | ⟨h1, h2⟩
    · left; rw [h]; exact sig_one (by norm_num)
    · right; left
      have a := sa.antitoneOn ⟨pos i, by linarith⟩ (by constructor <;> norm_num) h2
      have b := sa.antitoneOn (by constructor <;> norm_num) ⟨pos i, by linarith⟩ h1
      simp only [sp_sig] at a b ⊢
      norm_num at a b ⊢
      exact ⟨by linarith, by linarith, by linarith⟩
    · right; right
      have hm : M i ∈ Set.Ici (1:ℝ) := by show 1 ≤ M i; linarith
      have a := sm.monotoneOn (by show (1:ℝ) ≤ 10012/10000; norm_num) hm h1
      have b := sm.monotoneOn hm (by show (1:ℝ) ≤ 58/10; norm_num) h2
      simp only [sp_sig] at a b ⊢
      norm_num at a b ⊢
      exact ⟨by linarith, by linarith, by linarith⟩)
  refine ⟨m, e1, fun i => ?_⟩
  obtain ⟨r, b1, b2, b3, b4, b5⟩ := e2 i
  have rM : r = M i := by
    by_cases h : M i ≤ 1
    · obtain ⟨c1, c2, -⟩ := b3 h
      rw [Sigma_Mach_ok g1 c1.ne'] at b1
      exact (sig_strictAnti g1).injOn ⟨c1, c2⟩ ⟨pos i, h⟩ (Except.ok.inj b1)
    · obtain ⟨c1, -⟩ := b4 (lt_of_not_ge h)
      rw [Sigma_Mach_ok g1 (by linarith)] at b1
      exact (sig_strictMono g1).injOn c1 (le_of_lt (lt_of_not_ge h)) (Except.ok.inj b1)
  refine ⟨rM ▸ b2, fun h => b5 ?_⟩
  simp only [h]; exact sig_one g1

private theorem several_fin1000 : Several (Fin 1000) := ⟨0, 1, by decide⟩

/-- **C146 (the validation succeeds).**  In the left panel of the script, the 1000 Mach numbers found by the search are the Mach numbers the area ratios were
computed from, within 3.2e-8: the curve is the diagonal. -/
theorem C146_validation :
    ∃ m : Fin 1000 → ℝ, Mres (arr fun i => some (script_Mach i)) = .ok (arr fun i => some (m i)) ∧ ∀ i, |m i - script_Mach i| ≤ 3.2e-8 := by
  obtain ⟨m, e1, e2⟩ := C146_round_trip_partial several_fin1000 script_Mach (by
    intro i
    right
    unfold script_Mach
    have h1 : (0:ℝ) ≤ (i.val : ℝ) := Nat.cast_nonneg _
    have h2 : (i.val : ℝ) ≤ 999 := by exact_mod_cast Nat.le_of_lt_succ i.isLt
    by_cases h : i.val ≤ 191
    · left
      have : (i.val : ℝ) ≤ 191 := by exact_mod_cast h
      norm_num; constructor <;> linarith
    · right
      have : (192 : ℝ) ≤ (i.val : ℝ) := by exact_mod_cast Nat.lt_of_not_le h
      norm_num; constructor <;> linarith)
  exact ⟨m, e1, fun i => (e2 i).1⟩

example : ∃ m : Fin 2 → ℝ, Mres (arr fun i => some ((![0.5, 2] : Fin 2 → ℝ) i)) = .ok (arr fun i => some (m i)) ∧ |m 0 - 0.5| ≤ 3.2e-8 ∧ |m 1 - 2| ≤ 3.2e-8 := by
  obtain ⟨m, e1, e2⟩ := C146_round_trip_partial (ι := Fin 2) several_fin2 ![0.5, 2] (by
    intro i; right; fin_cases i
    · left; norm_num
    · right; norm_num)
  exact ⟨m, e1, (e2 0).1, (e2 1).1⟩

/-! ## The asymptotes -/

private theorem sp_e (γ : ℝ) (h : 1 < γ) : (γ + 1) / (γ - 1) / 2 = (γ + 1) / (2 * (γ - 1)) := by
  have : γ - 1 ≠ 0 := by linarith
  field_simp

private theorem sp_sig1 {γ M : ℝ} (h : 1 < γ) (hM : 0 < M) : sig1 γ M = .ok ((2 / (γ + 1)) ^ ((γ + 1) / (2 * (γ - 1))) / M) := by
  have h1 : γ - 1 ≠ 0 := by linarith
  have h2 : 0 < (γ + 1) / 2 := by linarith
  unfold sig1 gpuogmu; lits
  rw [Py.div_ok h1, Py.ok_bind, Py.div_ok hM.ne', Py.ok_bind, Py.pow_ok _ h2, Py.ok_bind, Py.div_ok (Real.rpow_pos_of_pos h2 _).ne', sp_e γ h,
    show 2 / (γ + 1) = ((γ + 1) / 2)⁻¹ by rw [inv_div], Real.inv_rpow h2.le]
  congr 1
  rw [div_div, mul_comm, ← div_div, one_div]

private theorem sp_sig3 {γ M : ℝ} (h : 1 < γ) (hM : 0 < M) : sig3 γ M = .ok ((2 / (γ + 1) * ((γ - 1) / 2 * M ^ 2)) ^ ((γ + 1) / (2 * (γ - 1))) / M) := by
  have h1 : 0 < γ - 1 := by linarith
  have h2 : 0 < γ + 1 := by linarith
  have h3 : 0 < (γ + 1) / (γ - 1) := by positivity
  unfold sig3 gpuogmu; lits
  rw [Py.div_ok h1.ne', Py.ok_bind, Py.div_ok h3.ne', Py.ok_bind, Py.pow_ok _ (by positivity), Py.ok_bind, Py.div_ok hM.ne', sp_e γ h]
  congr 3
  field_simp

/-- **C146 (slow flow).**  The curve `sig1` is below the area ratio at every Mach number, and their quotient tends to 1 at Mach 0: it is the asymptote. -/
theorem C146_low {γ : ℝ} (h : 1 < γ) :
    (∀ M, 0 < M → ∃ a s, sig1 γ M = .ok a ∧ Sigma_Mach M γ = .ok s ∧ 0 < a ∧ a < s) ∧
    ∀ r : ℝ → ℝ, (∀ M, 0 < M → ∃ a s, sig1 γ M = .ok a ∧ Sigma_Mach M γ = .ok s ∧ r M = s / a) → Tendsto r (𝓝[>] 0) (𝓝 1) := by
  have h2 : 0 < 2 / (γ + 1) := by apply div_pos <;> linarith
  have he : 0 < (γ + 1) / (2 * (γ - 1)) := by apply div_pos <;> linarith
  have hp := Real.rpow_pos_of_pos h2 ((γ + 1) / (2 * (γ - 1)))
  constructor
  · intro M hM
    refine ⟨_, _, sp_sig1 h hM, Sigma_Mach_ok h hM.ne', by positivity, ?_⟩
    unfold sig
    apply div_lt_div_of_pos_right _ hM
    apply Real.rpow_lt_rpow h2.le _ he
    have : 1 < tt M γ := by unfold tt; nlinarith [mul_pos (show 0 < γ - 1 by linarith) (pow_pos hM 2)]
    nlinarith
  · intro r hr
    have e : ∀ M ∈ Set.Ioi (0:ℝ), tt M γ ^ ((γ + 1) / (2 * (γ - 1))) = r M := by
      intro M hM
      have hM : 0 < M := hM
      obtain ⟨a, s, a1, a2, a3⟩ := hr M hM
      rw [sp_sig1 h hM] at a1
      rw [Sigma_Mach_ok h hM.ne'] at a2
      rw [a3, ← Except.ok.inj a1, ← Except.ok.inj a2]
      unfold sig
      rw [Real.mul_rpow h2.le (tt_pos h).le]
      have := hM.ne'
      have := hp.ne'
      field_simp
    have c : Tendsto (fun M => tt M γ ^ ((γ + 1) / (2 * (γ - 1)))) (𝓝[>] 0) (𝓝 (tt 0 γ ^ ((γ + 1) / (2 * (γ - 1))))) :=
      ((hasDerivAt_tt 0 γ).continuousAt.rpow_const (Or.inl (tt_pos h).ne')).tendsto.mono_left nhdsWithin_le_nhds
    have t0 : tt 0 γ = 1 := by unfold tt; ring
    rw [t0, Real.one_rpow] at c
    exact c.congr' (eventually_nhdsWithin_of_forall e)

/-- **C146 (fast flow).**  The curve `sig3` is below the area ratio at every Mach number, and their quotient tends to 1 as the Mach number grows. -/
theorem C146_high {γ : ℝ} (h : 1 < γ) :
    (∀ M, 0 < M → ∃ a s, sig3 γ M = .ok a ∧ Sigma_Mach M γ = .ok s ∧ 0 < a ∧ a < s) ∧
    ∀ r : ℝ → ℝ, (∀ M, 0 < M → ∃ a s, sig3 γ M = .ok a ∧ Sigma_Mach M γ = .ok s ∧ r M = s / a) → Tendsto r atTop (𝓝 1) := by
  have h2 : 0 < 2 / (γ + 1) := by apply div_pos <;> linarith
  have he : 0 < (γ + 1) / (2 * (γ - 1)) := by apply div_pos <;> linarith
  have hg : 0 < γ - 1 := by linarith
  constructor
  · intro M hM
    have hb : 0 < 2 / (γ + 1) * ((γ - 1) / 2 * M ^ 2) := by positivity
    refine ⟨_, _, sp_sig3 h hM, Sigma_Mach_ok h hM.ne', div_pos (Real.rpow_pos_of_pos hb _) hM, ?_⟩
    unfold sig
    apply div_lt_div_of_pos_right _ hM
    apply Real.rpow_lt_rpow hb.le _ he
    unfold tt
    nlinarith
  · intro r hr
    have e : ∀ M ∈ Set.Ioi (0:ℝ), (1 + 2 / (γ - 1) * (M ^ 2)⁻¹) ^ ((γ + 1) / (2 * (γ - 1))) = r M := by
      intro M hM
      have hM : 0 < M := hM
      have hb : 0 < 2 / (γ + 1) * ((γ - 1) / 2 * M ^ 2) := by positivity
      obtain ⟨a, s, a1, a2, a3⟩ := hr M hM
      rw [sp_sig3 h hM] at a1
      rw [Sigma_Mach_ok h hM.ne'] at a2
      rw [a3, ← Except.ok.inj a1, ← Except.ok.inj a2]
      unfold sig
      rw [div_div_div_cancel_right₀ hM.ne', ← Real.div_rpow (base_pos h).le hb.le]
      congr 1
      have : γ + 1 ≠ 0 := by linarith
      unfold tt
      field_simp
      ring
    have c0 : Tendsto (fun M : ℝ => 1 + 2 / (γ - 1) * (M ^ 2)⁻¹) atTop (𝓝 (1 + 2 / (γ - 1) * 0)) :=
      ((tendsto_inv_atTop_zero.comp (tendsto_pow_atTop two_ne_zero)).const_mul _).const_add _
    have c := c0.rpow_const (p := (γ + 1) / (2 * (γ - 1))) (Or.inl (by norm_num))
    rw [mul_zero, add_zero, Real.one_rpow] at c
    refine c.congr' ?_
    filter_upwards [eventually_gt_atTop 0] with M hM using e M hM

/-! ## The expansion at the throat -/

private theorem sp_sig2 {γ M : ℝ} (h : 1 < γ) : sig2 γ M = .ok (1 + (3 - γ) / 4 / (γ - 1) * (M - 1) ^ 2) := by
  have h1 : γ - 1 ≠ 0 := by linarith
  unfold sig2; lits
  rw [Py.div_ok h1, Py.ok_bind]; rfl

private theorem sp_taylor {γ : ℝ} (h : 1 < γ) : Tendsto (fun M => (sig M γ - 1) / (M - 1) ^ 2) (𝓝[≠] 1) (𝓝 (2 / (γ + 1))) := by
  have hs : ∀ M, 0 < M → HasDerivAt (fun M => sig M γ - 1) (sig M γ * ((M ^ 2 - 1) / (M * tt M γ))) M := by
    intro M hM
    have ev : (fun M => sig M γ) =ᶠ[𝓝 M] fun x => Real.exp (lsig x γ) := by
      filter_upwards [lt_mem_nhds hM] with x hx
      rw [← log_sig h hx, Real.exp_log (sig_pos h hx)]
    have := ((hasDerivAt_lsig h hM).exp).congr_of_eventuallyEq ev
    rw [← log_sig h hM, Real.exp_log (sig_pos h hM)] at this
    exact this.sub_const 1
  have hq : ∀ M : ℝ, HasDerivAt (fun M : ℝ => (M - 1) ^ 2) (2 * (M - 1)) M := by
    intro M
    have := ((hasDerivAt_id M).sub_const 1).fun_pow 2
    simpa using this
  have near : ∀ᶠ M : ℝ in 𝓝[≠] 1, 0 < M := (lt_mem_nhds one_pos).filter_mono nhdsWithin_le_nhds
  have ne : ∀ᶠ M : ℝ in 𝓝[≠] 1, M ≠ 1 := eventually_mem_nhdsWithin
  refine HasDerivAt.lhopital_zero_nhdsNE (near.mono fun M hM => hs M hM) (Eventually.of_forall hq) (ne.mono fun M hM => ?_) ?_ ?_ ?_
  · exact mul_ne_zero two_ne_zero (sub_ne_zero.2 hM)
  · have := ((hs 1 one_pos).continuousAt.tendsto).mono_left (nhdsWithin_le_nhds (s := {1}ᶜ))
    simpa [sig_one h] using this
  · have := ((hq 1).continuousAt.tendsto).mono_left (nhdsWithin_le_nhds (s := {1}ᶜ))
    simpa using this
  · have c : Tendsto (fun M => sig M γ * ((M + 1) / (2 * (M * tt M γ)))) (𝓝[≠] 1) (𝓝 (sig 1 γ * ((1 + 1) / (2 * (1 * tt 1 γ))))) := by
      apply Tendsto.mono_left _ nhdsWithin_le_nhds
      apply ContinuousAt.tendsto (f := fun M => sig M γ * ((M + 1) / (2 * (M * tt M γ))))
      have t := (hasDerivAt_tt 1 γ).continuousAt
      have := (tt_pos (M := 1) h).ne'
      exact (continuousAt_sig h one_ne_zero).mul ((continuousAt_id.add continuousAt_const).div (continuousAt_const.mul (continuousAt_id.mul t)) (by positivity))
    have e0 : sig 1 γ * ((1 + 1) / (2 * (1 * tt 1 γ))) = 2 / (γ + 1) := by
      rw [sig_one h]; unfold tt
      have : γ + 1 ≠ 0 := by linarith
      rw [show 1 + (γ - 1) / 2 * 1 ^ 2 = (γ + 1) / 2 by ring]
      field_simp
      norm_num
    rw [e0] at c
    refine c.congr' ?_
    filter_upwards [near, ne] with M hM hM1
    have h1 := sub_ne_zero.2 hM1
    have := (tt_pos (M := M) h).ne'
    have := hM.ne'
    field_simp
    ring

/-- **C146 (throat, as it should be).**  The second-order expansion of the area ratio at Mach 1 has the coefficient `2/(γ+1)`:
`(Sigma_Mach(M) - 1)/(M-1)²` tends to it. -/
theorem C146_throat_coefficient {γ : ℝ} (h : 1 < γ) (r : ℝ → ℝ) (hr : ∀ M, 0 < M → ∃ s, Sigma_Mach M γ = .ok s ∧ r M = (s - 1) / (M - 1) ^ 2) :
    Tendsto r (𝓝[≠] 1) (𝓝 (2 / (γ + 1))) := by
  refine (sp_taylor h).congr' ?_
  filter_upwards [(lt_mem_nhds (one_pos (α := ℝ))).filter_mono nhdsWithin_le_nhds] with M hM
  obtain ⟨s, a1, a2⟩ := hr M hM
  rw [Sigma_Mach_ok h (ne_of_gt hM)] at a1
  rw [a2, Except.ok.inj a1]

/-- **C146 (defect).**  The curve `sig2`, drawn as the expansion at Mach 1, is the expansion of second order for no other gas than the one with `γ² + 6γ = 11`
(`γ ≈ 1.472`); in particular not for the gas of the script. -/
theorem C146_throat_false {γ : ℝ} (h : 1 < γ) (r : ℝ → ℝ)
    (hr : ∀ M, 0 < M → ∃ a s, sig2 γ M = .ok a ∧ Sigma_Mach M γ = .ok s ∧ r M = (s - a) / (M - 1) ^ 2) :
    (Tendsto r (𝓝[≠] 1) (𝓝 0) ↔ γ ^ 2 + 6 * γ = 11) := by
  have key : Tendsto r (𝓝[≠] 1) (𝓝 (2 / (γ + 1) - (3 - γ) / 4 / (γ - 1))) := by
    refine ((sp_taylor h).sub_const ((3 - γ) / 4 / (γ - 1))).congr' ?_
    filter_upwards [(lt_mem_nhds (one_pos (α := ℝ))).filter_mono nhdsWithin_le_nhds, eventually_mem_nhdsWithin] with M hM hM1
    obtain ⟨a, s, a1, a2, a3⟩ := hr M hM
    rw [sp_sig2 h] at a1
    rw [Sigma_Mach_ok h (ne_of_gt hM)] at a2
    have : M - 1 ≠ 0 := sub_ne_zero.2 hM1
    rw [a3, ← Except.ok.inj a1, ← Except.ok.inj a2]
    have e : sig M γ - (1 + (3 - γ) / 4 / (γ - 1) * (M - 1) ^ 2) = (sig M γ - 1) - (3 - γ) / 4 / (γ - 1) * (M - 1) ^ 2 := by ring
    rw [e, sub_div (sig M γ - 1), mul_div_assoc, div_self (pow_ne_zero 2 this), mul_one]
  have h1 : γ - 1 ≠ 0 := by linarith
  have h2 : γ + 1 ≠ 0 := by linarith
  have e : 2 / (γ + 1) - (3 - γ) / 4 / (γ - 1) = 0 ↔ γ ^ 2 + 6 * γ = 11 := by
    field_simp
    constructor <;> intro h <;> linarith
  constructor
  · intro h0
    exact e.1 (tendsto_nhds_unique key h0)
  · intro h0
    rw [e.2 h0] at key
    exact key

/-- The curves of the right panel of the script, in the neighbourhood of Mach 1: the second one is above the area ratio. -/
theorem C146_panel_false : ∀ᶠ M in 𝓝[≠] (1:ℝ), ∃ a b c s, right_panel M = [.ok a, .ok b, .ok c, .ok s] ∧ a < s ∧ c < s ∧ s < b := by
  have g : (1.4 : ℝ) = 7/5 := by norm_num
  have ne : ∀ᶠ M : ℝ in 𝓝[≠] 1, M ≠ 1 := eventually_mem_nhdsWithin
  filter_upwards [(lt_mem_nhds (one_pos (α := ℝ))).filter_mono nhdsWithin_le_nhds, ne, (sp_taylor (γ := 7/5) (by norm_num)).eventually (gt_mem_nhds (show (2:ℝ) / (7/5 + 1) < 1 by norm_num))]
    with M hM hM1 hlt
  have hM : 0 < M := hM
  obtain ⟨a, s, a1, a2, -, a3⟩ := (C146_low (γ := 7/5) (by norm_num)).1 M hM
  obtain ⟨c, s', c1, c2, -, c3⟩ := (C146_high (γ := 7/5) (by norm_num)).1 M hM
  have : s' = s := Except.ok.inj (c2.symm.trans a2)
  subst this
  refine ⟨a, 1 + (3 - 7/5) / 4 / (7/5 - 1) * (M - 1) ^ 2, c, s', ?_, a3, c3, ?_⟩
  · unfold right_panel
    rw [Isentropic.gamma0_eq, g]
    simp only []
    rw [a1, c1, a2, sp_sig2 (by norm_num)]
  · rw [Sigma_Mach_ok (by norm_num) hM.ne'] at a2
    rw [← Except.ok.inj a2]
    have h0 := sub_ne_zero.2 hM1
    have hp : 0 < (M - 1) ^ 2 := by positivity
    rw [div_lt_one hp] at hlt
    norm_num
    linarith

example : ∃ r : ℝ → ℝ, ∀ M, 0 < M → ∃ a s, sig2 1.4 M = .ok a ∧ Sigma_Mach M 1.4 = .ok s ∧ r M = (s - a) / (M - 1) ^ 2 :=
  ⟨fun M => (sig M 1.4 - (1 + (3 - 1.4) / 4 / (1.4 - 1) * (M - 1) ^ 2)) / (M - 1) ^ 2, fun M hM =>
    ⟨_, _, sp_sig2 (by norm_num), Sigma_Mach_ok (by norm_num) hM.ne', rfl⟩⟩

end Aerokit.Props
