import Verif.Lemmas.Unsteady1D
import Verif.Props.Model1D

/-! # Properties C57, C58 : `aerokit/aero/unsteady1D.py` -/

namespace Aerokit.Props
open Model1D Unsteady1D Isentropic ShockWave

/-- the flow seen in the frame moving at speed `σ` -/
def inFrame (σ : ℝ) (s : State) : Spec.Flow := ⟨s.rho, s.u - σ, s.p⟩

/-- What it means for `s'` to be the state behind a shock moving at speed `σ` into `s`: in the shock
frame the Rankine–Hugoniot relations hold, and the gamma is the same. -/
def MovingShock (σ : ℝ) (s s' : State) : Prop :=
  s'.gamma = s.gamma ∧ Spec.RankineHugoniot s.gamma (inFrame σ s) (inFrame σ s')

/-- both directions at once: `e = -1` for a C- shock from the left state, `e = 1` for a C+ shock from
the right state -/
theorem shock_general (s : State) (h : s.Valid) (p : ℝ) (hp : 0 < p) (e : ℝ) (he : e ^ 2 = 1) :
    MovingShock (s.u + e * SS s p) s ⟨rhs s p, s.u + e * dus s p, p, s.gamma⟩ := by
  have h1 := shock_mass h hp; have h2 := shock_momentum h hp; have h3 := shock_energy h hp
  refine ⟨rfl, ?_, ?_, ?_⟩
  · simp only [inFrame, Spec.Flow.massFlux]; linear_combination e * h1
  · simp only [inFrame, Spec.Flow.momentumFlux]
    have e1 : (s.u - (s.u + e * SS s p)) ^ 2 = SS s p ^ 2 := by
      rw [show s.u - (s.u + e * SS s p) = -e * SS s p by ring, mul_pow, neg_sq, he, one_mul]
    have e2 : (s.u + e * dus s p - (s.u + e * SS s p)) ^ 2 = (SS s p - dus s p) ^ 2 := by
      rw [show s.u + e * dus s p - (s.u + e * SS s p) = -e * (SS s p - dus s p) by ring, mul_pow,
        neg_sq, he, one_mul]
    rw [e1, e2]
    linear_combination (-1) * h2 - (SS s p - dus s p) * h1
  · simp only [inFrame, Spec.Flow.totalEnthalpy, Spec.Flow.h]
    have e1 : (s.u - (s.u + e * SS s p)) ^ 2 = SS s p ^ 2 := by
      rw [show s.u - (s.u + e * SS s p) = -e * SS s p by ring, mul_pow, neg_sq, he, one_mul]
    have e2 : (s.u + e * dus s p - (s.u + e * SS s p)) ^ 2 = (SS s p - dus s p) ^ 2 := by
      rw [show s.u + e * dus s p - (s.u + e * SS s p) = -e * (SS s p - dus s p) by ring, mul_pow,
        neg_sq, he, one_mul]
    rw [e1, e2]
    linear_combination (-1) * h3

/-- C57, left state (C- shock): for every admissible state and every `p > p₀`, the star state built
from `delta_u_shock` and `rho_through_shock` is the state behind a shock moving at the speed given by
mass conservation; that speed is the only one, it satisfies the Lax conditions on both sides, and
`_rankinehugoniot_from_ushock` at that speed returns the same state. -/
theorem C57_left (s : State) (h : s.Valid) (p : ℝ) (hp : s.p < p) :
    ∃ d r σ a', UState.delta_u_shock s p = .ok d ∧ UState.rho_through_shock s p = .ok r ∧
      σ = (s.rho * s.u - r * (s.u - d)) / (s.rho - r) ∧ 0 < d ∧ s.rho < r ∧
      MovingShock σ s ⟨r, s.u - d, p, s.gamma⟩ ∧
      (∀ σ', s.rho * (s.u - σ') = r * (s.u - d - σ') → σ' = σ) ∧
      UState.rankinehugoniot_from_ushock s σ = .ok ⟨r, s.u - d, p, s.gamma⟩ ∧
      σ < s.u - s.cs ∧
      State.asound ⟨r, s.u - d, p, s.gamma⟩ = .ok a' ∧ s.u - d - a' < σ := by
  have h1 := h.rho; have h2 := h.p
  have hp0 : 0 < p := by linarith
  have hS := SS_pos h hp0
  have hgt := rhs_gt h hp
  have hsp : (s.rho * s.u - rhs s p * (s.u - dus s p)) / (s.rho - rhs s p) = s.u - SS s p := by
    have := shock_speed h hp (-1)
    simpa [sub_eq_add_neg] using this
  have hv : State.Valid ⟨rhs s p, s.u - dus s p, p, s.gamma⟩ := ⟨rhs_pos h hp0, hp0, h.gamma⟩
  refine ⟨_, _, _, _, delta_u_shock_ok h hp0, rho_through_shock_ok h hp0, rfl, ?_, hgt, ?_, ?_, ?_, ?_,
    hv.asound, ?_⟩
  · unfold dus; apply div_pos (by linarith); positivity
  · rw [hsp]
    have := shock_general s h p hp0 (-1) (by norm_num)
    simpa [sub_eq_add_neg] using this
  · intro σ' hσ
    rw [eq_div_iff (by intro h0; linarith)]; linarith
  · rw [hsp]
    have := rankinehugoniot_ok h hp0 (-1) (by norm_num)
    simpa [sub_eq_add_neg] using this
  · rw [hsp]; have := cs_lt_SS h hp; linarith
  · rw [hsp]; have := SS_sub_dus_lt h hp (s.u - dus s p); linarith

/-- C57, right state (C+ shock). -/
theorem C57_right (s : State) (h : s.Valid) (p : ℝ) (hp : s.p < p) :
    ∃ d r σ a', UState.delta_u_shock s p = .ok d ∧ UState.rho_through_shock s p = .ok r ∧
      σ = (s.rho * s.u - r * (s.u + d)) / (s.rho - r) ∧ 0 < d ∧ s.rho < r ∧
      MovingShock σ s ⟨r, s.u + d, p, s.gamma⟩ ∧
      (∀ σ', s.rho * (s.u - σ') = r * (s.u + d - σ') → σ' = σ) ∧
      UState.rankinehugoniot_from_ushock s σ = .ok ⟨r, s.u + d, p, s.gamma⟩ ∧
      s.u + s.cs < σ ∧
      State.asound ⟨r, s.u + d, p, s.gamma⟩ = .ok a' ∧ σ < s.u + d + a' := by
  have h1 := h.rho; have h2 := h.p
  have hp0 : 0 < p := by linarith
  have hS := SS_pos h hp0
  have hgt := rhs_gt h hp
  have hsp : (s.rho * s.u - rhs s p * (s.u + dus s p)) / (s.rho - rhs s p) = s.u + SS s p := by
    have := shock_speed h hp 1
    simpa using this
  have hv : State.Valid ⟨rhs s p, s.u + dus s p, p, s.gamma⟩ := ⟨rhs_pos h hp0, hp0, h.gamma⟩
  refine ⟨_, _, _, _, delta_u_shock_ok h hp0, rho_through_shock_ok h hp0, rfl, ?_, hgt, ?_, ?_, ?_, ?_,
    hv.asound, ?_⟩
  · unfold dus; apply div_pos (by linarith); positivity
  · rw [hsp]
    have := shock_general s h p hp0 1 (by norm_num)
    simpa using this
  · intro σ' hσ
    rw [eq_div_iff (by intro h0; linarith)]; linarith
  · rw [hsp]
    have := rankinehugoniot_ok h hp0 1 (by norm_num)
    simpa using this
  · rw [hsp]; have := cs_lt_SS h hp; linarith
  · rw [hsp]; have := SS_sub_dus_lt h hp (s.u + dus s p); linarith

example : ∃ (s : State) (p : ℝ), s.Valid ∧ s.p < p :=
  ⟨⟨1, 3, 1, 1.4⟩, 7, ⟨by norm_num, by norm_num, by norm_num⟩, by norm_num⟩

/-- C58: for every admissible state and every `p > 0`, the star state built from
`rho_through_isentropic` has the same entropy function `p/ρ^γ`; with the velocity `u - delta_u` (C-
wave from the left state) it has the same Riemann invariant `u + 2a/(γ-1)`, with `u + delta_u` (C+
wave from the right state) the same `u - 2a/(γ-1)`.  `a` is the value returned by `asound`. -/
theorem C58_expansion (s : State) (h : s.Valid) (p : ℝ) (hp : 0 < p) :
    ∃ d r a aL aR, UState.delta_u_expansion s p = .ok d ∧ UState.rho_through_isentropic s p = .ok r ∧
      s.asound = .ok a ∧
      State.asound ⟨r, s.u - d, p, s.gamma⟩ = .ok aL ∧ State.asound ⟨r, s.u + d, p, s.gamma⟩ = .ok aR ∧
      Spec.Flow.entropyFn s.gamma ⟨r, s.u - d, p⟩ = Spec.Flow.entropyFn s.gamma ⟨s.rho, s.u, s.p⟩ ∧
      s.u - d + 2 * aL / (s.gamma - 1) = s.u + 2 * a / (s.gamma - 1) ∧
      s.u + d - 2 * aR / (s.gamma - 1) = s.u - 2 * a / (s.gamma - 1) ∧
      (p < s.p → d < 0 ∧ aL < a) := by
  have h1 := h.rho; have h2 := h.p; have h3 := h.g0
  have hg : 0 < s.gamma - 1 := by linarith [h.gamma]
  have hr : 0 < p / s.p := by positivity
  refine ⟨_, _, _, _, _, delta_u_expansion_ok h hp, rho_through_isentropic_ok h hp, h.asound,
    (isen_valid h hp (s.u - due s p)).asound, (isen_valid h hp (s.u + due s p)).asound, ?_, ?_, ?_, ?_⟩
  · unfold Spec.Flow.entropyFn rhi
    simp only
    rw [Real.mul_rpow h1.le (Real.rpow_pos_of_pos hr _).le, ← Real.rpow_mul hr.le, one_div_mul_cancel h3.ne',
      Real.rpow_one]
    have := Real.rpow_pos_of_pos h1 s.gamma
    field_simp
  · have := due_eq h hp (s.u - due s p)
    linear_combination (-1) * this
  · have := due_eq h hp (s.u + due s p)
    linear_combination this
  · intro hlt
    have hc := h.cs_pos
    have hx : (p / s.p) ^ ((s.gamma - 1) / (2 * s.gamma)) < 1 :=
      Real.rpow_lt_one hr.le (by rw [div_lt_one h2]; exact hlt) (by positivity)
    have hc2 : (isen s (s.u - due s p) p).cs < s.cs := by
      rw [isen_cs h hp]; nlinarith
    refine ⟨?_, hc2⟩
    rw [due_eq h hp (s.u - due s p)]
    apply mul_neg_of_pos_of_neg (by positivity); linarith

example : ∃ (s : State) (p : ℝ), s.Valid ∧ 0 < p ∧ p < s.p :=
  ⟨⟨1, 3, 1, 1.4⟩, 0.5, ⟨by norm_num, by norm_num, by norm_num⟩, by norm_num, by norm_num⟩

end Aerokit.Props
