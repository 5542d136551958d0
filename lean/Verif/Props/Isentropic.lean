import Verif.Lemmas.Isentropic

/-! # Properties C01–C04 : `aerokit/aero/Isentropic.py` -/

namespace Aerokit.Props
open Isentropic

/-- C01: Mach → Tt/Ts → Mach is the identity for every `M ≥ 0`. -/
theorem C01_mach_roundtrip (M γ : ℝ) (hγ : 1 < γ) (hM : 0 ≤ M) :
    (do let t ← TtTs_Mach M γ; Mach_TtTs t γ) = Except.ok M := by
  rw [TtTs_Mach_ok, Py.ok_bind, Mach_TtTs_ok hγ (one_le_tt hγ), sqrt_tt hγ hM]

/-- C01: Tt/Ts → Mach → Tt/Ts is the identity for every ratio `t ≥ 1`, and the Mach number
returned is non-negative. -/
theorem C01_ratio_roundtrip (t γ : ℝ) (hγ : 1 < γ) (ht : 1 ≤ t) :
    ∃ M, 0 ≤ M ∧ Mach_TtTs t γ = Except.ok M ∧ TtTs_Mach M γ = Except.ok t :=
  ⟨_, Real.sqrt_nonneg _, Mach_TtTs_ok hγ ht, by rw [TtTs_Mach_ok, tt_sqrt hγ ht]⟩

/-- C01: a ratio below 1 has no Mach number (NaN). -/
theorem C01_below_one (t γ : ℝ) (hγ : 1 < γ) (ht : t < 1) :
    Mach_TtTs t γ = Except.error .nonFinite := Mach_TtTs_err hγ ht

-- the hypotheses are met and the value is the expected physical one: Tt/Ts(2) = 1.8 at γ = 1.4
example : TtTs_Mach 2 1.4 = Except.ok 1.8 ∧ (1:ℝ) < 1.4 := by
  constructor
  · rw [TtTs_Mach_ok]; unfold tt; norm_num
  · norm_num

/-- C02: Mach → Pt/Ps → Mach is the identity for every `M ≥ 0`. -/
theorem C02_mach_roundtrip (M γ : ℝ) (hγ : 1 < γ) (hM : 0 ≤ M) :
    (do let p ← PtPs_Mach M γ; Mach_PtPs p γ) = Except.ok M := by
  rw [PtPs_Mach_ok hγ, Py.ok_bind,
    Mach_PtPs_ok hγ (Real.one_le_rpow (one_le_tt hγ) (gam_exp_pos hγ).le),
    rpow_rpow_cancel hγ (tt_pos hγ).le, sqrt_tt hγ hM]

/-- C02: Pt/Ps → Mach → Pt/Ps is the identity for every ratio `p ≥ 1`. -/
theorem C02_ratio_roundtrip (p γ : ℝ) (hγ : 1 < γ) (hp : 1 ≤ p) :
    ∃ M, 0 ≤ M ∧ Mach_PtPs p γ = Except.ok M ∧ PtPs_Mach M γ = Except.ok p := by
  refine ⟨_, Real.sqrt_nonneg _, Mach_PtPs_ok hγ hp, ?_⟩
  have h1 : 1 ≤ p ^ ((γ - 1) / γ) :=
    Real.one_le_rpow hp (by apply div_nonneg <;> linarith)
  rw [PtPs_Mach_ok hγ, tt_sqrt hγ h1, rpow_rpow_cancel' hγ (by linarith)]

/-- C02: a pressure ratio in `(0, 1)` has no Mach number (NaN). -/
theorem C02_below_one (p γ : ℝ) (hγ : 1 < γ) (hp0 : 0 < p) (hp : p < 1) :
    Mach_PtPs p γ = Except.error .nonFinite := Mach_PtPs_err hγ hp0 hp

example : (1:ℝ) < 1.4 ∧ (1:ℝ) ≤ 2.5 ∧ Mach_PtPs 1 1.4 = Except.ok 0 := by
  refine ⟨by norm_num, by norm_num, ?_⟩
  rw [Mach_PtPs_ok (by norm_num) le_rfl]; simp

/-- C03: isentropic law `Pt/Ps = (Tt/Ts)^(γ/(γ-1))`. -/
theorem C03_isentropic_law (M γ : ℝ) (hγ : 1 < γ) :
    ∃ t p, TtTs_Mach M γ = Except.ok t ∧ PtPs_Mach M γ = Except.ok p ∧ p = t ^ (γ / (γ - 1)) :=
  ⟨_, _, TtTs_Mach_ok M γ, PtPs_Mach_ok hγ, rfl⟩

/-- C03: both ratios are at least 1, and equal to 1 only for a fluid at rest. -/
theorem C03_at_least_one (M γ : ℝ) (hγ : 1 < γ) :
    ∃ t p, TtTs_Mach M γ = Except.ok t ∧ PtPs_Mach M γ = Except.ok p ∧
      1 ≤ t ∧ 1 ≤ p ∧ (t = 1 ↔ M = 0) ∧ (p = 1 ↔ M = 0) := by
  refine ⟨_, _, TtTs_Mach_ok M γ, PtPs_Mach_ok hγ, one_le_tt hγ,
    Real.one_le_rpow (one_le_tt hγ) (gam_exp_pos hγ).le, ?_, ?_⟩
  · unfold tt
    have : (γ - 1) / 2 ≠ 0 := by linarith
    constructor
    · intro h; simpa [this] using h
    · rintro rfl; simp
  · constructor
    · intro h
      by_contra hM
      have h1 : 1 < tt M γ := by
        unfold tt
        have : 0 < M ^ 2 := by positivity
        have : 0 < (γ - 1) / 2 := by linarith
        nlinarith
      have := Real.one_lt_rpow h1 (gam_exp_pos hγ)
      linarith
    · rintro rfl; simp [tt]

/-- C03: both ratios strictly increase with the Mach number on `[0, ∞)`. -/
theorem C03_strictly_increasing (M N γ : ℝ) (hγ : 1 < γ) (hM : 0 ≤ M) (hMN : M < N) :
    ∃ t t' p p', TtTs_Mach M γ = Except.ok t ∧ TtTs_Mach N γ = Except.ok t' ∧
      PtPs_Mach M γ = Except.ok p ∧ PtPs_Mach N γ = Except.ok p' ∧ t < t' ∧ p < p' :=
  ⟨_, _, _, _, TtTs_Mach_ok M γ, TtTs_Mach_ok N γ, PtPs_Mach_ok hγ, PtPs_Mach_ok hγ,
    tt_lt_tt hγ hM hMN,
    Real.rpow_lt_rpow (tt_pos hγ).le (tt_lt_tt hγ hM hMN) (gam_exp_pos hγ)⟩

example : (1:ℝ) < 1.4 ∧ (0:ℝ) ≤ 0.5 ∧ (0.5:ℝ) < 2 := by norm_num

/-- C04: with the static temperature `Ts = Tt / (Tt/Ts)(M)` and `cp = γ r / (γ-1)`, the velocity
satisfies `cp Ts + V²/2 = cp Tt`, and `V = M · a` where `a² = γ r Ts`, `a ≥ 0`. -/
theorem C04_total_enthalpy (M Tt r γ : ℝ) (hγ : 1 < γ) (hr : 0 < r) (hT : 0 ≤ Tt) :
    ∃ V t, Velocity_MachTt M Tt r γ = Except.ok V ∧ TtTs_Mach M γ = Except.ok t ∧
      γ * r / (γ - 1) * (Tt / t) + V ^ 2 / 2 = γ * r / (γ - 1) * Tt ∧
      ∃ a, 0 ≤ a ∧ a ^ 2 = γ * r * (Tt / t) ∧ V = M * a := by
  have h0 := tt_pos (M := M) hγ
  have h1 : γ - 1 ≠ 0 := by linarith
  have hq : 0 ≤ γ * r * Tt / tt M γ := by positivity
  refine ⟨_, _, Velocity_MachTt_ok hγ hr hT, TtTs_Mach_ok M γ, ?_, _, Real.sqrt_nonneg _, ?_, rfl⟩
  · rw [mul_pow, Real.sq_sqrt hq]
    field_simp
    unfold tt
    ring
  · rw [Real.sq_sqrt hq]; ring

example : (1:ℝ) < 1.4 ∧ (0:ℝ) < 287.1 ∧ (0:ℝ) ≤ 300 := by norm_num

end Aerokit.Props
