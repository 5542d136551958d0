import Verif.Lemmas.Model1D
import Verif.Spec.Characteristics
import Mathlib.Analysis.SpecialFunctions.Pow.Deriv

/-! # Property C101 : sound and characteristic speeds of `model1D.state` -/

namespace Aerokit.Props
open Model1D Spec

theorem char_iff {γ ρ u p s : ℝ} (hγ : γ - 1 ≠ 0) (hρ : ρ ≠ 0) :
    IsCharacteristicSpeed γ ρ u p s ↔ s = u ∨ (s - u) ^ 2 = γ * p / ρ := by
  -- the directional derivatives
  have hx : ∀ a b : ℝ, HasDerivAt (fun t : ℝ => a + t * b) b 0 := fun a b => by
    simpa using ((hasDerivAt_id (0:ℝ)).mul_const b).const_add a
  have d0 : ∀ a b c : ℝ, HasDerivAt (fun t => eulerFlux γ (ρ + t * a) (u + t * b) (p + t * c) 0
      - s * conserved γ (ρ + t * a) (u + t * b) (p + t * c) 0) (a * u + ρ * b - s * a) 0 := by
    intro a b c
    have := ((hx ρ a).fun_mul (hx u b)).fun_sub ((hx ρ a).const_mul s)
    simpa [eulerFlux, conserved] using this
  have d1 : ∀ a b c : ℝ, HasDerivAt (fun t => eulerFlux γ (ρ + t * a) (u + t * b) (p + t * c) 1
      - s * conserved γ (ρ + t * a) (u + t * b) (p + t * c) 1) (a * u ^ 2 + 2 * ρ * u * b + c - s * (a * u + ρ * b)) 0 := by
    intro a b c
    have := (((hx ρ a).fun_mul ((hx u b).fun_pow 2)).fun_add (hx p c)).fun_sub (((hx ρ a).fun_mul (hx u b)).const_mul s)
    refine HasDerivAt.congr_deriv (f' := _) this ?_
    simp; ring
  have d2 : ∀ a b c : ℝ, HasDerivAt (fun t => eulerFlux γ (ρ + t * a) (u + t * b) (p + t * c) 2
      - s * conserved γ (ρ + t * a) (u + t * b) (p + t * c) 2)
      (b * (p / (γ - 1) + ρ * u ^ 2 / 2 + p) + u * (c / (γ - 1) + (a * u ^ 2 + 2 * ρ * u * b) / 2 + c)
        - s * (c / (γ - 1) + (a * u ^ 2 + 2 * ρ * u * b) / 2)) 0 := by
    intro a b c
    have e := ((hx p c).div_const (γ - 1)).fun_add (((hx ρ a).fun_mul ((hx u b).fun_pow 2)).div_const 2)
    have := ((hx u b).fun_mul (e.fun_add (hx p c))).fun_sub (e.const_mul s)
    refine HasDerivAt.congr_deriv (f' := _) this ?_
    simp; ring
  constructor
  · rintro ⟨a, b, c, hne, h⟩
    have e0 : 0 = a * u + ρ * b - s * a := (h 0).unique (d0 a b c)
    have e1 : 0 = a * u ^ 2 + 2 * ρ * u * b + c - s * (a * u + ρ * b) := (h 1).unique (d1 a b c)
    have e2 := (h 2).unique (d2 a b c)
    have f1 : (u - s) * ρ * b + c = 0 := by linear_combination -e1 + u * e0
    have f2 : (u - s) * c + γ * p * b = 0 := by
      have : (b * (p / (γ - 1) + p) + u * (c / (γ - 1) + c) - s * (c / (γ - 1)) - u * c) = 0 := by
        linear_combination -e2 + u * e1 - u ^ 2 / 2 * e0
      field_simp at this
      linear_combination this
    by_cases hs : s = u
    · exact Or.inl hs
    right
    have hus : u - s ≠ 0 := fun h => hs (by linarith)
    have hb : b ≠ 0 := by
      rintro rfl
      have hc : c = 0 := by linarith
      have ha : a = 0 := by
        have : (u - s) * a = 0 := by linarith
        exact (mul_eq_zero.1 this).resolve_left hus
      exact hne (by rw [ha, hc])
    have : b * (ρ * (s - u) ^ 2 - γ * p) = 0 := by linear_combination (u - s) * f1 - f2
    have := (mul_eq_zero.1 this).resolve_left hb
    rw [eq_div_iff hρ]; linarith
  · rintro (rfl | hs)
    · refine ⟨1, 0, 0, by simp, fun k => ?_⟩
      fin_cases k
      · exact (d0 1 0 0).congr_deriv (by ring)
      · exact (d1 1 0 0).congr_deriv (by ring)
      · exact (d2 1 0 0).congr_deriv (by ring)
    · rw [eq_div_iff hρ] at hs
      refine ⟨ρ, s - u, (s - u) ^ 2 * ρ, by simp [hρ], fun k => ?_⟩
      fin_cases k
      · exact (d0 _ _ _).congr_deriv (by ring)
      · exact (d1 _ _ _).congr_deriv (by ring)
      · refine (d2 _ _ _).congr_deriv ?_
        field_simp
        linear_combination (-2) * (s - u) * hs

/-- C101: `left_acoustic` and `right_acoustic` are, with the velocity itself, exactly the characteristic speeds of the Euler equations at the
state, in increasing order. -/
theorem C101_characteristic_speeds (s : State) (hρ : 0 < s.rho) (hp : 0 < s.p) (hγ : 1 < s.gamma) :
    ∃ l r, s.left_acoustic = .ok l ∧ s.right_acoustic = .ok r ∧ l < s.u ∧ s.u < r ∧
      ∀ c, IsCharacteristicSpeed s.gamma s.rho s.u s.p c ↔ c = l ∨ c = s.u ∨ c = r := by
  have h : s.Valid := ⟨hρ, hp, hγ⟩
  have hc := h.cs_pos
  refine ⟨_, _, h.left_acoustic, h.right_acoustic, by linarith, by linarith, fun c => ?_⟩
  rw [char_iff (by linarith) hρ.ne', ← h.cs_sq, sq_eq_sq_iff_eq_or_eq_neg]
  constructor
  · rintro (h | h | h)
    · exact Or.inr (Or.inl h)
    · exact Or.inr (Or.inr (by linarith))
    · exact Or.inl (by linarith)
  · rintro (h | h | h)
    · exact Or.inr (Or.inr (by linarith))
    · exact Or.inl h
    · exact Or.inr (Or.inl (by linarith))

/-- C101: the square of `asound` is the derivative of the pressure with respect to the density along the isentrope `p (ρ'/ρ)^γ` of the state. -/
theorem C101_sound_speed (s : State) (hρ : 0 < s.rho) (hp : 0 < s.p) (hγ : 1 < s.gamma) :
    ∃ a, s.asound = .ok a ∧ 0 < a ∧ HasDerivAt (fun ρ' => s.p * (ρ' / s.rho) ^ s.gamma) (a ^ 2) s.rho := by
  have h : s.Valid := ⟨hρ, hp, hγ⟩
  refine ⟨_, h.asound, h.cs_pos, ?_⟩
  have e := (((hasDerivAt_id s.rho).div_const s.rho).rpow_const (p := s.gamma) (Or.inl (by simp [hρ.ne']))).const_mul s.p
  refine e.congr_deriv ?_
  rw [h.cs_sq]
  simp only [id]
  rw [div_self hρ.ne', Real.one_rpow]
  ring

/-- C101: all three are unaffected by copying the state. -/
theorem C101_copy (s : State) : s.copy = s ∧ s.copy.left_acoustic = s.left_acoustic ∧
    s.copy.right_acoustic = s.right_acoustic ∧ s.copy.asound = s.asound ∧ s.copy.gamma = s.gamma :=
  ⟨rfl, rfl, rfl, rfl, rfl⟩

/-- a supersonic flow of a monatomic gas: all waves go downstream -/
example : ∃ s : State, 0 < s.rho ∧ 0 < s.p ∧ 1 < s.gamma ∧ s.gamma ≠ 1.4 ∧ ∃ l, s.left_acoustic = .ok l ∧ 0 < l := by
  refine ⟨⟨5 / 3, 3, 1, 5 / 3⟩, by norm_num, by norm_num, by norm_num, by norm_num, _,
    (State.Valid.left_acoustic ⟨by norm_num, by norm_num, by norm_num⟩), ?_⟩
  unfold State.cs; norm_num

end Aerokit.Props
