import Verif.Model.Ode
import Verif.Lemmas.Lits
import Mathlib.Analysis.Calculus.MeanValue
import Mathlib.Analysis.Calculus.FDeriv.Symmetric
import Mathlib.Analysis.SpecialFunctions.Exponential
import Mathlib.Tactic.Module

/-! Local error of the classical Runge-Kutta step (used by C110). -/

namespace Aerokit.Ode
open Set

variable {E : Type} [NormedAddCommGroup E] [NormedSpace ℝ E]

/-! ### Taylor's formula for curves -/

theorem taylor_step {g g' : ℝ → E} {h K : ℝ} {n : ℕ} (hg : ∀ s ∈ Icc 0 h, HasDerivWithinAt g (g' s) (Icc 0 h) s) (h0 : g 0 = 0)
    (hb : ∀ s ∈ Icc 0 h, ‖g' s‖ ≤ K * s ^ n / n.factorial) :
    ∀ s ∈ Icc 0 h, ‖g s‖ ≤ K * s ^ (n + 1) / (n + 1).factorial := by
  refine image_norm_le_of_norm_deriv_right_le_deriv_boundary (B := fun s => K * s ^ (n + 1) / (n + 1).factorial)
    (B' := fun s => K * s ^ n / n.factorial) (f' := g') (fun s hs => (hg s hs).continuousWithinAt) ?_ ?_ ?_ ?_
  · intro s hs
    refine (hg s (Ico_subset_Icc_self hs)).mono_of_mem_nhdsWithin ?_
    exact Filter.mem_of_superset (Icc_mem_nhdsGE hs.2) (Icc_subset_Icc_left hs.1)
  · rw [h0]; simp
  · intro s
    have := ((hasDerivAt_pow (n + 1) s).const_mul K).div_const ((n + 1).factorial : ℝ)
    refine this.congr_deriv ?_
    rw [Nat.factorial_succ]
    have : (n.factorial : ℝ) ≠ 0 := by exact_mod_cast n.factorial_ne_zero
    push_cast
    field_simp
    try simp
  · intro s hs
    exact hb s (Ico_subset_Icc_self hs)

theorem taylor_curve {h K : ℝ} : ∀ (n : ℕ) (g : ℕ → ℝ → E),
    (∀ k < n, ∀ s ∈ Icc 0 h, HasDerivWithinAt (g k) (g (k + 1) s) (Icc 0 h) s) → (∀ s ∈ Icc 0 h, ‖g n s‖ ≤ K) →
    ∀ s ∈ Icc 0 h, ‖g 0 s - ∑ k ∈ Finset.range n, (s ^ k / k.factorial) • g k 0‖ ≤ K * s ^ n / n.factorial
  | 0, g, _, hb => fun s hs => by simpa using hb s hs
  | n + 1, g, hg, hb => by
    have ih := taylor_curve (h := h) (K := K) n (fun k => g (k + 1)) (fun k hk => hg (k + 1) (by omega)) hb
    refine taylor_step (g' := fun s => g 1 s - ∑ k ∈ Finset.range n, (s ^ k / k.factorial) • g (k + 1) 0) ?_ ?_ ih
    · intro s hs
      refine (hg 0 (by omega) s hs).sub ?_
      have e : (fun s : ℝ => ∑ k ∈ Finset.range (n + 1), (s ^ k / k.factorial) • g k 0) =
          fun s : ℝ => ∑ k ∈ Finset.range n, (s ^ (k + 1) / (k + 1).factorial) • g (k + 1) 0 + g 0 0 := by
        funext s
        rw [Finset.sum_range_succ']
        simp
      rw [e]
      refine (HasDerivWithinAt.fun_sum fun k _ => ?_).add_const _
      refine HasDerivAt.hasDerivWithinAt ?_
      refine (((hasDerivAt_pow (k + 1) s).div_const ((k + 1).factorial : ℝ)).smul_const (g (k + 1) 0)).congr_deriv ?_
      congr 1
      rw [Nat.factorial_succ]
      have : (k.factorial : ℝ) ≠ 0 := by exact_mod_cast k.factorial_ne_zero
      push_cast
      field_simp
      try simp
    · rw [Finset.sum_range_succ']
      simp

/-! ### Smooth autonomous systems -/

set_option maxSynthPendingDepth 3


theorem app_const {F : Type} [NormedAddCommGroup F] [NormedSpace ℝ F] {φ : ℝ → E →L[ℝ] F} {φ' : E →L[ℝ] F} {s : ℝ} (d : E)
    (h : HasDerivAt φ φ' s) : HasDerivAt (fun s => φ s d) (φ' d) s := by
  simpa using h.clm_apply (hasDerivAt_const s d)

/-- `A`, `B`, `C`, `D` are the successive derivatives of `G`, everything bounded by `M` -/
structure Smooth4 (G : E → E) (A : E → E →L[ℝ] E) (B : E → E →L[ℝ] E →L[ℝ] E) (C : E → E →L[ℝ] E →L[ℝ] E →L[ℝ] E)
    (D : E → E →L[ℝ] E →L[ℝ] E →L[ℝ] E →L[ℝ] E) (M : ℝ) : Prop where
  dG : ∀ y, HasFDerivAt G (A y) y
  dA : ∀ y, HasFDerivAt A (B y) y
  dB : ∀ y, HasFDerivAt B (C y) y
  dC : ∀ y, HasFDerivAt C (D y) y
  bG : ∀ y, ‖G y‖ ≤ M
  bA : ∀ y, ‖A y‖ ≤ M
  bB : ∀ y, ‖B y‖ ≤ M
  bC : ∀ y, ‖C y‖ ≤ M
  bD : ∀ y, ‖D y‖ ≤ M

/-- increment of one classical Runge-Kutta step of the autonomous system `y' = G y` -/
noncomputable def inc (G : E → E) (y : E) (h : ℝ) : E :=
  let k1 := G y
  let k2 := G (y + (h / 2) • k1)
  let k3 := G (y + (h / 2) • k2)
  let k4 := G (y + h • k3)
  (h / 6) • (k1 + (2:ℝ) • k2 + (2:ℝ) • k3 + k4)

namespace Smooth4
variable {G : E → E} {A : E → E →L[ℝ] E} {B : E → E →L[ℝ] E →L[ℝ] E} {C : E → E →L[ℝ] E →L[ℝ] E →L[ℝ] E}
    {D : E → E →L[ℝ] E →L[ℝ] E →L[ℝ] E →L[ℝ] E} {M : ℝ}

theorem M0 (S : Smooth4 G A B C D M) : 0 ≤ M := (norm_nonneg _).trans (S.bG 0)

theorem vA (S : Smooth4 G A B C D M) (y u : E) : ‖A y u‖ ≤ M * ‖u‖ :=
  (A y).le_of_opNorm_le (S.bA y) u
theorem vB (S : Smooth4 G A B C D M) (y u v : E) : ‖B y u v‖ ≤ M * ‖u‖ * ‖v‖ :=
  (B y u).le_of_opNorm_le ((B y).le_of_opNorm_le (S.bB y) u) v
theorem vC (S : Smooth4 G A B C D M) (y u v w : E) : ‖C y u v w‖ ≤ M * ‖u‖ * ‖v‖ * ‖w‖ :=
  (C y u v).le_of_opNorm_le ((C y u).le_of_opNorm_le ((C y).le_of_opNorm_le (S.bC y) u) v) w
theorem vD (S : Smooth4 G A B C D M) (y u v w z : E) : ‖D y u v w z‖ ≤ M * ‖u‖ * ‖v‖ * ‖w‖ * ‖z‖ :=
  (D y u v w).le_of_opNorm_le ((D y u v).le_of_opNorm_le ((D y u).le_of_opNorm_le ((D y).le_of_opNorm_le (S.bD y) u) v) w) z

theorem symm (S : Smooth4 G A B C D M) (y u v : E) : B y u v = B y v u :=
  second_derivative_symmetric S.dG (S.dA y) u v

theorem lip (S : Smooth4 G A B C D M) (y z : E) : ‖G y - G z‖ ≤ M * ‖y - z‖ :=
  Convex.norm_image_sub_le_of_norm_hasFDerivWithin_le (s := univ) (fun x _ => (S.dG x).hasFDerivWithinAt) (fun x _ => S.bA x) convex_univ
    (mem_univ _) (mem_univ _)

/-- Taylor formula of `G` -/
theorem taylor (S : Smooth4 G A B C D M) (y d : E) :
    ‖G (y + d) - (G y + A y d + (1 / 2 : ℝ) • B y d d + (1 / 6 : ℝ) • C y d d d)‖ ≤ M * ‖d‖ ^ 4 / 24 := by
  have hl : ∀ s : ℝ, HasDerivAt (fun s : ℝ => y + s • d) d s := fun s => by
    simpa using ((hasDerivAt_id s).smul_const d).const_add y
  obtain ⟨g, hgd⟩ : ∃ g : ℕ → ℝ → E, g = fun k s => match k with
    | 0 => G (y + s • d)
    | 1 => A (y + s • d) d
    | 2 => B (y + s • d) d d
    | 3 => C (y + s • d) d d d
    | _ => D (y + s • d) d d d d := ⟨_, rfl⟩
  have h := taylor_curve (h := 1) (K := M * ‖d‖ ^ 4) 4 g ?_ ?_ 1 ⟨zero_le_one, le_rfl⟩
  · subst hgd
    simp only [Finset.sum_range_succ, Finset.sum_range_zero, Nat.factorial, one_smul, zero_smul, add_zero] at h
    norm_num at h
    exact h
  · intro k hk s _
    refine HasDerivAt.hasDerivWithinAt ?_
    subst hgd
    have d0 := (S.dG (y + s • d)).comp_hasDerivAt s (hl s)
    have d1 := app_const (φ := fun s => A (y + s • d)) d ((S.dA (y + s • d)).comp_hasDerivAt s (hl s))
    have d2 := app_const (φ := fun s => B (y + s • d) d) d (app_const (φ := fun s => B (y + s • d)) d ((S.dB (y + s • d)).comp_hasDerivAt s (hl s)))
    have d3 := app_const (φ := fun s => C (y + s • d) d d) d (app_const (φ := fun s => C (y + s • d) d) d
      (app_const (φ := fun s => C (y + s • d)) d ((S.dC (y + s • d)).comp_hasDerivAt s (hl s))))
    rcases k with _ | _ | _ | _ | k
    · exact d0
    · exact d1
    · exact d2
    · exact d3
    · omega
  · intro s _
    subst hgd
    show ‖D (y + s • d) d d d d‖ ≤ _
    refine (S.vD _ d d d d).trans (le_of_eq ?_)
    ring

/-- expansion of one stage -/
theorem stage (S : Smooth4 G A B C D M) (c : ℝ) (hc : 0 ≤ c) : ∃ K, 0 ≤ K ∧ ∀ (y a1 a2 a3 e : E) (h : ℝ), 0 ≤ h → h ≤ 1 → ‖a1‖ ≤ c →
    ‖a2‖ ≤ c → ‖a3‖ ≤ c → ‖e‖ ≤ c * h ^ 4 →
    ‖G (y + (h • a1 + h ^ 2 • a2 + h ^ 3 • a3 + e)) - (G y + h • A y a1 + h ^ 2 • (A y a2 + (1 / 2 : ℝ) • B y a1 a1)
      + h ^ 3 • (A y a3 + B y a1 a2 + (1 / 6 : ℝ) • C y a1 a1 a1))‖ ≤ K * h ^ 4 := by
  have hM := S.M0
  refine ⟨M * c + M * (3 * c) ^ 4 / 24 + (M * c * c + M * (2 * c) ^ 2) + M * (2 * c) * (3 * c) ^ 2, by positivity, ?_⟩
  intro y a1 a2 a3 e h h0 h1 n1 n2 n3 ne
  obtain ⟨Q, hQ⟩ : ∃ Q, Q = h ^ 2 • a2 + h ^ 3 • a3 := ⟨_, rfl⟩
  obtain ⟨p, hp⟩ : ∃ p, p = h • a1 := ⟨_, rfl⟩
  obtain ⟨P, hP⟩ : ∃ P, P = p + Q := ⟨_, rfl⟩
  have h2 : h ^ 3 ≤ h ^ 2 := pow_le_pow_of_le_one h0 h1 (by norm_num)
  have h3 : h ^ 2 ≤ h := by simpa using pow_le_pow_of_le_one h0 h1 (show 1 ≤ 2 by norm_num)
  have np : ‖p‖ ≤ c * h := by
    rw [hp, norm_smul, Real.norm_of_nonneg h0]; nlinarith
  have nQ : ‖Q‖ ≤ 2 * c * h ^ 2 := by
    rw [hQ]
    refine (norm_add_le _ _).trans ?_
    rw [norm_smul, norm_smul, Real.norm_of_nonneg (by positivity), Real.norm_of_nonneg (by positivity)]
    have k1 : h ^ 2 * ‖a2‖ ≤ h ^ 2 * c := mul_le_mul_of_nonneg_left n2 (by positivity)
    have k2 : h ^ 3 * ‖a3‖ ≤ h ^ 2 * c := mul_le_mul h2 n3 (norm_nonneg _) (by positivity)
    linarith
  have nP : ‖P‖ ≤ 3 * c * h := by
    rw [hP]
    refine (norm_add_le _ _).trans ?_
    have : 2 * c * h ^ 2 ≤ 2 * c * h := mul_le_mul_of_nonneg_left h3 (by positivity)
    linarith
  -- pieces
  have e1 : ‖G (y + (P + e)) - G (y + P)‖ ≤ M * c * h ^ 4 := by
    refine (S.lip _ _).trans ?_
    rw [show y + (P + e) - (y + P) = e by abel]
    nlinarith
  have e2 : ‖G (y + P) - (G y + A y P + (1 / 2 : ℝ) • B y P P + (1 / 6 : ℝ) • C y P P P)‖ ≤ M * (3 * c) ^ 4 / 24 * h ^ 4 := by
    refine (S.taylor y P).trans ?_
    have : ‖P‖ ^ 4 ≤ (3 * c * h) ^ 4 := pow_le_pow_left₀ (norm_nonneg _) nP 4
    calc M * ‖P‖ ^ 4 / 24 ≤ M * (3 * c * h) ^ 4 / 24 := by gcongr
      _ = _ := by ring
  have e3 : ‖(1 / 2 : ℝ) • B y P P - (h ^ 2 • ((1 / 2 : ℝ) • B y a1 a1) + h ^ 3 • B y a1 a2)‖ ≤ (M * c * c + M * (2 * c) ^ 2) * h ^ 4 := by
    have : (1 / 2 : ℝ) • B y P P - (h ^ 2 • ((1 / 2 : ℝ) • B y a1 a1) + h ^ 3 • B y a1 a2) =
        h ^ 4 • B y a1 a3 + (1 / 2 : ℝ) • B y Q Q := by
      have k1 : B y P P = B y p p + B y p Q + B y Q p + B y Q Q := by
        rw [hP]; simp only [map_add, ContinuousLinearMap.add_apply]; abel
      rw [k1, S.symm y Q p]
      have k2 : B y p Q = h ^ 3 • B y a1 a2 + h ^ 4 • B y a1 a3 := by
        rw [hp, hQ]; simp only [map_add, map_smul, ContinuousLinearMap.smul_apply, smul_add, smul_smul]
        congr 2 <;> ring
      have k3 : B y p p = h ^ 2 • B y a1 a1 := by
        rw [hp]; simp only [map_smul, ContinuousLinearMap.smul_apply, smul_smul]; congr 1; ring
      rw [k2, k3]
      module
    rw [this]
    refine (norm_add_le _ _).trans ?_
    rw [norm_smul, norm_smul, Real.norm_of_nonneg (by positivity), Real.norm_of_nonneg (by positivity)]
    have k1 : ‖B y a1 a3‖ ≤ M * c * c := (S.vB y a1 a3).trans (by gcongr)
    have k2 : ‖B y Q Q‖ ≤ M * (2 * c * h ^ 2) * (2 * c * h ^ 2) := (S.vB y Q Q).trans (by gcongr)
    have k3 : M * (2 * c * h ^ 2) * (2 * c * h ^ 2) = M * (2 * c) ^ 2 * h ^ 4 := by ring
    have k4 : 0 ≤ M * (2 * c) ^ 2 * h ^ 4 := by positivity
    have k5 : h ^ 4 * ‖B y a1 a3‖ ≤ h ^ 4 * (M * c * c) := by gcongr
    nlinarith
  have e4 : ‖(1 / 6 : ℝ) • C y P P P - h ^ 3 • ((1 / 6 : ℝ) • C y a1 a1 a1)‖ ≤ M * (2 * c) * (3 * c) ^ 2 * h ^ 4 := by
    have : (1 / 6 : ℝ) • C y P P P - h ^ 3 • ((1 / 6 : ℝ) • C y a1 a1 a1) =
        (1 / 6 : ℝ) • (C y Q P P + C y p Q P + C y p p Q) := by
      have k1 : C y P P P = C y p p p + (C y Q P P + C y p Q P + C y p p Q) := by
        have : C y P P P = C y p P P + C y Q P P := by
          conv_lhs => rw [show C y P = C y p + C y Q by rw [hP, map_add]]
          rfl
        have t2 : C y p P P = C y p p P + C y p Q P := by
          conv_lhs => rw [show C y p P = C y p p + C y p Q by rw [hP, map_add]]
          rfl
        have t3 : C y p p P = C y p p p + C y p p Q := by rw [hP, map_add]
        rw [this, t2, t3]; abel
      have k2 : C y p p p = h ^ 3 • C y a1 a1 a1 := by
        rw [hp]; simp only [map_smul, ContinuousLinearMap.smul_apply, smul_smul]; congr 1; ring
      rw [k1, k2]
      module
    rw [this, norm_smul, Real.norm_of_nonneg (by norm_num)]
    have k1 : ‖C y Q P P‖ ≤ M * (2 * c * h ^ 2) * (3 * c * h) * (3 * c * h) := (S.vC y Q P P).trans (by gcongr)
    have np' : ‖p‖ ≤ 3 * c * h := np.trans (by nlinarith [mul_nonneg hc h0])
    have k2 : ‖C y p Q P‖ ≤ M * (3 * c * h) * (2 * c * h ^ 2) * (3 * c * h) := (S.vC y p Q P).trans (by gcongr)
    have k3 : ‖C y p p Q‖ ≤ M * (3 * c * h) * (3 * c * h) * (2 * c * h ^ 2) := (S.vC y p p Q).trans (by gcongr)
    have k4 := norm_add₃_le (a := C y Q P P) (b := C y p Q P) (c := C y p p Q)
    have k5 : 0 ≤ M * (2 * c) * (3 * c) ^ 2 * h ^ 4 := by positivity
    nlinarith
  have tot : G (y + (h • a1 + h ^ 2 • a2 + h ^ 3 • a3 + e)) - (G y + h • A y a1 + h ^ 2 • (A y a2 + (1 / 2 : ℝ) • B y a1 a1)
      + h ^ 3 • (A y a3 + B y a1 a2 + (1 / 6 : ℝ) • C y a1 a1 a1)) =
      (G (y + (P + e)) - G (y + P)) + (G (y + P) - (G y + A y P + (1 / 2 : ℝ) • B y P P + (1 / 6 : ℝ) • C y P P P)) +
      ((1 / 2 : ℝ) • B y P P - (h ^ 2 • ((1 / 2 : ℝ) • B y a1 a1) + h ^ 3 • B y a1 a2)) +
      ((1 / 6 : ℝ) • C y P P P - h ^ 3 • ((1 / 6 : ℝ) • C y a1 a1 a1)) := by
    have k1 : y + (h • a1 + h ^ 2 • a2 + h ^ 3 • a3 + e) = y + (P + e) := by rw [hP, hp, hQ]; abel
    have k2 : A y P = h • A y a1 + h ^ 2 • A y a2 + h ^ 3 • A y a3 := by
      rw [hP, hp, hQ]; simp only [map_add, map_smul]; abel
    rw [k1, k2]
    module
  rw [tot]
  refine (norm_add_le _ _).trans ?_
  have := norm_add₃_le (a := G (y + (P + e)) - G (y + P))
    (b := G (y + P) - (G y + A y P + (1 / 2 : ℝ) • B y P P + (1 / 6 : ℝ) • C y P P P))
    (c := (1 / 2 : ℝ) • B y P P - (h ^ 2 • ((1 / 2 : ℝ) • B y a1 a1) + h ^ 3 • B y a1 a2))
  linarith

/-- the increment agrees with the fourth-order Taylor polynomial of the solution -/
theorem inc_expansion (S : Smooth4 G A B C D M) : ∃ K, 0 ≤ K ∧ ∀ (y : E) (h : ℝ), 0 ≤ h → h ≤ 1 →
    ‖inc G y h - (h • G y + (h ^ 2 / 2) • A y (G y) + (h ^ 3 / 6) • (B y (G y) (G y) + A y (A y (G y))) +
      (h ^ 4 / 24) • (C y (G y) (G y) (G y) + (3:ℝ) • B y (G y) (A y (G y)) + A y (B y (G y) (G y)) + A y (A y (A y (G y)))))‖ ≤ K * h ^ 5 := by
  have hM := S.M0
  obtain ⟨c, hc⟩ : ∃ c, c = M + M ^ 2 + M ^ 3 + M ^ 4 := ⟨_, rfl⟩
  have q2 : 0 ≤ M ^ 2 := by positivity
  have q3 : 0 ≤ M ^ 3 := by positivity
  have q4 : 0 ≤ M ^ 4 := by positivity
  have hc0 : 0 ≤ c := by rw [hc]; positivity
  obtain ⟨K2, k20, s2⟩ := S.stage c hc0
  obtain ⟨K3, k30, s3⟩ := S.stage (c + K2) (by positivity)
  obtain ⟨K4, k40, s4⟩ := S.stage (3 * c + K3) (by positivity)
  refine ⟨(2 * K2 + 2 * K3 + K4) / 6, by positivity, ?_⟩
  intro y h h0 h1
  obtain ⟨f, hf⟩ : ∃ f, f = G y := ⟨_, rfl⟩
  obtain ⟨Af, hAf⟩ : ∃ v, v = A y f := ⟨_, rfl⟩
  obtain ⟨Bff, hBff⟩ : ∃ v, v = B y f f := ⟨_, rfl⟩
  obtain ⟨Cfff, hCfff⟩ : ∃ v, v = C y f f f := ⟨_, rfl⟩
  obtain ⟨BfA, hBfA⟩ : ∃ v, v = B y f Af := ⟨_, rfl⟩
  obtain ⟨AB, hAB⟩ : ∃ v, v = A y Bff := ⟨_, rfl⟩
  obtain ⟨AA, hAA⟩ : ∃ v, v = A y Af := ⟨_, rfl⟩
  obtain ⟨AAA, hAAA⟩ : ∃ v, v = A y AA := ⟨_, rfl⟩
  have nf : ‖f‖ ≤ M := by rw [hf]; exact S.bG y
  have nA : ∀ {v : E} {m : ℝ}, ‖v‖ ≤ m → ‖A y v‖ ≤ M * m := fun hv => (S.vA y _).trans (by gcongr)
  have nAf : ‖Af‖ ≤ M ^ 2 := by rw [hAf]; exact (nA nf).trans (by nlinarith)
  have nBff : ‖Bff‖ ≤ M ^ 3 := by
    rw [hBff]; refine (S.vB y f f).trans ?_
    calc M * ‖f‖ * ‖f‖ ≤ M * M * M := by gcongr
      _ = _ := by ring
  have nCfff : ‖Cfff‖ ≤ M ^ 4 := by
    rw [hCfff]; refine (S.vC y f f f).trans ?_
    calc M * ‖f‖ * ‖f‖ * ‖f‖ ≤ M * M * M * M := by gcongr
      _ = _ := by ring
  have nBfA : ‖BfA‖ ≤ M ^ 4 := by
    rw [hBfA]; refine (S.vB y f Af).trans ?_
    calc M * ‖f‖ * ‖Af‖ ≤ M * M * M ^ 2 := by gcongr
      _ = _ := by ring
  have nAB : ‖AB‖ ≤ M ^ 4 := by rw [hAB]; exact (nA nBff).trans (by nlinarith)
  have nAA : ‖AA‖ ≤ M ^ 3 := by rw [hAA]; exact (nA nAf).trans (by nlinarith)
  have nh : ∀ {v : E} {r m : ℝ}, 0 ≤ r → r ≤ 1 → ‖v‖ ≤ m → ‖r • v‖ ≤ m := by
    intro v r m r0 r1 hv
    rw [norm_smul, Real.norm_of_nonneg r0]
    have := norm_nonneg v
    nlinarith
  have hh4 : 0 ≤ h ^ 4 := by positivity
  -- second stage
  have t2 := s2 y ((1 / 2 : ℝ) • f) 0 0 0 h h0 h1 (nh (by norm_num) (by norm_num) (nf.trans (by linarith))) (by simpa using hc0)
    (by simpa using hc0) (by simpa using mul_nonneg hc0 hh4)
  obtain ⟨k2, hk2⟩ : ∃ k, k = G (y + (h / 2) • f) := ⟨_, rfl⟩
  obtain ⟨r2, hr2⟩ : ∃ r, r = k2 - (f + (h / 2) • Af + (h ^ 2 / 8) • Bff + (h ^ 3 / 48) • Cfff) := ⟨_, rfl⟩
  have n2 : ‖r2‖ ≤ K2 * h ^ 4 := by
    refine le_trans (le_of_eq ?_) t2
    rw [hr2, hk2]
    congr 1
    have w1 : h • (1 / 2 : ℝ) • f + h ^ 2 • (0:E) + h ^ 3 • (0:E) + 0 = (h / 2) • f := by module
    have w2 : G y + h • A y ((1 / 2 : ℝ) • f) + h ^ 2 • (A y 0 + (1 / 2 : ℝ) • B y ((1 / 2 : ℝ) • f) ((1 / 2 : ℝ) • f)) +
        h ^ 3 • (A y 0 + B y ((1 / 2 : ℝ) • f) 0 + (1 / 6 : ℝ) • C y ((1 / 2 : ℝ) • f) ((1 / 2 : ℝ) • f) ((1 / 2 : ℝ) • f)) =
        f + (h / 2) • Af + (h ^ 2 / 8) • Bff + (h ^ 3 / 48) • Cfff := by
      simp only [map_zero, map_smul, ContinuousLinearMap.smul_apply]
      rw [← hf, ← hAf, ← hBff, ← hCfff]
      module
    rw [w1, w2]
  -- third stage
  have t3 := s3 y ((1 / 2 : ℝ) • f) ((1 / 4 : ℝ) • Af) ((1 / 16 : ℝ) • Bff) (h ^ 4 • (1 / 96 : ℝ) • Cfff + (h / 2) • r2) h h0 h1
    (nh (by norm_num) (by norm_num) (nf.trans (by linarith))) (nh (by norm_num) (by norm_num) (nAf.trans (by linarith)))
    (nh (by norm_num) (by norm_num) (nBff.trans (by linarith))) (by
      refine (norm_add_le _ _).trans ?_
      have u1 : ‖h ^ 4 • (1 / 96 : ℝ) • Cfff‖ ≤ h ^ 4 * c := by
        rw [norm_smul, Real.norm_of_nonneg hh4]
        gcongr
        exact nh (by norm_num) (by norm_num) (nCfff.trans (by linarith))
      have u2 := nh (r := h / 2) (by linarith) (by linarith) n2
      linarith)
  obtain ⟨k3, hk3⟩ : ∃ k, k = G (y + (h / 2) • k2) := ⟨_, rfl⟩
  obtain ⟨r3, hr3⟩ : ∃ r, r = k3 - (f + (h / 2) • Af + h ^ 2 • ((1 / 4 : ℝ) • AA + (1 / 8 : ℝ) • Bff) +
    h ^ 3 • ((1 / 16 : ℝ) • AB + (1 / 8 : ℝ) • BfA + (1 / 48 : ℝ) • Cfff)) := ⟨_, rfl⟩
  have n3 : ‖r3‖ ≤ K3 * h ^ 4 := by
    refine le_trans (le_of_eq ?_) t3
    rw [hr3, hk3]
    congr 1
    have w1 : h • (1 / 2 : ℝ) • f + h ^ 2 • (1 / 4 : ℝ) • Af + h ^ 3 • (1 / 16 : ℝ) • Bff + (h ^ 4 • (1 / 96 : ℝ) • Cfff + (h / 2) • r2) =
        (h / 2) • k2 := by rw [hr2]; module
    have w2 : G y + h • A y ((1 / 2 : ℝ) • f) + h ^ 2 • (A y ((1 / 4 : ℝ) • Af) + (1 / 2 : ℝ) • B y ((1 / 2 : ℝ) • f) ((1 / 2 : ℝ) • f)) +
        h ^ 3 • (A y ((1 / 16 : ℝ) • Bff) + B y ((1 / 2 : ℝ) • f) ((1 / 4 : ℝ) • Af) +
          (1 / 6 : ℝ) • C y ((1 / 2 : ℝ) • f) ((1 / 2 : ℝ) • f) ((1 / 2 : ℝ) • f)) =
        f + (h / 2) • Af + h ^ 2 • ((1 / 4 : ℝ) • AA + (1 / 8 : ℝ) • Bff) +
          h ^ 3 • ((1 / 16 : ℝ) • AB + (1 / 8 : ℝ) • BfA + (1 / 48 : ℝ) • Cfff) := by
      simp only [map_smul, ContinuousLinearMap.smul_apply]
      rw [← hf, ← hAf, ← hBff, ← hCfff, ← hAA, ← hAB, ← hBfA]
      module
    rw [w1, w2]
  -- fourth stage
  have t4 := s4 y f ((1 / 2 : ℝ) • Af) ((1 / 4 : ℝ) • AA + (1 / 8 : ℝ) • Bff)
    (h ^ 4 • ((1 / 16 : ℝ) • AB + (1 / 8 : ℝ) • BfA + (1 / 48 : ℝ) • Cfff) + h • r3) h h0 h1
    (nf.trans (by linarith)) (nh (by norm_num) (by norm_num) (nAf.trans (by linarith)))
    ((norm_add_le _ _).trans (by
      have u1 := nh (r := 1 / 4) (by norm_num) (by norm_num) nAA
      have u2 := nh (r := 1 / 8) (by norm_num) (by norm_num) nBff
      linarith)) (by
      refine (norm_add_le _ _).trans ?_
      have u1 : ‖h ^ 4 • ((1 / 16 : ℝ) • AB + (1 / 8 : ℝ) • BfA + (1 / 48 : ℝ) • Cfff)‖ ≤ h ^ 4 * (3 * c) := by
        rw [norm_smul, Real.norm_of_nonneg hh4]
        gcongr
        refine norm_add₃_le.trans ?_
        have v1 := nh (r := 1 / 16) (by norm_num) (by norm_num) nAB
        have v2 := nh (r := 1 / 8) (by norm_num) (by norm_num) nBfA
        have v3 := nh (r := 1 / 48) (by norm_num) (by norm_num) nCfff
        linarith
      have u2 := nh (r := h) (by linarith) (by linarith) n3
      linarith)
  obtain ⟨k4, hk4⟩ : ∃ k, k = G (y + h • k3) := ⟨_, rfl⟩
  obtain ⟨r4, hr4⟩ : ∃ r, r = k4 - (f + h • Af + h ^ 2 • ((1 / 2 : ℝ) • AA + (1 / 2 : ℝ) • Bff) +
    h ^ 3 • ((1 / 4 : ℝ) • AAA + (1 / 8 : ℝ) • AB + (1 / 2 : ℝ) • BfA + (1 / 6 : ℝ) • Cfff)) := ⟨_, rfl⟩
  have n4 : ‖r4‖ ≤ K4 * h ^ 4 := by
    refine le_trans (le_of_eq ?_) t4
    rw [hr4, hk4]
    congr 1
    have w1 : h • f + h ^ 2 • (1 / 2 : ℝ) • Af + h ^ 3 • ((1 / 4 : ℝ) • AA + (1 / 8 : ℝ) • Bff) +
        (h ^ 4 • ((1 / 16 : ℝ) • AB + (1 / 8 : ℝ) • BfA + (1 / 48 : ℝ) • Cfff) + h • r3) = h • k3 := by rw [hr3]; module
    have w2 : G y + h • A y f + h ^ 2 • (A y ((1 / 2 : ℝ) • Af) + (1 / 2 : ℝ) • B y f f) +
        h ^ 3 • (A y ((1 / 4 : ℝ) • AA + (1 / 8 : ℝ) • Bff) + B y f ((1 / 2 : ℝ) • Af) + (1 / 6 : ℝ) • C y f f f) =
        f + h • Af + h ^ 2 • ((1 / 2 : ℝ) • AA + (1 / 2 : ℝ) • Bff) +
          h ^ 3 • ((1 / 4 : ℝ) • AAA + (1 / 8 : ℝ) • AB + (1 / 2 : ℝ) • BfA + (1 / 6 : ℝ) • Cfff) := by
      simp only [map_add, map_smul]
      rw [← hf, ← hAf, ← hBff, ← hCfff, ← hAA, ← hAB, ← hBfA, ← hAAA]
    rw [w1, w2]
  have tot : inc G y h - (h • G y + (h ^ 2 / 2) • A y (G y) + (h ^ 3 / 6) • (B y (G y) (G y) + A y (A y (G y))) +
      (h ^ 4 / 24) • (C y (G y) (G y) (G y) + (3:ℝ) • B y (G y) (A y (G y)) + A y (B y (G y) (G y)) + A y (A y (A y (G y))))) =
      (h / 6) • ((2:ℝ) • r2 + (2:ℝ) • r3 + r4) := by
    unfold inc
    simp only
    rw [← hf, ← hAf, ← hBff, ← hCfff, ← hAA, ← hAB, ← hBfA, ← hAAA, ← hk2, ← hk3, ← hk4, hr2, hr3, hr4]
    module
  rw [tot, norm_smul, Real.norm_of_nonneg (by positivity)]
  have u := norm_add₃_le (a := (2:ℝ) • r2) (b := (2:ℝ) • r3) (c := r4)
  rw [norm_smul, norm_smul, Real.norm_of_nonneg (by norm_num)] at u
  have : ‖(2:ℝ) • r2 + (2:ℝ) • r3 + r4‖ ≤ (2 * K2 + 2 * K3 + K4) * h ^ 4 := by linarith
  calc h / 6 * ‖(2:ℝ) • r2 + (2:ℝ) • r3 + r4‖ ≤ h / 6 * ((2 * K2 + 2 * K3 + K4) * h ^ 4) := by gcongr
    _ = _ := by ring

/-- product rules along a curve -/
theorem curve (S : Smooth4 G A B C D M) {y : ℝ → E} {I : Set ℝ} {s : ℝ} {v : E} (hy : HasDerivWithinAt y v I s) :
    HasDerivWithinAt (fun t => G (y t)) (A (y s) v) I s ∧
    (∀ {u : ℝ → E} {u' : E}, HasDerivWithinAt u u' I s → HasDerivWithinAt (fun t => A (y t) (u t)) (B (y s) v (u s) + A (y s) u') I s) ∧
    (∀ {u w : ℝ → E} {u' w' : E}, HasDerivWithinAt u u' I s → HasDerivWithinAt w w' I s →
      HasDerivWithinAt (fun t => B (y t) (u t) (w t)) (C (y s) v (u s) (w s) + B (y s) u' (w s) + B (y s) (u s) w') I s) ∧
    (∀ {u w z : ℝ → E} {u' w' z' : E}, HasDerivWithinAt u u' I s → HasDerivWithinAt w w' I s → HasDerivWithinAt z z' I s →
      HasDerivWithinAt (fun t => C (y t) (u t) (w t) (z t))
        (D (y s) v (u s) (w s) (z s) + C (y s) u' (w s) (z s) + C (y s) (u s) w' (z s) + C (y s) (u s) (w s) z') I s) := by
  have cA : HasDerivWithinAt (fun t => A (y t)) (B (y s) v) I s := (S.dA (y s)).comp_hasDerivWithinAt s hy
  have cB : HasDerivWithinAt (fun t => B (y t)) (C (y s) v) I s := (S.dB (y s)).comp_hasDerivWithinAt s hy
  have cC : HasDerivWithinAt (fun t => C (y t)) (D (y s) v) I s := (S.dC (y s)).comp_hasDerivWithinAt s hy
  refine ⟨(S.dG (y s)).comp_hasDerivWithinAt s hy, fun hu => cA.clm_apply hu, fun {u w u' w'} hu hw => ?_, fun {u w z u' w' z'} hu hw hz => ?_⟩
  · have h1 : HasDerivWithinAt (fun t => B (y t) (u t)) (C (y s) v (u s) + B (y s) u') I s := cB.clm_apply hu
    exact h1.clm_apply hw
  · have h1 : HasDerivWithinAt (fun t => C (y t) (u t)) (D (y s) v (u s) + C (y s) u') I s := cC.clm_apply hu
    have h2 : HasDerivWithinAt (fun t => C (y t) (u t) (w t)) ((D (y s) v (u s) + C (y s) u') (w s) + C (y s) (u s) w') I s := h1.clm_apply hw
    exact h2.clm_apply hz

/-- Taylor expansion of an exact solution -/
theorem sol_expansion (S : Smooth4 G A B C D M) {y : ℝ → E} {h : ℝ} (h0 : 0 ≤ h)
    (hy : ∀ s ∈ Icc 0 h, HasDerivWithinAt y (G (y s)) (Icc 0 h) s) :
    ‖y h - (y 0 + h • G (y 0) + (h ^ 2 / 2) • A (y 0) (G (y 0)) + (h ^ 3 / 6) • (B (y 0) (G (y 0)) (G (y 0)) + A (y 0) (A (y 0) (G (y 0)))) +
      (h ^ 4 / 24) • (C (y 0) (G (y 0)) (G (y 0)) (G (y 0)) + (3:ℝ) • B (y 0) (G (y 0)) (A (y 0) (G (y 0))) +
        A (y 0) (B (y 0) (G (y 0)) (G (y 0))) + A (y 0) (A (y 0) (A (y 0) (G (y 0))))))‖ ≤ M ^ 5 / 5 * h ^ 5 := by
  have hM := S.M0
  let f : ℝ → E := fun t => G (y t)
  let a : ℝ → E := fun t => A (y t) (f t)
  let b : ℝ → E := fun t => B (y t) (f t) (f t)
  let aa : ℝ → E := fun t => A (y t) (a t)
  have df : ∀ s ∈ Icc 0 h, HasDerivWithinAt f (a s) (Icc 0 h) s := fun s hs => (S.curve (hy s hs)).1
  have da : ∀ s ∈ Icc 0 h, HasDerivWithinAt a (b s + aa s) (Icc 0 h) s := fun s hs => (S.curve (hy s hs)).2.1 (df s hs)
  have db : ∀ s ∈ Icc 0 h, HasDerivWithinAt b (C (y s) (f s) (f s) (f s) + B (y s) (a s) (f s) + B (y s) (f s) (a s)) (Icc 0 h) s :=
    fun s hs => (S.curve (hy s hs)).2.2.1 (df s hs) (df s hs)
  have daa : ∀ s ∈ Icc 0 h, HasDerivWithinAt aa (B (y s) (f s) (a s) + A (y s) (b s + aa s)) (Icc 0 h) s :=
    fun s hs => (S.curve (hy s hs)).2.1 (da s hs)
  let g4 : ℝ → E := fun t => C (y t) (f t) (f t) (f t) + (3:ℝ) • B (y t) (f t) (a t) + A (y t) (b t) + A (y t) (aa t)
  let g5 : ℝ → E := fun t => (D (y t) (f t) (f t) (f t) (f t) + C (y t) (a t) (f t) (f t) + C (y t) (f t) (a t) (f t) + C (y t) (f t) (f t) (a t)) +
    (3:ℝ) • (C (y t) (f t) (f t) (a t) + B (y t) (a t) (a t) + B (y t) (f t) (b t + aa t)) +
    (B (y t) (f t) (b t) + A (y t) (C (y t) (f t) (f t) (f t) + B (y t) (a t) (f t) + B (y t) (f t) (a t))) +
    (B (y t) (f t) (aa t) + A (y t) (B (y t) (f t) (a t) + A (y t) (b t + aa t)))
  have d4 : ∀ s ∈ Icc 0 h, HasDerivWithinAt g4 (g5 s) (Icc 0 h) s := by
    intro s hs
    obtain ⟨-, cA, cB, cC⟩ := S.curve (hy s hs)
    exact (((cC (df s hs) (df s hs) (df s hs)).add ((cB (df s hs) (da s hs)).const_smul (3:ℝ))).add (cA (db s hs))).add (cA (daa s hs))
  have n5 : ∀ s ∈ Icc 0 h, ‖g5 s‖ ≤ 24 * M ^ 5 := by
    intro s _
    have nf : ‖f s‖ ≤ M := S.bG _
    have nA : ∀ {v : E} {m : ℝ}, ‖v‖ ≤ m → ‖A (y s) v‖ ≤ M * m := fun hv => (S.vA _ _).trans (by gcongr)
    have nB : ∀ {v w : E} {m k : ℝ}, ‖v‖ ≤ m → ‖w‖ ≤ k → ‖B (y s) v w‖ ≤ M * m * k := fun hv hw => (S.vB _ _ _).trans (by
      have := (norm_nonneg _).trans hv
      gcongr)
    have nC : ∀ {v w z : E} {m k l : ℝ}, ‖v‖ ≤ m → ‖w‖ ≤ k → ‖z‖ ≤ l → ‖C (y s) v w z‖ ≤ M * m * k * l := fun hv hw hz => (S.vC _ _ _ _).trans (by
      have := (norm_nonneg _).trans hv
      have := (norm_nonneg _).trans hw
      gcongr)
    have na : ‖a s‖ ≤ M * M := nA nf
    have nb : ‖b s‖ ≤ M * M * M := nB nf nf
    have naa : ‖aa s‖ ≤ M * (M * M) := nA na
    have nba : ‖b s + aa s‖ ≤ 2 * (M * M * M) := (norm_add_le _ _).trans (by linarith)
    have x1 : ‖D (y s) (f s) (f s) (f s) (f s)‖ ≤ M ^ 5 := (S.vD _ _ _ _ _).trans (by
      calc M * ‖f s‖ * ‖f s‖ * ‖f s‖ * ‖f s‖ ≤ M * M * M * M * M := by gcongr
        _ = M ^ 5 := by ring)
    have x2 := nC na nf nf
    have x3 := nC nf na nf
    have x4 := nC nf nf na
    have x5 := nB na na
    have x6 := nB nf nba
    have x7 := nB nf nb
    have x8 := nA (norm_add₃_le.trans (add_le_add (add_le_add (nC nf nf nf) (nB na nf)) (nB nf na)))
    have x9 := nB nf naa
    have x10 := nA ((norm_add_le _ _).trans (add_le_add (nB nf na) (nA nba)))
    have z1 := norm_add₄_le (a := D (y s) (f s) (f s) (f s) (f s)) (b := C (y s) (a s) (f s) (f s)) (c := C (y s) (f s) (a s) (f s)) (d := C (y s) (f s) (f s) (a s))
    have z2 := norm_add₃_le (a := C (y s) (f s) (f s) (a s)) (b := B (y s) (a s) (a s)) (c := B (y s) (f s) (b s + aa s))
    have z3 := norm_add_le (B (y s) (f s) (b s)) (A (y s) (C (y s) (f s) (f s) (f s) + B (y s) (a s) (f s) + B (y s) (f s) (a s)))
    have z4 := norm_add_le (B (y s) (f s) (aa s)) (A (y s) (B (y s) (f s) (a s) + A (y s) (b s + aa s)))
    refine (norm_add₄_le).trans ?_
    rw [norm_smul, Real.norm_of_nonneg (by norm_num : (0:ℝ) ≤ 3)]
    nlinarith
  obtain ⟨g, hgd⟩ : ∃ g : ℕ → ℝ → E, g = fun k s => match k with
    | 0 => y s
    | 1 => f s
    | 2 => a s
    | 3 => b s + aa s
    | 4 => g4 s
    | _ => g5 s := ⟨_, rfl⟩
  have key := taylor_curve (h := h) (K := 24 * M ^ 5) 5 g ?_ ?_ h ⟨h0, le_rfl⟩
  · subst hgd
    simp only [Finset.sum_range_succ, Finset.sum_range_zero, Nat.factorial] at key
    norm_num at key
    rw [← smul_add] at key
    refine le_trans (le_of_eq ?_) (key.trans (le_of_eq ?_))
    · rfl
    · ring
  · intro k hk s hs
    subst hgd
    rcases k with _ | _ | _ | _ | _ | k
    · exact hy s hs
    · exact df s hs
    · exact da s hs
    · refine ((db s hs).add (daa s hs)).congr_deriv ?_
      show _ = C (y s) (f s) (f s) (f s) + (3:ℝ) • B (y s) (f s) (a s) + A (y s) (b s) + A (y s) (aa s)
      rw [S.symm (y s) (a s) (f s), map_add]
      module
    · exact d4 s hs
    · omega
  · intro s hs
    subst hgd
    exact n5 s hs

/-- the local error of one step is of fifth order -/
theorem local_error (S : Smooth4 G A B C D M) : ∃ K, 0 ≤ K ∧ ∀ (y : ℝ → E) (h : ℝ), 0 ≤ h → h ≤ 1 →
    (∀ s ∈ Icc 0 h, HasDerivWithinAt y (G (y s)) (Icc 0 h) s) → ‖y h - (y 0 + inc G (y 0) h)‖ ≤ K * h ^ 5 := by
  obtain ⟨K, hK, h1⟩ := S.inc_expansion
  have hM := S.M0
  refine ⟨M ^ 5 / 5 + K, by positivity, fun y h h0 h1' hy => ?_⟩
  have e1 := S.sol_expansion h0 hy
  have e2 := h1 (y 0) h h0 h1'
  rw [← norm_neg] at e2
  have := (norm_add_le _ _).trans (add_le_add e1 e2)
  refine le_trans (le_of_eq ?_) (this.trans (le_of_eq ?_))
  · congr 1; abel
  · ring

end Smooth4
end Aerokit.Ode
