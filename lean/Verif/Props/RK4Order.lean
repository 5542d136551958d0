import Verif.Lemmas.RK4
import Verif.Props.Ode
import Mathlib.Analysis.Calculus.ContDiff.FTaylorSeries
import Mathlib.Analysis.Calculus.ContDiff.Basic
import Mathlib.Analysis.SpecialFunctions.ExpDeriv
import Mathlib.Analysis.SpecialFunctions.Trigonometric.Deriv

/-! # Property C110 : stability and order of `RK4` (`aerokit/common/_ode.py`) -/

namespace Aerokit.Props
open Ode Set

variable {E : Type} [NormedAddCommGroup E] [NormedSpace ℝ E]

/-- the increment of one step for a right-hand side that never fails -/
noncomputable def rkInc (G : ℝ → E → E) (x : ℝ) (y : E) (h : ℝ) : E :=
  let k1 := G x y
  let k2 := G (x + h / 2) (y + (h / 2) • k1)
  let k3 := G (x + h / 2) (y + (h / 2) • k2)
  let k4 := G (x + h) (y + h • k3)
  (h / 6) • (k1 + (2:ℝ) • k2 + (2:ℝ) • k3 + k4)

theorem run_kut4_ok (G : ℝ → E → E) (x : ℝ) (y : E) (h : ℝ) :
    run_kut4 (fun x y => .ok (G x y)) x y h = .ok (rkInc G x y h) := by
  unfold run_kut4 rkInc
  simp only [Py.ok_bind, Py.pure_eq]
  have e2 : (2.0 : ℝ) = 2 := by norm_num
  have e6 : (6.0 : ℝ) = 6 := by norm_num
  rw [e2, e6]
  have k : ∀ v : E, y + (1 / 2 : ℝ) • h • v = y + (h / 2) • v := fun v => by module
  simp only [k]
  congr 1
  module

/-- one step does not amplify differences by more than `exp (L h)` -/
theorem rkInc_lip {G : ℝ → E → E} {L : ℝ} (hL : 0 ≤ L) (hG : ∀ t y z, ‖G t y - G t z‖ ≤ L * ‖y - z‖) (x h : ℝ) (hh : 0 ≤ h) (y z : E) :
    ‖(y + rkInc G x y h) - (z + rkInc G x z h)‖ ≤ Real.exp (L * h) * ‖y - z‖ := by
  unfold rkInc
  simp only
  obtain ⟨k1, e1⟩ : ∃ k, k = G x y := ⟨_, rfl⟩
  obtain ⟨k2, e2⟩ : ∃ k, k = G (x + h / 2) (y + (h / 2) • k1) := ⟨_, rfl⟩
  obtain ⟨k3, e3⟩ : ∃ k, k = G (x + h / 2) (y + (h / 2) • k2) := ⟨_, rfl⟩
  obtain ⟨k4, e4⟩ : ∃ k, k = G (x + h) (y + h • k3) := ⟨_, rfl⟩
  obtain ⟨l1, f1⟩ : ∃ k, k = G x z := ⟨_, rfl⟩
  obtain ⟨l2, f2⟩ : ∃ k, k = G (x + h / 2) (z + (h / 2) • l1) := ⟨_, rfl⟩
  obtain ⟨l3, f3⟩ : ∃ k, k = G (x + h / 2) (z + (h / 2) • l2) := ⟨_, rfl⟩
  obtain ⟨l4, f4⟩ : ∃ k, k = G (x + h) (z + h • l3) := ⟨_, rfl⟩
  rw [← e1, ← e2, ← e3, ← e4, ← f1, ← f2, ← f3, ← f4]
  obtain ⟨d, hd⟩ : ∃ d, d = ‖y - z‖ := ⟨_, rfl⟩
  have hd0 : 0 ≤ d := hd ▸ norm_nonneg _
  have st : ∀ (c t : ℝ) (k l : E) (m : ℝ), 0 ≤ c → ‖k - l‖ ≤ m → ‖G t (y + c • k) - G t (z + c • l)‖ ≤ L * (d + c * m) := by
    intro c t k l m hc hkl
    refine (hG _ _ _).trans ?_
    have : y + c • k - (z + c • l) = (y - z) + c • (k - l) := by module
    rw [this]
    refine mul_le_mul_of_nonneg_left ((norm_add_le _ _).trans ?_) hL
    rw [norm_smul, Real.norm_of_nonneg hc, ← hd]
    gcongr
  have g1 : ‖k1 - l1‖ ≤ L * d := by rw [e1, f1, hd]; exact hG _ _ _
  have g2 := st (h / 2) (x + h / 2) _ _ _ (by linarith) g1
  rw [← e2, ← f2] at g2
  have g3 := st (h / 2) (x + h / 2) _ _ _ (by linarith) g2
  rw [← e3, ← f3] at g3
  have g4 := st h (x + h) _ _ _ hh g3
  rw [← e4, ← f4] at g4
  have tot : y + (h / 6) • (k1 + (2:ℝ) • k2 + (2:ℝ) • k3 + k4) - (z + (h / 6) • (l1 + (2:ℝ) • l2 + (2:ℝ) • l3 + l4)) =
      (y - z) + (h / 6) • ((k1 - l1) + (2:ℝ) • (k2 - l2) + (2:ℝ) • (k3 - l3) + (k4 - l4)) := by module
  rw [tot]
  have n4 := norm_add₄_le (a := k1 - l1) (b := (2:ℝ) • (k2 - l2)) (c := (2:ℝ) • (k3 - l3)) (d := k4 - l4)
  rw [norm_smul, norm_smul, Real.norm_of_nonneg (by norm_num : (0:ℝ) ≤ 2)] at n4
  have : ‖(h / 6) • ((k1 - l1) + (2:ℝ) • (k2 - l2) + (2:ℝ) • (k3 - l3) + (k4 - l4))‖ ≤ h / 6 * (L * d + 2 * (L * (d + h / 2 * (L * d))) +
      2 * (L * (d + h / 2 * (L * (d + h / 2 * (L * d))))) + L * (d + h * (L * (d + h / 2 * (L * (d + h / 2 * (L * d))))))) := by
    rw [norm_smul, Real.norm_of_nonneg (by positivity)]
    refine mul_le_mul_of_nonneg_left ?_ (by positivity)
    linarith
  have hexp := Real.sum_le_exp_of_nonneg (mul_nonneg hL hh) 5
  simp only [Finset.sum_range_succ, Finset.sum_range_zero, Nat.factorial] at hexp
  norm_num at hexp
  refine (norm_add_le _ _).trans ?_
  rw [← hd]
  refine (add_le_add_right this d).trans ?_
  refine le_trans (le_of_eq ?_) (mul_le_mul_of_nonneg_right hexp hd0)
  ring

/-- C110, stability: for a right-hand side that is Lipschitz in `y` (constant `L`), two runs with the same `x`, `xStop`, `h` started
from `y` and `z` have the same abscissae, and at each of them the results differ by at most `exp (L (t - x)) ‖y - z‖` -- the amplification
of the exact equation -- however many steps were taken. -/
theorem C110_stability (G : ℝ → E → E) (L : ℝ) (hL : 0 ≤ L) (hG : ∀ t y z, ‖G t y - G t z‖ ≤ L * ‖y - z‖) (fuel : ℕ) (x xStop h : ℝ)
    (hh : 0 < h) (y z : E) (l l' : List (ℝ × E)) (hl : RK4 fuel (fun t v => .ok (G t v)) x y xStop h = .ok l)
    (hl' : RK4 fuel (fun t v => .ok (G t v)) x z xStop h = .ok l') :
    List.Forall₂ (fun a b => a.1 = b.1 ∧ ‖a.2 - b.2‖ ≤ Real.exp (L * (a.1 - x)) * ‖y - z‖) l l' := by
  have key : ∀ (fuel : ℕ) (t : ℝ) (y' z' : E) (h : ℝ) (l l' : List (ℝ × E)), 0 < h → ‖y' - z'‖ ≤ Real.exp (L * (t - x)) * ‖y - z‖ →
      RK4loop (fun t v => .ok (G t v)) xStop fuel t y' h = .ok l → RK4loop (fun t v => .ok (G t v)) xStop fuel t z' h = .ok l' →
      List.Forall₂ (fun a b => a.1 = b.1 ∧ ‖a.2 - b.2‖ ≤ Real.exp (L * (a.1 - x)) * ‖y - z‖) l l' := by
    intro fuel
    induction fuel with
    | zero =>
      intro t y' z' h l l' hh hd h1 h2
      by_cases ht : t < xStop
      · rw [RK4loop, if_pos ht] at h1; cases h1
      · rw [RK4loop, if_neg ht] at h1 h2
        have e1 := Except.ok.inj h1
        have e2 := Except.ok.inj h2
        subst e1 e2
        exact List.Forall₂.nil
    | succ n ih =>
      intro t y' z' h l l' hh hd h1 h2
      by_cases ht : t < xStop
      · rw [RK4loop, if_pos ht] at h1 h2
        simp only [run_kut4_ok, Py.ok_bind] at h1 h2
        have hm : 0 < min h (xStop - t) := lt_min hh (by linarith)
        obtain ⟨m, em⟩ : ∃ m, m = min h (xStop - t) := ⟨_, rfl⟩
        rw [← em] at h1 h2 hm
        have hd' : ‖(y' + rkInc G t y' m) - (z' + rkInc G t z' m)‖ ≤ Real.exp (L * (t + m - x)) * ‖y - z‖ := by
          refine (rkInc_lip hL hG t m hm.le y' z').trans ?_
          rw [show L * (t + m - x) = L * m + L * (t - x) by ring, Real.exp_add, mul_assoc]
          exact mul_le_mul_of_nonneg_left hd (Real.exp_pos _).le
        rcases r1 : RK4loop (fun t v => .ok (G t v)) xStop n (t + m) (y' + rkInc G t y' m) m with er | q1
        · rw [r1] at h1; cases h1
        rcases r2 : RK4loop (fun t v => .ok (G t v)) xStop n (t + m) (z' + rkInc G t z' m) m with er | q2
        · rw [r2] at h2; cases h2
        rw [r1, Py.ok_bind] at h1
        rw [r2, Py.ok_bind] at h2
        have e1 := Except.ok.inj h1
        have e2 := Except.ok.inj h2
        subst e1 e2
        exact List.Forall₂.cons ⟨rfl, hd'⟩ (ih _ _ _ _ _ _ hm hd' r1 r2)
      · rw [RK4loop, if_neg ht] at h1 h2
        have e1 := Except.ok.inj h1
        have e2 := Except.ok.inj h2
        subst e1 e2
        exact List.Forall₂.nil
  unfold RK4 at hl hl'
  rcases r1 : RK4loop (fun t v => .ok (G t v)) xStop fuel x y h with er | q1
  · rw [r1] at hl; cases hl
  rcases r2 : RK4loop (fun t v => .ok (G t v)) xStop fuel x z h with er | q2
  · rw [r2] at hl'; cases hl'
  rw [r1, Py.ok_bind] at hl
  rw [r2, Py.ok_bind] at hl'
  have e1 := Except.ok.inj hl
  have e2 := Except.ok.inj hl'
  subst e1 e2
  have hs : ‖y - z‖ ≤ Real.exp (L * (x - x)) * ‖y - z‖ := by simp
  exact List.Forall₂.cons ⟨rfl, hs⟩ (key fuel x y z h q1 q2 hh hs r1 r2)

/-- convergence from consistency -/
theorem rk_convergence {G : ℝ → E → E} {L : ℝ} (hL : 0 ≤ L) (hG : ∀ t y z, ‖G t y - G t z‖ ≤ L * ‖y - z‖) {sol : ℝ → E} {x xStop ε h : ℝ}
    (hε : 0 ≤ ε) (hloc : ∀ t k, x ≤ t → 0 ≤ k → k ≤ h → t + k ≤ xStop → ‖sol (t + k) - (sol t + rkInc G t (sol t) k)‖ ≤ ε * k) (hh : 0 < h)
    (hx : x ≤ xStop) {fuel : ℕ} {l : List (ℝ × E)} (hl : RK4 fuel (fun t v => .ok (G t v)) x (sol x) xStop h = .ok l) :
    ∀ s ∈ l, ‖s.2 - sol s.1‖ ≤ ε * (s.1 - x) * Real.exp (L * (s.1 - x)) := by
  have key : ∀ (fuel : ℕ) (t : ℝ) (y : E) (k : ℝ) (l : List (ℝ × E)), x ≤ t → 0 < k → k ≤ h →
      ‖y - sol t‖ ≤ ε * (t - x) * Real.exp (L * (t - x)) → RK4loop (fun t v => .ok (G t v)) xStop fuel t y k = .ok l →
      ∀ s ∈ l, ‖s.2 - sol s.1‖ ≤ ε * (s.1 - x) * Real.exp (L * (s.1 - x)) := by
    intro fuel
    induction fuel with
    | zero =>
      intro t y k l _ _ _ _ h1
      by_cases ht : t < xStop
      · rw [RK4loop, if_pos ht] at h1; cases h1
      · rw [RK4loop, if_neg ht] at h1
        have e1 := Except.ok.inj h1
        subst e1
        simp
    | succ n ih =>
      intro t y k l hxt hk hkh hd h1
      by_cases ht : t < xStop
      · rw [RK4loop, if_pos ht] at h1
        simp only [run_kut4_ok, Py.ok_bind] at h1
        have hm : 0 < min k (xStop - t) := lt_min hk (by linarith)
        have hmk : min k (xStop - t) ≤ k := min_le_left _ _
        have hmx : min k (xStop - t) ≤ xStop - t := min_le_right _ _
        obtain ⟨m, em⟩ : ∃ m, m = min k (xStop - t) := ⟨_, rfl⟩
        rw [← em] at h1 hm hmk hmx
        have a1 := hloc t m hxt hm.le (by linarith) (by linarith)
        have a2 := rkInc_lip hL hG t m hm.le y (sol t)
        have hd' : ‖(y + rkInc G t y m) - sol (t + m)‖ ≤ ε * (t + m - x) * Real.exp (L * (t + m - x)) := by
          have e : (y + rkInc G t y m) - sol (t + m) = ((y + rkInc G t y m) - (sol t + rkInc G t (sol t) m)) -
            (sol (t + m) - (sol t + rkInc G t (sol t) m)) := by abel
          rw [e]
          refine (norm_sub_le _ _).trans ?_
          have e2 : Real.exp (L * (t + m - x)) = Real.exp (L * m) * Real.exp (L * (t - x)) := by rw [← Real.exp_add]; congr 1; ring
          have a3 : Real.exp (L * m) * ‖y - sol t‖ ≤ Real.exp (L * m) * (ε * (t - x) * Real.exp (L * (t - x))) := by gcongr
          have a4 : 1 ≤ Real.exp (L * (t + m - x)) := Real.one_le_exp (mul_nonneg hL (by linarith))
          have a5 : ε * m ≤ ε * m * Real.exp (L * (t + m - x)) := le_mul_of_one_le_right (by positivity) a4
          have a6 : ε * (t + m - x) * Real.exp (L * (t + m - x)) =
            Real.exp (L * m) * (ε * (t - x) * Real.exp (L * (t - x))) + ε * m * Real.exp (L * (t + m - x)) := by rw [e2]; ring
          linarith
        rcases r1 : RK4loop (fun t v => .ok (G t v)) xStop n (t + m) (y + rkInc G t y m) m with er | q1
        · rw [r1] at h1; cases h1
        rw [r1, Py.ok_bind] at h1
        have e1 := Except.ok.inj h1
        subst e1
        intro s hs
        rcases List.mem_cons.1 hs with rfl | hs
        · exact hd'
        · exact ih _ _ _ _ (by linarith) hm (by linarith) hd' r1 s hs
      · rw [RK4loop, if_neg ht] at h1
        have e1 := Except.ok.inj h1
        subst e1
        simp
  unfold RK4 at hl
  rcases r1 : RK4loop (fun t v => .ok (G t v)) xStop fuel x (sol x) h with er | q1
  · rw [r1] at hl; cases hl
  rw [r1, Py.ok_bind] at hl
  have e1 := Except.ok.inj hl
  subst e1
  have hs : ‖sol x - sol x‖ ≤ ε * (x - x) * Real.exp (L * (x - x)) := by simp
  intro s hs'
  rcases List.mem_cons.1 hs' with rfl | hs'
  · exact hs
  · exact key fuel x _ h q1 le_rfl hh le_rfl hs r1 s hs'

/-! ### Order four -/

set_option maxSynthPendingDepth 5 in
theorem smooth4_of_contDiff {H : E → E} (hH : ContDiff ℝ 4 H) {M : ℝ} (hM : ∀ k ≤ 4, ∀ p, ‖iteratedFDeriv ℝ k H p‖ ≤ M) :
    Smooth4 H (fderiv ℝ H) (fderiv ℝ (fderiv ℝ H)) (fderiv ℝ (fderiv ℝ (fderiv ℝ H))) (fderiv ℝ (fderiv ℝ (fderiv ℝ (fderiv ℝ H)))) M := by
  have h1 : ContDiff ℝ 3 (fderiv ℝ H) := hH.fderiv_right (by norm_num)
  have h2 : ContDiff ℝ 2 (fderiv ℝ (fderiv ℝ H)) := h1.fderiv_right (by norm_num)
  have h3 : ContDiff ℝ 1 (fderiv ℝ (fderiv ℝ (fderiv ℝ H))) := h2.fderiv_right (by norm_num)
  refine ⟨fun y => (hH.differentiable (by norm_num) y).hasFDerivAt, fun y => (h1.differentiable (by norm_num) y).hasFDerivAt,
    fun y => (h2.differentiable (by norm_num) y).hasFDerivAt, fun y => (h3.differentiable (by norm_num) y).hasFDerivAt, ?_, ?_, ?_, ?_, ?_⟩
  · intro y; rw [← norm_iteratedFDeriv_zero (𝕜 := ℝ)]; exact hM 0 (by norm_num) y
  · intro y; rw [← norm_iteratedFDeriv_zero (𝕜 := ℝ), norm_iteratedFDeriv_fderiv]; exact hM 1 (by norm_num) y
  · intro y; rw [← norm_iteratedFDeriv_zero (𝕜 := ℝ), norm_iteratedFDeriv_fderiv, norm_iteratedFDeriv_fderiv]; exact hM 2 (by norm_num) y
  · intro y
    rw [← norm_iteratedFDeriv_zero (𝕜 := ℝ), norm_iteratedFDeriv_fderiv, norm_iteratedFDeriv_fderiv, norm_iteratedFDeriv_fderiv]
    exact hM 3 (by norm_num) y
  · intro y
    rw [← norm_iteratedFDeriv_zero (𝕜 := ℝ), norm_iteratedFDeriv_fderiv, norm_iteratedFDeriv_fderiv, norm_iteratedFDeriv_fderiv,
      norm_iteratedFDeriv_fderiv]
    exact hM 4 (by norm_num) y

/-- the autonomous system with the time as additional unknown -/
def aug (G : ℝ × E → E) (p : ℝ × E) : ℝ × E := (1, G p)

theorem aug_bound {G : ℝ × E → E} (hG : ContDiff ℝ 4 G) {M : ℝ} (hM : ∀ k ≤ 4, ∀ p, ‖iteratedFDeriv ℝ k G p‖ ≤ M) :
    ∀ k ≤ 4, ∀ p, ‖iteratedFDeriv ℝ k (aug G) p‖ ≤ max 1 M := by
  intro k hk p
  have e : aug G = fun p => ((fun _ => (1:ℝ)) p, G p) := rfl
  rw [e, iteratedFDeriv_prodMk (n := 4) (contDiffAt_const) hG.contDiffAt (by exact_mod_cast hk), ContinuousMultilinearMap.opNorm_prod]
  refine max_le_max ?_ (hM k hk p)
  rcases k with _ | k
  · rw [norm_iteratedFDeriv_zero]; simp
  · rw [iteratedFDeriv_succ_const]; simp

theorem inc_aug (G : ℝ × E → E) (t : ℝ) (y : E) (h : ℝ) : inc (aug G) (t, y) h = (h, rkInc (fun t y => G (t, y)) t y h) := by
  unfold inc rkInc aug
  simp only [Prod.smul_mk, Prod.mk_add_mk, smul_eq_mul, mul_one, Prod.mk.injEq, and_true]
  ring

/-- the local error is of fifth order -/
theorem local_order {G : ℝ × E → E} (hG : ContDiff ℝ 4 G) {M : ℝ} (hM : ∀ k ≤ 4, ∀ p, ‖iteratedFDeriv ℝ k G p‖ ≤ M) :
    ∃ K, 0 ≤ K ∧ ∀ (sol : ℝ → E) (a b t k : ℝ), (∀ s ∈ Icc a b, HasDerivWithinAt sol (G (s, sol s)) (Icc a b) s) → a ≤ t → 0 ≤ k → k ≤ 1 → t + k ≤ b →
      ‖sol (t + k) - (sol t + rkInc (fun t y => G (t, y)) t (sol t) k)‖ ≤ K * k ^ 5 := by
  have hA : ContDiff ℝ 4 (aug G) := contDiff_const.prodMk hG
  obtain ⟨K, hK, h⟩ := (smooth4_of_contDiff hA (aug_bound hG hM)).local_error
  refine ⟨K, hK, fun sol a b t k hs hat hk hk1 hb => ?_⟩
  have key := h (fun s => (t + s, sol (t + s))) k hk hk1 (by
    intro s hs'
    have e1 : HasDerivWithinAt (fun s => t + s) 1 (Icc 0 k) s := ((hasDerivAt_id s).const_add t).hasDerivWithinAt
    have e2 : HasDerivWithinAt (fun s => sol (t + s)) (G (t + s, sol (t + s))) (Icc 0 k) s := by
      have := (hs (t + s) ⟨by linarith [hs'.1], by linarith [hs'.2]⟩).scomp s e1 (fun r hr => ⟨by linarith [hr.1], by linarith [hr.2]⟩)
      simpa [Function.comp_def] using this
    exact e1.prodMk e2)
  simp only [add_zero] at key
  rw [inc_aug] at key
  refine le_trans ?_ key
  exact norm_snd_le ((t + k, sol (t + k)) - ((t, sol t) + (k, rkInc (fun t y => G (t, y)) t (sol t) k)))

/-- C110, order 4: for every right-hand side that is four times continuously differentiable with bounded derivatives (any normed space), there is a
constant `K` such that every run of `RK4` started on an exact solution stays within `K h⁴ (t - x) exp (M (t - x))` of it at every sample,
for every interval and every step `h ≤ 1`. -/
theorem C110_order4 (G : ℝ × E → E) (hG : ContDiff ℝ 4 G) (M : ℝ) (hM : ∀ k ≤ 4, ∀ p, ‖iteratedFDeriv ℝ k G p‖ ≤ M) :
    ∃ K, 0 ≤ K ∧ ∀ (sol : ℝ → E) (x xStop h : ℝ), 0 < h → h ≤ 1 → x ≤ xStop →
      (∀ t ∈ Icc x xStop, HasDerivWithinAt sol (G (t, sol t)) (Icc x xStop) t) →
      ∀ (fuel : ℕ) (l : List (ℝ × E)), RK4 fuel (fun t y => .ok (G (t, y))) x (sol x) xStop h = .ok l →
        ∀ s ∈ l, ‖s.2 - sol s.1‖ ≤ K * h ^ 4 * (s.1 - x) * Real.exp (M * (s.1 - x)) := by
  obtain ⟨K, hK, hl⟩ := local_order hG hM
  have hM0 : 0 ≤ M := (norm_nonneg _).trans (hM 0 (by norm_num) 0)
  refine ⟨K, hK, fun sol x xStop h hh h1 hx hs fuel l hr => ?_⟩
  refine rk_convergence (G := fun t y => G (t, y)) hM0 ?_ (by positivity) ?_ hh hx hr
  · intro t y z
    have hd : ∀ p, ‖fderiv ℝ G p‖ ≤ M := fun p => by
      rw [← norm_iteratedFDeriv_zero (𝕜 := ℝ), norm_iteratedFDeriv_fderiv]; exact hM 1 (by norm_num) p
    have := Convex.norm_image_sub_le_of_norm_fderiv_le (𝕜 := ℝ) (s := univ) (fun p _ => hG.differentiable (by norm_num) p) (fun p _ => hd p) convex_univ
      (mem_univ (t, z)) (mem_univ (t, y))
    simpa [Prod.norm_def] using this
  · intro t k ht hk hkh htk
    refine (hl sol x xStop t k hs ht hk (by linarith) htk).trans ?_
    have : k ^ 4 ≤ h ^ 4 := pow_le_pow_left₀ hk hkh 4
    calc K * k ^ 5 = K * k * k ^ 4 := by ring
      _ ≤ K * k * h ^ 4 := by gcongr
      _ = K * h ^ 4 * k := by ring

/-- C110, linear systems `y' = A y` (their right-hand side is not bounded): fourth order, with an explicit constant. -/
theorem C110_linear (A : E →L[ℝ] E) (sol : ℝ → E) (x xStop h R : ℝ) (hh : 0 < h) (hx : x ≤ xStop)
    (hs : ∀ t ∈ Icc x xStop, HasDerivWithinAt sol (A (sol t)) (Icc x xStop) t) (hR : ∀ t ∈ Icc x xStop, ‖sol t‖ ≤ R) (fuel : ℕ)
    (l : List (ℝ × E)) (hr : RK4 fuel (fun _ y => .ok (A y)) x (sol x) xStop h = .ok l) :
    ∀ s ∈ l, ‖s.2 - sol s.1‖ ≤ ‖A‖ ^ 5 * R / 120 * h ^ 4 * (s.1 - x) * Real.exp (‖A‖ * (s.1 - x)) := by
  have hR0 : 0 ≤ R := (norm_nonneg _).trans (hR x ⟨le_rfl, hx⟩)
  refine rk_convergence (G := fun _ y => A y) (norm_nonneg A) (fun t y z => ?_) (by positivity) ?_ hh hx hr
  · rw [← map_sub]; exact A.le_opNorm _
  · intro t k ht hk hkh htk
    have hinc : rkInc (fun _ y => A y) t (sol t) k = k • A (sol t) + (k ^ 2 / 2) • A (A (sol t)) + (k ^ 3 / 6) • A (A (A (sol t))) +
        (k ^ 4 / 24) • A (A (A (A (sol t)))) := by
      have e1 := run_kut4_ok (fun _ y => A y) t (sol t) k
      have e2 := C31_linear A.toLinearMap t k (sol t)
      exact Except.ok.inj (e1.symm.trans e2)
    have e2 : ∀ s ∈ Icc 0 k, HasDerivWithinAt (fun s => sol (t + s)) (A (sol (t + s))) (Icc 0 k) s := by
      intro s hs'
      have e1 : HasDerivWithinAt (fun s => t + s) 1 (Icc 0 k) s := ((hasDerivAt_id s).const_add t).hasDerivWithinAt
      have := (hs (t + s) ⟨by linarith [hs'.1], by linarith [hs'.2]⟩).scomp s e1 (fun r hr => ⟨by linarith [hr.1], by linarith [hr.2]⟩)
      simpa [Function.comp_def] using this
    have hp : ∀ (n : ℕ), ∀ s ∈ Icc 0 k, HasDerivWithinAt (fun s => (A ^ n) (sol (t + s))) ((A ^ (n + 1)) (sol (t + s))) (Icc 0 k) s := by
      intro n s hs'
      have := (A ^ n).hasFDerivAt.comp_hasDerivWithinAt s (e2 s hs')
      rw [pow_succ]
      exact this
    have key := taylor_curve (h := k) (K := ‖A‖ ^ 5 * R) 5 (fun n s => (A ^ n) (sol (t + s))) (fun n _ => hp n) (fun s hs' => by
      refine ((A ^ 5).le_opNorm _).trans ?_
      have := norm_pow_le' A (show 0 < 5 by norm_num)
      have := hR (t + s) ⟨by linarith [hs'.1], by linarith [hs'.2]⟩
      gcongr) k ⟨hk, le_rfl⟩
    simp only [Finset.sum_range_succ, Finset.sum_range_zero, Nat.factorial, add_zero] at key
    norm_num at key
    rw [hinc]
    have hk4 : k ^ 4 ≤ h ^ 4 := pow_le_pow_left₀ hk hkh 4
    have hfin : ‖A‖ ^ 5 * R * k ^ 5 / 120 ≤ ‖A‖ ^ 5 * R / 120 * h ^ 4 * k := by
      calc ‖A‖ ^ 5 * R * k ^ 5 / 120 = ‖A‖ ^ 5 * R / 120 * k ^ 4 * k := by ring
        _ ≤ _ := by gcongr
    refine le_trans (le_of_eq ?_) (key.trans hfin)
    congr 1
    abel

/-- the hypotheses of the order theorem are met by a nonlinear, time-dependent equation (`y' = cos (t - y)`) and a non-constant solution -/
example : ∃ (G : ℝ × ℝ → ℝ) (M : ℝ) (sol : ℝ → ℝ), ContDiff ℝ 4 G ∧ (∀ k ≤ 4, ∀ p, ‖iteratedFDeriv ℝ k G p‖ ≤ M) ∧
    (∀ t, HasDerivAt sol (G (t, sol t)) t) ∧ sol 0 ≠ sol 1 := by
  let Λ : ℝ × ℝ →L[ℝ] ℝ := ContinuousLinearMap.fst ℝ ℝ ℝ - ContinuousLinearMap.snd ℝ ℝ ℝ
  have hΛ : ‖Λ‖ ≤ 2 := by
    refine Λ.opNorm_le_bound (by norm_num) fun p => ?_
    have h1 := norm_fst_le p
    have h2 := norm_snd_le p
    show ‖p.1 - p.2‖ ≤ _
    exact (norm_sub_le _ _).trans (by linarith)
  refine ⟨Real.cos ∘ Λ, 16, id, Real.contDiff_cos.comp Λ.contDiff, ?_, ?_, by norm_num⟩
  · intro k hk p
    rw [Λ.iteratedFDeriv_comp_right (n := 4) Real.contDiff_cos p (by exact_mod_cast hk)]
    refine (ContinuousMultilinearMap.norm_compContinuousLinearMap_le _ _).trans ?_
    have h1 : ‖iteratedFDeriv ℝ k Real.cos (Λ p)‖ ≤ 1 := by
      rw [norm_iteratedFDeriv_eq_norm_iteratedDeriv]
      rcases Nat.even_or_odd' k with ⟨c, rfl | rfl⟩
      · rw [Real.iteratedDeriv_even_cos]
        simpa using Real.abs_cos_le_one (Λ p)
      · rw [Real.iteratedDeriv_odd_cos]
        simpa using Real.abs_sin_le_one (Λ p)
    have h2 : ∏ i : Fin k, ‖Λ‖ ≤ 16 := by
      rw [Finset.prod_const, Finset.card_univ, Fintype.card_fin]
      calc ‖Λ‖ ^ k ≤ 2 ^ k := pow_le_pow_left₀ (norm_nonneg _) hΛ k
        _ ≤ 2 ^ 4 := pow_le_pow_right₀ (by norm_num) hk
        _ = 16 := by norm_num
    have h3 : 0 ≤ ∏ i : Fin k, ‖Λ‖ := Finset.prod_nonneg fun _ _ => norm_nonneg _
    have := norm_nonneg (iteratedFDeriv ℝ k Real.cos (Λ p))
    nlinarith
  · intro t
    have : (Real.cos ∘ Λ) (t, id t) = 1 := by simp [Λ]
    rw [this]
    exact hasDerivAt_id t

/-- and those of the linear theorem by a rotation, of which the solution is known -/
example : ∃ (A : ℝ × ℝ →L[ℝ] ℝ × ℝ) (sol : ℝ → ℝ × ℝ), (∀ t, HasDerivAt sol (A (sol t)) t) ∧ (∀ t, ‖sol t‖ ≤ 1) ∧ sol 0 = (1, 0) := by
  refine ⟨(-ContinuousLinearMap.snd ℝ ℝ ℝ).prod (ContinuousLinearMap.fst ℝ ℝ ℝ), fun t => (Real.cos t, Real.sin t), fun t => ?_, fun t => ?_, by simp⟩
  · exact (Real.hasDerivAt_cos t).prodMk (Real.hasDerivAt_sin t)
  · rw [Prod.norm_def]
    exact max_le (Real.abs_cos_le_one t) (Real.abs_sin_le_one t)

end Aerokit.Props
