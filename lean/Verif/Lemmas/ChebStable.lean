import Mathlib.Analysis.SpecialFunctions.Trigonometric.Chebyshev.Basic
import Mathlib.Analysis.SpecialFunctions.Complex.Log
import Mathlib.Analysis.Complex.Polynomial.Basic
import Mathlib.Algebra.Polynomial.Sequence
import Mathlib.LinearAlgebra.Lagrange
import Mathlib.Tactic.LinearCombination

/-!
# Stability of the derivative on Chebyshev-Lobatto points

`f = U_(N-1)` vanishes at the interior points `cos (j π / N)`.  The polynomial `P(μ) = ∑ μ^k f^(k)(1)` has all its roots
in the left half plane: energy identity of the weight `sqrt(1 - x²)`, written with discrete sums over the `2 N` angles.
-/

namespace Aerokit.ChebStable
open Polynomial Finset

/-- the angles -/
noncomputable def ang (N j : ℕ) : ℝ := j * Real.pi / N

/-- sums of cosines over the angles vanish -/
theorem sum_cos {N : ℕ} (hN : 0 < N) {m : ℤ} (h0 : m ≠ 0) (h1 : |m| < 2 * N) :
    ∑ j ∈ range (2 * N), Complex.cos (m * ang N j) = 0 := by
  have hNC : (N:ℂ) ≠ 0 := by exact_mod_cast hN.ne'
  have key : ∀ k : ℤ, k ≠ 0 → |k| < 2 * N → ∑ j ∈ range (2 * N), Complex.exp (k * ang N j * Complex.I) = 0 := by
    intro k hk0 hk1
    obtain ⟨x, hx⟩ : ∃ x, x = Complex.exp (k * Real.pi / N * Complex.I) := ⟨_, rfl⟩
    have he : ∀ j : ℕ, Complex.exp (k * ang N j * Complex.I) = x ^ j := by
      intro j
      rw [hx, ← Complex.exp_nat_mul]
      congr 1
      unfold ang
      push_cast
      field_simp
    simp only [he]
    have hx1 : x ≠ 1 := by
      rw [hx]
      intro h
      obtain ⟨n, hn⟩ := Complex.exp_eq_one_iff.1 h
      have hpi : (Real.pi : ℂ) ≠ 0 := by exact_mod_cast Real.pi_ne_zero
      have : (k:ℂ) = n * (2 * N) := by
        field_simp at hn
        have hI := Complex.I_ne_zero
        linear_combination hn
      have hz : k = n * (2 * N) := by exact_mod_cast this
      rw [hz, abs_mul] at hk1
      have hn0 : n ≠ 0 := by rintro rfl; simp at hz; exact hk0 hz
      have : (1:ℤ) ≤ |n| := Int.one_le_abs hn0
      have h2 : |(2 * (N:ℤ))| = 2 * N := abs_of_nonneg (by positivity)
      rw [h2] at hk1
      have hp : (0:ℤ) < 2 * N := by positivity
      nlinarith
    have hxp : x ^ (2 * N) = 1 := by
      rw [hx, ← Complex.exp_nat_mul, Complex.exp_eq_one_iff]
      refine ⟨k, ?_⟩
      push_cast
      field_simp
    have := mul_neg_geom_sum x (2 * N)
    rw [hxp, sub_self] at this
    rcases mul_eq_zero.1 this with h | h
    · exact absurd (sub_eq_zero.1 h).symm hx1
    · exact h
  simp only [Complex.cos]
  rw [← Finset.sum_div, Finset.sum_add_distrib, key m h0 h1]
  have h2 := key (-m) (neg_ne_zero.2 h0) (by rwa [abs_neg])
  push_cast at h2
  simp only [neg_mul] at h2 ⊢
  rw [h2]
  simp

/-- the discrete integral of the derivative of `sin θ (1 - cos θ) q(cos θ)` -/
noncomputable def lam (N : ℕ) (q : ℂ[X]) : ℂ := ∑ j ∈ range (2 * N),
  ((Complex.cos (ang N j) - Complex.cos (2 * ang N j)) * q.eval (Complex.cos (ang N j))
    - Complex.sin (ang N j) ^ 2 * (1 - Complex.cos (ang N j)) * (derivative q).eval (Complex.cos (ang N j)))

theorem lam_T {N k : ℕ} (hN : 0 < N) (hk : k + 3 < 2 * N) : lam N (Chebyshev.T ℂ k) = 0 := by
  have term : ∀ t : ℂ, (Complex.cos t - Complex.cos (2 * t)) * (Chebyshev.T ℂ k).eval (Complex.cos t)
      - Complex.sin t ^ 2 * (1 - Complex.cos t) * (derivative (Chebyshev.T ℂ k)).eval (Complex.cos t)
      = (1 / 2 + (k:ℂ) / 2) * Complex.cos (((k + 1 : ℤ) : ℂ) * t) + (1 / 2 - (k:ℂ) / 2) * Complex.cos (((k - 1 : ℤ) : ℂ) * t)
        - (1 / 2 + (k:ℂ) / 4) * Complex.cos (((k + 2 : ℤ) : ℂ) * t) - (1 / 2 - (k:ℂ) / 4) * Complex.cos (((k - 2 : ℤ) : ℂ) * t) := by
    intro t
    rw [Chebyshev.T_derivative_eq_U]
    have hT := Chebyshev.T_complex_cos t (k:ℤ)
    have hU := Chebyshev.U_complex_cos t ((k:ℤ) - 1)
    push_cast at hT hU ⊢
    rw [show ((k:ℂ) - 1 + 1) * t = k * t by ring] at hU
    rw [hT]
    simp only [eval_mul, eval_natCast]
    rw [show ((k:ℂ) + 1) * t = k * t + t by ring, show ((k:ℂ) - 1) * t = k * t - t by ring,
      show ((k:ℂ) + 2) * t = k * t + 2 * t by ring, show ((k:ℂ) - 2) * t = k * t - 2 * t by ring,
      Complex.cos_add, Complex.cos_sub, Complex.cos_add, Complex.cos_sub, Complex.sin_two_mul, Complex.cos_two_mul]
    have h1 := Complex.sin_sq_add_cos_sq t
    obtain ⟨u, hu⟩ : ∃ u, u = (Chebyshev.U ℂ ((k:ℤ) - 1)).eval (Complex.cos t) := ⟨_, rfl⟩
    rw [← hu] at hU ⊢
    obtain ⟨s, hs⟩ : ∃ s, s = Complex.sin t := ⟨_, rfl⟩
    obtain ⟨c, hc⟩ : ∃ c, c = Complex.cos t := ⟨_, rfl⟩
    rw [← hs] at hU
    rw [← hs, ← hc]
    linear_combination (-(k:ℂ) * s * (1 - c)) * hU
  unfold lam
  rw [Finset.sum_congr rfl (fun j _ => term (ang N j))]
  simp only [Finset.sum_sub_distrib, Finset.sum_add_distrib, ← Finset.mul_sum]
  have z : ∀ m : ℤ, m ≠ 0 → |m| < 2 * N → ∑ j ∈ range (2 * N), Complex.cos ((m:ℂ) * ang N j) = 0 := fun m => sum_cos hN
  rw [z (k + 1) (by omega) (by rw [abs_of_nonneg] <;> omega), z (k + 2) (by omega) (by rw [abs_of_nonneg] <;> omega)]
  by_cases h1 : k = 1
  · subst h1
    rw [z ((1:ℕ) - 2) (by norm_num) (by norm_num; omega)]
    push_cast; ring
  by_cases h2 : k = 2
  · subst h2
    rw [z ((2:ℕ) - 1) (by norm_num) (by norm_num; omega)]
    push_cast; ring
  rw [z (k - 1) (by omega) (by rw [abs_lt]; constructor <;> omega), z (k - 2) (by omega) (by rw [abs_lt]; constructor <;> omega)]
  ring

theorem lam_zero {N : ℕ} (hN : 0 < N) (q : ℂ[X]) (hq : q.degree < (2 * N - 3 : ℕ)) : lam N q = 0 := by
  let L : ℂ[X] →ₗ[ℂ] ℂ :=
    { toFun := lam N
      map_add' := by
        intro p q; unfold lam; rw [← Finset.sum_add_distrib]
        exact Finset.sum_congr rfl fun j _ => by rw [derivative_add, eval_add, eval_add]; ring
      map_smul' := by
        intro c p; unfold lam; simp only [RingHom.id_apply]; rw [Finset.smul_sum]
        exact Finset.sum_congr rfl fun j _ => by rw [derivative_smul, eval_smul, eval_smul]; simp only [smul_eq_mul]; ring }
  have hspan := (Chebyshev.chebyshevTsequence ℂ).span_degreeLT (m := 2 * N - 3)
    (fun i _ => by
      rw [isUnit_iff_ne_zero]
      exact leadingCoeff_ne_zero.2 ((Chebyshev.chebyshevTsequence ℂ).ne_zero i))
  have hm : q ∈ degreeLT ℂ (2 * N - 3) := mem_degreeLT.2 hq
  rw [← hspan] at hm
  have : ∀ p ∈ Submodule.span ℂ ((Chebyshev.chebyshevTsequence ℂ) '' Set.Iio (2 * N - 3)), L p = 0 := by
    intro p hp
    induction hp using Submodule.span_induction with
    | mem x hx =>
      obtain ⟨k, hk, rfl⟩ := hx
      have hk' : k < 2 * N - 3 := hk
      exact lam_T hN (by omega)
    | zero => exact map_zero L
    | add x y _ _ hx hy => rw [map_add, hx, hy, add_zero]
    | smul c x _ hx => rw [map_smul, hx, smul_zero]
  exact this q hm

/-! ### the series `∑ μ^k f^(k)` -/

theorem deg_C_mul (c : ℂ) (p : ℂ[X]) : (C c * p).degree ≤ p.degree := by
  rw [← smul_eq_C_mul]; exact degree_smul_le _ _

/-- `∑_(k<N) μ^k f^(k)` -/
noncomputable def ser (N : ℕ) (μ : ℂ) (f : ℂ[X]) : ℂ[X] := ∑ k ∈ range N, C (μ ^ k) * derivative^[k] f

theorem ser_eq {N : ℕ} (μ : ℂ) {f : ℂ[X]} (hf : f.degree < N) : ser N μ f - C μ * derivative (ser N μ f) = f := by
  have hz : derivative^[N] f = 0 := by
    by_cases h : f = 0
    · rw [h, iterate_derivative_zero]
    · exact iterate_derivative_eq_zero ((natDegree_lt_iff_degree_lt h).2 hf)
  have key : ∀ M : ℕ, ser M μ f - C μ * derivative (ser M μ f) = f - C (μ ^ M) * derivative^[M] f := by
    intro M
    induction M with
    | zero => simp [ser]
    | succ M ih =>
      have : ser (M + 1) μ f = ser M μ f + C (μ ^ M) * derivative^[M] f := by unfold ser; rw [Finset.sum_range_succ]
      rw [this, derivative_add, derivative_C_mul, ← Function.iterate_succ_apply' derivative, pow_succ, C_mul]
      linear_combination ih
  rw [key, hz]; simp

theorem ser_degree {N : ℕ} (μ : ℂ) {f : ℂ[X]} (hf : f.degree < N) : (ser N μ f).degree < N := by
  rw [← mem_degreeLT]
  refine Submodule.sum_mem _ fun k hk => ?_
  clear hk
  rw [mem_degreeLT]
  have h1 : (C (μ ^ k) * derivative^[k] f).degree ≤ f.degree := by
    refine (deg_C_mul _ _).trans ?_
    induction k with
    | zero => exact le_rfl
    | succ k ih => rw [Function.iterate_succ_apply']; exact (degree_derivative_le).trans ih
  exact h1.trans_lt hf

/-- a polynomial equal to a multiple of its derivative vanishes -/
theorem eq_zero_of_smul_deriv {μ : ℂ} {p : ℂ[X]} (h : p = C μ * derivative p) : p = 0 := by
  by_contra hp
  by_cases hd : p.natDegree = 0
  · obtain ⟨c, rfl⟩ := natDegree_eq_zero.1 hd
    rw [derivative_C, mul_zero] at h; exact hp h
  · have h1 : (derivative p).degree < p.degree := degree_derivative_lt hp
    have h2 : p.degree ≤ (derivative p).degree := by
      conv_lhs => rw [h]
      exact deg_C_mul _ _
    exact absurd h2 (not_le.2 h1)

/-! ### the polynomial `U_(N-1)` -/

/-- the polynomial that vanishes at the interior points -/
noncomputable def ff (N : ℕ) : ℂ[X] := Chebyshev.U ℂ ((N - 1 : ℕ) : ℤ)

theorem ff_degree {N : ℕ} (hN : 0 < N) : (ff N).degree = (N - 1 : ℕ) := Chebyshev.degree_U_natCast _ _

theorem ff_lt {N : ℕ} (hN : 0 < N) : (ff N).degree < N := by
  rw [ff_degree hN]; exact_mod_cast Nat.sub_lt hN one_pos

theorem ff_sin {N : ℕ} (hN : 0 < N) (t : ℂ) : (ff N).eval (Complex.cos t) * Complex.sin t = Complex.sin (N * t) := by
  have h := Chebyshev.U_complex_cos t ((N - 1 : ℕ) : ℤ)
  rw [ff, h]
  congr 2
  have : ((N - 1 : ℕ) : ℂ) + 1 = N := by
    rw [Nat.cast_sub hN]; push_cast; ring
  exact_mod_cast this

theorem ff_node {N : ℕ} (hN : 0 < N) (j : ℕ) :
    Complex.sin (ang N j) * (ff N).eval (Complex.cos (ang N j)) = 0 := by
  rw [mul_comm, ff_sin hN]
  have : ((N:ℂ) * (ang N j : ℝ)) = ((j * Real.pi : ℝ) : ℂ) := by
    unfold ang
    have : (N:ℂ) ≠ 0 := by exact_mod_cast hN.ne'
    push_cast
    field_simp
  rw [this, ← Complex.ofReal_sin, Real.sin_nat_mul_pi]; simp

theorem ff_one {N : ℕ} (hN : 0 < N) : (ff N).eval 1 = N := by
  rw [ff, Chebyshev.U_eval_one]
  rw [Int.cast_natCast, Nat.cast_sub hN]; push_cast; ring

/-- the conjugate polynomial -/
noncomputable def cj (p : ℂ[X]) : ℂ[X] := p.map (starRingEnd ℂ)

theorem cj_eval (p : ℂ[X]) (x : ℝ) : (cj p).eval (x:ℂ) = (starRingEnd ℂ) (p.eval (x:ℂ)) := by
  have h := eval_map_apply (p := p) (starRingEnd ℂ) (x:ℂ)
  rw [Complex.conj_ofReal] at h
  exact h

theorem cj_deriv (p : ℂ[X]) : derivative (cj p) = cj (derivative p) := derivative_map _ _

theorem cj_degree (p : ℂ[X]) : (cj p).degree = p.degree := degree_map _ _

theorem ang_lt {N i j : ℕ} (hN : 0 < N) (hij : i < j) (hj : j ≤ N) :
    Real.cos (ang N j) < Real.cos (ang N i) := by
  have hNr : (0:ℝ) < N := by exact_mod_cast hN
  have hpi := Real.pi_pos
  refine Real.cos_lt_cos_of_nonneg_of_le_pi ?_ ?_ ?_
  · unfold ang; positivity
  · unfold ang
    rw [div_le_iff₀ hNr]
    have : (j:ℝ) ≤ N := by exact_mod_cast hj
    nlinarith
  · unfold ang
    have : (i:ℝ) < j := by exact_mod_cast hij
    exact div_lt_div_of_pos_right (by nlinarith) hNr

/-- a non-zero polynomial of degree below `N` does not vanish at all of `cos (j π / N)`, `1 ≤ j ≤ N` -/
theorem some_ne {N : ℕ} (hN : 0 < N) {h : ℂ[X]} (hd : h.degree < N) (h0 : h ≠ 0) :
    ∃ j, 1 ≤ j ∧ j ≤ N ∧ h.eval (Complex.cos (ang N j)) ≠ 0 := by
  by_contra hcon
  push Not at hcon
  apply h0
  refine eq_zero_of_degree_lt_of_eval_finset_eq_zero
    ((Finset.Icc 1 N).image fun j => Complex.cos (ang N j)) ?_ ?_
  · rw [Finset.card_image_of_injOn]
    · simpa using hd
    · intro i hi j hj hij
      have hi' := Finset.mem_Icc.1 (Finset.mem_coe.1 hi)
      have hj' := Finset.mem_Icc.1 (Finset.mem_coe.1 hj)
      have e : Real.cos (ang N i) = Real.cos (ang N j) := by
        have : ((Real.cos (ang N i) : ℝ) : ℂ) = ((Real.cos (ang N j) : ℝ) : ℂ) := by
          rw [Complex.ofReal_cos, Complex.ofReal_cos]; exact hij
        exact_mod_cast this
      rcases lt_trichotomy i j with h | h | h
      · exact absurd e (ang_lt hN h hj'.2).ne'
      · exact h
      · exact absurd e (ang_lt hN h hi'.2).ne
  · intro x hx
    obtain ⟨j, hj, rfl⟩ := Finset.mem_image.1 hx
    have := Finset.mem_Icc.1 hj
    exact hcon j this.1 this.2

/-- the roots of `∑ μ^k f^(k)(1)` are in the left half plane -/
theorem hurwitz {N : ℕ} (hN : 2 ≤ N) {μ : ℂ} (h : (ser N μ (ff N)).eval 1 = 0) : μ.re < 0 := by
  have hN0 : 0 < N := by omega
  obtain ⟨g, hg⟩ : ∃ g, g = ser N μ (ff N) := ⟨_, rfl⟩
  have heq : g - C μ * derivative g = ff N := by rw [hg]; exact ser_eq μ (ff_lt hN0)
  have hgd : g.degree < N := by rw [hg]; exact ser_degree μ (ff_lt hN0)
  rw [← hg] at h
  obtain ⟨q, hq⟩ := dvd_iff_isRoot.2 h
  obtain ⟨k, hk⟩ : ∃ k, k = -q := ⟨_, rfl⟩
  have hgk : g = (1 - X) * k := by rw [hq, hk, C_1]; ring
  have hf0 : ff N ≠ 0 := by
    intro h0
    have := ff_one hN0
    rw [h0, eval_zero] at this
    exact hN0.ne' (by exact_mod_cast this.symm)
  have hk0 : k ≠ 0 := by
    rintro h0
    rw [h0, mul_zero] at hgk
    rw [hgk] at heq
    simp at heq
    exact hf0 heq.symm
  have hkd : k.natDegree + 1 < N := by
    have h1 : g.natDegree = k.natDegree + 1 := by
      rw [hgk, natDegree_mul (by
        intro h0
        have := congrArg (eval 0) h0
        simp at this) hk0]
      have : (1 - X : ℂ[X]).natDegree = 1 := by
        rw [show (1 - X : ℂ[X]) = -(X - C 1) by rw [C_1]; ring, natDegree_neg, natDegree_X_sub_C]
      omega
    have hg0 : g ≠ 0 := by
      rw [hgk]; exact mul_ne_zero (by intro h0; have := congrArg (eval 0) h0; simp at this) hk0
    have := (natDegree_lt_iff_degree_lt hg0).2 hgd
    omega
  -- the energy
  have hQd : (k * cj k).degree < ((2 * N - 3 : ℕ) : WithBot ℕ) := by
    have hc0 : cj k ≠ 0 := by
      intro h0
      exact hk0 ((Polynomial.map_eq_zero _).1 h0)
    rw [← natDegree_lt_iff_degree_lt (mul_ne_zero hk0 hc0), natDegree_mul hk0 hc0]
    have : (cj k).natDegree = k.natDegree := natDegree_map _
    omega
  have hL := lam_zero hN0 (k * cj k) hQd
  -- values at the angles
  obtain ⟨x, hx⟩ : ∃ x : ℕ → ℝ, x = fun j => Real.cos (ang N j) := ⟨_, rfl⟩
  obtain ⟨s, hs⟩ : ∃ s : ℕ → ℝ, s = fun j => Real.sin (ang N j) := ⟨_, rfl⟩
  have hxc : ∀ j, Complex.cos (ang N j) = (x j : ℂ) := fun j => by rw [hx]; exact (Complex.ofReal_cos _).symm
  have hsc : ∀ j, Complex.sin (ang N j) = (s j : ℂ) := fun j => by rw [hs]; exact (Complex.ofReal_sin _).symm
  have hsx : ∀ j, s j ^ 2 = 1 - x j ^ 2 := fun j => by
    rw [hs, hx]; simp only []; rw [Real.sin_sq]
  obtain ⟨K, hK⟩ : ∃ K : ℕ → ℂ, K = fun j => k.eval (x j : ℂ) := ⟨_, rfl⟩
  obtain ⟨K', hK'⟩ : ∃ K' : ℕ → ℂ, K' = fun j => (derivative k).eval (x j : ℂ) := ⟨_, rfl⟩
  -- equation at the angles
  have hpt : ∀ j, ((s j ^ 2 * (1 - x j) : ℝ) : ℂ) * K j = μ * ((s j ^ 2 : ℝ) * (-K j + (1 - x j : ℝ) * K' j)) := by
    intro j
    have h1 := ff_node hN0 j
    rw [hxc, hsc, ← heq, hgk] at h1
    simp only [derivative_mul, derivative_sub, derivative_one, derivative_X, eval_sub, eval_mul, eval_add, eval_one, eval_X, eval_C,
      zero_sub, neg_mul, one_mul, eval_neg] at h1
    rw [hK, hK']
    simp only []
    push_cast
    linear_combination (s j : ℂ) * h1
  have hq1 : ∀ j, (k * cj k).eval (x j : ℂ) = ((Complex.normSq (K j) : ℝ) : ℂ) := by
    intro j
    rw [eval_mul, cj_eval, Complex.mul_conj, hK]
  have hq2 : ∀ j, (derivative (k * cj k)).eval (x j : ℂ) = ((2 * (K' j * (starRingEnd ℂ) (K j)).re : ℝ) : ℂ) := by
    intro j
    rw [derivative_mul, cj_deriv, eval_add, eval_mul, eval_mul, cj_eval, cj_eval, hK, hK']
    simp only []
    apply Complex.ext
    · simp [Complex.mul_re]; ring
    · simp [Complex.mul_im]; ring
  obtain ⟨B, hB⟩ : ∃ B : ℂ, B = ∑ j ∈ range (2 * N), ((s j ^ 2 : ℝ) * (-K j + (1 - x j : ℝ) * K' j)) * (starRingEnd ℂ) (K j) := ⟨_, rfl⟩
  obtain ⟨A, hA⟩ : ∃ A : ℝ, A = ∑ j ∈ range (2 * N), s j ^ 2 * (1 - x j) * Complex.normSq (K j) := ⟨_, rfl⟩
  obtain ⟨M, hM⟩ : ∃ M : ℝ, M = ∑ j ∈ range (2 * N), (1 - x j) * Complex.normSq (K j) := ⟨_, rfl⟩
  have hAB : (A : ℂ) = μ * B := by
    rw [hA, hB, Finset.mul_sum, Complex.ofReal_sum]
    refine Finset.sum_congr rfl fun j _ => ?_
    rw [Complex.ofReal_mul, ← Complex.mul_conj, ← mul_assoc, hpt]; ring
  have hBre : B.re = -(1 / 2) * M := by
    have hl : (lam N (k * cj k)).re = ∑ j ∈ range (2 * N), ((x j - (2 * x j ^ 2 - 1)) * Complex.normSq (K j)
        - s j ^ 2 * (1 - x j) * (2 * (K' j * (starRingEnd ℂ) (K j)).re)) := by
      unfold lam
      rw [Complex.re_sum]
      refine Finset.sum_congr rfl fun j _ => ?_
      rw [Complex.cos_two_mul, hxc, hsc, hq1, hq2]
      rw [← Complex.ofReal_re ((x j - (2 * x j ^ 2 - 1)) * Complex.normSq (K j)
        - s j ^ 2 * (1 - x j) * (2 * (K' j * (starRingEnd ℂ) (K j)).re))]
      congr 1
      push_cast
      ring
    rw [hL, Complex.zero_re] at hl
    have hb : B.re = ∑ j ∈ range (2 * N), (s j ^ 2 * (-Complex.normSq (K j)) + s j ^ 2 * (1 - x j) * (K' j * (starRingEnd ℂ) (K j)).re) := by
      rw [hB, Complex.re_sum]
      refine Finset.sum_congr rfl fun j _ => ?_
      have : ((s j ^ 2 : ℝ) * (-K j + (1 - x j : ℝ) * K' j)) * (starRingEnd ℂ) (K j)
          = ((s j ^ 2 * (-Complex.normSq (K j)) : ℝ) : ℂ) + ((s j ^ 2 * (1 - x j) : ℝ) : ℂ) * (K' j * (starRingEnd ℂ) (K j)) := by
        have e := Complex.mul_conj (K j)
        push_cast at e ⊢
        linear_combination (-(s j : ℂ) ^ 2) * e
      rw [this, Complex.add_re, Complex.ofReal_re, Complex.re_ofReal_mul]
    rw [hb, hM, Finset.mul_sum]
    have h2 : ∑ j ∈ range (2 * N), (s j ^ 2 * (-Complex.normSq (K j)) + s j ^ 2 * (1 - x j) * (K' j * (starRingEnd ℂ) (K j)).re)
        - ∑ j ∈ range (2 * N), -(1 / 2) * ((1 - x j) * Complex.normSq (K j))
        = -(1 / 2) * ∑ j ∈ range (2 * N), ((x j - (2 * x j ^ 2 - 1)) * Complex.normSq (K j)
        - s j ^ 2 * (1 - x j) * (2 * (K' j * (starRingEnd ℂ) (K j)).re)) := by
      rw [Finset.mul_sum, ← Finset.sum_sub_distrib]
      refine Finset.sum_congr rfl fun j _ => ?_
      rw [hsx]; ring
    rw [← hl] at h2
    linarith
  have hx1 : ∀ j, 0 ≤ 1 - x j := fun j => by rw [hx]; linarith [Real.cos_le_one (ang N j)]
  have hMpos : 0 < M := by
    have hkdeg : k.degree < (N : WithBot ℕ) := by
      rw [← natDegree_lt_iff_degree_lt hk0]; omega
    obtain ⟨j, hj1, hj2, hj⟩ := some_ne hN0 hkdeg hk0
    rw [hM]
    refine Finset.sum_pos' (fun i _ => mul_nonneg (hx1 i) (Complex.normSq_nonneg _)) ⟨j, Finset.mem_range.2 (by omega), ?_⟩
    have h1 : x j < 1 := by
      have := ang_lt hN0 (show 0 < j by omega) hj2
      rw [hx]
      simpa [ang] using this
    refine mul_pos (by linarith) (Complex.normSq_pos.2 ?_)
    rw [hK]; simp only []; rw [← hxc]; exact hj
  have hAn : 0 ≤ A := by
    rw [hA]
    exact Finset.sum_nonneg fun j _ => mul_nonneg (mul_nonneg (sq_nonneg _) (hx1 j)) (Complex.normSq_nonneg _)
  have hμ0 : μ ≠ 0 := by
    rintro rfl
    rw [C_0, zero_mul, sub_zero] at heq
    rw [heq] at h
    have h2 := ff_one hN0
    rw [h] at h2
    exact hN0.ne' (by exact_mod_cast h2.symm)
  have hB0 : B ≠ 0 := by
    intro h0; rw [h0, Complex.zero_re] at hBre; nlinarith
  have hA0 : A ≠ 0 := by
    intro h0
    rw [h0, Complex.ofReal_zero] at hAB
    rcases mul_eq_zero.1 hAB.symm with h' | h'
    · exact hμ0 h'
    · exact hB0 h'
  have hApos : 0 < A := lt_of_le_of_ne hAn (Ne.symm hA0)
  have hm : μ = A * (starRingEnd ℂ) B / (Complex.normSq B : ℝ) := by
    rw [eq_div_iff (by exact_mod_cast (Complex.normSq_pos.2 hB0).ne'), ← Complex.mul_conj, hAB]; ring
  have hre : μ.re = A * B.re / Complex.normSq B := by
    rw [hm, Complex.div_ofReal_re, Complex.re_ofReal_mul, Complex.conj_re]
  rw [hre, hBre]
  have := Complex.normSq_pos.2 hB0
  exact div_neg_of_neg_of_pos (by nlinarith) this


/-! ### reflection of the argument -/

theorem prod_reflect {μ : ℂ} (hμ : 0 < μ.re) (s : Multiset ℂ) (hs : ∀ ρ ∈ s, ρ.re < 0) :
    (s.map fun ρ => Complex.normSq (-(starRingEnd ℂ) μ - ρ)).prod ≤ (s.map fun ρ => Complex.normSq (μ - ρ)).prod ∧
    0 ≤ (s.map fun ρ => Complex.normSq (-(starRingEnd ℂ) μ - ρ)).prod ∧
    0 < (s.map fun ρ => Complex.normSq (μ - ρ)).prod ∧
    (s ≠ 0 → (s.map fun ρ => Complex.normSq (-(starRingEnd ℂ) μ - ρ)).prod < (s.map fun ρ => Complex.normSq (μ - ρ)).prod) := by
  induction s using Multiset.induction_on with
  | empty => simp
  | cons ρ s ih =>
    obtain ⟨h1, h2, h3, -⟩ := ih fun r hr => hs r (Multiset.mem_cons_of_mem hr)
    have hρ := hs ρ (Multiset.mem_cons_self ρ s)
    simp only [Multiset.map_cons, Multiset.prod_cons]
    have hlt : Complex.normSq (-(starRingEnd ℂ) μ - ρ) < Complex.normSq (μ - ρ) := by
      rw [Complex.normSq_apply, Complex.normSq_apply]
      simp only [Complex.sub_re, Complex.sub_im, Complex.neg_re, Complex.neg_im, Complex.conj_re, Complex.conj_im, neg_neg]
      nlinarith [mul_pos hμ (neg_pos.2 hρ)]
    have hn := Complex.normSq_nonneg (-(starRingEnd ℂ) μ - ρ)
    have hst := (mul_le_mul_of_nonneg_left h1 hn).trans_lt (mul_lt_mul_of_pos_right hlt h3)
    exact ⟨hst.le, mul_nonneg hn h2, mul_pos (hn.trans_lt hlt) h3, fun _ => hst⟩

/-- a real polynomial with its roots in the left half plane takes equal values at `μ` and `-μ` on the imaginary axis only -/
theorem reflect_re {P : ℂ[X]} (hP : cj P = P) (hdeg : P.natDegree ≠ 0) (hroot : ∀ ρ, P.eval ρ = 0 → ρ.re < 0) {μ : ℂ}
    (h : P.eval μ = P.eval (-μ)) : μ.re = 0 := by
  have hP0 : P ≠ 0 := by rintro rfl; simp at hdeg
  have hconj : ∀ z, P.eval ((starRingEnd ℂ) z) = (starRingEnd ℂ) (P.eval z) := by
    intro z
    have := eval_map_apply (p := P) (starRingEnd ℂ) z
    rw [← this]
    conv_lhs => rw [← hP]
    rfl
  have hsp := IsAlgClosed.splits P
  have hev : ∀ z, Complex.normSq (P.eval z) = Complex.normSq P.leadingCoeff * (P.roots.map fun ρ => Complex.normSq (z - ρ)).prod := by
    intro z
    conv_lhs => rw [hsp.eq_prod_roots]
    rw [eval_mul, eval_C, map_mul, eval_multiset_prod, Multiset.map_map, map_multiset_prod, Multiset.map_map]
    congr 2
    refine Multiset.map_congr rfl fun ρ _ => ?_
    simp
  have hr0 : P.roots ≠ 0 := by
    intro h0
    apply hdeg
    rw [hsp.natDegree_eq_card_roots, h0]; rfl
  have hneg : ∀ ν : ℂ, P.eval ν = P.eval (-ν) → ¬ 0 < ν.re := by
    intro ν hν hpos
    obtain ⟨-, -, -, h4⟩ := prod_reflect hpos P.roots fun ρ hρ => hroot ρ (isRoot_of_mem_roots hρ)
    have h5 := mul_lt_mul_of_pos_left (h4 hr0) (Complex.normSq_pos.2 (leadingCoeff_ne_zero.2 hP0))
    rw [← hev, ← hev, ← map_neg, hconj, ← hν, Complex.normSq_conj] at h5
    exact lt_irrefl _ h5
  have h1 := hneg μ h
  have h2 := hneg (-μ) (by rw [neg_neg, h])
  rw [Complex.neg_re] at h2
  linarith

/-- `∑ μ^k f^(k)(1)`, polynomial in `μ` -/
noncomputable def PP (N : ℕ) : ℂ[X] := ∑ k ∈ range N, C ((derivative^[k] (ff N)).eval 1) * X ^ k

theorem PP_eval (N : ℕ) (μ : ℂ) : (PP N).eval μ = (ser N μ (ff N)).eval 1 := by
  unfold PP ser
  rw [eval_finset_sum, eval_finset_sum]
  refine Finset.sum_congr rfl fun k _ => ?_
  rw [eval_mul, eval_mul, eval_C, eval_C, eval_pow, eval_X, mul_comm]

theorem cj_ff (N : ℕ) : cj (ff N) = ff N := Chebyshev.map_U _ _

theorem cj_iter (p : ℂ[X]) (k : ℕ) : cj (derivative^[k] p) = derivative^[k] (cj p) := by
  induction k with
  | zero => rfl
  | succ k ih => rw [Function.iterate_succ_apply', Function.iterate_succ_apply', ← cj_deriv, ih]

theorem PP_cj (N : ℕ) : cj (PP N) = PP N := by
  unfold PP cj
  rw [Polynomial.map_sum]
  refine Finset.sum_congr rfl fun k _ => ?_
  rw [Polynomial.map_mul, map_C, Polynomial.map_pow, map_X]
  congr 2
  have h := cj_eval (derivative^[k] (ff N)) 1
  rw [cj_iter, cj_ff, Complex.ofReal_one] at h
  exact h.symm

theorem ff_deriv_one {N : ℕ} (hN : 2 ≤ N) : (derivative (ff N)).eval 1 ≠ 0 := by
  intro h
  have h1 := Chebyshev.derivative_U_eval_one (R := ℂ) ((N - 1 : ℕ) : ℤ)
  have h2 : (derivative (Chebyshev.U ℂ ((N - 1 : ℕ) : ℤ))).eval 1 = 0 := h
  rw [h2, mul_zero] at h1
  have h3 : (((N - 1 : ℕ) : ℤ) + 2) * (((N - 1 : ℕ) : ℤ) + 1) * ((N - 1 : ℕ) : ℤ) = 0 := by exact_mod_cast h1.symm
  have h4 : (0:ℤ) < ((N - 1 : ℕ) : ℤ) := by omega
  have : (0:ℤ) < (((N - 1 : ℕ) : ℤ) + 2) * (((N - 1 : ℕ) : ℤ) + 1) * ((N - 1 : ℕ) : ℤ) := by positivity
  omega

theorem PP_deg {N : ℕ} (hN : 2 ≤ N) : (PP N).natDegree ≠ 0 := by
  have h1 : (PP N).coeff 1 ≠ 0 := by
    unfold PP
    rw [finset_sum_coeff, Finset.sum_eq_single 1]
    · rw [coeff_C_mul, coeff_X_pow, if_pos rfl, mul_one]
      exact ff_deriv_one hN
    · intro b _ hb
      rw [coeff_C_mul, coeff_X_pow, if_neg (Ne.symm hb), mul_zero]
    · intro h; exact absurd (Finset.mem_range.2 (by omega)) h
  intro h
  rw [natDegree_eq_zero] at h
  obtain ⟨c, hc⟩ := h
  rw [← hc, coeff_C] at h1
  simp at h1

theorem ff_even {N : ℕ} (hN : Odd N) : (ff N).comp (-X) = ff N := by
  apply Polynomial.funext
  intro x
  rw [eval_comp, eval_neg, eval_X, ff, Chebyshev.U_eval_neg]
  have : Even ((N - 1 : ℕ) : ℤ) := by
    obtain ⟨k, rfl⟩ := hN
    exact ⟨k, by push_cast; omega⟩
  rw [Int.negOnePow_even _ this, Units.val_one, Int.cast_one, one_mul]

theorem ser_refl {N : ℕ} (hN : Odd N) (μ : ℂ) : (ser N μ (ff N)).comp (-X) = ser N (-μ) (ff N) := by
  have hN0 : 0 < N := hN.pos
  have h1 := ser_eq μ (ff_lt hN0)
  have h2 := ser_eq (-μ) (ff_lt hN0)
  obtain ⟨g, hg⟩ : ∃ g, g = ser N μ (ff N) := ⟨_, rfl⟩
  rw [← hg] at h1 ⊢
  have h3 : g.comp (-X) - C (-μ) * derivative (g.comp (-X)) = ff N := by
    conv_rhs => rw [← ff_even hN, ← h1]
    rw [derivative_comp, sub_comp, mul_comp, C_comp, derivative_neg, derivative_X, C_neg]
    ring
  rw [← sub_eq_zero]
  refine eq_zero_of_smul_deriv (μ := -μ) ?_
  rw [derivative_sub]
  linear_combination h3 - h2

/-- the values at the points are those of a multiple of `f` -/
theorem dvd_ff {N : ℕ} (hN : 0 < N) {R : ℂ[X]} (hd : R.natDegree ≤ N)
    (h0 : ∀ j, 0 < j → j < N → R.eval (Complex.cos (ang N j)) = 0) : ∃ α β : ℂ, R = (C α * X + C β) * ff N := by
  have hf0 : ff N ≠ 0 := by
    intro h0
    have := ff_one hN
    rw [h0, eval_zero] at this
    exact hN.ne' (by exact_mod_cast this.symm)
  have hfz : ∀ j, 0 < j → j < N → (ff N).eval (Complex.cos (ang N j)) = 0 := by
    intro j hj1 hj2
    rcases mul_eq_zero.1 (ff_node hN j) with h | h
    · exfalso
      rw [← Complex.ofReal_sin] at h
      have h' : Real.sin (ang N j) = 0 := by exact_mod_cast h
      have hNr : (0:ℝ) < N := by exact_mod_cast hN
      have hjr : (0:ℝ) < j := by exact_mod_cast hj1
      have hjr2 : (j:ℝ) < N := by exact_mod_cast hj2
      have := Real.sin_pos_of_pos_of_lt_pi (x := ang N j) (by unfold ang; have := Real.pi_pos; positivity)
        (by unfold ang; rw [div_lt_iff₀ hNr]; nlinarith [Real.pi_pos])
      linarith
    · exact h
  have hdm := EuclideanDomain.div_add_mod R (ff N)
  have hr : R % ff N = 0 := by
    refine eq_zero_of_degree_lt_of_eval_finset_eq_zero
      ((Finset.Ioo 0 N).image fun j => Complex.cos (ang N j)) ?_ ?_
    · rw [Finset.card_image_of_injOn]
      · refine (degree_mod_lt R hf0).trans_le ?_
        rw [ff_degree hN, Nat.card_Ioo]
        simp
      · intro i hi j hj hij
        have hi' := Finset.mem_Ioo.1 (Finset.mem_coe.1 hi)
        have hj' := Finset.mem_Ioo.1 (Finset.mem_coe.1 hj)
        have e : Real.cos (ang N i) = Real.cos (ang N j) := by
          have : ((Real.cos (ang N i) : ℝ) : ℂ) = ((Real.cos (ang N j) : ℝ) : ℂ) := by
            rw [Complex.ofReal_cos, Complex.ofReal_cos]; exact hij
          exact_mod_cast this
        rcases lt_trichotomy i j with h | h | h
        · exact absurd e (ang_lt hN h hj'.2.le).ne'
        · exact h
        · exact absurd e (ang_lt hN h hi'.2.le).ne
    · intro x hx
      obtain ⟨j, hj, rfl⟩ := Finset.mem_image.1 hx
      have hj' := Finset.mem_Ioo.1 hj
      have h1 := congrArg (eval (Complex.cos (ang N j))) hdm
      rw [eval_add, eval_mul, hfz j hj'.1 hj'.2, h0 j hj'.1 hj'.2, zero_mul, zero_add] at h1
      exact h1
  rw [hr, add_zero] at hdm
  have hq : (R / ff N).natDegree ≤ 1 := by
    by_cases hq0 : R / ff N = 0
    · rw [hq0]; simp
    · have h1 := natDegree_mul hf0 hq0
      rw [hdm] at h1
      have h2 : (ff N).natDegree = N - 1 := natDegree_eq_of_degree_eq_some (ff_degree hN)
      omega
  obtain ⟨α, β, hab⟩ := exists_eq_X_add_C_of_natDegree_le_one hq
  exact ⟨α, β, by rw [← hab, mul_comm]; exact hdm.symm⟩

theorem ff_neg_one {N : ℕ} (hN : Odd N) : (ff N).eval (-1) = N := by
  have := congrArg (eval 1) (ff_even hN)
  rw [eval_comp, eval_neg, eval_X, ff_one hN.pos] at this
  exact this

theorem ff_deriv_neg_one {N : ℕ} (hN : Odd N) : (derivative (ff N)).eval (-1) = -(derivative (ff N)).eval 1 := by
  have := congrArg (fun p => eval 1 (derivative p)) (ff_even hN)
  simp only [derivative_comp, derivative_neg, derivative_X, eval_mul, eval_comp, eval_neg, eval_X, eval_one] at this
  linear_combination -this

/-- a polynomial of degree at most `N`, `N` odd, that vanishes at the interior points, with the same value and the same slope
at both ends, is zero -/
theorem periodic_zero {N : ℕ} (hN : Odd N) (hN2 : 2 ≤ N) {p : ℂ[X]} (hd : p.natDegree ≤ N)
    (h0 : ∀ j, 0 < j → j < N → p.eval (Complex.cos (ang N j)) = 0) (he : p.eval 1 = p.eval (-1))
    (he' : (derivative p).eval 1 = (derivative p).eval (-1)) : p = 0 := by
  obtain ⟨α, β, rfl⟩ := dvd_ff hN.pos hd h0
  have hNC : (N:ℂ) ≠ 0 := by exact_mod_cast hN.pos.ne'
  have hα : α = 0 := by
    simp only [eval_mul, eval_add, eval_C, eval_X, ff_one hN.pos, ff_neg_one hN] at he
    have := mul_right_cancel₀ hNC he
    linear_combination (1 / 2 : ℂ) * this
  subst hα
  have hβ : β = 0 := by
    simp only [C_0, zero_mul, zero_add, derivative_C_mul, eval_mul, eval_C, ff_deriv_neg_one hN] at he'
    have : β * (derivative (ff N)).eval 1 = 0 := by linear_combination (1 / 2 : ℂ) * he'
    exact (mul_eq_zero.1 this).resolve_right (ff_deriv_one hN2)
  subst hβ
  simp

/-- the eigenvalues of the periodic derivative on an odd number of intervals are on the imaginary axis -/
theorem periodic_imag {N : ℕ} (hN : Odd N) (hN2 : 2 ≤ N) {p : ℂ[X]} (hd : p.natDegree ≤ N) (hp : p ≠ 0) {z : ℂ}
    (h0 : ∀ j, 0 < j → j < N → (derivative p).eval (Complex.cos (ang N j)) = z * p.eval (Complex.cos (ang N j)))
    (he : p.eval 1 = p.eval (-1)) (he' : (derivative p).eval 1 = (derivative p).eval (-1)) : z.re = 0 := by
  have hNC : (N:ℂ) ≠ 0 := by exact_mod_cast hN.pos.ne'
  obtain ⟨α, β, hR⟩ := dvd_ff hN.pos (R := derivative p - C z * p)
    ((natDegree_sub_le _ _).trans (max_le ((natDegree_derivative_le p).trans (by omega)) ((natDegree_C_mul_le _ _).trans hd)))
    (fun j h1 h2 => by rw [eval_sub, eval_mul, eval_C, h0 j h1 h2, sub_self])
  have hα : α = 0 := by
    have e1 := congrArg (eval 1) hR
    have e2 := congrArg (eval (-1)) hR
    simp only [eval_mul, eval_sub, eval_add, eval_C, eval_X, ff_one hN.pos, ff_neg_one hN] at e1 e2
    have : (α * 1 + β) * (N:ℂ) = (α * -1 + β) * N := by rw [← e1, ← e2, he, he']
    have := mul_right_cancel₀ hNC this
    linear_combination (1 / 2 : ℂ) * this
  subst hα
  rw [C_0, zero_mul, zero_add] at hR
  by_cases hz : z = 0
  · rw [hz]; rfl
  obtain ⟨μ, hμ⟩ : ∃ μ, μ = 1 / z := ⟨_, rfl⟩
  have hμz : μ * z = 1 := by rw [hμ]; field_simp
  have hCC : C μ * C z = (1 : ℂ[X]) := by rw [← C_mul, hμz, C_1]
  have hs := ser_eq μ (ff_lt hN.pos)
  have hps : p + C (μ * β) * ser N μ (ff N) = 0 := by
    refine eq_zero_of_smul_deriv (μ := μ) ?_
    rw [derivative_add, derivative_C_mul, C_mul]
    linear_combination (-p) * hCC - C μ * hR + C μ * C β * hs
  have hβ : μ * β ≠ 0 := by
    intro h
    rw [h, C_0, zero_mul, add_zero] at hps
    exact hp hps
  have e1 := congrArg (eval 1) hps
  have e2 := congrArg (eval (-1)) hps
  rw [eval_add, eval_mul, eval_C, eval_zero] at e1 e2
  have h3 : (PP N).eval μ = (PP N).eval (-μ) := by
    rw [PP_eval, PP_eval, ← ser_refl hN, eval_comp, eval_neg, eval_X]
    apply mul_left_cancel₀ hβ
    linear_combination e1 - e2 - he
  have hre := reflect_re (PP_cj N) (PP_deg hN2) (fun ρ hρ => hurwitz hN2 (by rwa [PP_eval] at hρ)) h3
  have : z = 1 / μ := by rw [hμ]; field_simp
  rw [this, one_div, Complex.inv_re, hre, zero_div]

end Aerokit.ChebStable
