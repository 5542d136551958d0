import Mathlib.LinearAlgebra.Lagrange
import Mathlib.Analysis.SpecialFunctions.Trigonometric.Chebyshev.Basic
import Mathlib.Analysis.SpecialFunctions.Trigonometric.Inverse

/-! Differentiation matrices of Lagrange interpolation (Welfert's recurrence) and the barycentric
weights of the Chebyshev–Gauss–Lobatto nodes. -/

namespace Aerokit.Welfert
open Polynomial Lagrange

section General
variable {N : ℕ} (v : Fin N → ℝ)

/-- Lagrange basis polynomial -/
noncomputable def ell (j : Fin N) : ℝ[X] := Lagrange.basis Finset.univ v j
/-- `k`-th derivative of the `j`-th basis polynomial at node `i` -/
noncomputable def R (k : ℕ) (i j : Fin N) : ℝ := (derivative^[k] (ell v j)).eval (v i)

theorem mul_ell (j : Fin N) :
    (X - C (v j)) * ell v j = C (nodalWeight Finset.univ v j) * nodal Finset.univ v := by
  unfold ell
  rw [basis_eq_prod_sub_inv_mul_nodal_div (Finset.mem_univ j),
    ← nodal_erase_eq_nodal_div (Finset.mem_univ j)]
  rw [nodal_eq_mul_nodal_erase (v := v) (Finset.mem_univ j)]
  ring

theorem iter_deriv_X_sub (a : ℝ) (p : ℝ[X]) (k : ℕ) :
    derivative^[k + 1] ((X - C a) * p)
      = (X - C a) * derivative^[k + 1] p + ((k : ℝ[X]) + 1) * derivative^[k] p := by
  induction k with
  | zero => simp [derivative_mul]; ring
  | succ k ih =>
    rw [Function.iterate_succ_apply', ih]
    rw [derivative_add, derivative_mul, derivative_mul]
    rw [← Function.iterate_succ_apply' derivative (k + 1), ← Function.iterate_succ_apply' derivative k]
    have : derivative ((k : ℝ[X]) + 1) = 0 := by
      rw [derivative_add, derivative_natCast, derivative_one, add_zero]
    rw [this]
    simp only [derivative_sub, derivative_X, derivative_C, sub_zero, one_mul, zero_mul, zero_add]
    push_cast
    ring

theorem nodal_iter (k : ℕ) (i j : Fin N) :
    (v i - v j) * R v (k + 1) i j + ((k : ℝ) + 1) * R v k i j
      = nodalWeight Finset.univ v j * (derivative^[k + 1] (nodal Finset.univ v)).eval (v i) := by
  have h := congrArg (fun p => (derivative^[k + 1] p).eval (v i)) (mul_ell v j)
  simp only [iter_deriv_X_sub, iterate_derivative_C_mul, eval_add, eval_mul, eval_sub, eval_X, eval_C,
    eval_natCast, eval_one] at h
  exact h

variable {v} (hv : Function.Injective v)
include hv

theorem R_zero (i j : Fin N) : R v 0 i j = if i = j then 1 else 0 := by
  unfold R ell
  simp only [Function.iterate_zero, id_eq]
  by_cases h : i = j
  · subst h; rw [if_pos rfl]; exact eval_basis_self hv.injOn (Finset.mem_univ _)
  · rw [if_neg h]; exact eval_basis_of_ne (Ne.symm h) (Finset.mem_univ _)

/-- Welfert's recurrence -/
theorem R_succ (k : ℕ) {i j : Fin N} (hij : i ≠ j) :
    R v (k + 1) i j = ((k : ℝ) + 1) * (1 / (v i - v j)) *
      (nodalWeight Finset.univ v j / nodalWeight Finset.univ v i * R v k i i - R v k i j) := by
  have h1 := nodal_iter v k i j
  have h2 := nodal_iter v k i i
  have hne : v i - v j ≠ 0 := sub_ne_zero.2 fun h => hij (hv h)
  have hw : nodalWeight Finset.univ v i ≠ 0 := nodalWeight_ne_zero hv.injOn (Finset.mem_univ _)
  rw [sub_self, zero_mul, zero_add] at h2
  have h3 : (derivative^[k + 1] (nodal Finset.univ v)).eval (v i)
      = ((k : ℝ) + 1) * R v k i i / nodalWeight Finset.univ v i := by
    rw [h2]; field_simp
  rw [h3] at h1
  field_simp
  field_simp at h1
  linarith

theorem R_diag (k : ℕ) (i : Fin N) :
    R v (k + 1) i i = -∑ j ∈ Finset.univ.erase i, R v (k + 1) i j := by
  have hs : ∑ j, ell v j = 1 := sum_basis hv.injOn ⟨i, Finset.mem_univ _⟩
  have h := congrArg (fun p => (derivative^[k + 1] p).eval (v i)) hs
  simp only [iterate_derivative_sum, eval_finset_sum] at h
  have h1 : derivative^[k + 1] (1 : ℝ[X]) = 0 := by
    rw [Function.iterate_succ_apply, derivative_one, iterate_derivative_zero]
  rw [h1, eval_zero, ← Finset.add_sum_erase _ _ (Finset.mem_univ i)] at h
  unfold R
  linarith

/-- derivative of an interpolated polynomial -/
theorem sum_R (p : ℝ[X]) (hp : p.degree < N) (k : ℕ) (i : Fin N) :
    ∑ j, R v k i j * p.eval (v j) = (derivative^[k] p).eval (v i) := by
  have h := eq_interpolate (s := Finset.univ) (v := v) (f := p) hv.injOn (by simpa using hp)
  conv_rhs => rw [h]
  rw [interpolate_apply, iterate_derivative_sum, eval_finset_sum]
  apply Finset.sum_congr rfl
  intro j _
  rw [iterate_derivative_C_mul, eval_mul, eval_C]
  unfold R ell; ring

end General

section Cheb

/-- Chebyshev–Gauss–Lobatto node -/
noncomputable def node (N : ℕ) (i : ℕ) : ℝ := Real.cos (i * Real.pi / (N - 1))

/-- 2 at the two ends, 1 inside -/
noncomputable def cw (N i : ℕ) : ℝ := if i = 0 ∨ i = N - 1 then 2 else 1

theorem node_lt {N i j : ℕ} (hN : 2 ≤ N) (hij : i < j) (hj : j < N) : node N j < node N i := by
  have hN' : (0:ℝ) < (N:ℝ) - 1 := by
    have : (2:ℝ) ≤ N := by exact_mod_cast hN
    linarith
  unfold node
  apply Real.cos_lt_cos_of_nonneg_of_le_pi
  · positivity
  · rw [div_le_iff₀ hN', mul_comm]
    have : (j:ℝ) ≤ (N:ℝ) - 1 := by
      have : (j:ℝ) + 1 ≤ N := by exact_mod_cast hj
      linarith
    nlinarith [Real.pi_pos]
  · apply div_lt_div_of_pos_right _ hN'
    have : (i:ℝ) < j := by exact_mod_cast hij
    nlinarith [Real.pi_pos]

theorem node_inj {N : ℕ} (hN : 2 ≤ N) : Function.Injective (fun i : Fin N => node N i) := by
  intro i j h
  by_contra hne
  rcases lt_or_gt_of_ne hne with hl | hl
  · exact absurd h (node_lt hN hl j.2).ne'
  · exact absurd h (node_lt hN hl i.2).ne

theorem node_zero (N : ℕ) : node N 0 = 1 := by simp [node]

theorem node_last {N : ℕ} (hN : 2 ≤ N) : node N (N - 1) = -1 := by
  have hN' : ((N:ℝ) - 1) ≠ 0 := by
    have : (2:ℝ) ≤ N := by exact_mod_cast hN
    linarith
  unfold node
  rw [Nat.cast_sub (by omega), Nat.cast_one, mul_div_assoc, mul_div_cancel₀ _ hN', Real.cos_pi]

theorem node_rev {N i : ℕ} (hN : 2 ≤ N) (hi : i < N) : node N (N - 1 - i) = -node N i := by
  have hN' : ((N:ℝ) - 1) ≠ 0 := by
    have : (2:ℝ) ≤ N := by exact_mod_cast hN
    linarith
  unfold node
  rw [Nat.cast_sub (by omega), Nat.cast_sub (by omega), Nat.cast_one, ← Real.cos_pi_sub]
  congr 1
  field_simp

theorem T_node {N i : ℕ} (hN : 2 ≤ N) :
    (Chebyshev.T ℝ ((N - 1 : ℕ) : ℤ)).eval (node N i) = (-1) ^ i := by
  have hN' : ((N:ℝ) - 1) ≠ 0 := by
    have : (2:ℝ) ≤ N := by exact_mod_cast hN
    linarith
  unfold node
  rw [Chebyshev.T_real_cos]
  have : (((N - 1 : ℕ) : ℤ) : ℝ) * (i * Real.pi / (N - 1)) = i * Real.pi := by
    push_cast [Nat.cast_sub (show 1 ≤ N by omega)]
    field_simp
  rw [this, Real.cos_nat_mul_pi]

/-- `ξ T'(ξ) + n² T(ξ) = n² c_i (-1)^i` at the nodes -/
theorem UT_node {N i : ℕ} (hN : 2 ≤ N) (hi : i < N) :
    node N i * (Chebyshev.U ℝ (((N - 1 : ℕ) : ℤ) - 1)).eval (node N i)
      + ((N:ℝ) - 1) * (Chebyshev.T ℝ ((N - 1 : ℕ) : ℤ)).eval (node N i)
      = ((N:ℝ) - 1) * (cw N i * (-1) ^ i) := by
  have h2 : (2:ℝ) ≤ N := by exact_mod_cast hN
  have hcast : ((N - 1 : ℕ) : ℝ) = (N:ℝ) - 1 := by
    rw [Nat.cast_sub (by omega), Nat.cast_one]
  rw [T_node hN]
  by_cases h0 : i = 0
  · subst h0
    rw [node_zero, Chebyshev.U_eval_one]
    have : cw N 0 = 2 := by simp [cw]
    rw [this]; push_cast [hcast]; ring
  by_cases h1 : i = N - 1
  · rw [h1, node_last hN, Chebyshev.U_eval_neg_one]
    have hc : cw N (N - 1) = 2 := by simp [cw]
    have hsgn : (((((N - 1 : ℕ) : ℤ) - 1).negOnePow : ℤˣ) : ℤ) = -((-1) ^ (N - 1)) := by
      rw [Int.negOnePow_sub, Int.negOnePow_one, Int.negOnePow_def]
      simp
    rw [hc]
    push_cast
    rw [hcast]
    have h3 : (((((((N - 1 : ℕ) : ℤ) - 1).negOnePow : ℤˣ) : ℤ)) : ℝ) = -((-1) ^ (N - 1)) := by
      rw [hsgn]; push_cast; ring
    rw [h3]; ring
  · have hU : (Chebyshev.U ℝ (((N - 1 : ℕ) : ℤ) - 1)).eval (node N i) = 0 := by
      have hu := Chebyshev.U_real_cos (i * Real.pi / ((N:ℝ) - 1)) (((N - 1 : ℕ) : ℤ) - 1)
      have hs : Real.sin (i * Real.pi / ((N:ℝ) - 1)) ≠ 0 := by
        apply ne_of_gt
        apply Real.sin_pos_of_pos_of_lt_pi
        · have : (0:ℝ) < i := by exact_mod_cast Nat.pos_of_ne_zero h0
          have := Real.pi_pos
          have : (0:ℝ) < (N:ℝ) - 1 := by linarith
          positivity
        · rw [div_lt_iff₀ (by linarith)]
          have : (i:ℝ) + 1 < N := by exact_mod_cast (by omega : i + 1 < N)
          nlinarith [Real.pi_pos]
      have hz : Real.sin (((((N - 1 : ℕ) : ℤ) - 1 : ℤ) + 1) * (i * Real.pi / ((N:ℝ) - 1))) = 0 := by
        have : ((((((N - 1 : ℕ) : ℤ) - 1 : ℤ)) : ℝ) + 1) * (i * Real.pi / ((N:ℝ) - 1)) = i * Real.pi := by
          push_cast
          rw [hcast]
          have : (N:ℝ) - 1 ≠ 0 := by linarith
          field_simp; ring
        rw [this, Real.sin_nat_mul_pi]
      rw [hz] at hu
      exact (mul_eq_zero.1 hu).resolve_right hs
    have hc : cw N i = 1 := by simp [cw, h0, h1]
    rw [hU, hc]; ring

/-- nodal polynomial up to a factor: `(X² - 1) U_{N-2}` -/
noncomputable def Om (N : ℕ) : ℝ[X] := (X ^ 2 - 1) * Chebyshev.U ℝ (((N - 1 : ℕ) : ℤ) - 1)

theorem Om_deriv {N i : ℕ} (hN : 2 ≤ N) (hi : i < N) :
    (derivative (Om N)).eval (node N i) = ((N:ℝ) - 1) * (cw N i * (-1) ^ i) := by
  have h2 : (2:ℝ) ≤ N := by exact_mod_cast hN
  have hcast : ((N - 1 : ℕ) : ℝ) = (N:ℝ) - 1 := by
    rw [Nat.cast_sub (by omega), Nat.cast_one]
  have hT := Chebyshev.T_derivative_eq_U (R := ℝ) ((N - 1 : ℕ) : ℤ)
  have hODE := Chebyshev.one_sub_X_sq_mul_derivative_derivative_T_eq_poly_in_T (R := ℝ) ((N - 1 : ℕ) : ℤ)
  simp only [Function.iterate_succ, Function.iterate_zero, Function.comp_apply, id_eq] at hODE
  rw [hT] at hODE
  have e1 := congrArg (fun p => p.eval (node N i)) hODE
  have hcc : derivative ((((N - 1 : ℕ) : ℤ) : ℝ[X]) * Chebyshev.U ℝ (((N - 1 : ℕ) : ℤ) - 1))
      = (((N - 1 : ℕ) : ℤ) : ℝ[X]) * derivative (Chebyshev.U ℝ (((N - 1 : ℕ) : ℤ) - 1)) := by
    rw [derivative_mul, derivative_intCast, zero_mul, zero_add]
  rw [hcc] at e1
  simp only [eval_mul, eval_sub, eval_one, eval_pow, eval_X, eval_intCast] at e1
  have key := UT_node hN hi
  have hn : ((N:ℝ) - 1) ≠ 0 := by linarith
  push_cast at e1
  rw [hcast] at e1
  unfold Om
  simp only [derivative_mul, derivative_sub, derivative_X_pow, derivative_one, sub_zero, eval_add, eval_mul,
    eval_sub, eval_pow, eval_X, eval_one, eval_C, Nat.cast_ofNat, map_ofNat, eval_ofNat]
  rw [← key]
  apply mul_left_cancel₀ hn
  norm_num at e1
  simp only [Nat.cast_ofNat, Nat.add_one_sub_one, pow_one, show (2 - 1 : ℕ) = 1 from rfl]
  linear_combination (-1) * e1

theorem Om_eval {N i : ℕ} (hN : 2 ≤ N) (hi : i < N) : (Om N).eval (node N i) = 0 := by
  have hcast : ((N - 1 : ℕ) : ℝ) = (N:ℝ) - 1 := by
    rw [Nat.cast_sub (by omega), Nat.cast_one]
  have h2 : (2:ℝ) ≤ N := by exact_mod_cast hN
  have hu := Chebyshev.U_real_cos (i * Real.pi / ((N:ℝ) - 1)) (((N - 1 : ℕ) : ℤ) - 1)
  have hz : Real.sin (((((N - 1 : ℕ) : ℤ) - 1 : ℤ) + 1) * (i * Real.pi / ((N:ℝ) - 1))) = 0 := by
    have : ((((((N - 1 : ℕ) : ℤ) - 1 : ℤ)) : ℝ) + 1) * (i * Real.pi / ((N:ℝ) - 1)) = i * Real.pi := by
      push_cast
      rw [hcast]
      have : (N:ℝ) - 1 ≠ 0 := by linarith
      field_simp; ring
    rw [this, Real.sin_nat_mul_pi]
  rw [hz] at hu
  unfold Om
  simp only [eval_mul, eval_sub, eval_pow, eval_X, eval_one]
  have hs : node N i ^ 2 - 1 = -(Real.sin (i * Real.pi / ((N:ℝ) - 1))) ^ 2 := by
    unfold node; nlinarith [Real.sin_sq_add_cos_sq (i * Real.pi / ((N:ℝ) - 1))]
  rw [hs]
  have : (Chebyshev.U ℝ (((N - 1 : ℕ) : ℤ) - 1)).eval (node N i) * Real.sin (i * Real.pi / ((N:ℝ) - 1)) = 0 := hu
  linear_combination (-(Real.sin (i * Real.pi / ((N:ℝ) - 1)))) * this

theorem Om_degree {N : ℕ} (hN : 2 ≤ N) : (Om N).natDegree = N ∧ Om N ≠ 0 := by
  have hU : Chebyshev.U ℝ (((N - 1 : ℕ) : ℤ) - 1) = Chebyshev.U ℝ ((N - 2 : ℕ) : ℤ) := by
    congr 1; omega
  have hX : (X ^ 2 - 1 : ℝ[X]).natDegree = 2 := by
    rw [← C_1]; exact natDegree_X_pow_sub_C
  have hX0 : (X ^ 2 - 1 : ℝ[X]) ≠ 0 := fun h => by rw [h] at hX; simp at hX
  have hU0 : Chebyshev.U ℝ ((N - 2 : ℕ) : ℤ) ≠ 0 := Chebyshev.U_ne_zero ℝ _ (by omega)
  unfold Om
  rw [hU]
  refine ⟨?_, mul_ne_zero hX0 hU0⟩
  rw [natDegree_mul hX0 hU0, hX, Chebyshev.natDegree_U_natCast]; omega

theorem Om_eq {N : ℕ} (hN : 2 ≤ N) :
    Om N = C (Om N).leadingCoeff * nodal Finset.univ (fun i : Fin N => node N i) := by
  obtain ⟨hd, h0⟩ := Om_degree hN
  have hl : (Om N).leadingCoeff ≠ 0 := leadingCoeff_ne_zero.2 h0
  apply eq_of_degree_sub_lt_of_eval_index_eq (s := Finset.univ) (v := fun i : Fin N => node N i)
    (node_inj hN).injOn
  · have hdeg : (C (Om N).leadingCoeff * nodal Finset.univ (fun i : Fin N => node N i)).degree
        = (Om N).degree := by
      rw [degree_C_mul hl, degree_nodal, degree_eq_natDegree h0, hd]; simp
    refine lt_of_lt_of_le (degree_sub_lt hdeg.symm h0 ?_) ?_
    · rw [leadingCoeff_mul, leadingCoeff_C, nodal_monic.leadingCoeff, mul_one]
    · rw [degree_eq_natDegree h0, hd]; simp
  · intro i _
    have hz := eval_nodal_at_node (s := Finset.univ) (v := fun i : Fin N => node N i) (Finset.mem_univ i)
    rw [Om_eval hN i.2, eval_mul, hz, mul_zero]

/-- ratio of the barycentric weights -/
theorem weight_ratio {N : ℕ} (hN : 2 ≤ N) (i j : Fin N) :
    nodalWeight Finset.univ (fun i : Fin N => node N i) j /
      nodalWeight Finset.univ (fun i : Fin N => node N i) i
      = (-1) ^ ((i : ℕ) + j) * cw N i / cw N j := by
  have h2 : (2:ℝ) ≤ N := by exact_mod_cast hN
  have hn : ((N:ℝ) - 1) ≠ 0 := by linarith
  obtain ⟨-, h0⟩ := Om_degree hN
  have hl : (Om N).leadingCoeff ≠ 0 := leadingCoeff_ne_zero.2 h0
  have hcw : ∀ k, cw N k ≠ 0 := fun k => by unfold cw; split_ifs <;> norm_num
  have hd : ∀ k : Fin N, (Om N).leadingCoeff *
      (derivative (nodal Finset.univ (fun i : Fin N => node N i))).eval (node N k)
      = ((N:ℝ) - 1) * (cw N k * (-1) ^ (k:ℕ)) := by
    intro k
    rw [← Om_deriv hN k.2]
    conv_rhs => rw [Om_eq hN]
    rw [derivative_C_mul, eval_mul, eval_C]
  rw [nodalWeight_eq_eval_derivative_nodal (Finset.mem_univ _),
    nodalWeight_eq_eval_derivative_nodal (Finset.mem_univ _)]
  have hi := hd i
  have hj := hd j
  have hs : ∀ k : ℕ, ((-1:ℝ)) ^ k ≠ 0 := fun k => pow_ne_zero _ (by norm_num)
  have hi' : (derivative (nodal Finset.univ (fun i : Fin N => node N i))).eval (node N i)
      = ((N:ℝ) - 1) * (cw N i * (-1) ^ (i:ℕ)) / (Om N).leadingCoeff := by
    rw [eq_div_iff hl, ← hi]; ring
  have hj' : (derivative (nodal Finset.univ (fun i : Fin N => node N i))).eval (node N j)
      = ((N:ℝ) - 1) * (cw N j * (-1) ^ (j:ℕ)) / (Om N).leadingCoeff := by
    rw [eq_div_iff hl, ← hj]; ring
  rw [hi', hj', inv_div_inv]
  have hsj : ((-1:ℝ)) ^ (j:ℕ) * (-1) ^ (j:ℕ) = 1 := by rw [← mul_pow]; norm_num
  have := hcw i
  have := hcw j
  have := hs i
  have := hs j
  rw [div_div_div_cancel_right₀ hl, mul_div_mul_left _ _ hn, div_eq_div_iff (by positivity) (by positivity), pow_add]
  linear_combination (-(cw N i * (-1) ^ (i:ℕ) * cw N j)) * hsj

end Cheb
end Aerokit.Welfert
