import Verif.Lemmas.ChebStable
import Verif.Lemmas.ChebCert

/-! # Roots on the negative axis, collocation with the two residuals `U_(N-1)` and `X U_(N-1)` -/

namespace Aerokit.ChebStable
open Polynomial Finset ChebCert

/-! ### derivatives at 1 -/

/-- the derivatives of `U_(N-1)` at 1 -/
def uu (N : ℕ) : ℕ → ℕ
  | 0 => N
  | k + 1 => nxt N k (uu N k)

theorem uu_eq {N : ℕ} (hN : 0 < N) (k : ℕ) :
    ((derivative^[k] (Chebyshev.U ℤ ((N - 1 : ℕ) : ℤ))).eval 1 = uu N k) ∧ (N ≤ k → uu N k = 0) := by
  induction k with
  | zero =>
    refine ⟨?_, fun h => by omega⟩
    rw [Function.iterate_zero_apply, Chebyshev.U_eval_one]
    show (((N - 1 : ℕ) : ℤ) : ℤ) + 1 = (N : ℤ)
    omega
  | succ k ih =>
    obtain ⟨h1, h2⟩ := ih
    have hr := Chebyshev.iterate_derivative_U_eval_one_recurrence (R := ℤ) ((N - 1 : ℕ) : ℤ) k
    rw [h1] at hr
    have hn1 : (((N - 1 : ℕ) : ℤ) : ℤ) + 1 = N := by omega
    simp only [Int.cast_id] at hr
    rw [hn1] at hr
    have hz : N ≤ k + 1 → uu N (k + 1) = 0 := by
      intro h
      show nxt N k (uu N k) = 0
      unfold nxt
      rw [Nat.sub_eq_zero_of_le (Nat.pow_le_pow_left h 2), zero_mul, Nat.zero_div]
    refine ⟨?_, hz⟩
    by_cases h : N ≤ k
    · rw [hz (by omega)]
      rw [h2 h] at hr
      have hp : (2 * (k:ℤ) + 3) ≠ 0 := by positivity
      have : (2 * (k:ℤ) + 3) * (derivative^[k + 1] (Chebyshev.U ℤ ((N - 1 : ℕ) : ℤ))).eval 1 = 0 := by
        rw [hr]; simp
      simpa [hp] using (mul_eq_zero.1 this).resolve_left hp
    · have hle : (k + 1) ^ 2 ≤ N ^ 2 := Nat.pow_le_pow_left (by omega) 2
      have hc : ((N:ℤ) ^ 2 - ((k:ℤ) + 1) ^ 2) = ((N ^ 2 - (k + 1) ^ 2 : ℕ) : ℤ) := by
        rw [Nat.cast_sub hle]; push_cast; ring
      rw [hc] at hr
      show _ = ((nxt N k (uu N k) : ℕ) : ℤ)
      unfold nxt
      rw [Int.natCast_div]
      symm
      apply Int.ediv_eq_of_eq_mul_right
      · positivity
      · push_cast at hr ⊢
        linarith

theorem ff_map (N : ℕ) : (Chebyshev.U ℤ ((N - 1 : ℕ) : ℤ)).map (Int.castRingHom ℂ) = ff N := Chebyshev.map_U _ _

theorem ff_iter {N : ℕ} (hN : 0 < N) (k : ℕ) : (derivative^[k] (ff N)).eval 1 = uu N k := by
  rw [← ff_map, iterate_derivative_map]
  have := eval_map_apply (p := derivative^[k] (Chebyshev.U ℤ ((N - 1 : ℕ) : ℤ))) (Int.castRingHom ℂ) 1
  rw [map_one] at this
  rw [this, (uu_eq hN k).1]
  simp

theorem iter_X_mul (f : ℂ[X]) (k : ℕ) : derivative^[k + 1] (X * f) = X * derivative^[k + 1] f + C ((k:ℂ) + 1) * derivative^[k] f := by
  induction k with
  | zero => simp [derivative_mul]; ring
  | succ k ih =>
    rw [Function.iterate_succ_apply', ih, derivative_add, derivative_mul, derivative_C_mul, derivative_X,
      ← Function.iterate_succ_apply' derivative, ← Function.iterate_succ_apply' derivative]
    push_cast
    simp only [C_add, C_1]
    ring

/-- the derivatives of odd order of `X U_(N-1)` at 1 -/
def aa (N j : ℕ) : ℕ := uu N (2 * j + 1) + (2 * j + 1) * uu N (2 * j)

theorem xf_iter {N : ℕ} (hN : 0 < N) (j : ℕ) : (derivative^[2 * j + 1] (X * ff N : ℂ[X])).eval 1 = aa N j := by
  rw [iter_X_mul, eval_add, eval_mul, eval_X, eval_mul, eval_C, ff_iter hN, ff_iter hN]
  unfold aa
  push_cast
  ring

/-! ### Horner scheme -/

/-- `∑_(j<f) a_j X^(f-1-j)` -/
noncomputable def hp (N : ℕ) : ℕ → ℤ[X]
  | 0 => 0
  | f + 1 => X * hp N f + C (aa N f : ℤ)

theorem horn_eq (N s f : ℕ) : ∀ j, horn N s f (2 * j) (uu N (2 * j)) ((hp N j).eval (-(s:ℤ))) = (hp N (j + f)).eval (-(s:ℤ)) := by
  induction f with
  | zero => intro j; rfl
  | succ f ih =>
    intro j
    have e := ih (j + 1)
    rw [show j + (f + 1) = j + 1 + f by omega, ← e]
    conv_lhs => unfold horn
    rw [force_eq, force_eq, forceI_eq]
    have e1 : nxt N (2 * j) (uu N (2 * j)) = uu N (2 * j + 1) := rfl
    have e2 : nxt N (2 * j + 1) (uu N (2 * j + 1)) = uu N (2 * (j + 1)) := rfl
    rw [e1, e2]
    have e3 : (hp N (j + 1)).eval (-(s:ℤ)) = -(s:ℤ) * (hp N j).eval (-(s:ℤ)) + ((uu N (2 * j + 1) + (2 * j + 1) * uu N (2 * j) : ℕ) : ℤ) := by
      show (X * hp N j + C (aa N j : ℤ)).eval _ = _
      rw [eval_add, eval_mul, eval_X, eval_C]; rfl
    rw [e3]
    rfl

theorem hp_degree (N f : ℕ) : (hp N (f + 1)).natDegree ≤ f := by
  induction f with
  | zero =>
    show (X * (0 : ℤ[X]) + C _).natDegree ≤ 0
    rw [mul_zero, zero_add, natDegree_C]
  | succ f ih =>
    show (X * hp N (f + 1) + C _).natDegree ≤ f + 1
    refine (natDegree_add_le _ _).trans (max_le ?_ (by rw [natDegree_C]; omega))
    refine natDegree_mul_le.trans ?_
    rw [natDegree_X]; omega

/-! ### sign changes -/

theorem roots_of_alt (N f : ℕ) (P : ℝ[X]) (hP : ∀ s : ℕ, P.eval (-(s:ℝ)) = (horn N s f 0 N 0 : ℤ)) :
    ∀ (l : List ℕ) (s : ℕ) (sg : Bool) (lo : ℕ), alt N f sg lo (s :: l) = true →
      ∃ S : Finset ℝ, S.card = l.length ∧ ∀ r ∈ S, P.eval r = 0 ∧ r < -(s:ℝ) := by
  intro l
  induction l with
  | nil => intro s sg lo _; exact ⟨∅, rfl, by simp⟩
  | cons s' l ih =>
    intro s sg lo h
    have h' := h
    simp only [alt, Bool.and_eq_true, decide_eq_true_eq] at h
    obtain ⟨⟨hs1, -⟩, ⟨hs2, hlt⟩, hrest⟩ := h
    have hss : (s:ℝ) < s' := by exact_mod_cast (by omega : s < s')
    obtain ⟨S, hc, hS⟩ := ih s' (!sg) (s + 1) (by
      simp only [alt, Bool.and_eq_true, decide_eq_true_eq]
      exact ⟨⟨hs2, hlt⟩, hrest⟩)
    have hroot : ∃ r, -(s':ℝ) < r ∧ r < -(s:ℝ) ∧ P.eval r = 0 := by
      have hcont : ContinuousOn (fun x => P.eval x) (Set.Icc (-(s':ℝ)) (-(s:ℝ))) := P.continuous.continuousOn
      have hle : -(s':ℝ) ≤ -(s:ℝ) := by linarith
      cases sg with
      | true =>
        simp only [if_true, Bool.not_true, decide_eq_true_eq] at hs1 hs2
        rw [if_neg (by simp)] at hs2
        have hs2' := of_decide_eq_true hs2
        have a1 : 0 < P.eval (-(s:ℝ)) := by rw [hP]; exact_mod_cast hs1
        have a2 : P.eval (-(s':ℝ)) < 0 := by rw [hP]; exact_mod_cast hs2'
        obtain ⟨r, hr, hr0⟩ := intermediate_value_Ioo hle hcont ⟨a2, a1⟩
        exact ⟨r, hr.1, hr.2, hr0⟩
      | false =>
        rw [if_neg (by simp)] at hs1
        simp only [Bool.not_false, if_true, decide_eq_true_eq] at hs1 hs2
        have a1 : P.eval (-(s:ℝ)) < 0 := by rw [hP]; exact_mod_cast hs1
        have a2 : 0 < P.eval (-(s':ℝ)) := by rw [hP]; exact_mod_cast hs2
        obtain ⟨r, hr, hr0⟩ := intermediate_value_Ioo' hle hcont ⟨a1, a2⟩
        exact ⟨r, hr.1, hr.2, hr0⟩
    obtain ⟨r, hr1, hr2, hr0⟩ := hroot
    refine ⟨insert r S, ?_, ?_⟩
    · rw [Finset.card_insert_of_notMem, hc]; · rfl
      intro hm
      exact absurd (hS r hm).2 (by linarith)
    · intro x hx
      rcases Finset.mem_insert.1 hx with rfl | hx
      · exact ⟨hr0, hr2⟩
      · exact ⟨(hS x hx).1, by linarith [(hS x hx).2]⟩

/-- the complex roots of the Horner polynomial are real and negative -/
theorem hp_roots {N : ℕ} (h2 : 2 ≤ N) (h100 : N ≤ 100) {y : ℂ}
    (hy : ((hp N ((N - 1) / 2 + 1)).map (Int.castRingHom ℂ)).eval y = 0) : y.im = 0 ∧ y.re < 0 := by
  obtain ⟨d, hd⟩ : ∃ d, d = (N - 1) / 2 := ⟨_, rfl⟩
  obtain ⟨l, hl⟩ := good_exists h2 h100
  unfold good at hl
  rw [← hd] at hl hy
  simp only [Bool.and_eq_true, beq_iff_eq] at hl
  obtain ⟨hlen, halt⟩ := hl
  obtain ⟨s, l, rfl⟩ : ∃ s l', l = s :: l' := by
    cases l with
    | nil => simp at hlen
    | cons s l' => exact ⟨s, l', rfl⟩
  obtain ⟨Q, hQ⟩ : ∃ Q, Q = hp N (d + 1) := ⟨_, rfl⟩
  have hh : ∀ s : ℕ, Q.eval (-(s:ℤ)) = horn N s (d + 1) 0 N 0 := by
    intro s
    have := horn_eq N s (d + 1) 0
    rw [zero_add] at this
    rw [hQ, ← this]
    show horn N s (d + 1) 0 N ((0 : ℤ[X]).eval _) = _
    rw [eval_zero]
  have hh' : ∀ s : ℕ, (Q.map (Int.castRingHom ℝ)).eval (-(s:ℝ)) = (horn N s (d + 1) 0 N 0 : ℤ) := by
    intro s
    rw [← hh]
    have := eval_map_apply (p := Q) (Int.castRingHom ℝ) (-(s:ℤ))
    simpa using this
  obtain ⟨S, hc, hS⟩ := roots_of_alt N (d + 1) _ hh' l s true 0 halt
  have hcard : S.card = d := by rw [hc]; simpa using hlen
  have hQ0 : Q.map (Int.castRingHom ℂ) ≠ 0 := by
    intro h0
    simp only [alt, Bool.and_eq_true, if_true, decide_eq_true_eq] at halt
    have h1 := halt.1.1
    rw [← hh] at h1
    have : Q = 0 := by
      apply Polynomial.map_injective (Int.castRingHom ℂ) Int.cast_injective
      rw [h0, Polynomial.map_zero]
    rw [this, eval_zero] at h1
    exact lt_irrefl _ h1
  have hSr : ∀ r ∈ S, (Q.map (Int.castRingHom ℂ)).eval (r:ℂ) = 0 := by
    intro r hr
    have h1 := (hS r hr).1
    have e : Q.map (Int.castRingHom ℂ) = (Q.map (Int.castRingHom ℝ)).map Complex.ofRealHom := by
      rw [Polynomial.map_map]; congr 1
    rw [e]
    have := eval_map_apply (p := Q.map (Int.castRingHom ℝ)) Complex.ofRealHom r
    rw [h1, map_zero] at this
    exact this
  have hmem : y ∈ S.image (fun r : ℝ => (r:ℂ)) := by
    by_contra hn
    have hsub : insert y (S.image (fun r : ℝ => (r:ℂ))) ⊆ (Q.map (Int.castRingHom ℂ)).roots.toFinset := by
      intro x hx
      rw [Multiset.mem_toFinset, mem_roots hQ0]
      rcases Finset.mem_insert.1 hx with rfl | hx
      · rw [hQ]; exact hy
      · obtain ⟨r, hr, rfl⟩ := Finset.mem_image.1 hx
        exact hSr r hr
    have h1 := Finset.card_le_card hsub
    rw [Finset.card_insert_of_notMem hn, Finset.card_image_of_injective _ Complex.ofReal_injective, hcard] at h1
    have h2 := (Multiset.toFinset_card_le (Q.map (Int.castRingHom ℂ)).roots).trans (card_roots' _)
    have h3 : (Q.map (Int.castRingHom ℂ)).natDegree ≤ d := by
      refine natDegree_map_le.trans ?_
      rw [hQ]; exact hp_degree N d
    omega
  obtain ⟨r, hr, rfl⟩ := Finset.mem_image.1 hmem
  refine ⟨Complex.ofReal_im r, ?_⟩
  rw [Complex.ofReal_re]
  have := (hS r hr).2
  have h0 : (0:ℝ) ≤ s := Nat.cast_nonneg s
  linarith

theorem hp_sum (N : ℕ) {w y : ℂ} (h : w * y = 1) (f : ℕ) :
    ((hp N f).map (Int.castRingHom ℂ)).eval y * w ^ f = w * ∑ j ∈ range f, (aa N j : ℂ) * w ^ j := by
  induction f with
  | zero => simp [hp]
  | succ f ih =>
    rw [Finset.sum_range_succ, mul_add, ← ih]
    show ((X * hp N f + C (aa N f : ℤ)).map (Int.castRingHom ℂ)).eval y * _ = _
    rw [Polynomial.map_add, Polynomial.map_mul, map_X, map_C, eval_add, eval_mul, eval_X, eval_C]
    simp only [eq_intCast, Int.cast_natCast]
    rw [pow_succ]
    linear_combination (((hp N f).map (Int.castRingHom ℂ)).eval y * w ^ f) * h

/-- the odd part of `∑ μ^k F^(k)(1)` has real negative roots -/
theorem odd_real {N : ℕ} (h2 : 2 ≤ N) (h100 : N ≤ 100) {w : ℂ}
    (h : ∑ j ∈ range ((N - 1) / 2 + 1), (aa N j : ℂ) * w ^ j = 0) : w.im = 0 ∧ w.re < 0 := by
  have hw : w ≠ 0 := by
    rintro rfl
    rw [Finset.sum_range_succ', Finset.sum_eq_zero (fun j _ => by rw [zero_pow (by omega), mul_zero])] at h
    simp only [pow_zero, mul_one, zero_add] at h
    have h0 : aa N 0 = 0 := by exact_mod_cast h
    have h1 : uu N 0 = N := rfl
    unfold aa at h0
    rw [mul_zero, h1] at h0
    omega
  have hy : w * w⁻¹ = 1 := mul_inv_cancel₀ hw
  have h3 := hp_sum N hy ((N - 1) / 2 + 1)
  rw [h, mul_zero] at h3
  have h4 := (mul_eq_zero.1 h3).resolve_right (pow_ne_zero _ hw)
  obtain ⟨h5, h6⟩ := hp_roots h2 h100 h4
  have hi : w⁻¹ = ((w⁻¹).re : ℂ) := Complex.ext rfl h5
  have : w = (((w⁻¹).re)⁻¹ : ℝ) := by
    rw [Complex.ofReal_inv, ← hi, inv_inv]
  rw [this]
  exact ⟨Complex.ofReal_im _, by rw [Complex.ofReal_re]; exact inv_lt_zero.2 h6⟩

theorem split_sum (c : ℕ → ℂ) (μ : ℂ) (L : ℕ) :
    ∑ k ∈ range (2 * L), (μ ^ k * c k - (-μ) ^ k * c k) = 2 * μ * ∑ j ∈ range L, c (2 * j + 1) * (μ ^ 2) ^ j := by
  induction L with
  | zero => simp
  | succ L ih =>
    rw [show 2 * (L + 1) = 2 * L + 1 + 1 by ring, Finset.sum_range_succ, Finset.sum_range_succ, ih, Finset.sum_range_succ]
    have e1 : (-μ) ^ (2 * L) = μ ^ (2 * L) := by rw [neg_pow, pow_mul (-1 : ℂ)]; simp
    rw [pow_succ (-μ), e1, pow_succ μ (2 * L), ← pow_mul]
    ring

/-- equal values at `μ` and `-μ` of the series of `X U_(N-1)` -/
theorem xf_reflect {N : ℕ} (h2 : 2 ≤ N) (h100 : N ≤ 100) {μ : ℂ} (hμ : μ ≠ 0) {L : ℕ} (hL : (N - 1) / 2 + 1 ≤ L)
    (h : (ser (2 * L) μ (X * ff N)).eval 1 = (ser (2 * L) (-μ) (X * ff N)).eval 1) : (μ ^ 2).im = 0 ∧ (μ ^ 2).re < 0 := by
  have hN : 0 < N := by omega
  refine odd_real h2 h100 ?_
  have e : ∀ ν : ℂ, (ser (2 * L) ν (X * ff N)).eval 1 = ∑ k ∈ range (2 * L), ν ^ k * (derivative^[k] (X * ff N)).eval 1 := by
    intro ν
    unfold ser
    rw [eval_finset_sum]
    exact Finset.sum_congr rfl fun k _ => by rw [eval_mul, eval_C]
  rw [e, e] at h
  have h1 := split_sum (fun k => (derivative^[k] (X * ff N)).eval 1) μ L
  rw [Finset.sum_sub_distrib, h, sub_self] at h1
  have h3 := (mul_eq_zero.1 h1.symm).resolve_left (mul_ne_zero two_ne_zero hμ)
  simp only [xf_iter hN] at h3
  rw [← h3]
  refine Finset.sum_subset (Finset.range_subset_range.2 hL) fun j _ hj => ?_
  have hj' : (N - 1) / 2 + 1 ≤ j := by simpa using hj
  have : aa N j = 0 := by
    unfold aa
    rw [(uu_eq hN (2 * j + 1)).2 (by omega), (uu_eq hN (2 * j)).2 (by omega)]; rfl
  rw [this]; simp

end Aerokit.ChebStable
