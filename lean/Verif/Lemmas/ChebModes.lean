import Verif.Lemmas.ChebReal

/-! # Eigenvalues of the collocated derivatives: periodic conditions and walls -/

namespace Aerokit.ChebStable
open Polynomial Finset

theorem ser_refl_gen {M : ℕ} {F : ℂ[X]} {ε : ℂ} (hF : F.comp (-X) = C ε * F) (hd : F.degree < M) (μ : ℂ) :
    (ser M μ F).comp (-X) = C ε * ser M (-μ) F := by
  have h1 := ser_eq μ hd
  have h2 := ser_eq (-μ) hd
  obtain ⟨g, hg⟩ : ∃ g, g = ser M μ F := ⟨_, rfl⟩
  rw [← hg] at h1 ⊢
  have h3 : g.comp (-X) - C (-μ) * derivative (g.comp (-X)) = C ε * F := by
    rw [← hF, ← h1, derivative_comp, sub_comp, mul_comp, C_comp, derivative_neg, derivative_X, C_neg]
    ring
  rw [← sub_eq_zero]
  refine eq_zero_of_smul_deriv (μ := -μ) ?_
  rw [derivative_sub, derivative_C_mul]
  linear_combination h3 - C ε * h2

theorem ff_parity {N : ℕ} : (ff N).comp (-X) = C ((-1) ^ (N - 1)) * ff N := by
  apply Polynomial.funext
  intro x
  rw [eval_comp, eval_neg, eval_X, ff, Chebyshev.U_eval_neg, eval_mul, eval_C]
  rcases Nat.even_or_odd (N - 1) with h | h
  · rw [Int.negOnePow_even _ (by exact_mod_cast h), Units.val_one, Int.cast_one, h.neg_one_pow]
  · rw [Int.negOnePow_odd _ (by exact_mod_cast h), Units.val_neg, Units.val_one, Int.cast_neg, Int.cast_one, h.neg_one_pow]

theorem xff_parity {N : ℕ} : (X * ff N).comp (-X) = C (-(-1) ^ (N - 1)) * (X * ff N) := by
  rw [mul_comp, X_comp, ff_parity, C_neg]; ring

theorem xff_lt {N : ℕ} (hN : 0 < N) : (X * ff N).degree < ((2 * N : ℕ) : WithBot ℕ) := by
  rw [degree_mul, degree_X, ff_degree hN]
  exact_mod_cast (by omega : 1 + (N - 1) < 2 * N)

theorem ff_ne {N : ℕ} (hN : 0 < N) : ff N ≠ 0 := by
  intro h0
  have := ff_one hN
  rw [h0, eval_zero] at this
  exact hN.ne' (by exact_mod_cast this.symm)

theorem sq_neg_re {μ : ℂ} (h : (μ ^ 2).im = 0 ∧ (μ ^ 2).re < 0) : μ.re = 0 := by
  obtain ⟨h1, h2⟩ := h
  rw [pow_two] at h1 h2
  rw [Complex.mul_im] at h1
  rw [Complex.mul_re] at h2
  have h3 : μ.re * μ.im = 0 := by linarith
  rcases mul_eq_zero.1 h3 with h | h
  · exact h
  · rw [h] at h2; nlinarith [mul_self_nonneg μ.re]

/-- periodic conditions, even number of intervals, at most 100 -/
theorem periodic_imag_even {N : ℕ} (hN : Even N) (hN2 : 2 ≤ N) (h100 : N ≤ 100) {p : ℂ[X]} (hd : p.natDegree ≤ N) (hp : p ≠ 0) {z : ℂ}
    (h0 : ∀ j, 0 < j → j < N → (derivative p).eval (Complex.cos (ang N j)) = z * p.eval (Complex.cos (ang N j)))
    (he : p.eval 1 = p.eval (-1)) (he' : (derivative p).eval 1 = (derivative p).eval (-1)) : z.re = 0 := by
  have hN0 : 0 < N := by omega
  have hNC : (N:ℂ) ≠ 0 := by exact_mod_cast hN0.ne'
  have hodd : Odd (N - 1) := by
    obtain ⟨k, rfl⟩ := hN
    exact ⟨k - 1, by omega⟩
  have hε : ((-1 : ℂ) ^ (N - 1)) = -1 := hodd.neg_one_pow
  have hfm : (ff N).eval (-1) = -N := by
    have := congrArg (eval 1) (ff_parity (N := N))
    rw [eval_comp, eval_neg, eval_X, eval_mul, eval_C, ff_one hN0, hε] at this
    rw [this]; ring
  obtain ⟨α, β, hR⟩ := dvd_ff hN0 (R := derivative p - C z * p)
    ((natDegree_sub_le _ _).trans (max_le ((natDegree_derivative_le p).trans (by omega)) ((natDegree_C_mul_le _ _).trans hd)))
    (fun j h1 h2 => by rw [eval_sub, eval_mul, eval_C, h0 j h1 h2, sub_self])
  have hβ : β = 0 := by
    have e1 := congrArg (eval 1) hR
    have e2 := congrArg (eval (-1)) hR
    simp only [eval_mul, eval_sub, eval_add, eval_C, eval_X, ff_one hN0, hfm] at e1 e2
    have : (α * 1 + β) * (N:ℂ) = (α - β) * N := by rw [← e1, he, he', e2]; ring
    have := mul_right_cancel₀ hNC this
    linear_combination (1 / 2 : ℂ) * this
  subst hβ
  rw [C_0, add_zero, mul_assoc] at hR
  by_cases hz : z = 0
  · rw [hz]; rfl
  obtain ⟨μ, hμ⟩ : ∃ μ, μ = 1 / z := ⟨_, rfl⟩
  have hμz : μ * z = 1 := by rw [hμ]; field_simp
  have hμ0 : μ ≠ 0 := by rintro rfl; simp at hμz
  have hCC : C μ * C z = (1 : ℂ[X]) := by rw [← C_mul, hμz, C_1]
  have hs := ser_eq μ (xff_lt hN0)
  have hps : p + C (μ * α) * ser (2 * N) μ (X * ff N) = 0 := by
    refine eq_zero_of_smul_deriv (μ := μ) ?_
    rw [derivative_add, derivative_C_mul, C_mul]
    linear_combination (-p) * hCC - C μ * hR + C μ * C α * hs
  have hα : μ * α ≠ 0 := by
    intro h
    rw [h, C_0, zero_mul, add_zero] at hps
    exact hp hps
  have e1 := congrArg (eval 1) hps
  have e2 := congrArg (eval (-1)) hps
  rw [eval_add, eval_mul, eval_C, eval_zero] at e1 e2
  have h3 : (ser (2 * N) μ (X * ff N)).eval 1 = (ser (2 * N) (-μ) (X * ff N)).eval 1 := by
    have h4 := congrArg (eval 1) (ser_refl_gen xff_parity (xff_lt hN0) μ)
    rw [hε, neg_neg, C_1, one_mul, eval_comp, eval_neg, eval_X] at h4
    rw [← h4]
    apply mul_left_cancel₀ hα
    linear_combination e1 - e2 - he
  have hre := sq_neg_re (xf_reflect hN2 h100 hμ0 (L := N) (by omega) h3)
  have : z = 1 / μ := by rw [hμ]; field_simp
  rw [this, one_div, Complex.inv_re, hre, zero_div]

/-- walls: the residual -/
theorem wall_core {M : ℕ} {F p : ℂ[X]} {ε c lam μ : ℂ} (hε : ε ≠ 0) (hF : F.comp (-X) = C ε * F) (hdF : F.degree < M)
    (hpar : p.comp (-X) = C ε * p) (hp : p ≠ 0) (heq : derivative (derivative p) - C lam * p = C c * F)
    (hw : (derivative p).eval 1 = 0) (hμ : μ ^ 2 * lam = 1) : (ser M μ F).eval 1 = (ser M (-μ) F).eval 1 := by
  have hμ0 : μ ≠ 0 := by rintro rfl; simp at hμ
  have hCC : C μ * C μ * C lam = (1 : ℂ[X]) := by rw [← C_mul, ← C_mul, ← pow_two, hμ, C_1]
  have hs := ser_eq μ hdF
  have hW : (p + C μ * derivative p) + C (μ * μ * c) * ser M μ F = 0 := by
    refine eq_zero_of_smul_deriv (μ := μ) ?_
    rw [derivative_add, derivative_add, derivative_C_mul, derivative_C_mul, C_mul, C_mul]
    linear_combination (-p) * hCC - C μ * C μ * heq + C μ * C μ * C c * hs
  have hc : c ≠ 0 := by
    rintro rfl
    rw [mul_zero, C_0, zero_mul, add_zero] at hW
    refine hp (eq_zero_of_smul_deriv (μ := -μ) ?_)
    rw [C_neg]
    linear_combination hW
  have e1 := congrArg (eval 1) hW
  have e2 := congrArg (eval (-1)) hW
  have h4 := congrArg (eval 1) (ser_refl_gen hF hdF μ)
  have h5 := congrArg (eval 1) hpar
  have h6 := congrArg (fun q => eval 1 (derivative q)) hpar
  simp only [derivative_comp, derivative_neg, derivative_X, derivative_C_mul, eval_mul, eval_comp, eval_neg, eval_X, eval_one, eval_C, hw] at h6
  rw [eval_comp, eval_neg, eval_X, eval_mul, eval_C] at h4 h5
  simp only [eval_add, eval_mul, eval_C, eval_zero] at e1 e2
  rw [h4, h5] at e2
  rw [hw] at e1
  have h7 : (derivative p).eval (-1) = 0 := by linear_combination -h6
  rw [h7] at e2
  have h8 : ε * (μ * μ * c) ≠ 0 := mul_ne_zero hε (mul_ne_zero (mul_ne_zero hμ0 hμ0) hc)
  apply mul_left_cancel₀ h8
  linear_combination ε * e1 - e2

theorem wall_residual {N : ℕ} (hN : 0 < N) {p : ℂ[X]} (hd : p.natDegree ≤ N) {lam : ℂ}
    (h0 : ∀ j, 0 < j → j < N → (derivative (derivative p)).eval (Complex.cos (ang N j)) = lam * p.eval (Complex.cos (ang N j))) :
    ∃ α β : ℂ, derivative (derivative p) - C lam * p = (C α * X + C β) * ff N :=
  dvd_ff hN ((natDegree_sub_le _ _).trans (max_le ((natDegree_derivative_le _).trans ((Nat.sub_le _ _).trans
      ((natDegree_derivative_le p).trans (by omega)))) ((natDegree_C_mul_le _ _).trans hd)))
    (fun j h1 h2 => by rw [eval_sub, eval_mul, eval_C, h0 j h1 h2, sub_self])

theorem parity_residual {p : ℂ[X]} {ε lam : ℂ} (hpar : p.comp (-X) = C ε * p) :
    (derivative (derivative p) - C lam * p).comp (-X) = C ε * (derivative (derivative p) - C lam * p) := by
  have h6 := congrArg (fun q => derivative (derivative q)) hpar
  simp only [derivative_comp, derivative_neg, derivative_X, derivative_mul, derivative_C, derivative_one, neg_zero, zero_mul,
    zero_add, neg_mul, one_mul, neg_neg] at h6
  rw [sub_comp, mul_comp, C_comp, hpar, h6]; ring

theorem half_sq (lam : ℂ) (h : lam ≠ 0) : ∃ μ : ℂ, μ ^ 2 * lam = 1 := by
  obtain ⟨z, hz⟩ := IsAlgClosed.exists_pow_nat_eq lam⁻¹ (n := 2) (by norm_num)
  exact ⟨z, by rw [hz, inv_mul_cancel₀ h]⟩

theorem lam_neg {μ lam : ℂ} (h : μ ^ 2 * lam = 1) (h1 : (μ ^ 2).im = 0 ∧ (μ ^ 2).re < 0) : lam.im = 0 ∧ lam.re ≤ 0 := by
  have e : μ ^ 2 = ((μ ^ 2).re : ℂ) := Complex.ext rfl h1.1
  have hl : lam = (((μ ^ 2).re)⁻¹ : ℝ) := by
    rw [Complex.ofReal_inv, ← e]; exact eq_inv_of_mul_eq_one_right h
  rw [hl]
  exact ⟨Complex.ofReal_im _, by rw [Complex.ofReal_re]; exact (inv_lt_zero.2 h1.2).le⟩

/-- walls, parity of `U_(N-1)` -/
theorem wall_same {N : ℕ} (hN2 : 2 ≤ N) {p : ℂ[X]} (hd : p.natDegree ≤ N) (hp : p ≠ 0)
    (hpar : p.comp (-X) = C ((-1) ^ (N - 1)) * p) {lam : ℂ}
    (h0 : ∀ j, 0 < j → j < N → (derivative (derivative p)).eval (Complex.cos (ang N j)) = lam * p.eval (Complex.cos (ang N j)))
    (hw : (derivative p).eval 1 = 0) : lam.im = 0 ∧ lam.re ≤ 0 := by
  have hN0 : 0 < N := by omega
  have hε : ((-1 : ℂ) ^ (N - 1)) ≠ 0 := pow_ne_zero _ (by norm_num)
  by_cases hl : lam = 0
  · rw [hl]; simp
  obtain ⟨μ, hμ⟩ := half_sq lam hl
  obtain ⟨α, β, hR⟩ := wall_residual hN0 hd h0
  have hα : α = 0 := by
    have h1 := parity_residual (lam := lam) hpar
    rw [hR, mul_comp, add_comp, mul_comp, C_comp, C_comp, X_comp, ff_parity] at h1
    have h2 : C ((-1) ^ (N - 1) * (2 * α)) * (X * ff N) = 0 := by
      simp only [C_mul, C_ofNat]
      linear_combination -h1
    have h3 := (mul_eq_zero.1 h2).resolve_right (mul_ne_zero X_ne_zero (ff_ne hN0))
    have h4 := (mul_eq_zero.1 (C_eq_zero.1 h3)).resolve_left hε
    simpa using h4
  subst hα
  rw [C_0, zero_mul, zero_add] at hR
  have h3 := wall_core hε ff_parity (ff_lt hN0) hpar hp hR hw hμ
  rw [← PP_eval, ← PP_eval] at h3
  have hre := reflect_re (PP_cj N) (PP_deg hN2) (fun ρ hρ => hurwitz hN2 (by rwa [PP_eval] at hρ)) h3
  have hμ0 : μ ≠ 0 := by rintro rfl; simp at hμ
  refine lam_neg hμ ⟨?_, ?_⟩
  · rw [pow_two, Complex.mul_im, hre]; ring
  · rw [pow_two, Complex.mul_re, hre]
    have : μ.im ≠ 0 := fun h => hμ0 (Complex.ext hre h)
    have := mul_self_pos.2 this
    nlinarith

/-- walls, the other parity -/
theorem wall_other {N : ℕ} (hN2 : 2 ≤ N) (h100 : N ≤ 100) {p : ℂ[X]} (hd : p.natDegree ≤ N) (hp : p ≠ 0)
    (hpar : p.comp (-X) = C (-(-1) ^ (N - 1)) * p) {lam : ℂ}
    (h0 : ∀ j, 0 < j → j < N → (derivative (derivative p)).eval (Complex.cos (ang N j)) = lam * p.eval (Complex.cos (ang N j)))
    (hw : (derivative p).eval 1 = 0) : lam.im = 0 ∧ lam.re ≤ 0 := by
  have hN0 : 0 < N := by omega
  have hε : (-(-1 : ℂ) ^ (N - 1)) ≠ 0 := neg_ne_zero.2 (pow_ne_zero _ (by norm_num))
  by_cases hl : lam = 0
  · rw [hl]; simp
  obtain ⟨μ, hμ⟩ := half_sq lam hl
  obtain ⟨α, β, hR⟩ := wall_residual hN0 hd h0
  have hβ : β = 0 := by
    have h1 := parity_residual (lam := lam) hpar
    rw [hR, mul_comp, add_comp, mul_comp, C_comp, C_comp, X_comp, ff_parity] at h1
    have h2 : C (-(-1) ^ (N - 1) * (2 * β)) * ff N = 0 := by
      simp only [C_mul, C_neg, C_ofNat] at h1 ⊢
      linear_combination -h1
    have h3 := (mul_eq_zero.1 h2).resolve_right (ff_ne hN0)
    have h4 := (mul_eq_zero.1 (C_eq_zero.1 h3)).resolve_left hε
    simpa using h4
  subst hβ
  rw [C_0, add_zero, mul_assoc] at hR
  have h3 := wall_core hε xff_parity (xff_lt hN0) hpar hp hR hw hμ
  have hμ0 : μ ≠ 0 := by rintro rfl; simp at hμ
  exact lam_neg hμ (xf_reflect hN2 h100 hμ0 (L := N) (by omega) h3)

theorem cos_refl {N j : ℕ} (hN : 0 < N) (hj : j ≤ N) : Complex.cos (ang N (N - j)) = -Complex.cos (ang N j) := by
  rw [← Complex.ofReal_cos, ← Complex.ofReal_cos, ← Complex.ofReal_neg]
  congr 1
  rw [← Real.cos_pi_sub]
  congr 1
  unfold ang
  have : (N:ℝ) ≠ 0 := by exact_mod_cast hN.ne'
  rw [Nat.cast_sub hj]
  field_simp

/-- walls, at most 100 intervals -/
theorem wall_real {N : ℕ} (hN2 : 2 ≤ N) (h100 : N ≤ 100) {p : ℂ[X]} (hd : p.natDegree ≤ N) (hp : p ≠ 0) {lam : ℂ}
    (h0 : ∀ j, 0 < j → j < N → (derivative (derivative p)).eval (Complex.cos (ang N j)) = lam * p.eval (Complex.cos (ang N j)))
    (hw : (derivative p).eval 1 = 0) (hw' : (derivative p).eval (-1) = 0) : lam.im = 0 ∧ lam.re ≤ 0 := by
  have hN0 : 0 < N := by omega
  obtain ⟨ε, hε⟩ : ∃ ε : ℂ, ε = (-1) ^ (N - 1) := ⟨_, rfl⟩
  have hεε : ε * ε = 1 := by rw [hε, ← pow_add, ← two_mul, pow_mul]; simp
  have hCC : C ε * C ε = (1 : ℂ[X]) := by rw [← C_mul, hεε, C_1]
  obtain ⟨q, hq⟩ : ∃ q, q = p.comp (-X) := ⟨_, rfl⟩
  have hqc : q.comp (-X) = p := by rw [hq, comp_neg_X_comp_neg_X]
  have hqd : q.natDegree ≤ N := by
    have : q.degree = p.degree := by rw [hq, degree_comp_neg_X]
    rw [natDegree_eq_of_degree_eq this]; exact hd
  have hq1 : derivative q = -(derivative p).comp (-X) := by
    rw [hq, derivative_comp, derivative_neg, derivative_X]; ring
  have hq2 : derivative (derivative q) = (derivative (derivative p)).comp (-X) := by
    rw [hq1, derivative_neg, derivative_comp, derivative_neg, derivative_X]; ring
  have h0q : ∀ j, 0 < j → j < N → (derivative (derivative q)).eval (Complex.cos (ang N j)) = lam * q.eval (Complex.cos (ang N j)) := by
    intro j h1 h2
    have := h0 (N - j) (by omega) (by omega)
    rw [cos_refl hN0 h2.le] at this
    rw [hq2, hq, eval_comp, eval_comp, eval_neg, eval_X]; exact this
  have hwq : (derivative q).eval 1 = 0 := by
    rw [hq1, eval_neg, eval_comp, eval_neg, eval_X, hw', neg_zero]
  -- the two parts
  have part : ∀ c : ℂ, c * c = 1 → (p + C c * q).comp (-X) = C c * (p + C c * q) := by
    intro c hc
    have : C c * C c = (1 : ℂ[X]) := by rw [← C_mul, hc, C_1]
    rw [add_comp, mul_comp, C_comp, hqc, ← hq]
    linear_combination (-q) * this
  have hdeg : ∀ c : ℂ, (p + C c * q).natDegree ≤ N := fun c =>
    (natDegree_add_le _ _).trans (max_le hd ((natDegree_C_mul_le _ _).trans hqd))
  have hin : ∀ c : ℂ, ∀ j, 0 < j → j < N → (derivative (derivative (p + C c * q))).eval (Complex.cos (ang N j))
      = lam * (p + C c * q).eval (Complex.cos (ang N j)) := by
    intro c j h1 h2
    simp only [derivative_add, derivative_C_mul, eval_add, eval_mul, eval_C, h0 j h1 h2, h0q j h1 h2]
    ring
  have hwc : ∀ c : ℂ, (derivative (p + C c * q)).eval 1 = 0 := by
    intro c
    simp only [derivative_add, derivative_C_mul, eval_add, eval_mul, eval_C, hw, hwq]
    ring
  by_cases h1 : p + C ε * q = 0
  · have h2 : p + C (-ε) * q ≠ 0 := by
      intro h2
      apply hp
      rw [C_neg] at h2
      have : (2 : ℂ[X]) * p = 0 := by linear_combination h1 + h2
      exact (mul_eq_zero.1 this).resolve_left two_ne_zero
    exact wall_other hN2 h100 (hdeg _) h2 (by rw [← hε]; exact part _ (by rw [neg_mul_neg, hεε])) (hin _) (hwc _)
  · exact wall_same hN2 (hdeg _) h1 (by rw [← hε]; exact part _ hεε) (hin _) (hwc _)

end Aerokit.ChebStable
