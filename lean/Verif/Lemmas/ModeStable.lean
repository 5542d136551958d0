import Verif.Lemmas.ChebModes
import Verif.Lemmas.EulerModes
import Verif.Lemmas.NumSpectral

/-! # Sampled functions and polynomials on Chebyshev-Lobatto points -/

namespace Aerokit.ChebStable
open Polynomial Finset Welfert NumSpectral Spec

variable {n : ℕ}

/-- the interpolating polynomial of a sampled function, on `[-1, 1]` -/
noncomputable def ip (w : Fin n → ℂ) : ℂ[X] := ∑ j, C (w j) * (ell (fun i : Fin n => node n i) j).map Complex.ofRealHom

theorem map_eval (p : ℝ[X]) (x : ℝ) : (p.map Complex.ofRealHom).eval (x:ℂ) = ((p.eval x : ℝ) : ℂ) :=
  eval_map_apply (p := p) Complex.ofRealHom x

theorem ip_iter (w : Fin n → ℂ) (m : ℕ) (i : Fin n) :
    (derivative^[m] (ip w)).eval (node n i : ℂ) = ∑ j, (Rc n m i j : ℂ) * w j := by
  unfold ip
  rw [iterate_derivative_sum, eval_finset_sum]
  refine Finset.sum_congr rfl fun j _ => ?_
  rw [iterate_derivative_C_mul, eval_mul, eval_C, iterate_derivative_map, map_eval, mul_comm]
  rfl

theorem ip_node (hn : 2 ≤ n) (w : Fin n → ℂ) (i : Fin n) : (ip w).eval (node n i : ℂ) = w i := by
  have h := ip_iter w 0 i
  rw [Function.iterate_zero_apply] at h
  rw [h, Rc_zero hn]
  rw [Finset.sum_eq_single i]
  · simp
  · intro j _ hj; rw [Matrix.one_apply_ne (Ne.symm hj)]; simp
  · intro h; exact absurd (Finset.mem_univ i) h

theorem ip_dC (a b : ℝ) (w : Fin n → ℂ) (m : ℕ) (i : Fin n) :
    dC (Dm n a b m) w i = ((-2 / (b - a) : ℝ) : ℂ) ^ m * (derivative^[m] (ip w)).eval (node n i : ℂ) := by
  rw [ip_iter, Finset.mul_sum]
  unfold dC Dm
  refine Finset.sum_congr rfl fun j _ => ?_
  push_cast
  ring

theorem ip_degree (hn : 2 ≤ n) (w : Fin n → ℂ) : (ip w).natDegree ≤ n - 1 := by
  unfold ip
  refine natDegree_sum_le_of_forall_le _ _ fun j _ => ?_
  refine (natDegree_C_mul_le _ _).trans (natDegree_map_le.trans ?_)
  refine natDegree_le_of_degree_le ?_
  unfold ell
  rw [Lagrange.degree_basis (node_inj hn).injOn (Finset.mem_univ j), Finset.card_univ, Fintype.card_fin]

theorem ip_ne (hn : 2 ≤ n) {w : Fin n → ℂ} (hw : w ≠ 0) : ip w ≠ 0 := by
  intro h
  apply hw
  funext i
  rw [← ip_node hn w i, h, eval_zero]; rfl

theorem node_ang (hn : 2 ≤ n) (j : ℕ) : (node n j : ℂ) = Complex.cos (ang (n - 1) j) := by
  rw [← Complex.ofReal_cos]
  unfold node ang
  rw [Nat.cast_sub (by omega : 1 ≤ n), Nat.cast_one]

theorem even_zero {N : ℕ} (hN : Even N) (hN2 : 2 ≤ N) {p : ℂ[X]} (hd : p.natDegree ≤ N)
    (h0 : ∀ j, 0 < j → j < N → p.eval (Complex.cos (ang N j)) = 0) (he : p.eval 1 = p.eval (-1))
    (he' : (derivative p).eval 1 = (derivative p).eval (-1)) : p = 0 := by
  have hN0 : 0 < N := by omega
  have hNC : (N:ℂ) ≠ 0 := by exact_mod_cast hN0.ne'
  have hodd : Odd (N - 1) := by
    obtain ⟨k, rfl⟩ := hN
    exact ⟨k - 1, by omega⟩
  have hε : ((-1 : ℂ) ^ (N - 1)) = -1 := hodd.neg_one_pow
  have hfm : (ff N).eval (-1) = -N := by
    have := congrArg (eval 1) (ff_parity (N := N))
    rw [eval_comp, eval_neg, eval_X, eval_mul, eval_C, ff_one hN0, hε] at this
    rw [this]; ring
  obtain ⟨α, β, rfl⟩ := dvd_ff hN0 hd h0
  have hβ : β = 0 := by
    simp only [eval_mul, eval_add, eval_C, eval_X, ff_one hN0, hfm] at he
    have : (α * 1 + β) * (N:ℂ) = (α - β) * N := by rw [he]; ring
    have := mul_right_cancel₀ hNC this
    linear_combination (1 / 2 : ℂ) * this
  subst hβ
  have hα : α = 0 := by
    rw [C_0, add_zero, mul_assoc, derivative_C_mul, eval_mul, eval_mul, eval_C, eval_C] at he'
    have hpar := congrArg (fun q => eval 1 (derivative q)) (xff_parity (N := N))
    rw [hε, neg_neg, C_1, one_mul] at hpar
    simp only [derivative_comp, derivative_neg, derivative_X, eval_mul, eval_comp, eval_neg, eval_X, eval_one] at hpar
    have h1 := xf_iter hN0 0
    rw [Function.iterate_succ_apply, Function.iterate_zero_apply] at h1
    have h2 : α * (2 * (aa N 0 : ℂ)) = 0 := by
      rw [← h1]; linear_combination he' - α * hpar
    rcases mul_eq_zero.1 h2 with h | h
    · exact h
    · exfalso
      have h3 : (aa N 0 : ℂ) = 0 := by simpa using h
      have h4 : aa N 0 = 0 := by exact_mod_cast h3
      have h5 : uu N 0 = N := rfl
      unfold aa at h4
      rw [mul_zero, h5] at h4
      omega
  subst hα
  simp

variable {a b : ℝ}

/-- the periodic waves carried at a real speed do not grow -/
theorem wave_neutral (hn : 3 ≤ n) (hsize : Even n ∨ n ≤ 101) (hab : a ≠ b) {s : ℝ} {ω : ℂ} {w : Fin n → ℂ}
    (h : PeriodicWave (by omega) (Dm n a b 1) s ω w) : ω.im = 0 := by
  have hn2 : 2 ≤ n := by omega
  obtain ⟨hw, ⟨hp1, hp2⟩, hin⟩ := h
  obtain ⟨p, hp⟩ : ∃ p, p = ip w := ⟨_, rfl⟩
  have hp0 : p ≠ 0 := by rw [hp]; exact ip_ne hn2 hw
  have hpd : p.natDegree ≤ n - 1 := by rw [hp]; exact ip_degree hn2 w
  obtain ⟨σ, hσ⟩ : ∃ σ : ℝ, σ = -2 / (b - a) := ⟨_, rfl⟩
  have hσ0 : σ ≠ 0 := by rw [hσ]; exact div_ne_zero (by norm_num) (sub_ne_zero.2 hab.symm)
  have hσC : (σ:ℂ) ≠ 0 := by exact_mod_cast hσ0
  have hd : ∀ i, dC (Dm n a b 1) w i = σ * (derivative p).eval (node n i : ℂ) := by
    intro i; rw [ip_dC, ← hp, hσ, pow_one, Function.iterate_succ_apply, Function.iterate_zero_apply]
  have hv : ∀ i : Fin n, w i = p.eval (node n i : ℂ) := fun i => by rw [hp, ip_node hn2]
  have n0 : ((node n ((⟨0, by omega⟩ : Fin n) : ℕ) : ℝ) : ℂ) = 1 := by rw [node_zero]; norm_num
  have n1 : ((node n ((⟨n - 1, by omega⟩ : Fin n) : ℕ) : ℝ) : ℂ) = -1 := by rw [node_last hn2]; norm_num
  have he : p.eval 1 = p.eval (-1) := by
    rw [hv, hv, n0, n1] at hp1; exact hp1
  have he' : (derivative p).eval 1 = (derivative p).eval (-1) := by
    rw [hd, hd, n0, n1] at hp2; exact mul_left_cancel₀ hσC hp2
  have hin' : ∀ j, 0 < j → j < n - 1 → (s:ℂ) * (σ * (derivative p).eval (Complex.cos (ang (n - 1) j)))
      = Complex.I * ω * p.eval (Complex.cos (ang (n - 1) j)) := by
    intro j h1 h2
    have := hin ⟨j, by omega⟩ h1 h2
    rw [hd, hv] at this
    simp only [] at this
    rw [node_ang hn2] at this
    exact this
  by_cases hs : s = 0
  · -- standing wave
    by_contra hω
    have hω0 : ω ≠ 0 := by rintro rfl; exact hω rfl
    have hz : ∀ j, 0 < j → j < n - 1 → p.eval (Complex.cos (ang (n - 1) j)) = 0 := by
      intro j h1 h2
      have := hin' j h1 h2
      rw [hs, Complex.ofReal_zero, zero_mul] at this
      exact (mul_eq_zero.1 this.symm).resolve_left (mul_ne_zero Complex.I_ne_zero hω0)
    apply hp0
    rcases Nat.even_or_odd (n - 1) with hN | hN
    · exact even_zero hN (by omega) hpd hz he he'
    · exact periodic_zero hN (by omega) hpd hz he he'
  · have hsC : (s:ℂ) ≠ 0 := by exact_mod_cast hs
    obtain ⟨z, hz⟩ : ∃ z : ℂ, z = Complex.I * ω / ((s * σ : ℝ) : ℂ) := ⟨_, rfl⟩
    have hin2 : ∀ j, 0 < j → j < n - 1 → (derivative p).eval (Complex.cos (ang (n - 1) j)) = z * p.eval (Complex.cos (ang (n - 1) j)) := by
      intro j h1 h2
      have := hin' j h1 h2
      rw [hz]
      push_cast
      field_simp
      linear_combination this
    have hre : z.re = 0 := by
      rcases Nat.even_or_odd (n - 1) with hN | hN
      · rcases hsize with h | h
        · exfalso
          obtain ⟨k, hk⟩ := h
          obtain ⟨l, hl⟩ := hN
          omega
        · exact periodic_imag_even hN (by omega) (by omega) hpd hp0 hin2 he he'
      · exact periodic_imag hN (by omega) hpd hp0 hin2 he he'
    rw [hz, Complex.div_ofReal_re] at hre
    have h1 : (Complex.I * ω).re = 0 := by
      rcases div_eq_zero_iff.1 hre with h | h
      · exact h
      · exact absurd h (mul_ne_zero hs hσ0)
    simpa using h1

/-- real eigenvalues between walls -/
theorem wave_walls (hn : 3 ≤ n) (hab : a ≠ b) {c2 : ℝ} (hc : 0 < c2) {ω : ℂ} {p : Fin n → ℂ} (hp : p ≠ 0)
    (hb : ∀ i : Fin n, ((i:ℕ) = 0 ∨ (i:ℕ) = n - 1) → dC (Dm n a b 1) p i = 0)
    (hin : ∀ i : Fin n, 0 < (i:ℕ) → (i:ℕ) < n - 1 → (c2 : ℂ) * dC (Dm n a b 2) p i = -ω ^ 2 * p i)
    (hsize : n ≤ 101 ∨ ∀ i, p i.rev = (-1) ^ n * p i) : ω.im = 0 := by
  have hn2 : 2 ≤ n := by omega
  obtain ⟨q, hq⟩ : ∃ q, q = ip p := ⟨_, rfl⟩
  have hq0 : q ≠ 0 := by rw [hq]; exact ip_ne hn2 hp
  have hqd : q.natDegree ≤ n - 1 := by rw [hq]; exact ip_degree hn2 p
  obtain ⟨σ, hσ⟩ : ∃ σ : ℝ, σ = -2 / (b - a) := ⟨_, rfl⟩
  have hσ0 : σ ≠ 0 := by rw [hσ]; exact div_ne_zero (by norm_num) (sub_ne_zero.2 hab.symm)
  have hσC : (σ:ℂ) ≠ 0 := by exact_mod_cast hσ0
  have hd : ∀ i, dC (Dm n a b 1) p i = σ * (derivative q).eval (node n i : ℂ) := by
    intro i; rw [ip_dC, ← hq, hσ, pow_one, Function.iterate_succ_apply, Function.iterate_zero_apply]
  have hd2 : ∀ i, dC (Dm n a b 2) p i = σ ^ 2 * (derivative (derivative q)).eval (node n i : ℂ) := by
    intro i; rw [ip_dC, ← hq, hσ, Function.iterate_succ_apply, Function.iterate_succ_apply, Function.iterate_zero_apply]
  have hv : ∀ i : Fin n, p i = q.eval (node n i : ℂ) := fun i => by rw [hq, ip_node hn2]
  have n0 : ((node n ((⟨0, by omega⟩ : Fin n) : ℕ) : ℝ) : ℂ) = 1 := by rw [node_zero]; norm_num
  have n1 : ((node n ((⟨n - 1, by omega⟩ : Fin n) : ℕ) : ℝ) : ℂ) = -1 := by rw [node_last hn2]; norm_num
  have hw : (derivative q).eval 1 = 0 := by
    have := hb ⟨0, by omega⟩ (.inl rfl)
    rw [hd, n0] at this
    exact (mul_eq_zero.1 this).resolve_left hσC
  have hw' : (derivative q).eval (-1) = 0 := by
    have := hb ⟨n - 1, by omega⟩ (.inr rfl)
    rw [hd, n1] at this
    exact (mul_eq_zero.1 this).resolve_left hσC
  have hcσ : c2 * σ ^ 2 ≠ 0 := mul_ne_zero hc.ne' (pow_ne_zero _ hσ0)
  obtain ⟨lam, hl⟩ : ∃ l : ℂ, l = -ω ^ 2 / ((c2 * σ ^ 2 : ℝ) : ℂ) := ⟨_, rfl⟩
  have hin' : ∀ j, 0 < j → j < n - 1 → (derivative (derivative q)).eval (Complex.cos (ang (n - 1) j))
      = lam * q.eval (Complex.cos (ang (n - 1) j)) := by
    intro j h1 h2
    have := hin ⟨j, by omega⟩ h1 h2
    rw [hd2, hv] at this
    simp only [] at this
    rw [node_ang hn2] at this
    rw [hl, div_mul_eq_mul_div, eq_div_iff (by exact_mod_cast hcσ), ← this]
    push_cast
    ring
  have hlam : lam.im = 0 ∧ lam.re ≤ 0 := by
    rcases hsize with h | h
    · exact wall_real (by omega) (by omega) hqd hq0 hin' hw hw'
    · refine wall_same (by omega) hqd hq0 ?_ hin' hw
      have hpow : ((-1 : ℂ) ^ (n - 1 - 1)) = (-1) ^ n := by
        rw [show n = n - 1 - 1 + 2 by omega, pow_add]; simp
      rw [hpow, ← sub_eq_zero]
      refine eq_zero_of_degree_lt_of_eval_finset_eq_zero (Finset.univ.image fun i : Fin n => (node n i : ℂ)) ?_ ?_
      · rw [Finset.card_image_of_injective _ (fun i j hij => node_inj hn2 (by exact_mod_cast hij)), Finset.card_univ, Fintype.card_fin]
        have hle : (q.comp (-X) - C ((-1) ^ n) * q).degree ≤ q.degree :=
          (degree_sub_le _ _).trans (max_le (by rw [degree_comp_neg_X]) (deg_C_mul _ _))
        refine hle.trans_lt ?_
        rw [← natDegree_lt_iff_degree_lt hq0]; omega
      · intro x hx
        obtain ⟨i, -, rfl⟩ := Finset.mem_image.1 hx
        have h1 := h i
        rw [hv, hv] at h1
        have h2 : ((i.rev : Fin n) : ℕ) = n - 1 - i := by rw [Fin.val_rev]; omega
        rw [h2, node_rev hn2 i.2] at h1
        rw [eval_sub, eval_comp, eval_neg, eval_X, eval_mul, eval_C]
        push_cast at h1
        rw [h1, sub_self]
  have hω2 : ω ^ 2 = ((-(c2 * σ ^ 2) * lam.re : ℝ) : ℂ) := by
    have h1 : lam = (lam.re : ℂ) := Complex.ext rfl hlam.1
    have h2 : lam * ((c2 * σ ^ 2 : ℝ) : ℂ) = -ω ^ 2 := by
      rw [hl, div_mul_cancel₀]; exact_mod_cast hcσ
    push_cast at h2 ⊢
    rw [h1] at h2
    linear_combination h2
  have hnn : 0 ≤ -(c2 * σ ^ 2) * lam.re := by
    have : 0 < c2 * σ ^ 2 := by positivity
    nlinarith [hlam.2]
  have i1 := congrArg Complex.im hω2
  have r1 := congrArg Complex.re hω2
  rw [Complex.ofReal_im, pow_two, Complex.mul_im] at i1
  rw [Complex.ofReal_re, pow_two, Complex.mul_re] at r1
  have h3 : ω.re * ω.im = 0 := by linarith
  rcases mul_eq_zero.1 h3 with h | h
  · rw [h] at r1
    nlinarith [mul_self_nonneg ω.im]
  · exact h

end Aerokit.ChebStable
