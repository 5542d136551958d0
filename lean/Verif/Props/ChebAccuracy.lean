import Verif.Props.ChebAlgebra
import Verif.Lemmas.Interp
import Mathlib.Analysis.SpecificLimits.FloorPow
import Mathlib.Analysis.SpecialFunctions.Trigonometric.Deriv
import Mathlib.Topology.Algebra.Order.Floor

/-! # Property C112 : spectral accuracy of `ChebCollocation` (`aerokit/common/numspectral.py`) -/

namespace Aerokit.Props
open NumSpectral Polynomial Aerokit.Welfert Aerokit.Interp Set

variable {N : ℕ}

theorem xv_mem_Icc (hN : 2 ≤ N) {a b : ℝ} (hab : a < b) (i : Fin N) : xv N a b i ∈ Icc a b := by
  unfold xv
  have h1 : node N i ≤ 1 := Real.cos_le_one _
  have h2 : -1 ≤ node N i := Real.neg_one_le_cos _
  constructor <;> nlinarith

/-- nodal product in the variable `ξ` -/
theorem nodal_xi (hN : 2 ≤ N) (t : ℝ) :
    ∏ i : Fin N, (t - node N i) = (t ^ 2 - 1) * (Chebyshev.U ℝ ((N - 2 : ℕ) : ℤ)).eval t / 2 ^ (N - 2) := by
  have h := congrArg (fun p => p.eval t) (Om_eq hN)
  simp only [eval_mul, eval_C, Lagrange.eval_nodal] at h
  have hU : Chebyshev.U ℝ (((N - 1 : ℕ) : ℤ) - 1) = Chebyshev.U ℝ ((N - 2 : ℕ) : ℤ) := by
    congr 1; omega
  have hX1 : (X ^ 2 - 1 : ℝ[X]).leadingCoeff = 1 := by
    rw [← C_1]; exact leadingCoeff_X_pow_sub_C (by norm_num)
  have hlc : (Om N).leadingCoeff = 2 ^ (N - 2) := by
    unfold Om
    rw [hU, leadingCoeff_mul, hX1, Chebyshev.leadingCoeff_U_natCast, one_mul]
  rw [hlc] at h
  unfold Om at h
  rw [hU] at h
  simp only [eval_mul, eval_sub, eval_pow, eval_X, eval_one] at h
  rw [h]
  field_simp

theorem nodal_xi_bound (hN : 2 ≤ N) {t : ℝ} (ht : |t| ≤ 1) :
    |∏ i : Fin N, (t - node N i)| ≤ 1 / 2 ^ (N - 2) := by
  rw [nodal_xi hN, abs_div, abs_of_pos (by positivity : (0:ℝ) < 2 ^ (N - 2))]
  gcongr
  obtain ⟨h1, h2⟩ := abs_le.1 ht
  obtain ⟨θ, rfl⟩ : ∃ θ, t = Real.cos θ := ⟨Real.arccos t, (Real.cos_arccos h1 h2).symm⟩
  have hu := Chebyshev.U_real_cos θ ((N - 2 : ℕ) : ℤ)
  have : (Real.cos θ ^ 2 - 1) * (Chebyshev.U ℝ ((N - 2 : ℕ) : ℤ)).eval (Real.cos θ)
      = -(Real.sin θ * ((Chebyshev.U ℝ ((N - 2 : ℕ) : ℤ)).eval (Real.cos θ) * Real.sin θ)) := by
    rw [Real.cos_sq']; ring
  rw [this, hu, abs_neg, abs_mul]
  calc _ ≤ 1 * 1 := mul_le_mul (Real.abs_sin_le_one _) (Real.abs_sin_le_one _) (abs_nonneg _) zero_le_one
    _ = 1 := one_mul 1

/-- nodal product in the variable `x` -/
theorem nodal_x (a b t : ℝ) (hab : a < b) :
    ∏ i : Fin N, (t - xv N a b i)
      = (-(b - a) / 2) ^ N * ∏ i : Fin N, ((1 - 2 * (t - a) / (b - a)) - node N i) := by
  have hba : b - a ≠ 0 := by linarith
  rw [← Fin.prod_const, ← Finset.prod_mul_distrib]
  refine Finset.prod_congr rfl fun i _ => ?_
  unfold xv
  field_simp
  ring

theorem nodal_x_bound (hN : 2 ≤ N) {a b t : ℝ} (hab : a < b) (ht : t ∈ Icc a b) :
    |∏ i : Fin N, (t - xv N a b i)| ≤ 4 * ((b - a) / 4) ^ N := by
  have hba : 0 < b - a := by linarith
  rw [nodal_x a b t hab, abs_mul, abs_pow]
  have h1 : |1 - 2 * (t - a) / (b - a)| ≤ 1 := by
    have h2 : 0 ≤ (t - a) / (b - a) := div_nonneg (by linarith [ht.1]) hba.le
    have h3 : (t - a) / (b - a) ≤ 1 := (div_le_one hba).2 (by linarith [ht.2])
    rw [mul_div_assoc, abs_le]
    constructor <;> linarith
  have h4 : |-(b - a) / 2| = (b - a) / 2 := by
    rw [abs_div, abs_neg, abs_of_pos hba, abs_of_pos (by norm_num : (0:ℝ) < 2)]
  rw [h4]
  calc ((b - a) / 2) ^ N * _ ≤ ((b - a) / 2) ^ N * (1 / 2 ^ (N - 2)) := by
        gcongr; exact nodal_xi_bound hN h1
    _ = 4 * ((b - a) / 4) ^ N := by
        obtain ⟨k, rfl⟩ : ∃ k, N = k + 2 := ⟨N - 2, by omega⟩
        rw [show k + 2 - 2 = k by omega, div_pow, div_pow, show (4:ℝ) = 2 ^ 2 by norm_num, ← pow_mul]
        field_simp
        ring

/-- derivative of the nodal product at a node -/
theorem nodal_x_deriv (hN : 2 ≤ N) {a b : ℝ} (hab : a < b) (i : Fin N) :
    ∃ w', HasDerivAt (fun t => ∏ i : Fin N, (t - xv N a b i)) w' (xv N a b i) ∧
      |w'| ≤ 4 * (N - 1) * ((b - a) / 4) ^ (N - 1) := by
  have hba : 0 < b - a := by linarith
  have hN1 := cast_pos hN
  have hU : Chebyshev.U ℝ (((N - 1 : ℕ) : ℤ) - 1) = Chebyshev.U ℝ ((N - 2 : ℕ) : ℤ) := by
    congr 1; omega
  have hfun : (fun t => ∏ i : Fin N, (t - xv N a b i))
      = fun t => (-(b - a) / 2) ^ N / 2 ^ (N - 2) * (Om N).eval (1 - 2 * (t - a) / (b - a)) := by
    funext t
    rw [nodal_x a b t hab, nodal_xi hN]
    unfold Om
    rw [hU]
    simp only [eval_mul, eval_sub, eval_pow, eval_X, eval_one]
    ring
  have hlin : HasDerivAt (fun t => 1 - 2 * (t - a) / (b - a)) (-2 / (b - a)) (xv N a b i) := by
    have := ((((hasDerivAt_id (xv N a b i)).sub_const a).const_mul 2).div_const (b - a)).const_sub 1
    refine this.congr_deriv ?_
    ring
  have hpt : 1 - 2 * (xv N a b i - a) / (b - a) = node N i := by
    unfold xv; field_simp; ring
  have hO : HasDerivAt (fun s => (Om N).eval s) (((N:ℝ) - 1) * (cw N i * (-1) ^ (i : ℕ)))
      (1 - 2 * (xv N a b i - a) / (b - a)) := by
    rw [hpt, ← Om_deriv hN i.2]
    exact (Om N).hasDerivAt _
  have hcomp := hO.comp (xv N a b i) hlin
  refine ⟨_, by rw [hfun]; exact hcomp.const_mul _, ?_⟩
  have hcw : |cw N i| ≤ 2 := by
    unfold cw; split_ifs <;> norm_num
  have e1 : |(-2 : ℝ) / (b - a)| = 2 / (b - a) := by
    rw [abs_div, abs_of_pos hba]; norm_num
  have e2 : |(-(b - a) / 2) ^ N / 2 ^ (N - 2)| = ((b - a) / 2) ^ N / 2 ^ (N - 2) := by
    rw [abs_div, abs_pow, abs_div, abs_neg, abs_of_pos hba, abs_of_pos (by norm_num : (0:ℝ) < 2),
      abs_of_pos (by positivity : (0:ℝ) < 2 ^ (N - 2))]
  rw [abs_mul, abs_mul, abs_mul, abs_mul, e1, e2, abs_pow, abs_neg, abs_one, one_pow, mul_one,
    abs_of_pos hN1]
  calc ((b - a) / 2) ^ N / 2 ^ (N - 2) * (((N:ℝ) - 1) * |cw N i| * (2 / (b - a)))
      ≤ ((b - a) / 2) ^ N / 2 ^ (N - 2) * (((N:ℝ) - 1) * 2 * (2 / (b - a))) := by
        gcongr
    _ = 4 * (N - 1) * ((b - a) / 4) ^ (N - 1) := by
        obtain ⟨k, rfl⟩ : ∃ k, N = k + 2 := ⟨N - 2, by omega⟩
        rw [show k + 2 - 2 = k by omega, show k + 2 - 1 = k + 1 by omega, div_pow, div_pow,
          show (4:ℝ) = 2 ^ 2 by norm_num, ← pow_mul]
        field_simp
        ring

/-- the function minus the polynomial through its nodal values -/
theorem interp_error (hN : 2 ≤ N) {a b M : ℝ} (hab : a < b) {F : ℕ → ℝ → ℝ} (hF : Derivs N F a b)
    (hM : ∀ x ∈ Icc a b, |F N x| ≤ M) :
    ∃ p : ℝ[X], p.degree < N ∧ (∀ i, p.eval (xv N a b i) = F 0 (xv N a b i)) ∧
      (∀ t ∈ Icc a b, |p.eval t - F 0 t| ≤ M / N.factorial * |∏ i : Fin N, (t - xv N a b i)|) ∧
      ∀ m, 1 ≤ m → m < N → ∀ t ∈ Icc a b,
        |(derivative^[m] p).eval t - F m t| ≤ M * (b - a) ^ (N - m) / (N - m).factorial := by
  classical
  obtain ⟨p, hp, hv⟩ := nodal_poly hN hab.ne (fun i => F 0 (xv N a b i))
  let G : ℕ → ℝ → ℝ := fun k y => F k y - (derivative^[k] p).eval y
  have hG : Derivs N G a b := by
    intro k hk y hy
    refine (hF k hk y hy).sub ?_
    rw [Function.iterate_succ_apply']
    exact ((derivative^[k] p).hasDerivAt y).hasDerivWithinAt
  have hGN : ∀ x, G N x = F N x := by
    intro x
    simp only [G, iterate_derivative_eq_zero_of_degree_lt hp, eval_zero, sub_zero]
  let s : Finset ℝ := Finset.univ.image (xv N a b)
  have hcard : s.card = N := by
    rw [Finset.card_image_of_injective _ (xv_inj hN hab.ne)]; simp
  have hsz : ∀ z ∈ s, z ∈ Icc a b ∧ G 0 z = 0 := by
    intro z hz
    obtain ⟨i, -, rfl⟩ := Finset.mem_image.1 hz
    exact ⟨xv_mem_Icc hN hab i, by simp [G, hv i]⟩
  have hMf : ∀ (n : ℕ), (0:ℝ) < n.factorial := fun n => by exact_mod_cast Nat.factorial_pos n
  refine ⟨p, hp, hv, fun t ht => ?_, fun m hm hmN t ht => ?_⟩
  · obtain ⟨ξ, hξ, e⟩ := zeros_error (s := s) (by rw [hcard]; exact hG) hsz ht
    rw [hcard, hGN, Finset.prod_image (fun x _ y _ h => xv_inj hN hab.ne h)] at e
    have : p.eval t - F 0 t = -(G 0 t) := by simp [G]
    rw [this, abs_neg, e, abs_mul, abs_div, abs_of_pos (hMf N)]
    have h1 := hM ξ hξ
    have h2 := hMf N
    gcongr
  · have hz : HasZeros a b (N - m + m) (G 0) := by
      rw [Nat.sub_add_cancel hmN.le, ← hcard]
      exact hasZeros_of_finset hsz
    obtain ⟨w, hw, hw0⟩ := HasZeros.iter hG m (N - m) hmN.le hz
    let s' : Finset ℝ := Finset.univ.image w
    have hcard' : s'.card = N - m := by
      rw [Finset.card_image_of_injective _ hw.injective]; simp
    obtain ⟨ξ, hξ, e⟩ := zeros_error (s := s') (F := fun k => G (m + k)) (a := a) (b := b) (by
        rw [hcard']
        intro k hk y hy
        exact hG (m + k) (by omega) y hy) (by
        intro z hz
        obtain ⟨i, -, rfl⟩ := Finset.mem_image.1 hz
        exact hw0 i) ht
    rw [hcard', Finset.prod_image (fun x _ y _ h => hw.injective h),
      show m + (N - m) = N by omega, hGN, add_zero] at e
    have : (derivative^[m] p).eval t - F m t = -(G m t) := by simp [G]
    rw [this, abs_neg, e, abs_mul, abs_div, abs_of_pos (hMf _)]
    have hprod : |∏ i, (t - w i)| ≤ (b - a) ^ (N - m) := by
      rw [Finset.abs_prod, ← Fin.prod_const]
      refine Finset.prod_le_prod (fun i _ => abs_nonneg _) fun i _ => ?_
      rw [abs_le]
      have h1 := (hw0 i).1
      constructor <;> linarith [h1.1, h1.2, ht.1, ht.2]
    have h1 := hM ξ hξ
    have h2 := hMf (N - m)
    have hM0 : 0 ≤ M := (abs_nonneg _).trans h1
    calc |F N ξ| / (N - m).factorial * |∏ i, (t - w i)| ≤ M / (N - m).factorial * (b - a) ^ (N - m) := by
          gcongr
      _ = _ := by ring

/-- C112: interpolating a function by `extrapol` from its values at the collocation points: the error
on `[a, b]` is at most `4 M ((b-a)/4)^N / N!`, where `M` bounds the `N`-th derivative. -/
theorem C112_extrapol (solve : Solver) (hsolve : Spec.SoundSolve solve) (hN : 2 ≤ N) {a b M : ℝ} (hab : a < b)
    (h : List ChebCall) {F : ℕ → ℝ → ℝ}
    (hF : ∀ k < N, ∀ x ∈ Icc a b, HasDerivWithinAt (F k) (F (k + 1) x) (Icc a b) x)
    (hM : ∀ x ∈ Icc a b, |F N x| ≤ M) :
    ∃ s' X, NumSpectral.x (chebAfter N a b h) = .ok (s', X) ∧ ∀ t ∈ Icc a b,
      ∃ s'' v, extrapol solve (chebAfter N a b h) (fun i => F 0 (X i)) t = .ok (s'', v) ∧
        |v - F 0 t| ≤ 4 * M * ((b - a) / 4) ^ N / N.factorial := by
  obtain ⟨p, hp, hv, he, -⟩ := interp_error hN hab hF hM
  obtain ⟨s', X, hX, hex⟩ := C43_extrapol solve hsolve hN hab.ne h
  obtain ⟨_, hX', -, -⟩ := x_spec hN (inv_after hN hab.ne h)
  have hXe : X = xv N a b := by
    rw [hX] at hX'
    exact congrArg Prod.snd (Except.ok.inj hX')
  refine ⟨s', X, hX, fun t ht => ?_⟩
  obtain ⟨s'', hs⟩ := hex p hp t
  refine ⟨s'', _, ?_, (he t ht).trans ?_⟩
  · rw [← hs]; congr 1
    funext i; rw [hXe, hv i]
  · have hf : (0:ℝ) < N.factorial := by exact_mod_cast Nat.factorial_pos N
    have hM0 : 0 ≤ M := (abs_nonneg _).trans (hM t ht)
    calc M / N.factorial * |∏ i : Fin N, (t - xv N a b i)|
        ≤ M / N.factorial * (4 * ((b - a) / 4) ^ N) := by
          gcongr; exact nodal_x_bound hN hab ht
      _ = _ := by ring

/-- C112: first derivative: the error at every collocation point is at most
`4 M ((b-a)/4)^(N-1) / N! · (N-1)`. -/
theorem C112_first_derivative (hN : 2 ≤ N) {a b M : ℝ} (hab : a < b) (h : List ChebCall) {F : ℕ → ℝ → ℝ}
    (hF : ∀ k < N, ∀ x ∈ Icc a b, HasDerivWithinAt (F k) (F (k + 1) x) (Icc a b) x)
    (hM : ∀ x ∈ Icc a b, |F N x| ≤ M) :
    ∃ s' D s'' X, NumSpectral.matder (chebAfter N a b h) 1 = .ok (s', D) ∧ NumSpectral.x s' = .ok (s'', X) ∧
      ∀ i, |D.mulVec (fun j => F 0 (X j)) i - F 1 (X i)|
        ≤ 4 * M * (N - 1) * ((b - a) / 4) ^ (N - 1) / N.factorial := by
  obtain ⟨p, hp, hv, he, -⟩ := interp_error hN hab hF hM
  obtain ⟨s', h1, hi⟩ := matder_spec hN hab.ne (inv_after hN hab.ne h) le_rfl
  obtain ⟨s'', h2, -, -⟩ := x_spec hN hi
  refine ⟨s', _, s'', _, h1, h2, fun i => ?_⟩
  rw [← (funext hv : (fun i => p.eval (xv N a b i)) = _), Dm_mulVec hN hab.ne 1 p hp, Function.iterate_one]
  obtain ⟨w', hw', hb⟩ := nodal_x_deriv hN hab i
  have hxi := xv_mem_Icc hN hab i
  have key := deriv_bound_of_le (e := fun t => p.eval t - F 0 t) hab hxi
    ((p.hasDerivAt _).hasDerivWithinAt.sub (hF 0 (by omega) _ hxi)) hw'.hasDerivWithinAt
    (by simp [hv i]) (Finset.prod_eq_zero (Finset.mem_univ i) (sub_self _)) he
  refine key.trans ?_
  have hf : (0:ℝ) < N.factorial := by exact_mod_cast Nat.factorial_pos N
  have hM0 : 0 ≤ M := (abs_nonneg _).trans (hM _ hxi)
  calc M / N.factorial * |w'| ≤ M / N.factorial * (4 * (N - 1) * ((b - a) / 4) ^ (N - 1)) := by gcongr
    _ = _ := by ring

/-- C112: derivative of any order `m < N`: the error at every collocation point is at most
`M (b-a)^(N-m) / (N-m)!`. -/
theorem C112_derivative (hN : 2 ≤ N) {a b M : ℝ} (hab : a < b) (h : List ChebCall) {F : ℕ → ℝ → ℝ}
    (hF : ∀ k < N, ∀ x ∈ Icc a b, HasDerivWithinAt (F k) (F (k + 1) x) (Icc a b) x)
    (hM : ∀ x ∈ Icc a b, |F N x| ≤ M) {m : ℕ} (hm : 1 ≤ m) (hmN : m < N) :
    ∃ s' D s'' X, NumSpectral.matder (chebAfter N a b h) m = .ok (s', D) ∧ NumSpectral.x s' = .ok (s'', X) ∧
      ∀ i, |D.mulVec (fun j => F 0 (X j)) i - F m (X i)| ≤ M * (b - a) ^ (N - m) / (N - m).factorial := by
  obtain ⟨p, hp, hv, -, he⟩ := interp_error hN hab hF hM
  obtain ⟨s', h1, hi⟩ := matder_spec hN hab.ne (inv_after hN hab.ne h) hm
  obtain ⟨s'', h2, -, -⟩ := x_spec hN hi
  refine ⟨s', _, s'', _, h1, h2, fun i => ?_⟩
  rw [← (funext hv : (fun i => p.eval (xv N a b i)) = _), Dm_mulVec hN hab.ne m p hp]
  exact he m hm hmN _ (xv_mem_Icc hN hab i)

/-- C112: convergence: if the derivatives of the function grow at most geometrically (`|f⁽ᵏ⁾| ≤ C Rᵏ`
on `[a, b]`, as for `exp`, `sin`, polynomials), the discrete derivatives of every order converge uniformly
when points are added. -/
theorem C112_convergence {a b C R : ℝ} (hab : a < b) {F : ℕ → ℝ → ℝ}
    (hF : ∀ k, ∀ x ∈ Icc a b, HasDerivWithinAt (F k) (F (k + 1) x) (Icc a b) x)
    (hC : ∀ k, ∀ x ∈ Icc a b, |F k x| ≤ C * R ^ k) {m : ℕ} (hm : 1 ≤ m) {ε : ℝ} (hε : 0 < ε) :
    ∃ N₀, ∀ N ≥ N₀, ∀ h : List ChebCall,
      ∃ s' D s'' X, NumSpectral.matder (chebAfter N a b h) m = .ok (s', D) ∧ NumSpectral.x s' = .ok (s'', X) ∧
        ∀ i, |D.mulVec (fun j => F 0 (X j)) i - F m (X i)| ≤ ε := by
  have hba : 0 < b - a := by linarith
  have hlim := FloorSemiring.tendsto_pow_div_factorial_atTop (R * (b - a))
  have hlim2 := hlim.const_mul (C * R ^ m)
  rw [mul_zero] at hlim2
  obtain ⟨K, hK⟩ := (Metric.tendsto_atTop.1 hlim2) ε hε
  refine ⟨K + m + 2, fun N hNK h => ?_⟩
  obtain ⟨s', D, s'', X, h1, h2, h3⟩ := C112_derivative (N := N) (by omega) hab h (fun k _ => hF k)
    (hC N) hm (by omega)
  refine ⟨s', D, s'', X, h1, h2, fun i => (h3 i).trans ?_⟩
  have h4 := (hK (N - m) (by omega)).le
  rw [Real.dist_eq, sub_zero] at h4
  refine le_trans (le_of_eq ?_) ((le_abs_self _).trans h4)
  rw [mul_pow]
  obtain ⟨k, rfl⟩ : ∃ k, N = m + k := ⟨N - m, by omega⟩
  rw [show m + k - m = k by omega, pow_add]
  ring

/-- the hypotheses of `C112_convergence` are met by the exponential function on `[0, 1]` -/
example {ε : ℝ} (hε : 0 < ε) : ∃ N₀, ∀ N ≥ N₀, ∀ h : List ChebCall,
    ∃ s' D s'' X, NumSpectral.matder (chebAfter N 0 1 h) 2 = .ok (s', D) ∧ NumSpectral.x s' = .ok (s'', X) ∧
      ∀ i, |D.mulVec (fun j => Real.exp (X j)) i - Real.exp (X i)| ≤ ε :=
  C112_convergence (F := fun _ => Real.exp) (C := Real.exp 1) (R := 1) (m := 2) one_pos
    (fun _ x _ => (Real.hasDerivAt_exp x).hasDerivWithinAt)
    (fun k x hx => by
      rw [abs_of_pos (Real.exp_pos x), one_pow, mul_one]
      exact Real.exp_le_exp.2 hx.2) (by norm_num) hε

end Aerokit.Props
