import Verif.Props.SecantBounds
import Verif.Props.Supersonic
import Verif.Props.ShockWave
import Mathlib.Analysis.SpecialFunctions.Sqrt
import Mathlib.Analysis.Convex.Deriv

/-! # Properties C96 : the searches built on `secant_solve` -/

namespace Aerokit.Props
open Isentropic Supersonic ShockWave IterativeSolve Real

/-- value of `PrandtlMeyer_Mach` (degrees) -/
noncomputable def pmDeg (γ M : ℝ) : ℝ := Py.degrees (pmRad (pmC γ) (√(M ^ 2 - 1)))

/-- its derivative in radians per unit Mach number -/
noncomputable def pmSlope (γ M : ℝ) : ℝ := √(M ^ 2 - 1) / (M * (1 + (γ - 1) / 2 * M ^ 2))

theorem hasDerivAt_pmDeg {γ M : ℝ} (hγ : 1 < γ) (hM : 1 < M) :
    HasDerivAt (pmDeg γ) (pmSlope γ M * (180 / π)) M := by
  have hB : 0 < M ^ 2 - 1 := by nlinarith
  have hc : 0 < pmC γ := lt_trans one_pos (one_lt_pmC hγ)
  have hcc : pmC γ ^ 2 = (γ + 1) / (γ - 1) := Real.sq_sqrt (div_nonneg (by linarith) (by linarith))
  have d1 : HasDerivAt (fun M : ℝ => M ^ 2 - 1) (2 * M) M := by
    simpa using (hasDerivAt_pow 2 M).sub_const 1
  have d2 := d1.sqrt hB.ne'
  have d3 := (hasDerivAt_pmRad hc (√(M ^ 2 - 1))).comp M d2
  have d4 := d3.mul_const (180 / π)
  have e : (fun M => (pmRad (pmC γ) ∘ fun y => √(y ^ 2 - 1)) M * (180 / π)) = pmDeg γ := by
    funext z; unfold pmDeg Py.degrees; rfl
  rw [← e]
  refine d4.congr_deriv ?_
  congr 1
  unfold pmSlope
  obtain ⟨s, hs⟩ : ∃ s, s = √(M ^ 2 - 1) := ⟨_, rfl⟩
  have hs0 : 0 < s := by rw [hs]; exact Real.sqrt_pos.2 hB
  have hs2 : s ^ 2 = M ^ 2 - 1 := by rw [hs]; exact Real.sq_sqrt hB.le
  rw [← hs, div_pow, hcc, hs2]
  have h1 : 0 < γ - 1 := by linarith
  have h2 : 0 < γ + 1 := by linarith
  have h3 : 0 < 1 + (γ - 1) / 2 * M ^ 2 := by positivity
  have e1 : 1 + (M ^ 2 - 1) / ((γ + 1) / (γ - 1)) = 2 * (1 + (γ - 1) / 2 * M ^ 2) / (γ + 1) := by
    field_simp; ring
  rw [e1, show 1 + (M ^ 2 - 1) = M ^ 2 by ring]
  obtain ⟨D, hD⟩ : ∃ D, D = 1 + (γ - 1) / 2 * M ^ 2 := ⟨_, rfl⟩
  have hM0 : 0 < M := by linarith
  rw [← hD]
  rw [← hD] at h3
  have hs3 : s ^ 2 = M ^ 2 - 1 := hs2
  have : γ + 1 = 2 * (D - 1) / M ^ 2 + 2 := by rw [hD]; field_simp; ring
  rw [this]
  field_simp
  have : s ^ 2 * 2 = 2 * (M ^ 2 - 1) := by linarith
  nlinarith [this, sq_nonneg s]

theorem pmSlope_antitone {γ M N : ℝ} (hγ : 1.11 ≤ γ) (hM : 1.998 ≤ M) (hMN : M ≤ N) : pmSlope γ N ≤ pmSlope γ M := by
  have hM' : (999/500 : ℝ) ≤ M := by norm_num at hM ⊢; exact hM
  have hγ' : (111/100 : ℝ) ≤ γ := by norm_num at hγ ⊢; exact hγ
  obtain ⟨k, hk⟩ : ∃ k, k = (γ - 1) / 2 := ⟨_, rfl⟩
  have hk0 : 11/200 ≤ k := by rw [hk]; linarith
  have ht : (399/100 : ℝ) ≤ M ^ 2 := by nlinarith
  have hu : M ^ 2 ≤ N ^ 2 := pow_le_pow_left₀ (by linarith) hMN 2
  obtain ⟨t, htd⟩ : ∃ t, t = M ^ 2 := ⟨_, rfl⟩
  obtain ⟨u, hud⟩ : ∃ u, u = N ^ 2 := ⟨_, rfl⟩
  unfold pmSlope
  rw [← hk]
  have hM0 : 0 < M := by linarith
  have hN0 : 0 < N := by linarith
  rw [div_le_div_iff₀ (by positivity) (by positivity)]
  refine (pow_le_pow_iff_left₀ (by positivity) (by positivity) two_ne_zero).1 ?_
  rw [mul_pow, mul_pow, mul_pow, mul_pow, Real.sq_sqrt (by linarith), Real.sq_sqrt (by linarith), ← htd, ← hud]
  rw [← htd] at ht hu
  rw [← hud] at hu
  have key : 0 ≤ 2 * k * u * t + k ^ 2 * u * t * (u + t) - (1 + 2 * k * (u + t) + k ^ 2 * (u ^ 2 + u * t + t ^ 2)) := by
    have a1 : 0 ≤ (u - 399/100) := by linarith
    have a2 : 0 ≤ (t - 399/100) := by linarith
    have b1 : 7.9 ≤ u * t - (u + t) := by nlinarith [mul_nonneg a1 a2]
    have b2 : 70 ≤ u * t * (u + t) - (u ^ 2 + u * t + t ^ 2) := by
      have : 0 ≤ u * t := by nlinarith
      nlinarith [mul_nonneg a1 a2, sq_nonneg (u - t), mul_nonneg (sq_nonneg u) a2, mul_nonneg (sq_nonneg t) a1]
    have b3 : 11/200 * 7.9 ≤ k * (u * t - (u + t)) := mul_le_mul hk0 b1 (by norm_num) (by linarith)
    have b4 : (11/200) ^ 2 * 70 ≤ k ^ 2 * (u * t * (u + t) - (u ^ 2 + u * t + t ^ 2)) :=
      mul_le_mul (pow_le_pow_left₀ (by norm_num) hk0 2) b2 (by norm_num) (by positivity)
    norm_num at b3 b4
    nlinarith
  nlinarith [mul_nonneg (sub_nonneg.2 hu) key]

theorem pmSlope_le_one {γ M : ℝ} (hγ : 1 < γ) (hM : 1 < M) : pmSlope γ M ≤ 1 := by
  unfold pmSlope
  have hM0 : 0 < M := by linarith
  have h1 : √(M ^ 2 - 1) ≤ M := by rw [Real.sqrt_le_left hM0.le]; linarith
  have h2 : 1 ≤ 1 + (γ - 1) / 2 * M ^ 2 := by
    have : 0 ≤ (γ - 1) / 2 * M ^ 2 := mul_nonneg (by linarith) (by positivity)
    linarith
  rw [div_le_one (by positivity)]
  nlinarith

theorem pmDeg_concave {γ : ℝ} (hγ : 1.11 ≤ γ) : ConcaveOn ℝ (Set.Ici 1.998) (pmDeg γ) := by
  have h1 : 1 < γ := lt_of_lt_of_le (by norm_num) hγ
  have hd : ∀ M ∈ Set.Ici (1.998 : ℝ), HasDerivAt (pmDeg γ) (pmSlope γ M * (180 / π)) M :=
    fun M hM => hasDerivAt_pmDeg h1 (lt_of_lt_of_le (by norm_num) hM)
  refine AntitoneOn.concaveOn_of_deriv (convex_Ici _)
    (fun M hM => (hd M hM).continuousAt.continuousWithinAt)
    (fun M hM => (hd M (interior_subset hM)).differentiableAt.differentiableWithinAt) ?_
  intro M hM N hN hMN
  have hM' := interior_subset hM
  rw [(hd M hM').deriv, (hd N (interior_subset hN)).deriv]
  exact mul_le_mul_of_nonneg_right (pmSlope_antitone hγ hM' hMN) (by have := Real.pi_pos; positivity)

theorem pmDeg_strictMono {γ : ℝ} (hγ : 1 < γ) : StrictMonoOn (pmDeg γ) (Set.Ici 1) := by
  intro M hM N hN hMN
  have h1 : (1:ℝ) ≤ M := hM
  unfold pmDeg
  rw [Py.degrees_lt]
  exact pmRad_strictMono (one_lt_pmC hγ) (Set.mem_Ici.2 (Real.sqrt_nonneg _))
    (Set.mem_Ici.2 (Real.sqrt_nonneg _)) (Real.sqrt_lt_sqrt (by nlinarith) (by nlinarith))

theorem pmDeg_lipschitz {γ a b : ℝ} (hγ : 1 < γ) (ha : 1 < a) (hab : a < b) :
    pmDeg γ b - pmDeg γ a ≤ 180 / π * (b - a) := by
  obtain ⟨c, hc, hs⟩ := exists_hasDerivAt_eq_slope (pmDeg γ) (fun M => pmSlope γ M * (180 / π)) hab
    (fun M hM => (hasDerivAt_pmDeg hγ (lt_of_lt_of_le ha hM.1)).continuousAt.continuousWithinAt)
    (fun M hM => hasDerivAt_pmDeg hγ (ha.trans hM.1))
  rw [eq_div_iff (by linarith)] at hs
  rw [← hs]
  have := pmSlope_le_one hγ (ha.trans hc.1)
  have hp := Real.pi_pos
  apply mul_le_mul_of_nonneg_right _ (by linarith)
  calc pmSlope γ c * (180 / π) ≤ 1 * (180 / π) := mul_le_mul_of_nonneg_right this (by positivity)
    _ = _ := one_mul _

/-- C96 (Prandtl–Meyer inversion by the module's own search, `old_Mach_PrandtlMeyer`), partial: the
angles that correspond to Mach numbers of at least 2.  The search always returns, never overshoots: the
returned Mach number is between 2 and the exact one, and when the search did not print its warning the
turning angle of the result is within `10⁻⁵ · (180/π) · Mach` degrees of the request.
Angles below the one of Mach 2: `C96_prandtlMeyer_below_partial`, `C96_monatomic_false`. -/
theorem C96_prandtlMeyer_partial (M γ w : ℝ) (hγ : 1.11 ≤ γ) (hM : 2 ≤ M) (hw : PrandtlMeyer_Mach M γ = Except.ok w) :
    ∃ res w', secant_run (fun m => PrandtlMeyer_Mach m γ) w 2.0 defaultTol = Except.ok res ∧
      old_Mach_PrandtlMeyer w γ = Except.ok res.x ∧ 2 ≤ res.x ∧ res.x ≤ M ∧
      PrandtlMeyer_Mach res.x γ = Except.ok w' ∧ w' ≤ w ∧
      (res.warned = false → w - w' ≤ 0.00001 * (180 / π) * res.x) := by
  have h1 : 1 < γ := lt_of_lt_of_le (by norm_num) hγ
  have hok : ∀ z, 1 ≤ z → PrandtlMeyer_Mach z γ = .ok (pmDeg γ z) := fun z hz => PM_ok h1 (by nlinarith)
  have hw' : pmDeg γ M = w := by
    have := hok M (by linarith)
    rw [this] at hw; exact Except.ok.inj hw
  have hsub : Set.Icc (1.998 : ℝ) M ⊆ Set.Ici 1.998 := fun z hz => hz.1
  have hsub1 : Set.Icc (1.998 : ℝ) M ⊆ Set.Ici 1 := fun z hz => le_trans (by norm_num) hz.1
  have hp := Real.pi_pos
  have e2 : (2.0 : ℝ) = 2 := by norm_num
  obtain ⟨res, a1, a2, a3, a4, a5⟩ := C95_one_sided (fun m => PrandtlMeyer_Mach m γ) (pmDeg γ) 1.998 M w (180 / π) 2.0
    (by norm_num) (by norm_num) (by rw [e2]; exact hM) (fun z hz => hok z (hsub1 hz)) ((pmDeg_strictMono h1).mono hsub1)
    ((pmDeg_concave hγ).subset hsub (convex_Icc _ _)) hw' (by positivity)
    (fun a ha b _ hab => pmDeg_lipschitz h1 (lt_of_lt_of_le (by norm_num) ha.1) hab)
  rw [e2] at a2
  refine ⟨res, _, a1, ?_, a2, a3, hok res.x (by linarith), a4, fun hw => ?_⟩
  · unfold old_Mach_PrandtlMeyer secant_solve
    rw [a1]; rfl
  · have := a5 hw
    rw [abs_of_pos (by linarith), max_eq_right (by linarith)] at this
    linarith

example : ∃ w, PrandtlMeyer_Mach 3 1.4 = Except.ok w := ⟨_, PM_ok (by norm_num) (by norm_num)⟩

/-- logarithmic derivative of the total pressure ratio at the default gas -/
noncomputable def ptSlope (M : ℝ) : ℝ := -(35 * (M ^ 2 - 1) ^ 2) / (7 * M ^ 5 + 34 * M ^ 3 - 5 * M)

theorem ptDen_pos {M : ℝ} (hM : 1 ≤ M) : 0 < 7 * M ^ 5 + 34 * M ^ 3 - 5 * M := by
  have h2 : 1 ≤ M ^ 2 := one_le_pow₀ hM
  have e : 7 * M ^ 5 + 34 * M ^ 3 - 5 * M = M * (7 * (M ^ 2) ^ 2 + 34 * M ^ 2 - 5) := by ring
  rw [e]
  apply mul_pos (by linarith)
  nlinarith

theorem hasDerivAt_lpt_sq {M : ℝ} (hM : 1 ≤ M) :
    HasDerivAt (fun M => lpt DefaultGas.gamma0 (M ^ 2) / (DefaultGas.gamma0 - 1)) (ptSlope M) M := by
  have d1 : HasDerivAt (fun M : ℝ => M ^ 2) (2 * M) M := by simpa using hasDerivAt_pow 2 M
  have hl := hasDerivAt_lpt (x := M ^ 2) one_lt_gamma0 (one_le_pow₀ hM)
  have d2 := (HasDerivAt.comp (h₂ := lpt DefaultGas.gamma0) (h := fun M : ℝ => M ^ 2) M hl d1).div_const (DefaultGas.gamma0 - 1)
  refine d2.congr_deriv ?_
  have hD := ptDen_pos hM
  have e : 7 * M ^ 5 + 34 * M ^ 3 - 5 * M = M * (7 * M ^ 2 - 1) * (5 + M ^ 2) := by ring
  unfold ptSlope
  rw [e] at hD ⊢
  have hM0 : 0 < M := by linarith
  have h1 : 0 < 7 * M ^ 2 - 1 := by nlinarith
  have h2 : 0 < 5 + M ^ 2 := by positivity
  rw [gamma0_eq]
  have e1 : 2 * (7/5 : ℝ) * M ^ 2 - (7/5 - 1) = 2/5 * (7 * M ^ 2 - 1) := by ring
  have e2 : 2 + (7/5 - 1 : ℝ) * M ^ 2 = 2/5 * (5 + M ^ 2) := by ring
  rw [e1, e2]
  obtain ⟨D, hD⟩ : ∃ D, D = 7 * M ^ 2 - 1 := ⟨_, rfl⟩
  obtain ⟨E, hE⟩ : ∃ E, E = 5 + M ^ 2 := ⟨_, rfl⟩
  rw [← hD] at h1 ⊢
  rw [← hE] at h2 ⊢
  field_simp
  try ring

theorem ptr_eq_exp {M : ℝ} (hM : 1 ≤ M) : ptr M DefaultGas.gamma0 =
    Real.exp (lpt DefaultGas.gamma0 (M ^ 2) / (DefaultGas.gamma0 - 1)) := by
  rw [← log_ptr one_lt_gamma0 hM, Real.exp_log (ptr_pos one_lt_gamma0 (dom_of_one_le one_lt_gamma0 hM))]

/-- total pressure ratio as a differentiable function -/
noncomputable def ptExp (M : ℝ) : ℝ := Real.exp (lpt DefaultGas.gamma0 (M ^ 2) / (DefaultGas.gamma0 - 1))

theorem hasDerivAt_ptExp {M : ℝ} (hM : 1 ≤ M) : HasDerivAt ptExp (ptExp M * ptSlope M) M :=
  (hasDerivAt_lpt_sq hM).exp

theorem hasDerivAt_ptExp' {M : ℝ} (hM : 1 ≤ M) : HasDerivAt (fun M => ptExp M * ptSlope M)
    (ptExp M * (35 * (M ^ 2 - 1) * (42 * (M ^ 2) ^ 3 - 174 * (M ^ 2) ^ 2 + 18 * M ^ 2 - 30) /
      (7 * M ^ 5 + 34 * M ^ 3 - 5 * M) ^ 2)) M := by
  have hD := ptDen_pos hM
  have dA : HasDerivAt (fun M : ℝ => -(35 * (M ^ 2 - 1) ^ 2)) (-(35 * (2 * (M ^ 2 - 1) * (2 * M)))) M := by
    have d1 : HasDerivAt (fun M : ℝ => M ^ 2 - 1) (2 * M) M := by simpa using (hasDerivAt_pow 2 M).sub_const 1
    have d2 := ((d1.fun_pow 2).const_mul 35).fun_neg
    refine d2.congr_deriv ?_
    push_cast; ring
  have dB : HasDerivAt (fun M : ℝ => 7 * M ^ 5 + 34 * M ^ 3 - 5 * M) (35 * M ^ 4 + 102 * M ^ 2 - 5) M := by
    have d2 := (((hasDerivAt_pow 5 M).const_mul 7).fun_add ((hasDerivAt_pow 3 M).const_mul 34)).fun_sub ((hasDerivAt_id M).const_mul 5)
    refine d2.congr_deriv ?_
    push_cast; ring
  have dU : HasDerivAt ptSlope _ M := dA.fun_div dB hD.ne'
  refine ((hasDerivAt_ptExp hM).fun_mul dU).congr_deriv ?_
  unfold ptSlope
  obtain ⟨D, hDd⟩ : ∃ D, D = 7 * M ^ 5 + 34 * M ^ 3 - 5 * M := ⟨_, rfl⟩
  rw [← hDd] at hD ⊢
  field_simp
  rw [hDd]
  ring

theorem ptExp_concave : ConcaveOn ℝ (Set.Icc 1 1.5) ptExp := by
  have hd : ∀ M ∈ Set.Icc (1:ℝ) 1.5, HasDerivAt ptExp (ptExp M * ptSlope M) M := fun M hM => hasDerivAt_ptExp hM.1
  refine AntitoneOn.concaveOn_of_deriv (convex_Icc _ _)
    (fun M hM => (hd M hM).continuousAt.continuousWithinAt)
    (fun M hM => (hd M (interior_subset hM)).differentiableAt.differentiableWithinAt) ?_
  have hanti : AntitoneOn (fun M => ptExp M * ptSlope M) (Set.Icc 1 1.5) := by
    refine antitoneOn_of_deriv_nonpos (convex_Icc _ _)
      (fun M hM => (hasDerivAt_ptExp' hM.1).continuousAt.continuousWithinAt)
      (fun M hM => (hasDerivAt_ptExp' (interior_subset hM).1).differentiableAt.differentiableWithinAt) ?_
    intro M hM
    have hM' := interior_subset hM
    rw [(hasDerivAt_ptExp' hM'.1).deriv]
    have h15 : M ≤ 3/2 := by have := hM'.2; norm_num at this ⊢; exact this
    have h1 : 1 ≤ M ^ 2 := one_le_pow₀ hM'.1
    have h2 : M ^ 2 ≤ 9/4 := by nlinarith [hM'.1]
    apply mul_nonpos_of_nonneg_of_nonpos (Real.exp_pos _).le
    apply div_nonpos_of_nonpos_of_nonneg _ (by positivity)
    apply mul_nonpos_of_nonneg_of_nonpos (by nlinarith)
    obtain ⟨t, ht⟩ : ∃ t, t = M ^ 2 := ⟨_, rfl⟩
    rw [← ht] at h1 h2 ⊢
    nlinarith [mul_nonneg (sq_nonneg t) (sub_nonneg.2 h2), mul_nonneg (sub_nonneg.2 h1) (sub_nonneg.2 h2)]
  intro M hM N hN hMN
  rw [(hd M (interior_subset hM)).deriv, (hd N (interior_subset hN)).deriv]
  exact hanti (interior_subset hM) (interior_subset hN) hMN

theorem ptSlope_bound {M : ℝ} (h1 : 1 ≤ M) (h2 : M ≤ 3/2) : -(7/20) ≤ ptSlope M := by
  have hD := ptDen_pos h1
  unfold ptSlope
  rw [le_div_iff₀ hD]
  have a : (M ^ 2 - 1) ≤ 5/2 * (M - 1) := by nlinarith
  have a0 : 0 ≤ M ^ 2 - 1 := by nlinarith
  have b : (M ^ 2 - 1) ^ 2 ≤ (5/2 * (M - 1)) ^ 2 := pow_le_pow_left₀ a0 a 2
  have c0 : 0 ≤ M - 1 := by linarith
  have c1 : 0 ≤ 3/2 - M := by linarith
  -- 7 M^5 + 34 M^3 - 5 M ≥ tangent-type lower bound
  have d : 36 + 132 * (M - 1) + 172 * (M - 1) ^ 2 ≤ 7 * M ^ 5 + 34 * M ^ 3 - 5 * M := by
    have : 7 * M ^ 5 + 34 * M ^ 3 - 5 * M = 36 + 132 * (M - 1) + 172 * (M - 1) ^ 2 + (104 * (M - 1) ^ 3 + 35 * (M - 1) ^ 4 + 7 * (M - 1) ^ 5) := by ring
    have : 0 ≤ 104 * (M - 1) ^ 3 + 35 * (M - 1) ^ 4 + 7 * (M - 1) ^ 5 := by positivity
    linarith
  nlinarith [mul_nonneg c0 c1]

theorem ptExp_lipschitz {a b : ℝ} (ha : 1 ≤ a) (hab : a < b) (hb : b ≤ 3/2) : ptExp a - ptExp b ≤ 7/20 * (b - a) := by
  obtain ⟨c, hc, hs⟩ := exists_hasDerivAt_eq_slope ptExp (fun M => ptExp M * ptSlope M) hab
    (fun M hM => (hasDerivAt_ptExp (ha.trans hM.1)).continuousAt.continuousWithinAt)
    (fun M hM => hasDerivAt_ptExp (ha.trans hM.1.le))
  rw [eq_div_iff (by linarith)] at hs
  have h1 : 1 ≤ c := ha.trans hc.1.le
  have hle : ptExp c ≤ 1 := by
    have e : ptExp c = ptr c DefaultGas.gamma0 := (ptr_eq_exp h1).symm
    rw [e, ← ptr_one one_lt_gamma0]
    exact (ptr_strictAnti one_lt_gamma0).antitoneOn (Set.mem_Ici.2 le_rfl) (Set.mem_Ici.2 h1) h1
  have hpos : 0 < ptExp c := Real.exp_pos _
  have hb' := ptSlope_bound h1 (hc.2.le.trans hb)
  have : -(7/20) ≤ ptExp c * ptSlope c := by nlinarith
  have := mul_le_mul_of_nonneg_right this (by linarith : 0 ≤ b - a)
  linarith

/-- C96 (shock Mach number from the total pressure ratio, `Mn_Pt_ratio`), partial: default gas, shocks
up to Mach 1.4985.  The search always returns, from above: the result is between the exact Mach number
and 1.5, and without the warning its total pressure ratio is within `6·10⁻⁶` of the request.
Missing: stronger shocks, other gases (for which `Pt_ratio` itself is wrong, C12). -/
theorem C96_totalPressure_partial (M r : ℝ) (h1 : 1 ≤ M) (h2 : M ≤ 1.4985) (hr : Pt_ratio M 1.4 = Except.ok r) :
    ∃ res r', secant_run (fun m => Pt_ratio m 1.4) r 1.5 defaultTol = Except.ok res ∧
      Mn_Pt_ratio r 1.4 = Except.ok res.x ∧ M ≤ res.x ∧ res.x ≤ 1.5 ∧
      Pt_ratio res.x 1.4 = Except.ok r' ∧ r' ≤ r ∧ (res.warned = false → r - r' ≤ 0.000006) := by
  have e : (1.4:ℝ) = DefaultGas.gamma0 := by rw [gamma0_eq]; norm_num
  rw [e] at hr ⊢
  have hok : ∀ z, 1 ≤ z → Pt_ratio z DefaultGas.gamma0 = .ok (ptExp z) := fun z hz => by
    rw [Pt_ratio_ok_default hz, ptr_eq_exp hz]; rfl
  have hr' : ptExp M = r := by rw [hok M h1] at hr; exact Except.ok.inj hr
  have hanti : StrictAntiOn ptExp (Set.Ici 1) := fun a ha b hb hab => by
    have := ptr_strictAnti one_lt_gamma0 ha hb hab
    simp only [ptr_eq_exp (Set.mem_Ici.1 ha), ptr_eq_exp (Set.mem_Ici.1 hb)] at this
    exact this
  have hsub : Set.Icc M 1.5 ⊆ Set.Icc 1 1.5 := Set.Icc_subset_Icc_left h1
  have hsub1 : Set.Icc M 1.5 ⊆ Set.Ici 1 := fun z hz => h1.trans hz.1
  obtain ⟨res, a1, a2, a3, a4, a5⟩ := C95_one_sided_down (fun m => Pt_ratio m DefaultGas.gamma0) ptExp 1.5 M r (7/20) 1.5
    (by norm_num) le_rfl (by norm_num at h2 ⊢; exact h2) (fun z hz => hok z (hsub1 hz)) (hanti.mono hsub1)
    (ptExp_concave.subset hsub (convex_Icc _ _)) hr' (by norm_num)
    (fun a ha b hb hab => ptExp_lipschitz (h1.trans ha.1) hab (by have := hb.2; norm_num at this ⊢; exact this))
  have hle : r ≤ 1 := by
    rw [← hr', ← ptr_one one_lt_gamma0, ptr_eq_exp le_rfl]
    exact hanti.antitoneOn (Set.mem_Ici.2 le_rfl) (Set.mem_Ici.2 h1) h1
  refine ⟨res, _, a1, ?_, a2, a3, hok res.x (h1.trans a2), a4, fun hw => ?_⟩
  · unfold Mn_Pt_ratio secant_solve
    rw [if_neg (not_lt.2 hle), a1]; rfl
  · have := a5 hw
    have h3 : 1 ≤ res.x := h1.trans a2
    rw [abs_of_pos (by linarith), max_eq_right h3] at this
    norm_num at this a3 ⊢
    linarith

example : ∃ r, Pt_ratio 1.3 1.4 = Except.ok r := by
  have e : (1.4:ℝ) = DefaultGas.gamma0 := by rw [gamma0_eq]; norm_num
  rw [e]; exact ⟨_, Pt_ratio_ok_default (by norm_num)⟩

/-- C96: a total pressure ratio above 1 (no shock possible) is answered by Mach 1, for every gamma. -/
theorem C96_no_shock (r γ : ℝ) (hr : 1 < r) : Mn_Pt_ratio r γ = Except.ok 1 := by
  unfold Mn_Pt_ratio; rw [if_pos hr]

end Aerokit.Props
