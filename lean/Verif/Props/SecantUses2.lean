import Verif.Props.SecantTwoSided
import Verif.Props.SecantUses
import Mathlib.Analysis.SpecialFunctions.Trigonometric.Bounds
import Mathlib.Analysis.Real.Pi.Bounds

/-! # Property C96 (continued): searches which start beyond the solution, and one that leaves the domain -/

namespace Aerokit.Props
open Isentropic Supersonic ShockWave IterativeSolve Real

/-! ## total pressure ratio, Mach 1.4985 to 1.8 -/

theorem ptExp_deriv_anti : AntitoneOn (fun M => ptExp M * ptSlope M) (Set.Icc 1 2) := by
  refine antitoneOn_of_deriv_nonpos (convex_Icc _ _)
    (fun M hM => (hasDerivAt_ptExp' hM.1).continuousAt.continuousWithinAt)
    (fun M hM => (hasDerivAt_ptExp' (interior_subset hM).1).differentiableAt.differentiableWithinAt) ?_
  intro M hM
  have hM' := interior_subset hM
  rw [(hasDerivAt_ptExp' hM'.1).deriv]
  have h1 : 1 ≤ M ^ 2 := one_le_pow₀ hM'.1
  have h2 : M ^ 2 ≤ 4 := by nlinarith [hM'.1, hM'.2]
  apply mul_nonpos_of_nonneg_of_nonpos (Real.exp_pos _).le
  apply div_nonpos_of_nonpos_of_nonneg _ (by positivity)
  apply mul_nonpos_of_nonneg_of_nonpos (by nlinarith)
  obtain ⟨t, ht⟩ : ∃ t, t = M ^ 2 := ⟨_, rfl⟩
  rw [← ht] at h1 h2 ⊢
  nlinarith [mul_nonneg (sq_nonneg t) (sub_nonneg.2 h2), sq_nonneg (t - 3/2)]

theorem ptExp_concave2 : ConcaveOn ℝ (Set.Icc 1 2) ptExp := by
  have hd : ∀ M ∈ Set.Icc (1:ℝ) 2, HasDerivAt ptExp (ptExp M * ptSlope M) M := fun M hM => hasDerivAt_ptExp hM.1
  refine AntitoneOn.concaveOn_of_deriv (convex_Icc _ _)
    (fun M hM => (hd M hM).continuousAt.continuousWithinAt)
    (fun M hM => (hd M (interior_subset hM)).differentiableAt.differentiableWithinAt) ?_
  intro M hM N hN hMN
  rw [(hd M (interior_subset hM)).deriv, (hd N (interior_subset hN)).deriv]
  exact ptExp_deriv_anti (interior_subset hM) (interior_subset hN) hMN

theorem ptExp_mvt {a b : ℝ} (ha : 1 ≤ a) (hab : a < b) :
    ∃ c ∈ Set.Ioo a b, ptExp b - ptExp a = ptExp c * ptSlope c * (b - a) := by
  obtain ⟨c, hc, hs⟩ := exists_hasDerivAt_eq_slope ptExp (fun M => ptExp M * ptSlope M) hab
    (fun M hM => (hasDerivAt_ptExp (ha.trans hM.1)).continuousAt.continuousWithinAt)
    (fun M hM => hasDerivAt_ptExp (ha.trans hM.1.le))
  rw [eq_div_iff (by linarith)] at hs
  exact ⟨c, hc, hs.symm⟩

theorem ptSlope_bound2 {M : ℝ} (h1 : 1 ≤ M) (h2 : M ≤ 2) : -(7/10) ≤ ptSlope M := by
  have hD := ptDen_pos h1
  unfold ptSlope
  rw [le_div_iff₀ hD]
  have c0 : 0 ≤ M - 1 := by linarith
  have c1 : 0 ≤ 2 - M := by linarith
  obtain ⟨w, hw⟩ : ∃ w, w = M - 1 := ⟨_, rfl⟩
  have hM : M = 1 + w := by rw [hw]; ring
  have hw1 : w ≤ 1 := by rw [hw]; linarith
  rw [← hw] at c0
  rw [hM]
  have e : 7/10 * (7 * (1 + w) ^ 5 + 34 * (1 + w) ^ 3 - 5 * (1 + w)) - 35 * ((1 + w) ^ 2 - 1) ^ 2
      = 7/10 * (36 + 132 * w + 172 * w ^ 2 + 104 * w ^ 3 + 35 * w ^ 4 + 7 * w ^ 5) - 35 * w ^ 2 * (2 + w) ^ 2 := by ring
  have : 0 ≤ 7/10 * (36 + 132 * w + 172 * w ^ 2 + 104 * w ^ 3 + 35 * w ^ 4 + 7 * w ^ 5) - 35 * w ^ 2 * (2 + w) ^ 2 := by
    have e2 : 7/10 * (36 + 132 * w + 172 * w ^ 2 + 104 * w ^ 3 + 35 * w ^ 4 + 7 * w ^ 5) - 35 * w ^ 2 * (2 + w) ^ 2
      = 25.2 + 92.4 * w - 19.6 * w ^ 2 - 67.2 * w ^ 3 - 10.5 * w ^ 4 + 4.9 * w ^ 5 := by ring
    rw [e2]
    have a2 : w ^ 2 ≤ w := by nlinarith
    have a3 : w ^ 3 ≤ w := by nlinarith
    have a4 : w ^ 4 ≤ w := by nlinarith [pow_le_one₀ c0 hw1 (n := 3)]
    have a5 : 0 ≤ w ^ 5 := by positivity
    norm_num
    linarith
  linarith

/-- C96 (`Mn_Pt_ratio`), partial: default gas, shocks of Mach number 1.4985 to 1.8 (with `C96_totalPressure_partial`: up to 1.8): the
search always returns, between 1.4985 and 2; without the warning its total pressure ratio is within `3·10⁻⁵` of the request.
Missing: stronger shocks, other gases (for which `Pt_ratio` itself is wrong, C12). -/
theorem C96_totalPressure_strong_partial (M r : ℝ) (h1 : 1.4985 ≤ M) (h2 : M ≤ 1.8) (hr : Pt_ratio M 1.4 = Except.ok r) :
    ∃ res r', secant_run (fun m => Pt_ratio m 1.4) r 1.5 defaultTol = Except.ok res ∧
      Mn_Pt_ratio r 1.4 = Except.ok res.x ∧ 1.4985 ≤ res.x ∧ res.x ≤ 2 ∧
      Pt_ratio res.x 1.4 = Except.ok r' ∧ (res.warned = false → |r' - r| ≤ 0.00003) := by
  have e : (1.4:ℝ) = DefaultGas.gamma0 := by rw [gamma0_eq]; norm_num
  rw [e] at hr ⊢
  have hM1 : 1 ≤ M := le_trans (by norm_num) h1
  have hok : ∀ z, 1 ≤ z → Pt_ratio z DefaultGas.gamma0 = .ok (ptExp z) := fun z hz => by
    rw [Pt_ratio_ok_default hz, ptr_eq_exp hz]; rfl
  have hr' : ptExp M = r := by rw [hok M hM1] at hr; exact Except.ok.inj hr
  have hanti : StrictAntiOn ptExp (Set.Ici 1) := fun a ha b hb hab => by
    have := ptr_strictAnti one_lt_gamma0 ha hb hab
    simp only [ptr_eq_exp (Set.mem_Ici.1 ha), ptr_eq_exp (Set.mem_Ici.1 hb)] at this
    exact this
  have hle1 : ∀ z, 1 ≤ z → ptExp z ≤ 1 := fun z hz => by
    rw [← ptr_one one_lt_gamma0, ptr_eq_exp le_rfl]
    exact hanti.antitoneOn (Set.mem_Ici.2 le_rfl) (Set.mem_Ici.2 hz) hz
  have ec : (0.999 * 1.5 : ℝ) = 1.4985 := by norm_num
  have hsub : Set.Icc (0.999 * 1.5 : ℝ) 2 ⊆ Set.Icc 1 2 := Set.Icc_subset_Icc_left (by norm_num)
  have hsub1 : Set.Icc (0.999 * 1.5 : ℝ) 2 ⊆ Set.Ici 1 := fun z hz => (hsub hz).1
  obtain ⟨c, hc⟩ : ∃ c : ℝ, c = 0.999 * 1.5 := ⟨_, rfl⟩
  have hc1 : c = 2997/2000 := by rw [hc]; norm_num
  have hs1 : ptSlope c ≤ -(339/1000) := by
    rw [hc1]; unfold ptSlope; norm_num
  have hs2 : -(547/1000) ≤ ptSlope (9/5) := by
    unfold ptSlope; norm_num
  have hEc : 0 < ptExp c := Real.exp_pos _
  have hm : 0 < -(ptExp c * ptSlope c) := by nlinarith
  have ht : ∀ z ∈ Set.Icc c 2, ptExp z ≤ ptExp c - -(ptExp c * ptSlope c) * (z - c) := by
    intro z hz
    rcases hz.1.eq_or_lt with e | e
    · rw [← e]; simp
    obtain ⟨x, hx, hxe⟩ := ptExp_mvt (by rw [hc1]; norm_num) e
    have := ptExp_deriv_anti (a := c) ⟨by rw [hc1]; norm_num, by rw [hc1]; norm_num⟩ ⟨by rw [hc1] at hx; linarith [hx.1], by linarith [hx.2, hz.2]⟩ hx.1.le
    have := mul_le_mul_of_nonneg_right this (by linarith : 0 ≤ z - c)
    simp only at this
    linarith
  have hcM : c ≤ M := by rw [hc1]; norm_num at h1 ⊢; exact h1
  have hM2 : M ≤ 9/5 := by norm_num at h2 ⊢; exact h2
  have htl : ptExp c - r ≤ -(ptExp c * ptSlope c) * (2 - c) := by
    rw [← hr']
    have hmono : ptExp (9/5) ≤ ptExp M := hanti.antitoneOn (Set.mem_Ici.2 hM1) (Set.mem_Ici.2 (by norm_num)) hM2
    obtain ⟨x, hx, hxe⟩ := ptExp_mvt (a := c) (b := 9/5) (by rw [hc1]; norm_num) (by rw [hc1]; norm_num)
    have h3 := ptExp_deriv_anti (a := x) (b := 9/5) ⟨by rw [hc1] at hx; linarith [hx.1], by linarith [hx.2]⟩ ⟨by norm_num, by norm_num⟩ hx.2.le
    simp only at h3
    have h4 : ptExp (9/5) ≤ ptExp c := hanti.antitoneOn (Set.mem_Ici.2 (by rw [hc1]; norm_num)) (Set.mem_Ici.2 (by norm_num)) (by rw [hc1]; norm_num)
    have h5 : 0 < ptExp (9/5) := Real.exp_pos _
    have h6 : -(547/1000) * ptExp c ≤ ptExp (9/5) * ptSlope (9/5) := by nlinarith
    have h7 : ptExp c - ptExp (9/5) ≤ 547/1000 * ptExp c * (9/5 - c) := by
      have := mul_le_mul_of_nonneg_right (h6.trans h3) (by rw [hc1]; norm_num : (0:ℝ) ≤ 9/5 - c)
      linarith
    have h8 : 339/1000 * ptExp c * (2 - c) ≤ -(ptExp c * ptSlope c) * (2 - c) := by
      refine mul_le_mul_of_nonneg_right (by nlinarith) (by rw [hc1]; norm_num)
    have h9 : 547/1000 * ptExp c * (9/5 - c) ≤ 339/1000 * ptExp c * (2 - c) := by
      rw [hc1]; rw [hc1] at hEc; nlinarith
    linarith
  obtain ⟨res, a1, a2, a3, a5⟩ := C95_beyond_down (fun m => Pt_ratio m DefaultGas.gamma0) ptExp 2 M r (7/10)
    (-(ptExp c * ptSlope c)) 1.5 (by norm_num) (by norm_num) (by rw [← hc]; exact hcM) (by linarith)
    (fun z hz => hok z (hsub1 hz)) (hanti.mono hsub1) (ptExp_concave2.subset hsub (convex_Icc _ _)) hr' hm
    (by rw [← hc]; exact ht) (by rw [← hc]; exact htl) (by norm_num)
    (fun a ha b hb hab => by
      have ha1 : 1 ≤ a := hsub1 ha
      obtain ⟨x, hx, hxe⟩ := ptExp_mvt ha1 hab
      have hx1 : 1 ≤ x := ha1.trans hx.1.le
      have hb' := ptSlope_bound2 hx1 (hx.2.le.trans hb.2)
      have hpos : 0 < ptExp x := Real.exp_pos _
      have := hle1 x hx1
      have : -(7/10) ≤ ptExp x * ptSlope x := by nlinarith
      have := mul_le_mul_of_nonneg_right this (by linarith : 0 ≤ b - a)
      linarith)
  rw [ec] at a2
  have hres1 : 1 ≤ res.x := le_trans (by norm_num) a2
  refine ⟨res, _, a1, ?_, a2, a3, hok res.x hres1, fun hw => ?_⟩
  · unfold Mn_Pt_ratio secant_solve
    rw [if_neg (not_lt.2 (by rw [← hr']; exact hle1 M hM1)), a1]; rfl
  · have := a5 hw
    rw [abs_of_pos (show (0:ℝ) < res.x by linarith), max_eq_right hres1] at this
    norm_num at this ⊢
    linarith

example : ∃ r, Pt_ratio 1.7 1.4 = Except.ok r := by
  have e : (1.4:ℝ) = DefaultGas.gamma0 := by rw [gamma0_eq]; norm_num
  rw [e]; exact ⟨_, Pt_ratio_ok_default (by norm_num)⟩

/-! ## Prandtl–Meyer angle, Mach 1.7 to 2 -/

theorem pmSlope_antitone2 {γ M N : ℝ} (hγ : 1.4 ≤ γ) (hM : 1.59 ≤ M) (hMN : M ≤ N) : pmSlope γ N ≤ pmSlope γ M := by
  have hM' : (159/100 : ℝ) ≤ M := by norm_num at hM ⊢; exact hM
  have hγ' : (7/5 : ℝ) ≤ γ := by norm_num at hγ ⊢; exact hγ
  obtain ⟨k, hk⟩ : ∃ k, k = (γ - 1) / 2 := ⟨_, rfl⟩
  have hk0 : 1/5 ≤ k := by rw [hk]; linarith
  have ht : (252/100 : ℝ) ≤ M ^ 2 := by nlinarith
  have hu : M ^ 2 ≤ N ^ 2 := pow_le_pow_left₀ (by linarith) hMN 2
  obtain ⟨t, htd⟩ : ∃ t, t = M ^ 2 := ⟨_, rfl⟩
  obtain ⟨u, hud⟩ : ∃ u, u = N ^ 2 := ⟨_, rfl⟩
  unfold pmSlope
  rw [← hk]
  have hM0 : 0 < M := by linarith
  have hN0 : 0 < N := by linarith
  rw [div_le_div_iff₀ (by positivity) (by positivity)]
  refine (pow_le_pow_iff_left₀ (by positivity) (by positivity) two_ne_zero).1 ?_
  rw [mul_pow, mul_pow, mul_pow, mul_pow, Real.sq_sqrt (by linarith), Real.sq_sqrt (by linarith), ← htd, ← hud]
  rw [← htd] at ht hu
  rw [← hud] at hu
  have key : 0 ≤ 2 * k * u * t + k ^ 2 * u * t * (u + t) - (1 + 2 * k * (u + t) + k ^ 2 * (u ^ 2 + u * t + t ^ 2)) := by
    have a1 : 0 ≤ (u - 252/100) := by linarith
    have a2 : 0 ≤ (t - 252/100) := by linarith
    have b1 : 1.31 ≤ u * t - (u + t) := by nlinarith [mul_nonneg a1 a2]
    have b2 : 12.9 ≤ u * t * (u + t) - (u ^ 2 + u * t + t ^ 2) := by
      have : 0 ≤ u * t := by nlinarith
      nlinarith [mul_nonneg a1 a2, sq_nonneg (u - t), mul_nonneg (sq_nonneg u) a2, mul_nonneg (sq_nonneg t) a1]
    have b3 : 1/5 * 1.31 ≤ k * (u * t - (u + t)) := mul_le_mul hk0 b1 (by norm_num) (by linarith)
    have b4 : (1/5) ^ 2 * 12.9 ≤ k ^ 2 * (u * t * (u + t) - (u ^ 2 + u * t + t ^ 2)) :=
      mul_le_mul (pow_le_pow_left₀ (by norm_num) hk0 2) b2 (by norm_num) (by positivity)
    norm_num at b3 b4
    nlinarith
  nlinarith [mul_nonneg (sub_nonneg.2 hu) key]

theorem pmDeg_concave2 {γ : ℝ} (hγ : 1.4 ≤ γ) : ConcaveOn ℝ (Set.Ici 1.59) (pmDeg γ) := by
  have h1 : 1 < γ := lt_of_lt_of_le (by norm_num) hγ
  have hd : ∀ M ∈ Set.Ici (1.59 : ℝ), HasDerivAt (pmDeg γ) (pmSlope γ M * (180 / π)) M :=
    fun M hM => hasDerivAt_pmDeg h1 (lt_of_lt_of_le (by norm_num) hM)
  refine AntitoneOn.concaveOn_of_deriv (convex_Ici _)
    (fun M hM => (hd M hM).continuousAt.continuousWithinAt)
    (fun M hM => (hd M (interior_subset hM)).differentiableAt.differentiableWithinAt) ?_
  intro M hM N hN hMN
  have hM' := interior_subset hM
  rw [(hd M hM').deriv, (hd N (interior_subset hN)).deriv]
  exact mul_le_mul_of_nonneg_right (pmSlope_antitone2 hγ hM' hMN) (by have := Real.pi_pos; positivity)

theorem pmDeg_mvt {γ a b : ℝ} (hγ : 1 < γ) (ha : 1 < a) (hab : a < b) :
    ∃ c ∈ Set.Ioo a b, pmDeg γ b - pmDeg γ a = pmSlope γ c * (180 / π) * (b - a) := by
  obtain ⟨c, hc, hs⟩ := exists_hasDerivAt_eq_slope (pmDeg γ) (fun M => pmSlope γ M * (180 / π)) hab
    (fun M hM => (hasDerivAt_pmDeg hγ (lt_of_lt_of_le ha hM.1)).continuousAt.continuousWithinAt)
    (fun M hM => hasDerivAt_pmDeg hγ (ha.trans hM.1))
  rw [eq_div_iff (by linarith)] at hs
  exact ⟨c, hc, hs.symm⟩

theorem pmSlope_ratio {γ : ℝ} (hγ : 1 < γ) : pmSlope γ 1.7 * 0.3 ≤ pmSlope γ 2 * 0.41 := by
  unfold pmSlope
  obtain ⟨k, hk⟩ : ∃ k, k = (γ - 1) / 2 := ⟨_, rfl⟩
  have hk0 : 0 < k := by rw [hk]; linarith
  rw [← hk, div_mul_eq_mul_div, div_mul_eq_mul_div, div_le_div_iff₀ (by positivity) (by positivity)]
  refine (pow_le_pow_iff_left₀ (by positivity) (by positivity) two_ne_zero).1 ?_
  simp only [mul_pow]
  rw [Real.sq_sqrt (by norm_num), Real.sq_sqrt (by norm_num)]
  norm_num
  nlinarith [mul_pos hk0 hk0]

/-- C96 (Prandtl–Meyer inversion by the module's own search), partial: the angles that correspond to Mach
numbers between 1.7 and 2 (`γ ≥ 1.4`), for which the search starts beyond the solution.  It always returns a
Mach number between 1.59 and 2, and when it did not print its warning the turning angle of the result is
within `2·10⁻⁵ · (180/π) · Mach` degrees of the request.
For air the whole range from Mach 1 to 450 is `C96_prandtlMeyer_air`. Missing: other gammas below the angle of Mach 1.7; for a monatomic gas the search does fail at Mach 1
(`C96_monatomic_false`). -/
theorem C96_prandtlMeyer_below_partial (M γ w : ℝ) (hγ : 1.4 ≤ γ) (hM : 1.7 ≤ M) (hM2 : M ≤ 2)
    (hw : PrandtlMeyer_Mach M γ = Except.ok w) :
    ∃ res w', secant_run (fun m => PrandtlMeyer_Mach m γ) w 2.0 defaultTol = Except.ok res ∧
      old_Mach_PrandtlMeyer w γ = Except.ok res.x ∧ 1.59 ≤ res.x ∧ res.x ≤ 2 ∧
      PrandtlMeyer_Mach res.x γ = Except.ok w' ∧
      (res.warned = false → |w' - w| ≤ 0.00002 * (180 / π) * res.x) := by
  have h1 : 1 < γ := lt_of_lt_of_le (by norm_num) hγ
  have hM1 : 1 < M := lt_of_lt_of_le (by norm_num) hM
  have hMl : 1.59 ≤ M := le_trans (by norm_num) hM
  have hok : ∀ z, 1 ≤ z → PrandtlMeyer_Mach z γ = .ok (pmDeg γ z) := fun z hz => PM_ok h1 (by nlinarith)
  have hw' : pmDeg γ M = w := by
    have := hok M hM1.le
    rw [this] at hw; exact Except.ok.inj hw
  have e2 : (2.0 : ℝ) = 2 := by norm_num
  have hsub : Set.Icc (1.59 : ℝ) 2.0 ⊆ Set.Ici 1.59 := fun z hz => hz.1
  have hsub1 : Set.Icc (1.59 : ℝ) 2.0 ⊆ Set.Ici 1 := fun z hz => le_trans (by norm_num) hz.1
  have hp := Real.pi_pos
  have hq : 0 < 180 / π := by positivity
  have hs2 : 0 < pmSlope γ 2 := by
    unfold pmSlope
    have : 0 < √((2:ℝ) ^ 2 - 1) := Real.sqrt_pos.2 (by norm_num)
    have h3 : 0 < 1 + (γ - 1) / 2 * 2 ^ 2 := by nlinarith
    positivity
  have ht : ∀ z ∈ Set.Icc (1.59:ℝ) 2.0, pmDeg γ z ≤ pmDeg γ 2.0 - pmSlope γ 2 * (180 / π) * (2.0 - z) := by
    intro z hz
    rw [e2] at hz ⊢
    rcases hz.2.lt_or_eq with hlt | heq
    · obtain ⟨c, hc, e⟩ := pmDeg_mvt h1 (lt_of_lt_of_le (by norm_num) hz.1) hlt
      have := pmSlope_antitone2 hγ (hz.1.trans hc.1.le) hc.2.le
      have := mul_le_mul_of_nonneg_right this hq.le
      have := mul_le_mul_of_nonneg_right this (by linarith : 0 ≤ 2 - z)
      linarith
    · rw [heq]; simp
  have htl : pmDeg γ 2.0 - w ≤ pmSlope γ 2 * (180 / π) * (2.0 - 1.59) := by
    rw [e2, ← hw']
    rcases hM2.lt_or_eq with hlt | heq
    · obtain ⟨c, hc, e⟩ := pmDeg_mvt h1 hM1 hlt
      have a1 := pmSlope_antitone2 hγ (by norm_num) (hM.trans hc.1.le)
      have a2 := pmSlope_ratio h1
      have a3 : pmSlope γ c * (2 - M) ≤ pmSlope γ 1.7 * 0.3 := by
        refine mul_le_mul a1 (by norm_num at hM ⊢; linarith) (by linarith) ?_
        unfold pmSlope
        have h3 : 0 < 1 + (γ - 1) / 2 * 1.7 ^ 2 := by nlinarith
        positivity
      have a4 := mul_le_mul_of_nonneg_right (a3.trans a2) hq.le
      rw [e]
      norm_num at a4 ⊢
      linarith
    · rw [heq, sub_self]; norm_num; positivity
  obtain ⟨res, a1, a2, a3, a5⟩ := C95_beyond (fun m => PrandtlMeyer_Mach m γ) (pmDeg γ) 1.59 M w (180 / π)
    (pmSlope γ 2 * (180 / π)) 2.0 (by norm_num) (by norm_num) hMl (by rw [e2]; exact hM2)
    (fun z hz => hok z (hsub1 hz)) ((pmDeg_strictMono h1).mono hsub1)
    ((pmDeg_concave2 hγ).subset hsub (convex_Icc _ _)) hw' (by positivity) ht htl hq.le
    (fun a ha b _ hab => pmDeg_lipschitz h1 (lt_of_lt_of_le (by norm_num) ha.1) hab)
  rw [e2] at a3
  have hres1 : 1 ≤ res.x := le_trans (by norm_num) a2
  refine ⟨res, _, a1, ?_, a2, a3, hok res.x hres1, fun hw => ?_⟩
  · unfold old_Mach_PrandtlMeyer secant_solve
    rw [a1]; rfl
  · have := a5 hw
    rw [abs_of_pos (show (0:ℝ) < res.x by linarith), max_eq_right hres1] at this
    norm_num at this ⊢
    linarith

example : ∃ w, PrandtlMeyer_Mach 1.8 (5/3) = Except.ok w :=
  ⟨_, PM_ok (by norm_num) (by norm_num)⟩

/-! ## the search leaves the supersonic range -/

theorem pm_mono_two : pmDeg (5/3) 2 = (2 * arctan (√3 / 2) - π / 3) * (180 / π) := by
  unfold pmDeg Py.degrees pmRad
  have e1 : pmC (5/3) = 2 := by
    unfold pmC
    rw [show ((5:ℝ)/3 + 1) / (5/3 - 1) = 2 ^ 2 by norm_num, Real.sqrt_sq (by norm_num)]
  rw [e1, show ((2:ℝ) ^ 2 - 1) = 3 by norm_num]
  have : arctan √3 = π / 3 := by
    rw [← Real.tan_pi_div_three]
    exact Real.arctan_tan (by have := Real.pi_pos; linarith) (by have := Real.pi_pos; linarith)
  rw [this]

theorem sqrt3_bounds : 1.732 < √3 ∧ √3 < 1.7321 :=
  ⟨Real.lt_sqrt_of_sq_lt (by norm_num), (Real.sqrt_lt' (by norm_num)).2 (by norm_num)⟩

theorem arctan_half_sqrt3 : π / 4 - 0.0721 ≤ arctan (√3 / 2) ∧ arctan (√3 / 2) ≤ π / 4 := by
  obtain ⟨h1, h2⟩ := sqrt3_bounds
  have hs : √3 / 2 < 1 := by norm_num at h2 ⊢; linarith
  have hs0 : 0.866 < √3 / 2 := by norm_num at h1 ⊢; linarith
  constructor
  · have e := Real.arctan_add (x := 1) (y := -(√3 / 2)) (by linarith)
    rw [Real.arctan_one, Real.arctan_neg] at e
    have hx : (1 + -(√3 / 2)) / (1 - 1 * -(√3 / 2)) ≤ 0.0721 := by
      rw [div_le_iff₀ (by linarith)]; norm_num at hs0 ⊢; linarith
    have h0 : 0 ≤ (1 + -(√3 / 2)) / (1 - 1 * -(√3 / 2)) := div_nonneg (by linarith) (by linarith)
    have h3 := Real.le_tan (Real.arctan_nonneg.2 h0) (Real.arctan_lt_pi_div_two _)
    rw [Real.tan_arctan] at h3
    linarith
  · rw [← Real.arctan_one]
    exact (Real.arctan_strictMono hs).le

theorem pm_mono_slope : pmSlope (5/3) 1.998 ≤ 0.372 ∧ 0.37 ≤ pmSlope (5/3) 2 := by
  constructor
  · unfold pmSlope
    have : √((1.998:ℝ) ^ 2 - 1) ≤ 1.73 := (Real.sqrt_le_left (by norm_num)).2 (by norm_num)
    rw [div_le_iff₀ (by norm_num)]
    refine this.trans (by norm_num)
  · unfold pmSlope
    rw [show ((2:ℝ) ^ 2 - 1) = 3 by norm_num, le_div_iff₀ (by norm_num)]
    refine le_trans (by norm_num) sqrt3_bounds.1.le

/-- C96, negative part: for a monatomic gas (`γ = 5/3`) the search does not invert the Prandtl–Meyer function
at the sonic point.  The angle of Mach 1 is 0, but asked for the Mach number of the angle 0 the search
computes a first iterate below Mach 1, where the function is not a real number, and fails. -/
theorem C96_monatomic_false :
    PrandtlMeyer_Mach 1 (5/3) = Except.ok 0 ∧ old_Mach_PrandtlMeyer 0 (5/3) = Except.error PyErr.nonFinite := by
  have hγ : (1:ℝ) < 5/3 := by norm_num
  have hok : ∀ z, 1 ≤ z → PrandtlMeyer_Mach z (5/3) = .ok (pmDeg (5/3) z) := fun z hz => PM_ok hγ (by nlinarith)
  constructor
  · rw [PM_ok hγ (by norm_num)]
    simp [pmRad, Py.degrees]
  · obtain ⟨c, hc, e⟩ := pmDeg_mvt hγ (a := 1.998) (b := 2) (by norm_num) (by norm_num)
    have hp := Real.pi_pos
    have hp3 := Real.pi_gt_d2
    have hq : 0 < 180 / π := by positivity
    have b1 := (pmSlope_antitone2 (γ := 5/3) (by norm_num) (by norm_num) hc.1.le).trans pm_mono_slope.1
    have b2 := pm_mono_slope.2.trans (pmSlope_antitone2 (γ := 5/3) (by norm_num) (le_trans (by norm_num) hc.1.le) hc.2.le)
    obtain ⟨S, hS⟩ : ∃ S, S = pmSlope (5/3) c := ⟨_, rfl⟩
    rw [← hS] at e b1 b2
    obtain ⟨v, hv⟩ : ∃ v, v = 2 * arctan (√3 / 2) - π / 3 := ⟨_, rfl⟩
    have e2 := pm_mono_two
    rw [← hv] at e2
    have hv1 : 0.372 < v := by
      have := arctan_half_sqrt3.1
      rw [hv]; norm_num at this hp3 ⊢; linarith
    have hv2 : v ≤ 0.6 := by
      have := arctan_half_sqrt3.2
      have := Real.pi_lt_d2
      rw [hv]; norm_num at this ⊢; linarith
    have hS0 : 0 < S := lt_of_lt_of_le (by norm_num) b2
    obtain ⟨q, hqd⟩ : ∃ q, q = 180 / π := ⟨_, rfl⟩
    rw [← hqd] at e e2 hq
    have e1 : pmDeg (5/3) 1.998 = v * q - S * q * 0.002 := by
      rw [e2] at e; norm_num at e ⊢; linarith
    obtain ⟨nx, hnx⟩ : ∃ nx, nx = 2 - v / S := ⟨_, rfl⟩
    have hstep : 1.998 + (1.998 - 2) / (pmDeg (5/3) 1.998 - pmDeg (5/3) 2) * (0 - pmDeg (5/3) 1.998) = nx := by
      rw [e1, e2, hnx]
      have : v * q - S * q * 0.002 - v * q = -(S * q * 0.002) := by ring
      rw [this]
      field_simp
      ring
    have hd : pmDeg (5/3) 1.998 - pmDeg (5/3) 2 ≠ 0 := by
      have : 0 < S * q := by positivity
      rw [e1, e2]; apply ne_of_lt; norm_num; linarith
    have n1 : nx < 1 := by
      have : 1 < v / S := by rw [lt_div_iff₀ hS0]; linarith
      rw [hnx]; linarith
    have n2 : 0 < nx := by
      have : v / S < 2 := by rw [div_lt_iff₀ hS0]; norm_num at b2; linarith
      rw [hnx]; linarith
    have hrun : secant_run (fun m => PrandtlMeyer_Mach m (5/3)) 0 2.0 defaultTol = .error .nonFinite := by
      have t2 : PrandtlMeyer_Mach 2.0 (5/3) = .ok (pmDeg (5/3) 2) := by
        rw [show (2.0:ℝ) = 2 by norm_num]; exact hok 2 (by norm_num)
      unfold secant_run
      simp only [t2, Py.ok_bind]
      rw [show (2.0:ℝ) * 0.999 = 1.998 by norm_num, show (2.0:ℝ) = 2 by norm_num]
      show secantLoop _ 0 defaultTol 19 2 _ 1.998 = _
      rw [secantLoop, if_pos (by unfold defaultTol; norm_num [abs_of_neg])]
      simp only [hok 1.998 (by norm_num), Py.ok_bind, Py.div_ok hd]
      rw [hstep, secantLoop, if_pos]
      simp only [PM_err (show nx ^ 2 < 1 by nlinarith)]
      · rfl
      · rw [abs_of_neg (by norm_num; linarith), abs_of_pos n2]
        unfold defaultTol
        apply max_lt <;> norm_num <;> linarith
    unfold old_Mach_PrandtlMeyer secant_solve
    rw [hrun]; rfl

end Aerokit.Props
