import Verif.Props.Oblique
import Verif.Props.ShockWave
import Verif.Props.Supersonic
import Mathlib.Analysis.SpecialFunctions.Sqrt

/-! # C93 : weak shocks and weak simple waves agree to first order -/

namespace Aerokit.Props
open ShockWave Supersonic Isentropic Real Filter Topology

theorem degrees_comp_deriv {f : ℝ → ℝ} {f' x : ℝ} (h : HasDerivAt f f' x) : HasDerivAt (fun x => Py.degrees (f x)) (f' * (180 / π)) x :=
  h.mul_const (180 / π)

/-- C93.  The deviation through a shock of pressure ratio `P`, in a flow at Mach `M > 1`: defined around `P = 1`, zero at `P = 1`, with slope
`√(M²-1) / (γ M²)` radians per unit of pressure ratio. -/
theorem C93_weak_shock (M γ : ℝ) (hγ : 1 < γ) (hM : 1 < M) :
    ∃ f : ℝ → ℝ, (∀ᶠ P in 𝓝 1, deflection_Mach_ShockPsratio M P γ = .ok (f P)) ∧ f 1 = 0 ∧
      HasDerivAt f (√(M ^ 2 - 1) / (γ * M ^ 2) * (180 / π)) 1 := by
  have hM0 : 0 < M := by linarith
  have hg : 0 < γ := by linarith
  have hM2 : 1 < M ^ 2 := by nlinarith
  obtain ⟨q, hq⟩ : ∃ q : ℝ → ℝ, q = fun P => 1 + (P - 1) * (γ + 1) / (2 * γ) := ⟨_, rfl⟩
  have q1 : q 1 = 1 := by rw [hq]; simp
  have hqd : HasDerivAt q ((γ + 1) / (2 * γ)) 1 := by
    rw [hq]
    have := ((((hasDerivAt_id' (1:ℝ)).sub_const 1).mul_const (γ + 1)).div_const (2 * γ)).const_add 1
    exact this.congr_deriv (by rw [one_mul])
  obtain ⟨A, hA⟩ : ∃ A : ℝ → ℝ, A = fun P => 2 * (√(1 - q P / M ^ 2) / (√(q P) / M)) / ((γ + 1) * M ^ 2 + 2 - 2 * q P) := ⟨_, rfl⟩
  have hden : (γ + 1) * M ^ 2 + 2 - 2 * q 1 ≠ 0 := by rw [q1]; nlinarith
  have hAd : DifferentiableAt ℝ A 1 := by
    rw [hA]
    have dq := hqd.differentiableAt
    have d1 : DifferentiableAt ℝ (fun P => √(1 - q P / M ^ 2)) 1 := by
      apply DifferentiableAt.sqrt
      · exact (dq.div_const _).const_sub 1
      · rw [q1, sub_ne_zero, ne_eq, eq_div_iff (by positivity)]; linarith
    have d2 : DifferentiableAt ℝ (fun P => √(q P)) 1 := dq.sqrt (by rw [q1]; norm_num)
    have d3 : DifferentiableAt ℝ (fun P => √(q P) / M) 1 := d2.div_const _
    have d4 : DifferentiableAt ℝ (fun P => √(1 - q P / M ^ 2) / (√(q P) / M)) 1 := d1.fun_div d3 (by rw [q1]; simp [hM0.ne'])
    exact (d4.const_mul 2).fun_div ((dq.const_mul 2).const_sub _) hden
  have hF : HasDerivAt (fun P => A P * (q P - 1)) (A 1 * ((γ + 1) / (2 * γ))) 1 := by
    refine (hAd.hasDerivAt.fun_mul (hqd.sub_const 1)).congr_deriv ?_
    rw [q1]; ring
  have hat : HasDerivAt (fun P => Py.degrees (arctan (A P * (q P - 1)))) (√(M ^ 2 - 1) / (γ * M ^ 2) * (180 / π)) 1 := by
    refine (degrees_comp_deriv hF.arctan).congr_deriv ?_
    rw [q1, hA]
    simp only [q1, Real.sqrt_one, sub_self, mul_zero]
    have e : √(1 - 1 / M ^ 2) = √(M ^ 2 - 1) / M := by
      rw [show 1 - 1 / M ^ 2 = (M ^ 2 - 1) / M ^ 2 by field_simp, Real.sqrt_div' _ (by positivity), Real.sqrt_sq hM0.le]
    rw [e, show (γ + 1) * M ^ 2 + 2 - 2 * 1 = (γ + 1) * M ^ 2 by ring]
    have : γ + 1 ≠ 0 := by linarith
    field_simp
    norm_num
  refine ⟨_, ?_, ?_, hat⟩
  · have hc : ContinuousAt q 1 := hqd.continuousAt
    have hlo : ∀ᶠ P in 𝓝 1, 0 < q P := hc.eventually_const_lt (by rw [q1]; norm_num)
    have hhi : ∀ᶠ P in 𝓝 1, q P < M ^ 2 := hc.eventually_lt_const (by rw [q1]; exact hM2)
    filter_upwards [hlo, hhi] with P h0 h1
    have hMn : Mn_Ps_ratio P γ = .ok √(q P) := by
      unfold Mn_Ps_ratio; lits
      rw [Py.div_ok (by linarith), Py.ok_bind, show 1 + (P - 1) * (γ + 1) / (2 * γ) = q P by rw [hq], Py.sqrt_ok h0.le]
    have s0 : 0 < √(q P) / M := div_pos (Real.sqrt_pos.2 h0) hM0
    have s1 : √(q P) / M < 1 := by
      rw [div_lt_one hM0, Real.sqrt_lt' hM0]; exact h1
    have a0 : 0 < arcsin (√(q P) / M) := Real.arcsin_pos.2 s0
    have a1 : arcsin (√(q P) / M) < π / 2 := Real.arcsin_lt_pi_div_two.2 s1
    have hdeg := Py.degrees_mem a0 a1
    unfold deflection_Mach_ShockPsratio
    rw [hMn, Py.ok_bind, Py.div_ok hM0.ne', Py.ok_bind, degree.asin_ok (by linarith) s1.le, Py.ok_bind,
      deflection_ok hγ hM0.ne' hdeg.1 hdeg.2, Py.radians_degrees]
    congr 3
    unfold tanth
    rw [Real.cos_arcsin, Real.sin_arcsin (by linarith) s1.le, hA]
    have e : M ^ 2 * (√(q P) / M) ^ 2 = q P := by
      rw [div_pow, Real.sq_sqrt h0.le]; field_simp
    rw [e, div_pow, Real.sq_sqrt h0.le]
    ring
  · show Py.degrees (arctan (A 1 * (q 1 - 1))) = 0
    rw [q1, sub_self, mul_zero, Real.arctan_zero, Py.degrees_zero]

/-- C93.  The deviation through an isentropic simple wave of pressure ratio `P`: zero at `P = 1`, with the slope of the shock of the same pressure ratio and the
opposite sign (`deflection_Mach_IsentropicPsratio` counts an expansion as positive, `deflection_Mach_ShockPsratio` a compression). -/
theorem C93_weak_wave (M γ : ℝ) (hγ : 1 < γ) (hM : 1 < M) :
    ∃ f : ℝ → ℝ, (∀ᶠ P in 𝓝 1, deflection_Mach_IsentropicPsratio M P γ = .ok (f P)) ∧ f 1 = 0 ∧
      HasDerivAt f (-(√(M ^ 2 - 1) / (γ * M ^ 2) * (180 / π))) 1 := by
  have hM0 : 0 < M := by linarith
  have hg : 0 < γ := by linarith
  have hg1 : 0 < γ - 1 := by linarith
  have hM2 : 1 < M ^ 2 := by nlinarith
  have htt := tt_pos (M := M) hγ
  have htt1 : 1 < tt M γ := by unfold tt; nlinarith
  have hPt := Real.rpow_pos_of_pos htt (γ / (γ - 1))
  obtain ⟨q, hq⟩ : ∃ q : ℝ → ℝ, q = fun P => tt M γ ^ (γ / (γ - 1)) / P := ⟨_, rfl⟩
  obtain ⟨r, hr⟩ : ∃ r : ℝ → ℝ, r = fun P => (q P) ^ ((γ - 1) / γ) := ⟨_, rfl⟩
  have q1 : q 1 = tt M γ ^ (γ / (γ - 1)) := by rw [hq]; simp
  have r1 : r 1 = tt M γ := by rw [hr]; simp only [q1]; exact rpow_rpow_cancel hγ htt.le
  have hqd : HasDerivAt q (-(tt M γ ^ (γ / (γ - 1)))) 1 := by
    rw [hq]
    refine ((hasDerivAt_const (1:ℝ) (tt M γ ^ (γ / (γ - 1)))).fun_div (hasDerivAt_id' 1) one_ne_zero).congr_deriv ?_
    ring
  have hrd : HasDerivAt r (-((γ - 1) / γ * tt M γ)) 1 := by
    rw [hr]
    refine (hqd.rpow_const (Or.inl (by rw [q1]; exact hPt.ne'))).congr_deriv ?_
    rw [q1, Real.rpow_sub_one hPt.ne', rpow_rpow_cancel hγ htt.le]
    field_simp
  obtain ⟨B, hB⟩ : ∃ B : ℝ → ℝ, B = fun P => (r P - 1) * 2 / (γ - 1) - 1 := ⟨_, rfl⟩
  have B1 : B 1 = M ^ 2 - 1 := by
    rw [hB]; simp only [r1]; unfold tt; field_simp; ring
  have hBd : HasDerivAt B (-(2 * tt M γ / γ)) 1 := by
    rw [hB]
    refine ((((hrd.sub_const 1).mul_const 2).div_const (γ - 1)).sub_const 1).congr_deriv ?_
    field_simp
  obtain ⟨β, hβ⟩ : ∃ β, β = √(M ^ 2 - 1) := ⟨_, rfl⟩
  have hβ0 : 0 < β := by rw [hβ]; exact Real.sqrt_pos.2 (by linarith)
  have hβ2 : β ^ 2 = M ^ 2 - 1 := by rw [hβ]; exact Real.sq_sqrt (by linarith)
  have hsB : HasDerivAt (fun P => √(B P)) (-(tt M γ / (γ * β))) 1 := by
    refine (hBd.sqrt (by rw [B1]; linarith)).congr_deriv ?_
    rw [B1, ← hβ]; field_simp
  have hc := one_lt_pmC hγ
  have hc2 : pmC γ ^ 2 = (γ + 1) / (γ - 1) := by
    unfold pmC; exact Real.sq_sqrt (by apply div_nonneg <;> linarith)
  have hpm : HasDerivAt (fun P => pmRad (pmC γ) (√(B P))) (-(β / (γ * M ^ 2))) 1 := by
    have hh : HasDerivAt (pmRad (pmC γ)) (1 / (1 + (√(B 1) / pmC γ) ^ 2) - 1 / (1 + √(B 1) ^ 2)) (√(B 1)) := hasDerivAt_pmRad (by linarith) _
    refine (hh.comp 1 hsB).congr_deriv ?_
    rw [B1, ← hβ, div_pow, hc2, hβ2]
    have e1 : 1 + (M ^ 2 - 1) / ((γ + 1) / (γ - 1)) = 2 * tt M γ / (γ + 1) := by
      unfold tt; have : γ + 1 ≠ 0 := by linarith
      field_simp; ring
    rw [e1]
    have e2 : 1 / (2 * tt M γ / (γ + 1)) - 1 / (1 + (M ^ 2 - 1)) = β ^ 2 / (tt M γ * M ^ 2) := by
      have : γ + 1 ≠ 0 := by linarith
      rw [hβ2, show 1 + (M ^ 2 - 1) = M ^ 2 by ring]
      field_simp
      unfold tt; ring
    rw [e2]
    field_simp
  refine ⟨fun P => Py.degrees (pmRad (pmC γ) (√(B P))) - Py.degrees (pmRad (pmC γ) β), ?_, ?_, ?_⟩
  · have h1 : ∀ᶠ P in 𝓝 1, 1 < q P := hqd.continuousAt.eventually_const_lt (by rw [q1]; exact Real.one_lt_rpow htt1 (by apply div_pos <;> linarith))
    have h2 : ∀ᶠ P in 𝓝 1, 0 < B P := hBd.continuousAt.eventually_const_lt (by rw [B1]; linarith)
    have h3 : ∀ᶠ P : ℝ in 𝓝 1, 0 < P := eventually_gt_nhds one_pos
    filter_upwards [h1, h2, h3] with P a1 a2 a3
    have hqP : tt M γ ^ (γ / (γ - 1)) / P = q P := by rw [hq]
    have hm2 : (q P ^ ((γ - 1) / γ) - 1) * 2 / (γ - 1) = B P + 1 := by rw [hB, hr]; ring
    have hsq : √(B P + 1) ^ 2 = B P + 1 := Real.sq_sqrt (by linarith)
    unfold deflection_Mach_IsentropicPsratio
    rw [PtPs_Mach_ok hγ, Py.ok_bind, Py.div_ok a3.ne', Py.ok_bind, hqP, Mach_PtPs_ok hγ a1.le, Py.ok_bind, hm2,
      PM_ok hγ hM2.le, Py.ok_bind, PM_ok hγ (by rw [hsq]; linarith), Py.ok_bind, hsq, add_sub_cancel_right, ← hβ]
    show (Except.ok _ : Py ℝ) = _
    congr 1; ring
  · show Py.degrees (pmRad (pmC γ) (√(B 1))) - _ = 0
    rw [B1, ← hβ, sub_self]
  · rw [← hβ]
    exact ((degrees_comp_deriv hpm).sub_const _).congr_deriv (by ring)

/-- Mach 2, `γ = 1.4` -/
example : (1:ℝ) < 1.4 ∧ (1:ℝ) < 2 ∧ 0 < √((2:ℝ) ^ 2 - 1) / (1.4 * 2 ^ 2) * (180 / π) := by
  refine ⟨by norm_num, by norm_num, ?_⟩
  have := Real.pi_pos
  have : 0 < √((2:ℝ) ^ 2 - 1) := Real.sqrt_pos.2 (by norm_num)
  positivity

theorem lpt_lower {γ : ℝ} (hγ : 1 < γ) {x : ℝ} (hx : 1 ≤ x) : -(2 * γ * (γ - 1) / (γ + 1) ^ 2 * (x - 1) ^ 3 / 3) ≤ lpt γ x := by
  have hmono : MonotoneOn (fun x => lpt γ x + 2 * γ * (γ - 1) / (γ + 1) ^ 2 * (x - 1) ^ 3 / 3) (Set.Ici 1) := by
    have hd : ∀ y, 1 ≤ y → HasDerivAt (fun x => lpt γ x + 2 * γ * (γ - 1) / (γ + 1) ^ 2 * (x - 1) ^ 3 / 3)
        (-(2 * γ * (γ - 1) * (y - 1) ^ 2) / (y * (2 + (γ - 1) * y) * (2 * γ * y - (γ - 1))) + 2 * γ * (γ - 1) / (γ + 1) ^ 2 * (y - 1) ^ 2) y := by
      intro y hy
      have h2 := (((((hasDerivAt_id' y).sub_const 1).fun_pow 3).const_mul (2 * γ * (γ - 1) / (γ + 1) ^ 2)).div_const 3)
      refine ((hasDerivAt_lpt hγ hy).add h2).congr_deriv ?_
      push_cast; ring
    apply monotoneOn_of_deriv_nonneg (convex_Ici 1)
    · intro y hy; exact (hd y hy).continuousAt.continuousWithinAt
    · intro y hy
      rw [interior_Ici] at hy
      exact (hd y (le_of_lt hy)).differentiableAt.differentiableWithinAt
    · intro y hy
      rw [interior_Ici] at hy
      have hy1 : 1 < y := hy
      rw [(hd y hy1.le).deriv]
      have h1 : 0 < γ - 1 := by linarith
      have hk : 0 ≤ 2 * γ * (γ - 1) * (y - 1) ^ 2 := by
        have : 0 < γ := by linarith
        positivity
      have hD : (γ + 1) ^ 2 ≤ y * (2 + (γ - 1) * y) * (2 * γ * y - (γ - 1)) := by
        have a1 : γ + 1 ≤ 2 + (γ - 1) * y := by nlinarith
        have a2 : γ + 1 ≤ 2 * γ * y - (γ - 1) := by nlinarith
        have a3 : (γ + 1) * (γ + 1) ≤ (2 + (γ - 1) * y) * (2 * γ * y - (γ - 1)) := mul_le_mul a1 a2 (by linarith) (by linarith)
        have a4 : 0 ≤ (2 + (γ - 1) * y) * (2 * γ * y - (γ - 1)) := by apply mul_nonneg <;> linarith
        nlinarith
      have h2 : 0 < (γ + 1) ^ 2 := by positivity
      have := div_le_div_of_nonneg_left hk h2 hD
      rw [neg_div, show 2 * γ * (γ - 1) / (γ + 1) ^ 2 * (y - 1) ^ 2 = 2 * γ * (γ - 1) * (y - 1) ^ 2 / (γ + 1) ^ 2 by ring]
      linarith
  have := hmono (Set.mem_Ici.2 le_rfl) (Set.mem_Ici.2 hx) hx
  simp only [lpt_one hγ, sub_self] at this
  norm_num at this
  linarith

/-- C93.  The total pressure lost in a shock is of third order in the strength `Mn² - 1` of the shock.  (Stated at the default `gamma`, the only one `Pt_ratio`
treats correctly, see C12.) -/
theorem C93_third_order_loss (M : ℝ) (hM : 1 ≤ M) :
    ∃ r, Pt_ratio M 1.4 = .ok r ∧ r ≤ 1 ∧ 1 - 2 * 1.4 / (3 * (1.4 + 1) ^ 2) * (M ^ 2 - 1) ^ 3 ≤ r := by
  have h := one_lt_gamma0
  have e : (1.4:ℝ) = DefaultGas.gamma0 := by rw [gamma0_eq]; norm_num
  rw [e]
  have hpos := ptr_pos h (dom_of_one_le h hM)
  obtain ⟨r, hr, _, hr1, _⟩ := C12_default_gas_partial M hM
  rw [e, Pt_ratio_ok_default hM] at hr
  have hrr : ptr M DefaultGas.gamma0 = r := by injection hr
  refine ⟨_, Pt_ratio_ok_default hM, by rw [hrr]; exact hr1, ?_⟩
  have hl := lpt_lower h (one_le_pow₀ (n := 2) hM)
  have hlog := log_ptr h hM
  have h1 : 0 < DefaultGas.gamma0 - 1 := by linarith
  have hb : -(2 * DefaultGas.gamma0 / (3 * (DefaultGas.gamma0 + 1) ^ 2) * (M ^ 2 - 1) ^ 3) ≤ Real.log (ptr M DefaultGas.gamma0) := by
    rw [hlog, le_div_iff₀ h1]
    refine le_trans (le_of_eq ?_) hl
    field_simp
  have := Real.log_le_sub_one_of_pos hpos
  linarith

end Aerokit.Props
