import Verif.Lemmas.FanSplit
import Mathlib.Analysis.Calculus.LocalExtr.Basic
import Mathlib.Analysis.SpecialFunctions.Sqrt
import Mathlib.Analysis.Calculus.Deriv.Mul

/-!
# C147, C148: bypass ratio and fan power of the turbofan
-/

namespace Aerokit.Props
open Spec.Engine GasGenerator FanSplit

private theorem fs_thrust {o : Turbofan.Obj} {f : Flight} {g : Gen} {n : Turbofan.Fan} :
    Turbofan.norm_thrust { o with flight := some f, res := some (g, n) } = .ok ((1 + g.far) * n.V9 - g.V0 + o.bpr * (n.V19 - g.V0)) := by
  unfold Turbofan.norm_thrust Turbofan.Obj.theRes
  norm_num [Py.ok_bind, Py.pure_eq]

private theorem fs_sfc {o : Turbofan.Obj} {f : Flight} {g : Gen} {n : Turbofan.Fan} {e : ℝ}
    (h : Turbofan.Sfc { o with flight := some f, res := some (g, n) } = .ok e) : e = g.far / ((1 + g.far) * n.V9 - g.V0 + o.bpr * (n.V19 - g.V0)) := by
  unfold Turbofan.Sfc at h
  rw [fs_thrust] at h
  unfold Turbofan.Obj.theRes at h
  simp only [Py.ok_bind] at h
  exact (Py.div_inv h).2

/-- **C147 (bypass ratio).**  Giving the same fan power to more air, everything else being the same, leaves the core unchanged and makes the fan flow cooler and
slower; without losses in inlet and nozzle the thrust does not decrease and the specific consumption does not increase. -/
theorem C147_bypass_partial (o : Turbofan.Obj) (f : Flight) (F : FanFeasible o f) {b' : ℝ} (hb : o.bpr ≤ b') :
    ∃ a g n t a' n' t', Turbofan.update (Turbofan.flight_conditions o f) = .ok a ∧ a.res = some (g, n) ∧ Turbofan.norm_thrust a = .ok t ∧
      Turbofan.update (Turbofan.flight_conditions { o with bpr := b' } f) = .ok a' ∧ a'.res = some (g, n') ∧ Turbofan.norm_thrust a' = .ok t' ∧
      n'.V9 = n.V9 ∧ n'.Tt17 ≤ n.Tt17 ∧ n'.V19 ≤ n.V19 ∧
      (1 ≤ o.params.xi_inlet * o.xi_nozzle → t ≤ t' ∧
        (0 ≤ g.far → 0 < t → ∀ e e', Turbofan.Sfc a = .ok e → Turbofan.Sfc a' = .ok e' → e' ≤ e)) ∧
      (o.bpr < b' → 0 < o.fanpower_ratio → f.P0 < g.Pt45 * o.xi_nozzle → n'.Tt17 < n.Tt17 ∧ n'.V19 < n.V19) := by
  obtain ⟨g, C, B, κ, hg, hC0, hC1, hB0, hB1, hκ, h1, h3, h2, h4, hB, hC, hκe, K⟩ := form o f F
  have b0 := F.bpr
  have b0' : 0 < b' := by linarith
  have r0 := F.ratio0
  have cc := cp_pos F.core.gc F.core.rc
  have ch := cp_pos F.core.gh F.core.rh
  obtain ⟨n, hu, -, k1, -, k2, k3⟩ := K o.bpr o.fanpower_ratio b0 r0 F.ratio1
  obtain ⟨n', hu', -, k1', -, k2', k3'⟩ := K b' o.fanpower_ratio b0' r0 F.ratio1
  have x1' : 1 ≤ 1 + κ * o.fanpower_ratio / b' := le_add_of_nonneg_right (by positivity)
  have x1 : 1 ≤ 1 + κ * o.fanpower_ratio / o.bpr := le_add_of_nonneg_right (by positivity)
  have xx : 1 + κ * o.fanpower_ratio / b' ≤ 1 + κ * o.fanpower_ratio / o.bpr := by
    have := div_le_div_of_nonneg_left (mul_nonneg hκ r0) b0 hb
    linarith
  have hS : 0 < Real.sqrt (2 * cp o.params.gam_cold o.params.r_cold * g.Tt2) := Real.sqrt_pos.2 (by positivity)
  have v9 : n'.V9 = n.V9 := by rw [k2, k2']
  have v19 : n'.V19 ≤ n.V19 := by
    rw [k3, k3']
    exact mul_le_mul_of_nonneg_left (phi_mono hB0.le F.etaF.le (by linarith) xx (fan_le hB0.le hB1 F.etaF.le x1')) hS.le
  have thr : 1 ≤ o.params.xi_inlet * o.xi_nozzle →
      (1 + g.far) * n.V9 - g.V0 + o.bpr * (n.V19 - g.V0) ≤ (1 + g.far) * n'.V9 - g.V0 + b' * (n'.V19 - g.V0) := by
    intro hl
    have st := stream o f F hg
    rw [← hB] at st
    have hV : g.V0 ≤ Real.sqrt (2 * cp o.params.gam_cold o.params.r_cold * g.Tt2) * phi B o.etapolfan 1 := by
      rw [phi_one, ← Real.sqrt_mul (by positivity)]
      apply Real.le_sqrt_of_sq_le
      have : (o.params.xi_inlet * o.xi_nozzle) ^ (-((o.params.gam_cold - 1) / o.params.gam_cold)) ≤ 1 :=
        Real.rpow_le_one_of_one_le_of_nonpos hl (by
          have := F.core.gc
          have : 0 ≤ (o.params.gam_cold - 1) / o.params.gam_cold := div_nonneg (by linarith) (by linarith)
          linarith)
      have h0 : 0 ≤ 2 * cp o.params.gam_cold o.params.r_cold * f.T0 := by have := F.core.T0; positivity
      nlinarith [mul_nonneg h0 (sub_nonneg.2 this)]
    have cv := phi_concave (a := 1 - o.bpr / b') (b := o.bpr / b') hB0.le F.etaF.le one_pos (show 0 < 1 + κ * o.fanpower_ratio / o.bpr by linarith)
      (fan_le hB0.le hB1 F.etaF.le le_rfl) (fan_le hB0.le hB1 F.etaF.le x1) (by rw [sub_nonneg, div_le_one b0']; exact hb) (by positivity) (by ring)
    rw [show (1 - o.bpr / b') * 1 + o.bpr / b' * (1 + κ * o.fanpower_ratio / o.bpr) = 1 + κ * o.fanpower_ratio / b' by field_simp; ring] at cv
    have c1 := mul_le_mul_of_nonneg_left cv hS.le
    have c2 : (1 - o.bpr / b') * g.V0 + o.bpr / b' * n.V19 ≤ n'.V19 := by
      rw [k3', k3]
      have : (1 - o.bpr / b') * g.V0 ≤ (1 - o.bpr / b') * (Real.sqrt (2 * cp o.params.gam_cold o.params.r_cold * g.Tt2) * phi B o.etapolfan 1) :=
        mul_le_mul_of_nonneg_left hV (by rw [sub_nonneg, div_le_one b0']; exact hb)
      linarith
    have c3 := mul_le_mul_of_nonneg_left c2 b0'.le
    have c4 : b' * ((1 - o.bpr / b') * g.V0 + o.bpr / b' * n.V19) = (b' - o.bpr) * g.V0 + o.bpr * n.V19 := by field_simp
    rw [v9]
    linarith
  refine ⟨_, g, n, _, _, n', _, hu, rfl, fs_thrust, hu', rfl, fs_thrust, v9, ?_, v19, ?_, ?_⟩
  · rw [k1, k1']; exact mul_le_mul_of_nonneg_left xx h2.le
  · intro hl
    refine ⟨thr hl, fun hf ht e e' he he' => ?_⟩
    rw [fs_sfc he, fs_sfc he']
    exact div_le_div_of_nonneg_left hf ht (thr hl)
  · intro hlt hr hp
    have hC1' : C < 1 := by
      rw [hC]
      apply Real.rpow_lt_one
      · have := F.core.P0; have := F.nozzle; exact div_nonneg (by linarith) (by linarith [F.core.P0])
      · rw [div_lt_one (by linarith [F.core.P0])]; exact hp
      · have := F.core.gh; exact div_pos (by linarith) (by linarith)
    have hκ' : 0 < κ := by
      have hpos : 0 < 1 - C ^ o.etapolTBP := by have := Real.rpow_lt_one hC0.le hC1' F.etaT; linarith
      have : 0 < κ * (cp o.params.gam_cold o.params.r_cold * g.Tt2) := by
        rw [hκe]
        have := F.core.shaft
        positivity
      exact pos_of_mul_pos_left this (by positivity)
    have xx' : 1 + κ * o.fanpower_ratio / b' < 1 + κ * o.fanpower_ratio / o.bpr := by
      have := div_lt_div_of_pos_left (mul_pos hκ' hr) b0 hlt
      linarith
    refine ⟨by rw [k1, k1']; exact mul_lt_mul_of_pos_left xx' h2, ?_⟩
    rw [k3, k3']
    exact mul_lt_mul_of_pos_left (phi_strict hB0.le F.etaF.le (by linarith) xx' (fan_le hB0.le hB1 F.etaF.le x1') (fan_lt hB0 hB1 F.etaF (by linarith))) hS

/-- **C147 (defect of the expectation).**  With a total pressure loss in inlet or nozzle, in flight, more bypass air ends up costing thrust: beyond some bypass ratio
the thrust is smaller than any given value. -/
theorem C147_losses_false (o : Turbofan.Obj) (f : Flight) (F : FanFeasible o f) (hM : 0 < f.M0) (hl : o.params.xi_inlet * o.xi_nozzle < 1)
    (hη : o.etapolfan ≤ 1) (K : ℝ) :
    ∃ b0, 0 < b0 ∧ ∀ b, b0 ≤ b → ∃ a t, Turbofan.update (Turbofan.flight_conditions { o with bpr := b } f) = .ok a ∧ Turbofan.norm_thrust a = .ok t ∧ t < K := by
  obtain ⟨g, C, B, κ, hg, hC0, hC1, hB0, hB1, hκ, h1, h3, h2, h4, hB, hC, hκe, Kf⟩ := form o f F
  have r0 := F.ratio0
  have cc := cp_pos F.core.gc F.core.rc
  have hT := F.core.T0
  have gc := F.core.gc
  have st := stream o f F hg
  rw [← hB] at st
  have iV := (compute_inv hg).2.2.2.2.2.2.2.2.2.2.1
  have hV0 : 0 < g.V0 := by
    rw [iV]
    exact mul_pos hM (Real.sqrt_pos.2 (mul_pos (mul_pos (by linarith) F.core.rc) hT))
  obtain ⟨S, hS⟩ : ∃ S, S = 2 * cp o.params.gam_cold o.params.r_cold * g.Tt2 := ⟨_, rfl⟩
  have hS0 : 0 < S := by rw [hS]; positivity
  rw [← hS] at st
  obtain ⟨D, hD⟩ : ∃ D, D = g.V0 ^ 2 - S * (1 - B) := ⟨_, rfl⟩
  have hD0 : 0 < D := by
    have hxi := F.core.xi
    have hξ := F.nozzle
    have : 1 < (o.params.xi_inlet * o.xi_nozzle) ^ (-((o.params.gam_cold - 1) / o.params.gam_cold)) :=
      Real.one_lt_rpow_of_pos_of_lt_one_of_neg (by positivity) hl (by
        have : 0 < (o.params.gam_cold - 1) / o.params.gam_cold := div_pos (by linarith) (by linarith)
        linarith)
    have h0 : 0 < 2 * cp o.params.gam_cold o.params.r_cold * f.T0 := by positivity
    nlinarith [mul_pos h0 (sub_pos.2 this)]
  obtain ⟨n0, -, -, -, -, q9, -⟩ := Kf 1 o.fanpower_ratio one_pos r0 F.ratio1
  obtain ⟨E, hE⟩ : ∃ E, E = (1 + g.far) * n0.V9 - g.V0 := ⟨_, rfl⟩
  obtain ⟨R, hR⟩ : ∃ R, R = S * (κ * o.fanpower_ratio) := ⟨_, rfl⟩
  have hR0 : 0 ≤ R := by rw [hR]; positivity
  refine ⟨(R + 1 + 2 * g.V0 * (|E - K| + 1)) / D, by positivity, fun b hb => ?_⟩
  have hb0 : 0 < b := lt_of_lt_of_le (by positivity) hb
  rw [div_le_iff₀ hD0] at hb
  obtain ⟨n, hu, -, -, -, k2, k3⟩ := Kf b o.fanpower_ratio hb0 r0 F.ratio1
  refine ⟨_, _, hu, fs_thrust, ?_⟩
  show (1 + g.far) * n.V9 - g.V0 + b * (n.V19 - g.V0) < K
  rw [show n.V9 = n0.V9 by rw [k2, q9], ← hE]
  -- the fan jet is slower than the flight
  have x1 : 1 ≤ 1 + κ * o.fanpower_ratio / b := le_add_of_nonneg_right (by positivity)
  have hv : n.V19 ^ 2 ≤ g.V0 ^ 2 - D + R / b := by
    rw [k3, mul_pow, Real.sq_sqrt (by positivity)]
    unfold phi
    have hle := fan_le hB0.le hB1 F.etaF.le x1
    rw [Real.sq_sqrt (mul_nonneg (by linarith) (by linarith)), ← hS]
    have e1 : 1 ≤ (1 + κ * o.fanpower_ratio / b) * (1 + κ * o.fanpower_ratio / b) ^ (-o.etapolfan) := by
      have x0 : 0 < 1 + κ * o.fanpower_ratio / b := by linarith
      calc (1:ℝ) ≤ (1 + κ * o.fanpower_ratio / b) ^ (1 + -o.etapolfan) := Real.one_le_rpow x1 (by linarith)
        _ = _ := by rw [Real.rpow_add x0, Real.rpow_one]
    have e2 : R / b = S * (κ * o.fanpower_ratio / b) := by rw [hR]; ring
    rw [e2, hD]
    have e3 := mul_le_mul_of_nonneg_left (mul_le_mul_of_nonneg_left e1 hB0.le) hS0.le
    nlinarith
  have hvp : 0 ≤ n.V19 := by rw [k3]; exact mul_nonneg (Real.sqrt_nonneg _) (Real.sqrt_nonneg _)
  have hbR : b * (R / b) = R := by field_simp
  have hs : b * (n.V19 ^ 2 - g.V0 ^ 2) ≤ R - b * D := by
    have h1 := mul_le_mul_of_nonneg_left hv hb0.le
    have h2 : b * (g.V0 ^ 2 - D + R / b) = b * g.V0 ^ 2 - b * D + R := by rw [mul_add, hbR]; ring
    rw [h2] at h1
    linarith [mul_sub b (n.V19 ^ 2) (g.V0 ^ 2)]
  have hneg : R - b * D ≤ - (1 + 2 * g.V0 * (|E - K| + 1)) := by linarith
  have hvlt : n.V19 < g.V0 := by
    have hpos : 0 ≤ 2 * g.V0 * (|E - K| + 1) := by positivity
    have : b * (n.V19 ^ 2 - g.V0 ^ 2) < 0 := by linarith
    have : n.V19 ^ 2 < g.V0 ^ 2 := by
      by_contra hc
      have := mul_nonneg hb0.le (sub_nonneg.2 (not_lt.1 hc))
      linarith
    exact lt_of_pow_lt_pow_left₀ 2 hV0.le this
  have fin : b * (n.V19 - g.V0) * (2 * g.V0) ≤ b * (n.V19 ^ 2 - g.V0 ^ 2) := by
    have h0 : 0 ≤ b * (g.V0 - n.V19) := mul_nonneg hb0.le (by linarith)
    have h1 := mul_nonneg h0 (sub_nonneg.2 hvlt.le)
    have h2 : b * (n.V19 ^ 2 - g.V0 ^ 2) - b * (n.V19 - g.V0) * (2 * g.V0) = b * (g.V0 - n.V19) * (g.V0 - n.V19) := by ring
    linarith
  have : b * (n.V19 - g.V0) * (2 * g.V0) < - (|E - K| + 1) * (2 * g.V0) := by linarith
  have := lt_of_mul_lt_mul_right this (by positivity)
  have := le_abs_self (E - K)
  linarith

/-- bypass ratio 5, half of the power to the fan, Mach 1 -/
example : ∃ (o : Turbofan.Obj) (f : Flight), FanFeasible o f ∧ o.bpr < 8 ∧ 0 < o.fanpower_ratio ∧ 1 ≤ o.params.xi_inlet * o.xi_nozzle :=
  ⟨_, _, tf_feasible, show (5:ℝ) < 8 by norm_num, show (0:ℝ) < 1 / 2 by norm_num, show (1:ℝ) ≤ 1.0 * 1.0 by norm_num⟩

/-- the same engine with a nozzle loss of 10 percent -/
theorem tf_lossy_feasible : FanFeasible { Turbofan.new tfArgs with xi_nozzle := 0.9 } ggFlight := by
  have F := tf_feasible
  refine ⟨F.core, by norm_num, F.etaT, F.etaF, F.bpr, F.ratio0, F.ratio1, ?_⟩
  intro g hg
  obtain ⟨h1, h2, -⟩ := gg_pressures_strong hg
  constructor
  · show (1:ℝ) ≤ g.Pt45 * 0.9; norm_num; linarith
  · show (1:ℝ) ≤ g.Pt2 * 0.9; norm_num at h2 ⊢; linarith

example : ∃ (o : Turbofan.Obj) (f : Flight), FanFeasible o f ∧ 0 < f.M0 ∧ o.params.xi_inlet * o.xi_nozzle < 1 ∧ o.etapolfan ≤ 1 :=
  ⟨_, _, tf_lossy_feasible, show (0:ℝ) < 1 by norm_num, show (1.0:ℝ) * 0.9 < 1 by norm_num, show (1.0:ℝ) ≤ 1 by norm_num⟩

/-! ## Fan power -/

/-- **C148 (concavity).**  As a function of the share of the available power given to the fan, the thrust is concave on [0, 1] (so that any local optimum is the
optimum), the core jet slows down and the fan jet speeds up, for any efficiencies and losses. -/
theorem C148_concave (o : Turbofan.Obj) (f : Flight) (F : FanFeasible o f) {r s w : ℝ} (hr0 : 0 ≤ r) (hr1 : r ≤ 1) (hs0 : 0 ≤ s) (hs1 : s ≤ 1)
    (hw0 : 0 ≤ w) (hw1 : w ≤ 1) :
    ∃ a g n t b n' t' c u, Turbofan.update (Turbofan.flight_conditions { o with fanpower_ratio := r } f) = .ok a ∧ a.res = some (g, n) ∧
      Turbofan.norm_thrust a = .ok t ∧
      Turbofan.update (Turbofan.flight_conditions { o with fanpower_ratio := s } f) = .ok b ∧ b.res = some (g, n') ∧ Turbofan.norm_thrust b = .ok t' ∧
      Turbofan.update (Turbofan.flight_conditions { o with fanpower_ratio := w * r + (1 - w) * s } f) = .ok c ∧ Turbofan.norm_thrust c = .ok u ∧
      w * t + (1 - w) * t' ≤ u ∧ (r ≤ s → n'.V9 ≤ n.V9 ∧ n.V19 ≤ n'.V19) := by
  obtain ⟨g, C, B, κ, hg, hC0, hC1, hB0, hB1, hκ, h1, h3, h2, h4, hB, hC, hκe, K⟩ := form o f F
  have b0 := F.bpr
  have eT : 0 ≤ 1 / o.etapolTBP := by have := F.etaT; positivity
  have cc := cp_pos F.core.gc F.core.rc
  have ch := cp_pos F.core.gh F.core.rh
  obtain ⟨n, hu, k4, k1, k5, k2, k3⟩ := K o.bpr r b0 hr0 hr1
  obtain ⟨n', hu', k4', k1', k5', k2', k3'⟩ := K o.bpr s b0 hs0 hs1
  have w1 : 0 ≤ 1 - w := by linarith
  have wp : 0 ≤ w * r + (1 - w) * s := by positivity
  have wq : w * r + (1 - w) * s ≤ 1 := by nlinarith [mul_le_mul_of_nonneg_left hr1 hw0, mul_le_mul_of_nonneg_left hs1 w1]
  obtain ⟨n'', hu'', -, -, -, k2'', k3''⟩ := K o.bpr (w * r + (1 - w) * s) b0 wp wq
  have hS : 0 ≤ Real.sqrt (2 * cp o.params.gam_cold o.params.r_cold * g.Tt2) := Real.sqrt_nonneg _
  have hH : 0 ≤ Real.sqrt (2 * cp o.params.gam_hot o.params.r_hot * g.Tt45) := Real.sqrt_nonneg _
  have hτ0 : 0 < C ^ o.etapolTBP := Real.rpow_pos_of_pos hC0 _
  have hτ1 : C ^ o.etapolTBP ≤ 1 := Real.rpow_le_one hC0.le hC1 F.etaT.le
  have upos : ∀ z, 0 ≤ z → z ≤ 1 → 0 < 1 - (1 - C ^ o.etapolTBP) * z := by
    intro z z0 z1
    nlinarith
  have xge : ∀ z, 0 ≤ z → 1 ≤ 1 + κ * z / o.bpr := fun z z0 => le_add_of_nonneg_right (by positivity)
  have c9 := phi_concave (a := w) (b := 1 - w) hC0.le eT (upos r hr0 hr1) (upos s hs0 hs1) k5 k5' hw0 (by linarith) (by ring)
  have c19 := phi_concave (a := w) (b := 1 - w) hB0.le F.etaF.le (lt_of_lt_of_le one_pos (xge r hr0)) (lt_of_lt_of_le one_pos (xge s hs0))
    (fan_le hB0.le hB1 F.etaF.le (xge r hr0)) (fan_le hB0.le hB1 F.etaF.le (xge s hs0)) hw0 (by linarith) (by ring)
  rw [show w * (1 - (1 - C ^ o.etapolTBP) * r) + (1 - w) * (1 - (1 - C ^ o.etapolTBP) * s) = 1 - (1 - C ^ o.etapolTBP) * (w * r + (1 - w) * s) by ring] at c9
  rw [show w * (1 + κ * r / o.bpr) + (1 - w) * (1 + κ * s / o.bpr) = 1 + κ * (w * r + (1 - w) * s) / o.bpr by ring] at c19
  refine ⟨_, g, n, _, _, n', _, _, _, hu, rfl, fs_thrust, hu', rfl, fs_thrust, hu'', fs_thrust, ?_, ?_⟩
  · have d9 : w * n.V9 + (1 - w) * n'.V9 ≤ n''.V9 := by
      rw [k2, k2', k2'']
      have := mul_le_mul_of_nonneg_left c9 hH
      linarith
    have d19 : w * n.V19 + (1 - w) * n'.V19 ≤ n''.V19 := by
      rw [k3, k3', k3'']
      have := mul_le_mul_of_nonneg_left c19 hS
      linarith
    have f1 := mul_le_mul_of_nonneg_left d9 h1.le
    have f2 := mul_le_mul_of_nonneg_left d19 b0.le
    show w * ((1 + g.far) * n.V9 - g.V0 + o.bpr * (n.V19 - g.V0)) + (1 - w) * ((1 + g.far) * n'.V9 - g.V0 + o.bpr * (n'.V19 - g.V0)) ≤
      (1 + g.far) * n''.V9 - g.V0 + o.bpr * (n''.V19 - g.V0)
    linarith
  · intro hrs
    constructor
    · rw [k2, k2']
      exact mul_le_mul_of_nonneg_left (phi_mono hC0.le eT (upos s hs0 hs1) (by linarith [mul_le_mul_of_nonneg_left hrs (sub_nonneg.2 hτ1)]) k5') hH
    · rw [k3, k3']
      refine mul_le_mul_of_nonneg_left (phi_mono hB0.le F.etaF.le (lt_of_lt_of_le one_pos (xge r hr0)) ?_ (fan_le hB0.le hB1 F.etaF.le (xge r hr0))) hS
      have := div_le_div_of_nonneg_right (mul_le_mul_of_nonneg_left hrs hκ) b0.le
      linarith

/-- the two jets when turbine and fan are without losses -/
private theorem fs_ideal (o : Turbofan.Obj) (f : Flight) (F : FanFeasible o f) (hT : o.etapolTBP = 1) (hF : o.etapolfan = 1) :
    ∃ (g : Gen) (A D E : ℝ), compute o.params f = .ok g ∧ 0 ≤ A ∧ 0 ≤ D ∧ (f.P0 < g.Pt45 * o.xi_nozzle → 0 < A) ∧ 0 < 1 + g.far ∧
      o.bpr * E = o.params.eta_shaft * ((1 + g.far) * A) ∧
      ∀ r, 0 ≤ r → r ≤ 1 → ∃ n, Turbofan.update (Turbofan.flight_conditions { o with fanpower_ratio := r } f) =
          .ok { { o with fanpower_ratio := r } with flight := some f, res := some (g, n) } ∧
        n.V9 = Real.sqrt (A * (1 - r)) ∧ n.V19 = Real.sqrt (D + E * r) := by
  obtain ⟨g, C, B, κ, hg, hC0, hC1, hB0, hB1, hκ, h1, h3, h2, h4, hB, hC, hκe, K⟩ := form o f F
  have b0 := F.bpr
  have cc := cp_pos F.core.gc F.core.rc
  have ch := cp_pos F.core.gh F.core.rh
  simp only [hT, hF, Real.rpow_one] at hκe K
  refine ⟨g, 2 * cp o.params.gam_hot o.params.r_hot * g.Tt45 * (1 - C), 2 * cp o.params.gam_cold o.params.r_cold * g.Tt2 * (1 - B),
    2 * cp o.params.gam_cold o.params.r_cold * g.Tt2 * κ / o.bpr, hg, mul_nonneg (by positivity) (by linarith), mul_nonneg (by positivity) (by linarith), ?_, h1, ?_, ?_⟩
  · intro hp
    have : C < 1 := by
      rw [hC]
      apply Real.rpow_lt_one
      · have := F.core.P0; exact div_nonneg (by linarith) (by linarith)
      · rw [div_lt_one (by linarith [F.core.P0])]; exact hp
      · have := F.core.gh; exact div_pos (by linarith) (by linarith)
    have : 0 < 1 - C := by linarith
    positivity
  · rw [mul_div_cancel₀ _ b0.ne']
    linear_combination 2 * hκe
  intro r hr0 hr1
  obtain ⟨n, hu, -, -, -, k2, k3⟩ := K o.bpr r b0 hr0 hr1
  refine ⟨n, hu, ?_, ?_⟩
  · rw [k2, div_one, phi_e1 C (by nlinarith), ← Real.sqrt_mul (by positivity)]
    congr 1; ring
  · rw [k3, phi_e1 B (by have : 0 ≤ κ * r / o.bpr := by positivity
                         linarith), ← Real.sqrt_mul (by positivity)]
    congr 1; field_simp; ring

private theorem fs_tangent {y z : ℝ} (hy : 0 ≤ y) (hz : 0 < z) : Real.sqrt y - Real.sqrt z ≤ (y - z) / (2 * Real.sqrt z) := by
  have h := Real.sqrt_pos.2 hz
  rw [le_div_iff₀ (by positivity)]
  nlinarith [Real.sq_sqrt hy, Real.sq_sqrt hz.le, sq_nonneg (Real.sqrt y - Real.sqrt z)]

open Real in
/-- **C148 (optimal split).**  With a turbine and a fan without losses, a share of the power strictly between 0 and 1 gives the largest thrust of all shares if and
only if the ratio of the fan jet velocity to the core jet velocity is the shaft efficiency. -/
theorem C148_optimal_split (o : Turbofan.Obj) (f : Flight) (F : FanFeasible o f) (hT : o.etapolTBP = 1) (hF : o.etapolfan = 1)
    (hp : ∀ g, compute o.params f = .ok g → f.P0 < g.Pt45 * o.xi_nozzle) {r : ℝ} (hr0 : 0 < r) (hr1 : r < 1) :
    ∃ a g n t, Turbofan.update (Turbofan.flight_conditions { o with fanpower_ratio := r } f) = .ok a ∧ a.res = some (g, n) ∧ Turbofan.norm_thrust a = .ok t ∧
      ((∀ s a' t', 0 ≤ s → s ≤ 1 → Turbofan.update (Turbofan.flight_conditions { o with fanpower_ratio := s } f) = .ok a' →
          Turbofan.norm_thrust a' = .ok t' → t' ≤ t) ↔ n.V19 = o.params.eta_shaft * n.V9) := by
  obtain ⟨g, A, D, E, hg, hA, hD, hA', h1, hE, K⟩ := fs_ideal o f F hT hF
  have hA0 := hA' (hp g hg)
  have b0 := F.bpr
  have sh := F.core.shaft
  have hE0 : 0 < E := by
    have : 0 < o.bpr * E := by rw [hE]; positivity
    exact pos_of_mul_pos_right this b0.le
  obtain ⟨n, hu, k9, k19⟩ := K r hr0.le hr1.le
  have z9 : 0 < A * (1 - r) := mul_pos hA0 (by linarith)
  have z19 : 0 < D + E * r := by have := mul_pos hE0 hr0; linarith
  have v9 := Real.sqrt_pos.2 z9
  have v19 := Real.sqrt_pos.2 z19
  refine ⟨_, g, n, _, hu, rfl, fs_thrust, ?_⟩
  have slope : (1 + g.far) * (-A / (2 * √(A * (1 - r)))) + o.bpr * (E / (2 * √(D + E * r))) =
      (1 + g.far) * A / (2 * √(A * (1 - r)) * √(D + E * r)) * (o.params.eta_shaft * √(A * (1 - r)) - √(D + E * r)) := by
    field_simp
    linear_combination √(A * (1 - r)) * hE
  constructor
  · intro hmax
    obtain ⟨T, hTd⟩ : ∃ T : ℝ → ℝ, T = fun s => (1 + g.far) * √(A * (1 - s)) - g.V0 + o.bpr * (√(D + E * s) - g.V0) := ⟨_, rfl⟩
    have hloc : IsLocalMax T r := by
      filter_upwards [Ioo_mem_nhds hr0 hr1] with s hs
      obtain ⟨n', hu', k9', k19'⟩ := K s hs.1.le hs.2.le
      have := hmax s _ _ hs.1.le hs.2.le hu' fs_thrust
      rw [hTd]
      simp only [k9, k19, k9', k19'] at this ⊢
      exact this
    have d1 : HasDerivAt (fun s : ℝ => A * (1 - s)) (-A) r := by
      have := ((hasDerivAt_id r).const_sub 1).const_mul A
      simpa using this
    have d2 : HasDerivAt (fun s : ℝ => D + E * s) E r := by
      have := ((hasDerivAt_id r).const_mul E).const_add D
      simpa using this
    have d : HasDerivAt T ((1 + g.far) * (-A / (2 * √(A * (1 - r)))) + o.bpr * (E / (2 * √(D + E * r)))) r := by
      rw [hTd]
      exact (((d1.sqrt z9.ne').const_mul (1 + g.far)).sub_const g.V0).add (((d2.sqrt z19.ne').sub_const g.V0).const_mul o.bpr)
    have h0 := hloc.hasDerivAt_eq_zero d
    rw [slope] at h0
    have hne : (1 + g.far) * A / (2 * √(A * (1 - r)) * √(D + E * r)) ≠ 0 := by positivity
    have := (mul_eq_zero.1 h0).resolve_left hne
    rw [k19, k9]
    linarith
  · intro heq s a' t' hs0 hs1 hua hta
    obtain ⟨n', hu', k9', k19'⟩ := K s hs0 hs1
    have : a' = _ := Except.ok.inj (hua.symm.trans hu')
    subst this
    rw [fs_thrust] at hta
    rw [← Except.ok.inj hta]
    show (1 + g.far) * n'.V9 - g.V0 + o.bpr * (n'.V19 - g.V0) ≤ (1 + g.far) * n.V9 - g.V0 + o.bpr * (n.V19 - g.V0)
    have t1 := fs_tangent (y := A * (1 - s)) (mul_nonneg hA (by linarith)) z9
    have t2 := fs_tangent (y := D + E * s) (by positivity) z19
    have m1 := mul_le_mul_of_nonneg_left t1 h1.le
    have m2 := mul_le_mul_of_nonneg_left t2 b0.le
    rw [k9, k19] at heq
    have hz : (1 + g.far) * ((A * (1 - s) - A * (1 - r)) / (2 * √(A * (1 - r)))) + o.bpr * ((D + E * s - (D + E * r)) / (2 * √(D + E * r))) =
        (s - r) * ((1 + g.far) * (-A / (2 * √(A * (1 - r)))) + o.bpr * (E / (2 * √(D + E * r)))) := by ring
    have hzero : o.params.eta_shaft * √(A * (1 - r)) - √(D + E * r) = 0 := by rw [heq]; ring
    rw [slope, hzero, mul_zero, mul_zero] at hz
    rw [k9, k19, k9', k19']
    linarith

open Real in
/-- **C148 (existence).**  If, without fan power, the core jet times the shaft efficiency is faster than the bypass jet, exactly one share of the power is optimal. -/
theorem C148_optimum_exists (o : Turbofan.Obj) (f : Flight) (F : FanFeasible o f) (hT : o.etapolTBP = 1) (hF : o.etapolfan = 1)
    (hp : ∀ g, compute o.params f = .ok g → f.P0 < g.Pt45 * o.xi_nozzle)
    (h0 : ∀ a g n, Turbofan.update (Turbofan.flight_conditions { o with fanpower_ratio := 0 } f) = .ok a → a.res = some (g, n) → n.V19 < o.params.eta_shaft * n.V9) :
    ∃! r, 0 < r ∧ r < 1 ∧ ∀ a g n, Turbofan.update (Turbofan.flight_conditions { o with fanpower_ratio := r } f) = .ok a → a.res = some (g, n) →
      n.V19 = o.params.eta_shaft * n.V9 := by
  obtain ⟨g, A, D, E, hg, hA, hD, hA', h1, hE, K⟩ := fs_ideal o f F hT hF
  have hA0 := hA' (hp g hg)
  have b0 := F.bpr
  have sh := F.core.shaft
  have hE0 : 0 < E := by
    have : 0 < o.bpr * E := by rw [hE]; positivity
    exact pos_of_mul_pos_right this b0.le
  obtain ⟨n0, hu0, k9, k19⟩ := K 0 le_rfl zero_le_one
  have hlt := h0 _ g n0 hu0 rfl
  rw [k9, k19, mul_zero, add_zero, sub_zero, mul_one] at hlt
  have hlt2 : D < o.params.eta_shaft ^ 2 * A := by
    have := pow_lt_pow_left₀ hlt (Real.sqrt_nonneg _) two_ne_zero
    rw [mul_pow, Real.sq_sqrt hD, Real.sq_sqrt hA] at this
    exact this
  have hs2 : 0 < o.params.eta_shaft ^ 2 * A := by positivity
  have iff : ∀ r, 0 ≤ r → r ≤ 1 → (√(D + E * r) = o.params.eta_shaft * √(A * (1 - r)) ↔ r * (E + o.params.eta_shaft ^ 2 * A) = o.params.eta_shaft ^ 2 * A - D) := by
    intro r r0 r1
    have p1 : 0 ≤ D + E * r := by positivity
    have p2 : 0 ≤ A * (1 - r) := mul_nonneg hA (by linarith)
    rw [← sq_eq_sq₀ (Real.sqrt_nonneg _) (by positivity), mul_pow, Real.sq_sqrt p1, Real.sq_sqrt p2]
    constructor <;> intro h <;> linarith
  have hden : 0 < E + o.params.eta_shaft ^ 2 * A := by positivity
  refine ⟨(o.params.eta_shaft ^ 2 * A - D) / (E + o.params.eta_shaft ^ 2 * A), ⟨div_pos (by linarith) hden, by rw [div_lt_one hden]; linarith, ?_⟩, ?_⟩
  · intro a g' n ha hr
    have r0 : 0 ≤ (o.params.eta_shaft ^ 2 * A - D) / (E + o.params.eta_shaft ^ 2 * A) := div_nonneg (by linarith) hden.le
    have r1 : (o.params.eta_shaft ^ 2 * A - D) / (E + o.params.eta_shaft ^ 2 * A) ≤ 1 := by rw [div_le_one hden]; linarith
    obtain ⟨n', hu', k9', k19'⟩ := K _ r0 r1
    have : a = _ := Except.ok.inj (ha.symm.trans hu')
    subst this
    have hn : n' = n := (Prod.mk.inj (Option.some.inj hr)).2
    subst hn
    rw [k9', k19', iff _ r0 r1]
    field_simp
  · rintro r ⟨r0, r1, hr⟩
    obtain ⟨n', hu', k9', k19'⟩ := K r r0.le r1.le
    have := hr _ g n' hu' rfl
    rw [k9', k19', iff r r0.le r1.le] at this
    rw [eq_div_iff hden.ne', this]

example : ∃ (o : Turbofan.Obj) (f : Flight), FanFeasible o f ∧ o.etapolTBP = 1 ∧ o.etapolfan = 1 ∧
    ∀ g, compute o.params f = .ok g → f.P0 < g.Pt45 * o.xi_nozzle := by
  refine ⟨_, _, tf_feasible, show (1.0:ℝ) = 1 by norm_num, show (1.0:ℝ) = 1 by norm_num, fun g hg => ?_⟩
  have := (gg_pressures_strong hg).1
  show (1:ℝ) < g.Pt45 * 1.0
  linarith

/-- that engine has an optimal split -/
example : ∃! r, 0 < r ∧ r < 1 ∧ ∀ a g n, Turbofan.update (Turbofan.flight_conditions { Turbofan.new tfArgs with fanpower_ratio := r } ggFlight) = .ok a →
    a.res = some (g, n) → n.V19 = (Turbofan.new tfArgs).params.eta_shaft * n.V9 := by
  refine C148_optimum_exists (Turbofan.new tfArgs) ggFlight tf_feasible (show (1.0:ℝ) = 1 by norm_num) (show (1.0:ℝ) = 1 by norm_num) (fun g hg => ?_) ?_
  · have := (gg_pressures_strong hg).1
    show (1:ℝ) < g.Pt45 * 1.0
    linarith
  intro a g n ha hr
  obtain ⟨g', C, B, κ, hg, hC0, hC1, hB0, hB1, hκ, h1, h3, h2, h4, hB, hC, hκe, K⟩ := form _ _ tf_feasible
  obtain ⟨n', hu, -, -, -, k2, k3⟩ := K (Turbofan.new tfArgs).bpr 0 tf_feasible.bpr le_rfl zero_le_one
  have : a = _ := Except.ok.inj (ha.symm.trans hu)
  subst this
  obtain ⟨rfl, rfl⟩ := Prod.mk.inj (Option.some.inj hr)
  obtain ⟨p1, p2, p3⟩ := gg_pressures_strong hg
  have st := stream _ _ tf_feasible hg
  rw [← hB] at st
  have iV := (compute_inv hg).2.2.2.2.2.2.2.2.2.2.1
  replace iV : g'.V0 = 1 * Real.sqrt (1.4 * 287.1 * 200) := iV
  have eV : g'.V0 ^ 2 = 1.4 * 287.1 * 200 := by rw [iV, one_mul, Real.sq_sqrt (by norm_num)]
  replace st : 2 * cp 1.4 287.1 * g'.Tt2 * (1 - B) - g'.V0 ^ 2 = 2 * cp 1.4 287.1 * 200 * (1 - (1.0 * 1.0 : ℝ) ^ (-((1.4 - 1) / 1.4) : ℝ)) := st
  rw [show (1.0 * 1.0 : ℝ) = 1 by norm_num, Real.one_rpow, sub_self, mul_zero, eV] at st
  replace hC : C = (1 / (g'.Pt45 * 1.0)) ^ (((1.4:ℝ) - 1) / 1.4) := hC
  have hC2 : C ≤ 15 / 16 := by
    have hq : (1:ℝ) / (g'.Pt45 * 1.0) ≤ 1 / 2 := by
      apply one_div_le_one_div_of_le (by norm_num)
      norm_num; linarith
    have hq0 : (0:ℝ) ≤ 1 / (g'.Pt45 * 1.0) := by
      have : 0 < g'.Pt45 * 1.0 := by linarith
      positivity
    rw [hC]
    calc _ ≤ ((1:ℝ) / 2) ^ (((1.4:ℝ) - 1) / 1.4) := Real.rpow_le_rpow hq0 hq (by norm_num)
      _ ≤ (((15:ℝ) / 16) ^ (7/2:ℝ)) ^ (((1.4:ℝ) - 1) / 1.4) := by
        apply Real.rpow_le_rpow (by norm_num) _ (by norm_num)
        calc ((1:ℝ) / 2) ≤ (15 / 16) ^ (4:ℝ) := by
              rw [show (4:ℝ) = ((4:ℕ):ℝ) by norm_num, Real.rpow_natCast]; norm_num
          _ ≤ _ := Real.rpow_le_rpow_of_exponent_ge (by norm_num) (by norm_num) (by norm_num)
      _ = 15 / 16 := by rw [← Real.rpow_mul (by norm_num)]; norm_num
  replace k2 : n'.V9 = Real.sqrt (2 * cp 1.4 287.1 * g'.Tt45) * phi C (1 / 1.0) (1 - (1 - C ^ (1.0:ℝ)) * 0) := k2
  replace k3 : n'.V19 = Real.sqrt (2 * cp 1.4 287.1 * g'.Tt2) * phi B 1.0 (1 + κ * 0 / (Turbofan.new tfArgs).bpr) := k3
  have cpos : 0 < cp 1.4 287.1 := by unfold cp; norm_num
  show n'.V19 < 1.0 * n'.V9
  rw [k2, k3, mul_zero, mul_zero, zero_div, sub_zero, add_zero, phi_one, phi_one, ← Real.sqrt_mul (by positivity), ← Real.sqrt_mul (by positivity),
    show (1.0:ℝ) = 1 by norm_num, one_mul]
  apply Real.sqrt_lt_sqrt (mul_nonneg (by positivity) (by linarith))
  have e1 : 2 * cp 1.4 287.1 * g'.Tt2 * (1 - B) = 1.4 * 287.1 * 200 := by linarith
  rw [e1]
  calc (1.4 * 287.1 * 200 : ℝ) < 2 * cp 1.4 287.1 * 1280 * (1 / 16) := by unfold cp; norm_num
    _ ≤ 2 * cp 1.4 287.1 * g'.Tt45 * (1 - C) := by
      apply mul_le_mul (mul_le_mul_of_nonneg_left p3 (by positivity)) (by linarith) (by norm_num) (by positivity)

end Aerokit.Props
