import Verif.Props.FanSplit

/-!
# C154: the fan redistributes the energy of the core
-/

namespace Aerokit.Props
open Spec.Engine GasGenerator FanSplit

private theorem fe_kin {o : Turbofan.Obj} {f : Flight} {g : Gen} {n : Turbofan.Fan} :
    Turbofan.Wsp_kinEn { o with flight := some f, res := some (g, n) } = .ok (1 / 2 * ((1 + g.far) * n.V9 ^ 2 - g.V0 ^ 2 + o.bpr * (n.V19 ^ 2 - g.V0 ^ 2))) := by
  unfold Turbofan.Wsp_kinEn Turbofan.Obj.theRes
  norm_num [Py.ok_bind, Py.pure_eq]

private theorem fe_kinj {o : Turbojet.Obj} {f : Flight} {g : Gen} {n : Turbojet.Jet} :
    Turbojet.Wsp_kinEn { o with flight := some f, res := some (g, n) } = .ok (1 / 2 * ((1 + g.far) * n.V9 ^ 2 - g.V0 ^ 2)) := by
  unfold Turbojet.Wsp_kinEn Turbojet.Obj.theRes
  norm_num [Py.ok_bind, Py.pure_eq]

/-- flight velocity and temperatures -/
theorem fe_V0 {s : Params} {f : Flight} {g : Gen} (F : Feasible s f) (h : compute s f = .ok g) : g.V0 ^ 2 = 2 * cp s.gam_cold s.r_cold * (g.Tt2 - f.T0) := by
  obtain ⟨-, -, -, -, -, -, -, h0, h1, -, h2, -, h3, -⟩ := compute_inv h
  rw [h2, h3, h1, mul_pow, Real.sq_sqrt h0]
  have : s.gam_cold - 1 ≠ 0 := by linarith [F.gc]
  unfold cp Isentropic.tt
  field_simp
  ring

/-- losses of inlet and nozzle make the expansion ratio of the fan flow worse than that of the flight -/
theorem fe_B {s : Params} {f : Flight} {g : Gen} {ξ : ℝ} (F : Feasible s f) (h : compute s f = .ok g) (hξ : 0 < ξ) :
    (s.xi_inlet * ξ ≤ 1 → f.T0 ≤ g.Tt2 * (f.P0 / (g.Pt2 * ξ)) ^ ((s.gam_cold - 1) / s.gam_cold)) ∧
    (s.xi_inlet * ξ = 1 → f.T0 = g.Tt2 * (f.P0 / (g.Pt2 * ξ)) ^ ((s.gam_cold - 1) / s.gam_cold)) := by
  obtain ⟨-, -, -, -, -, -, -, -, h1, ⟨p, hp, h4⟩, -, h5, h3, -⟩ := compute_inv h
  have gc := F.gc
  have P0 := F.P0
  have T0 := F.T0
  have x0 := F.xi
  have t0 := Isentropic.tt_pos (M := f.M0) gc
  rw [Isentropic.PtPs_Mach_ok gc] at hp
  have hp := (Except.ok.inj hp).symm
  have p0 : 0 < p := by rw [hp]; exact Real.rpow_pos_of_pos t0 _
  have e0 : 0 ≤ (s.gam_cold - 1) / s.gam_cold := div_nonneg (by linarith) (by linarith)
  have e1 : f.P0 / (g.Pt2 * ξ) = 1 / p * (1 / (s.xi_inlet * ξ)) := by rw [h5, h4]; field_simp
  have e2 : (1 / p) ^ ((s.gam_cold - 1) / s.gam_cold) = 1 / Isentropic.tt f.M0 s.gam_cold := by
    rw [Real.div_rpow one_pos.le p0.le, Real.one_rpow, hp, Isentropic.rpow_rpow_cancel gc t0.le]
  have e3 : g.Tt2 * (f.P0 / (g.Pt2 * ξ)) ^ ((s.gam_cold - 1) / s.gam_cold) = f.T0 * (1 / (s.xi_inlet * ξ)) ^ ((s.gam_cold - 1) / s.gam_cold) := by
    rw [e1, Real.mul_rpow (by positivity) (by positivity), e2, h3, h1]
    field_simp
  rw [e3]
  constructor
  · intro hl
    have : 1 ≤ (1 / (s.xi_inlet * ξ)) ^ ((s.gam_cold - 1) / s.gam_cold) := by
      apply Real.one_le_rpow _ e0
      rw [le_div_iff₀ (by positivity)]; linarith
    nlinarith
  · intro hl
    rw [hl]; norm_num

set_option maxHeartbeats 1000000 in
/-- **C154 (energy).**  Compare a turbofan with the turbojet having the same core and nozzle: the kinetic power given to the air by the turbofan is at most that of the
turbojet minus what the shaft of the fan loses, whatever the bypass ratio and the fraction of power given to the fan; with a lossless fan, turbine, inlet and nozzle it
is exactly that. -/
theorem C154_energy (o : Turbofan.Obj) (f : Flight) (F : FanFeasible o f) (j : Turbojet.Obj) (hj : j.params = o.params) (hx : j.xi_nozzle = o.xi_nozzle)
    (hT : o.etapolTBP ≤ 1) (hF : o.etapolfan ≤ 1) (hl : o.params.xi_inlet * o.xi_nozzle ≤ 1) :
    ∃ a g n k a' jt k' P, Turbofan.update (Turbofan.flight_conditions o f) = .ok a ∧ a.res = some (g, n) ∧ Turbofan.Wsp_kinEn a = .ok k ∧
      Turbojet.update (Turbojet.flight_conditions j f) = .ok a' ∧ a'.res = some (g, jt) ∧ Turbojet.Wsp_kinEn a' = .ok k' ∧
      P = (1 + g.far) * (cp o.params.gam_hot o.params.r_hot * (g.Tt45 - n.Tt5)) ∧ 0 ≤ P ∧
      k ≤ k' - (1 - o.params.eta_shaft) * P ∧
      (o.etapolTBP = 1 → o.etapolfan = 1 → o.params.xi_inlet * o.xi_nozzle = 1 → k = k' - (1 - o.params.eta_shaft) * P) := by
  obtain ⟨g, C, B, κ, hg, hC0, hC1, hB0, hB1, hκ, h1, h3, h2, h4, hB, hC, hκe, K⟩ := form o f F
  have b0 := F.bpr
  obtain ⟨n, hu, k1, k2, k3, k4, k5⟩ := K o.bpr o.fanpower_ratio b0 F.ratio0 F.ratio1
  obtain ⟨g', jt, hv, hg', -, -, q3, q4, -, q5⟩ := tj_update_ok j f (by rw [hj]; exact F.core)
  rw [hj, hg] at hg'
  have hg' := Except.ok.inj hg'
  subst hg'
  obtain ⟨p1, p2⟩ := F.press g hg
  have ch := cp_pos F.core.gh F.core.rh
  have cc := cp_pos F.core.gc F.core.rc
  have eT := F.etaT
  have eF := F.etaF
  have r0 := F.ratio0
  have r1 := F.ratio1
  obtain ⟨H, hH⟩ : ∃ H, H = cp o.params.gam_hot o.params.r_hot := ⟨_, rfl⟩
  obtain ⟨G, hG⟩ : ∃ G, G = cp o.params.gam_cold o.params.r_cold := ⟨_, rfl⟩
  have hV0 := fe_V0 F.core hg
  obtain ⟨b1, b2⟩ := fe_B F.core hg F.nozzle
  rw [← hB] at b1 b2
  have hτ0 : 0 < C ^ o.etapolTBP := Real.rpow_pos_of_pos hC0 _
  have hτ1 : C ^ o.etapolTBP ≤ 1 := Real.rpow_le_one hC0.le hC1 eT.le
  obtain ⟨u, hu'⟩ : ∃ u, u = 1 - (1 - C ^ o.etapolTBP) * o.fanpower_ratio := ⟨_, rfl⟩
  obtain ⟨x, hx'⟩ : ∃ x, x = 1 + κ * o.fanpower_ratio / o.bpr := ⟨_, rfl⟩
  have u0 : 0 < u := by rw [hu']; nlinarith
  have u1 : u ≤ 1 := by rw [hu']; nlinarith [mul_nonneg (sub_nonneg.2 hτ1) r0]
  have x1 : 1 ≤ x := by rw [hx']; exact le_add_of_nonneg_right (by positivity)
  have x0 : 0 < x := by linarith
  rw [← hu'] at k1 k3 k4
  rw [← hx'] at k2 k5
  rw [← hH] at ch k4 hκe
  rw [← hG] at cc k5 hκe hV0
  have v9 : n.V9 ^ 2 = 2 * H * g.Tt45 * (u - C * (u * u ^ (-(1 / o.etapolTBP)))) := by
    rw [k4, mul_pow, Real.sq_sqrt (by positivity)]
    unfold phi
    rw [Real.sq_sqrt (mul_nonneg u0.le (by linarith))]
    ring
  have v19 : n.V19 ^ 2 = 2 * G * g.Tt2 * (x - B * (x * x ^ (-o.etapolfan))) := by
    rw [k5, mul_pow, Real.sq_sqrt (by positivity)]
    unfold phi
    rw [Real.sq_sqrt (mul_nonneg x0.le (by linarith [fan_le hB0.le hB1 eF.le x1]))]
    ring
  have vj : jt.V9 ^ 2 = 2 * H * g.Tt45 * (1 - C) := by
    rw [q5, q4, hx, max_eq_left p1, hj]
    unfold jetVelocity
    rw [Real.sq_sqrt]
    · rw [← hH, ← hC]
    · rw [← hC, ← hH]; exact mul_nonneg (by positivity) (by linarith)
  have w9 : 1 ≤ u * u ^ (-(1 / o.etapolTBP)) := by
    have e : u * u ^ (-(1 / o.etapolTBP)) = u ^ (1 + -(1 / o.etapolTBP)) := by rw [Real.rpow_add u0, Real.rpow_one]
    rw [e]
    apply Real.one_le_rpow_of_pos_of_le_one_of_nonpos u0 u1
    have : 1 ≤ 1 / o.etapolTBP := by rw [le_div_iff₀ eT]; linarith
    linarith
  have w19 : 1 ≤ x * x ^ (-o.etapolfan) := by
    have e : x * x ^ (-o.etapolfan) = x ^ (1 + -o.etapolfan) := by rw [Real.rpow_add x0, Real.rpow_one]
    rw [e]
    exact Real.one_le_rpow x1 (by linarith)
  obtain ⟨s, hs⟩ : ∃ s, s = u * u ^ (-(1 / o.etapolTBP)) := ⟨_, rfl⟩
  obtain ⟨t, ht⟩ : ∃ t, t = x * x ^ (-o.etapolfan) := ⟨_, rfl⟩
  rw [← hs] at v9 w9
  rw [← ht] at v19 w19
  -- the balance
  have bal : o.bpr * (G * g.Tt2 * (x - 1)) = o.params.eta_shaft * ((1 + g.far) * (H * (g.Tt45 - n.Tt5))) := by
    have e1 : o.bpr * (G * g.Tt2 * (x - 1)) = κ * (G * g.Tt2) * o.fanpower_ratio := by rw [hx']; field_simp; ring
    rw [e1, hκe, k1, hu']; ring
  have exact : 1 / 2 * ((1 + g.far) * n.V9 ^ 2 - g.V0 ^ 2 + o.bpr * (n.V19 ^ 2 - g.V0 ^ 2)) =
      1 / 2 * ((1 + g.far) * jt.V9 ^ 2 - g.V0 ^ 2) - (1 - o.params.eta_shaft) * ((1 + g.far) * (H * (g.Tt45 - n.Tt5))) -
        ((1 + g.far) * (H * g.Tt45 * (C * (s - 1))) + o.bpr * (G * (g.Tt2 * B * t - f.T0))) := by
    rw [v9, v19, vj, hV0]
    have : n.Tt5 = g.Tt45 * u := k1
    rw [this] at bal ⊢
    linear_combination bal
  refine ⟨_, g, n, _, _, jt, _, _, hu, rfl, fe_kin, hv, rfl, fe_kinj, rfl, ?_, ?_, ?_⟩
  · rw [k1, ← hH]
    have i0 : 0 ≤ g.Tt45 - g.Tt45 * u := by
      have := mul_nonneg h3.le (sub_nonneg.2 u1)
      rwa [mul_sub, mul_one] at this
    exact mul_nonneg h1.le (mul_nonneg ch.le i0)
  · show 1 / 2 * ((1 + g.far) * n.V9 ^ 2 - g.V0 ^ 2 + o.bpr * (n.V19 ^ 2 - g.V0 ^ 2)) ≤ _
    rw [exact, ← hH]
    have i1 : 0 ≤ (1 + g.far) * (H * g.Tt45 * (C * (s - 1))) :=
      mul_nonneg h1.le (mul_nonneg (mul_nonneg ch.le h3.le) (mul_nonneg hC0.le (by linarith)))
    have i2 : 0 ≤ o.bpr * (G * (g.Tt2 * B * t - f.T0)) := by
      refine mul_nonneg b0.le (mul_nonneg cc.le ?_)
      have := b1 hl
      have := mul_le_mul_of_nonneg_left w19 (mul_pos h2 hB0).le
      linarith
    linarith
  · intro eT1 eF1 hl1
    show 1 / 2 * ((1 + g.far) * n.V9 ^ 2 - g.V0 ^ 2 + o.bpr * (n.V19 ^ 2 - g.V0 ^ 2)) = _
    rw [exact, ← hH]
    have s1 : s = 1 := by
      rw [hs, eT1]
      norm_num
      rw [Real.rpow_neg_one]; field_simp
    have t1 : t = 1 := by
      rw [ht, eF1, Real.rpow_neg_one]; field_simp
    rw [s1, t1, b2 hl1]
    ring

/-- **C154 (thermal efficiency).**  With a lossless fan, low pressure turbine, shaft, inlet and nozzle the thermal efficiency of the turbofan is that of the turbojet of
the same core: neither the bypass ratio nor the fraction of power given to the fan changes it. -/
theorem C154_thermal (o : Turbofan.Obj) (f : Flight) (F : FanFeasible o f) (j : Turbojet.Obj) (hj : j.params = o.params) (hx : j.xi_nozzle = o.xi_nozzle)
    (hT : o.etapolTBP = 1) (hF : o.etapolfan = 1) (hs : o.params.eta_shaft = 1) (hl : o.params.xi_inlet * o.xi_nozzle = 1) :
    ∃ a a', Turbofan.update (Turbofan.flight_conditions o f) = .ok a ∧ Turbojet.update (Turbojet.flight_conditions j f) = .ok a' ∧
      Turbofan.thermal_efficiency a = Turbojet.thermal_efficiency a' := by
  obtain ⟨a, g, n, k, a', jt, k', P, h1, h2, h3, h4, h5, h6, -, -, -, h9⟩ := C154_energy o f F j hj hx hT.le hF.le hl.le
  have e : k = k' := by rw [h9 hT hF hl, hs]; ring
  refine ⟨a, a', h1, h4, ?_⟩
  unfold Turbofan.thermal_efficiency Turbojet.thermal_efficiency
  rw [h3, h6, e, Py.ok_bind, Py.ok_bind]
  have pa : a.params = o.params := by
    obtain ⟨g2, n2, hu, -⟩ := tf_update_ok o f F
    rw [hu] at h1; rw [← Except.ok.inj h1]
  have pj : a'.params = o.params := by
    obtain ⟨g2, n2, hu, -⟩ := tj_update_ok j f (by rw [hj]; exact F.core)
    rw [hu] at h4; rw [← Except.ok.inj h4]; exact hj
  have c1 : Turbofan.Wsp_cc a = .ok (g.far * o.params.Pci) := by
    unfold Turbofan.Wsp_cc Turbofan.Obj.theRes; rw [h2, pa]; rfl
  have c2 : Turbojet.Wsp_cc a' = .ok (g.far * o.params.Pci) := by
    unfold Turbojet.Wsp_cc Turbojet.Obj.theRes; rw [h5, pj]; rfl
  rw [c1, c2]

/-- an engine meeting the hypotheses of both theorems: all its efficiencies and total pressure ratios are 1 -/
example : ∃ (o : Turbofan.Obj) (f : Flight) (j : Turbojet.Obj), FanFeasible o f ∧ j.params = o.params ∧ j.xi_nozzle = o.xi_nozzle ∧ o.etapolTBP = 1 ∧
    o.etapolfan = 1 ∧ o.params.eta_shaft = 1 ∧ o.params.xi_inlet * o.xi_nozzle = 1 := by
  refine ⟨Turbofan.new tfArgs, ggFlight, ⟨_, _, none, none⟩, tf_feasible, rfl, rfl, ?_, ?_, ?_, ?_⟩
  · show (1.0 : ℝ) = 1; norm_num
  · show (1.0 : ℝ) = 1; norm_num
  · show (1.0 : ℝ) = 1; norm_num
  · show (1.0 : ℝ) * 1.0 = 1; norm_num

end Aerokit.Props
