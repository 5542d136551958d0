import Verif.Props.EnginePerf

/-! # Property C122 : effect of the component efficiencies and of the turbine entry temperature on the turbojet -/

namespace Aerokit.Props
open GasGenerator Spec.Engine

/-- jet velocities are ordered like total pressures and temperatures -/
theorem jetVelocity_mono {γ r P Pt Pt' T T' : ℝ} (hγ : 1 < γ) (hr : 0 < r) (hP : 0 < P) (h1 : P ≤ Pt) (h2 : Pt ≤ Pt') (hT : 0 < T)
    (hTT : T ≤ T') : jetVelocity γ r Pt T P ≤ jetVelocity γ r Pt' T' P ∧ (P < Pt → T < T' → jetVelocity γ r Pt T P < jetVelocity γ r Pt' T' P) := by
  have hc := cp_pos hγ hr
  have he : 0 < (γ - 1) / γ := div_pos (by linarith) (by linarith)
  have hPt : 0 < Pt := by linarith
  have hPt' : 0 < Pt' := by linarith
  have e1 : (P / Pt') ^ ((γ - 1) / γ) ≤ (P / Pt) ^ ((γ - 1) / γ) :=
    Real.rpow_le_rpow (by positivity) (div_le_div_of_nonneg_left hP.le hPt h2) he.le
  have e2 : (P / Pt) ^ ((γ - 1) / γ) ≤ 1 := Real.rpow_le_one (by positivity) ((div_le_one hPt).2 h1) he.le
  unfold jetVelocity
  constructor
  · apply Real.sqrt_le_sqrt
    apply mul_le_mul (by nlinarith) (by linarith) (by linarith) (by nlinarith)
  · intro h3 h4
    have e3 : (P / Pt) ^ ((γ - 1) / γ) < 1 := Real.rpow_lt_one (by positivity) ((div_lt_one hPt).2 h3) he
    apply Real.sqrt_lt_sqrt (mul_nonneg (by positivity) (by linarith))
    apply mul_lt_mul (by nlinarith) (by linarith) (by linarith) (by nlinarith)

/-- Gas generator: same gases, pressure ratio, fuel and combustion chamber; compressor, turbine, shaft and inlet not worse,
and turbine entry temperature not lower. -/
structure NotWorse (s s' : Params) : Prop where
  OPR : s'.OPR = s.OPR
  Pci : s'.Pci = s.Pci
  gc : s'.gam_cold = s.gam_cold
  gh : s'.gam_hot = s.gam_hot
  rc : s'.r_cold = s.r_cold
  rh : s'.r_hot = s.r_hot
  xicc : s'.xi_cc = s.xi_cc
  inlet : s.xi_inlet ≤ s'.xi_inlet
  etaC : s.etapolCHP ≤ s'.etapolCHP
  etaT : s.etapolTHP ≤ s'.etapolTHP
  shaft : s.eta_shaft ≤ s'.eta_shaft
  Tt4 : s.Tt4 ≤ s'.Tt4

theorem tt3_anti {s s' : Params} {f : Flight} (F : Feasible s f) (h : NotWorse s s') (hO : 1 ≤ s.OPR) : tt3 s' f ≤ tt3 s f := by
  have ht := Isentropic.tt_pos (M := f.M0) F.gc
  have hT := F.T0
  unfold tt3
  rw [h.gc, h.OPR]
  apply mul_le_mul_of_nonneg_left _ (by positivity)
  apply Real.rpow_le_rpow_of_exponent_le hO
  have h1 := F.etaC
  have h2 : 0 < s.gam_cold := by linarith [F.gc]
  apply div_le_div_of_nonneg_left (by linarith [F.gc]) (by positivity)
  exact mul_le_mul_of_nonneg_left h.etaC h2.le

theorem tt3_ge {s : Params} {f : Flight} (F : Feasible s f) (hO : 1 ≤ s.OPR) : f.T0 * Isentropic.tt f.M0 s.gam_cold ≤ tt3 s f := by
  have ht := Isentropic.tt_pos (M := f.M0) F.gc
  have hT := F.T0
  have h1 := F.etaC
  have h2 : 0 < s.gam_cold := by linarith [F.gc]
  unfold tt3
  apply le_mul_of_one_le_right (by positivity)
  exact Real.one_le_rpow hO (div_nonneg (by linarith [F.gc]) (by positivity))

/-- the scalar part: fuel, turbine exit temperature and turbine temperature ratio -/
theorem turbine_mono {K bT bT' x x' Q Q' b η η' T T' : ℝ} (hb : 0 < b) (hT : 0 < T) (hTT : T ≤ T') (e1 : bT = b * T) (e2 : bT' = b * T')
    (hK : bT' < K) (hx : x' ≤ x) (hxK : x < K) (hQ' : 0 ≤ Q') (hQ : Q' ≤ Q) (hη : 0 < η) (hηη : η ≤ η')
    (ht : Q * (K - bT) < η * bT * (K - x)) :
    (bT - x) / (K - bT) ≤ (bT' - x') / (K - bT') ∧
    Q' / (η' * b * (1 + (bT' - x') / (K - bT'))) ≤ Q / (η * b * (1 + (bT - x) / (K - bT))) ∧
    0 ≤ Q' / (η' * b * (1 + (bT' - x') / (K - bT'))) ∧
    Q / (η * b * (1 + (bT - x) / (K - bT))) < T ∧ (T < T' → (bT - x) / (K - bT) < (bT' - x') / (K - bT')) ∧
    Q' * (K - bT') < η' * bT' * (K - x') := by
  have hb1 : bT ≤ bT' := by rw [e1, e2]; exact mul_le_mul_of_nonneg_left hTT hb.le
  have hA' : 0 < K - bT' := by linarith
  have hA : 0 < K - bT := by linarith
  have hB : 0 < K - x := by linarith
  have hB' : 0 < K - x' := by linarith
  have f1 : 1 + (bT - x) / (K - bT) = (K - x) / (K - bT) := by field_simp; ring
  have f2 : 1 + (bT' - x') / (K - bT') = (K - x') / (K - bT') := by field_simp; ring
  have hle : (K - x) / (K - bT) ≤ (K - x') / (K - bT') := div_le_div₀ hB'.le (by linarith) hA' (by linarith)
  have hp1 : 0 < (K - x) / (K - bT) := by positivity
  have hp2 : 0 < (K - x') / (K - bT') := by positivity
  have hη' : 0 < η' := by linarith
  have hbT : 0 < bT := by rw [e1]; positivity
  rw [f1, f2]
  refine ⟨by linarith, ?_, by positivity, ?_, ?_, ?_⟩
  · apply div_le_div₀ (by linarith) hQ (by positivity)
    apply mul_le_mul (mul_le_mul_of_nonneg_right hηη hb.le) hle hp1.le (by positivity)
  · rw [div_lt_iff₀ (by positivity)]
    have : T * (η * b * ((K - x) / (K - bT))) = η * bT * (K - x) / (K - bT) := by rw [e1]; field_simp
    rw [this, lt_div_iff₀ hA]
    exact ht
  · intro hlt
    have : bT < bT' := by rw [e1, e2]; exact mul_lt_mul_of_pos_left hlt hb
    have : (K - x) / (K - bT) < (K - x') / (K - bT') := by
      apply div_lt_div₀' (by linarith) (by linarith) hB' hA'
    linarith
  · calc Q' * (K - bT') ≤ Q * (K - bT) := mul_le_mul hQ (by linarith) hA'.le (by linarith)
      _ < η * bT * (K - x) := ht
      _ ≤ η' * bT' * (K - x') := by
        apply mul_le_mul (mul_le_mul hηη hb1 hbT.le hη'.le) (by linarith) hB.le
          (mul_nonneg hη'.le (by linarith))

/-- C122: with better components (inlet, compressor, turbine, shaft, nozzle) or a hotter turbine inlet, everything else being the
same, the engine still runs, burns not less fuel, and neither the turbine exit conditions, nor the jet velocity, nor the thrust
decrease; a hotter turbine inlet strictly increases fuel, turbine exit temperature and, if the jet is under pressure, thrust. -/
theorem C122_components (o o' : Turbojet.Obj) (f : Flight) (F : Feasible o.params f) (hO : 1 ≤ o.params.OPR)
    (hn : NotWorse o.params o'.params) (hx0 : 0 ≤ o.xi_nozzle) (hx : o.xi_nozzle ≤ o'.xi_nozzle)
    (hfuel : cp o.params.gam_hot o.params.r_hot * o'.params.Tt4 < o.params.xi_cc * o.params.Pci) :
    ∃ a g j t a' g' j' t', Turbojet.update (Turbojet.flight_conditions o f) = .ok a ∧ a.res = some (g, j) ∧
      Turbojet.norm_thrust a = .ok t ∧
      Turbojet.update (Turbojet.flight_conditions o' f) = .ok a' ∧ a'.res = some (g', j') ∧ Turbojet.norm_thrust a' = .ok t' ∧
      g.far ≤ g'.far ∧ g.Tt45 ≤ g'.Tt45 ∧ g.Pt45 ≤ g'.Pt45 ∧ j.V9 ≤ j'.V9 ∧ t ≤ t' ∧
      (o.params.Tt4 < o'.params.Tt4 → g.far < g'.far ∧ g.Tt45 < g'.Tt45 ∧ (f.P0 < g.Pt45 * o.xi_nozzle → t < t')) := by
  have ht3 := tt3_anti F hn hO
  have ht3g := tt3_ge F hO
  have ht := Isentropic.tt_pos (M := f.M0) F.gc
  have c1 := cp_pos F.gc F.rc
  have c2 := cp_pos F.gh F.rh
  have key0 : f.T0 * Isentropic.tt f.M0 o.params.gam_cold ≤ tt3 o'.params f := by
    have h1 : 0 < o'.params.etapolCHP := lt_of_lt_of_le F.etaC hn.etaC
    have h2 : 0 < o.params.gam_cold := by linarith [F.gc]
    have hT := F.T0
    unfold tt3
    rw [hn.gc, hn.OPR]
    apply le_mul_of_one_le_right (by positivity)
    exact Real.one_le_rpow hO (div_nonneg (by linarith [F.gc]) (by positivity))
  obtain ⟨k1, k2, k3, k4, k5, k6⟩ := turbine_mono (K := o.params.xi_cc * o.params.Pci) (b := cp o.params.gam_hot o.params.r_hot)
    (η := o.params.eta_shaft) (η' := o'.params.eta_shaft) (T := o.params.Tt4) (T' := o'.params.Tt4)
    (x := cp o.params.gam_cold o.params.r_cold * tt3 o.params f) (x' := cp o.params.gam_cold o.params.r_cold * tt3 o'.params f)
    (Q := cp o.params.gam_cold o.params.r_cold * (tt3 o.params f - f.T0 * Isentropic.tt f.M0 o.params.gam_cold))
    (Q' := cp o.params.gam_cold o.params.r_cold * (tt3 o'.params f - f.T0 * Isentropic.tt f.M0 o.params.gam_cold))
    c2 F.Tt4 hn.Tt4 rfl rfl hfuel (mul_le_mul_of_nonneg_left ht3 c1.le) F.air (mul_nonneg c1.le (by linarith))
    (mul_le_mul_of_nonneg_left (by linarith) c1.le) F.shaft hn.shaft F.turbine
  have F' : Feasible o'.params f := by
    refine ⟨by rw [hn.gc]; exact F.gc, by rw [hn.gh]; exact F.gh, by rw [hn.rc]; exact F.rc, by rw [hn.rh]; exact F.rh, F.T0, F.P0,
      by rw [hn.OPR]; exact F.OPR, lt_of_lt_of_le F.etaC hn.etaC, lt_of_lt_of_le F.etaT hn.etaT, lt_of_lt_of_le F.shaft hn.shaft,
      lt_of_lt_of_le F.Tt4 hn.Tt4, lt_of_lt_of_le F.xi hn.inlet, by rw [hn.xicc]; exact F.xicc, ?_, ?_, ?_⟩
    · rw [hn.gh, hn.rh, hn.xicc, hn.Pci]; exact hfuel
    · rw [hn.gc, hn.rc, hn.xicc, hn.Pci]
      exact lt_of_le_of_lt (mul_le_mul_of_nonneg_left ht3 c1.le) F.air
    · rw [hn.gc, hn.rc, hn.gh, hn.rh, hn.xicc, hn.Pci]; exact k6
  obtain ⟨g, j, hu, hg, p1, p2, p3, p4, -, p5⟩ := tj_update_ok o f F
  obtain ⟨g', j', hu', hg', p1', p2', p3', p4', -, p5'⟩ := tj_update_ok o' f F'
  obtain ⟨-, -, -, -, -, -, -, -, a1, ⟨q, a2, a3⟩, a4, a5, a6, a7, a8, a9, a10, a11, a12⟩ := compute_inv hg
  obtain ⟨-, -, -, -, -, -, -, -, b1, ⟨q', b2, b3⟩, b4, b5, b6, b7, b8, b9, b10, b11, b12⟩ := compute_inv hg'
  have hT3 : g.Tt3 = tt3 o.params f := by rw [a8, a6, a1]; rfl
  have hT3' : g'.Tt3 = tt3 o'.params f := by rw [b8, b6, b1]; rfl
  rw [hT3] at a10 a11
  rw [hT3', hn.gh, hn.rh, hn.gc, hn.rc, hn.xicc, hn.Pci] at b10
  rw [hT3', hn.gh, hn.rh, hn.gc, hn.rc] at b11
  rw [a6, a1, a10] at a11
  rw [b6, b1, b10, hn.gc] at b11
  rw [← a10, ← b10] at k1 k5
  have hT45 : g.Tt45 ≤ g'.Tt45 := by rw [a11, b11]; linarith [hn.Tt4]
  have hT4 := F.Tt4
  have hT4' := F'.Tt4
  have hu1 : g.Tt45 / o.params.Tt4 ≤ g'.Tt45 / o'.params.Tt4 := by
    have := div_le_div₀ (le_trans k3 k2) k2 hT4 hn.Tt4
    rw [a11, b11, sub_div _ _ o.params.Tt4, sub_div _ _ o'.params.Tt4, div_self hT4.ne', div_self hT4'.ne']
    linarith
  have hu2 : g'.Tt45 / o'.params.Tt4 ≤ 1 := by
    rw [div_le_one hT4', b11]; linarith
  have hu0 : 0 < g.Tt45 / o.params.Tt4 := div_pos p2 hT4
  have hqq : q' = q := by
    rw [hn.gc] at b2
    exact Except.ok.inj (b2.symm.trans a2)
  have hq0 : 0 < q := by
    rw [Isentropic.PtPs_Mach_ok F.gc] at a2
    rw [← Except.ok.inj a2]; positivity
  have hP4 : g.Pt4 ≤ g'.Pt4 := by
    have hP0 := F.P0
    have hOp := F.OPR
    have hxc := F.xicc
    rw [a9, a7, a5, a3, b9, b7, b5, b3, hqq, hn.OPR, hn.xicc]
    apply mul_le_mul_of_nonneg_right _ hxc.le
    apply mul_le_mul_of_nonneg_right _ hOp.le
    exact mul_le_mul_of_nonneg_left hn.inlet (by positivity)
  have hw : (g.Tt45 / o.params.Tt4) ^ (o.params.gam_hot / ((o.params.gam_hot - 1) * o.params.etapolTHP)) ≤
      (g'.Tt45 / o'.params.Tt4) ^ (o.params.gam_hot / ((o.params.gam_hot - 1) * o'.params.etapolTHP)) := by
    have hgm : 0 < o.params.gam_hot - 1 := by linarith [F.gh]
    have hg0 : 0 < o.params.gam_hot := by linarith
    have he1 := F.etaT
    have he2 := F'.etaT
    calc _ ≤ (g'.Tt45 / o'.params.Tt4) ^ (o.params.gam_hot / ((o.params.gam_hot - 1) * o.params.etapolTHP)) :=
          Real.rpow_le_rpow hu0.le hu1 (by positivity)
      _ ≤ _ := by
          apply Real.rpow_le_rpow_of_exponent_ge (lt_of_lt_of_le hu0 hu1) hu2
          apply div_le_div_of_nonneg_left hg0.le (by positivity)
          exact mul_le_mul_of_nonneg_left hn.etaT hgm.le
  have hP45 : g.Pt45 ≤ g'.Pt45 := by
    rw [a12, b12, hn.gh]
    have hp4 : 0 < g'.Pt4 := by
      have hP0 := F.P0
      have hOp := F.OPR
      have hxc := F.xicc
      have hxi := F'.xi
      rw [b9, b7, b5, b3, hqq, hn.OPR, hn.xicc]; positivity
    exact mul_le_mul hP4 hw (Real.rpow_nonneg hu0.le _) hp4.le
  have hP9 : j.Pt9 ≤ j'.Pt9 := by
    rw [p4, p4']
    exact max_le_max (mul_le_mul hP45 hx hx0 p3'.le) le_rfl
  have hP90 : f.P0 ≤ j.Pt9 := by rw [p4]; exact le_max_right _ _
  obtain ⟨v1, v2⟩ := jetVelocity_mono F.gh F.rh F.P0 hP90 hP9 p2 hT45
  rw [hn.gh, hn.rh] at p5'
  rw [← p5, ← p5'] at v1 v2
  have hV0 : g'.V0 = g.V0 := by rw [a4, b4, hn.gc, hn.rc]
  have hVn : 0 ≤ j.V9 := by rw [p5]; exact Real.sqrt_nonneg _
  have h10 : (1.0 : ℝ) = 1 := by norm_num
  have hth : (1.0 + g.far) * j.V9 - g.V0 ≤ (1.0 + g'.far) * j'.V9 - g'.V0 := by
    rw [hV0, h10]
    have := mul_le_mul (by linarith : 1 + g.far ≤ 1 + g'.far) v1 hVn p1'.le
    linarith
  refine ⟨_, g, j, _, _, g', j', _, hu, rfl, rfl, hu', rfl, rfl, k1, hT45, hP45, v1, hth, fun hlt => ?_⟩
  have hf := k5 hlt
  have hTT : g.Tt45 < g'.Tt45 := by rw [a11, b11]; linarith
  refine ⟨hf, hTT, fun hpr => ?_⟩
  have hlt9 : f.P0 < j.Pt9 := by rw [p4]; exact lt_of_lt_of_le hpr (le_max_left _ _)
  have hv := v2 hlt9 hTT
  rw [hV0, h10]
  have := mul_lt_mul'' (by linarith : 1 + g.far < 1 + g'.far) hv p1.le hVn
  linarith

/-- the hypotheses are met: a real engine and the lossless one of the same pressure ratio, hotter -/
example : ∃ (o o' : Turbojet.Obj) (f : Flight), Feasible o.params f ∧ 1 ≤ o.params.OPR ∧ NotWorse o.params o'.params ∧
    0 ≤ o.xi_nozzle ∧ o.xi_nozzle < o'.xi_nozzle ∧ o.params.Tt4 < o'.params.Tt4 ∧
    cp o.params.gam_hot o.params.r_hot * o'.params.Tt4 < o.params.xi_cc * o.params.Pci := by
  refine ⟨Turbojet.new { ggArgs with xi_nozzle := 0.9 }, Turbojet.new { ggArgs with xi_nozzle := 0.95, Tt4 := 2100 }, ggFlight,
    gg_feasible, ?_, ?_, ?_, ?_, ?_, ?_⟩
  · show (1:ℝ) ≤ 128; norm_num
  · refine ⟨rfl, rfl, rfl, rfl, rfl, rfl, rfl, le_rfl, le_rfl, le_rfl, le_rfl, ?_⟩
    show (2000:ℝ) ≤ 2100; norm_num
  · show (0:ℝ) ≤ 0.9; norm_num
  · show (0.9:ℝ) < 0.95; norm_num
  · show (2000:ℝ) < 2100; norm_num
  · show cp 1.4 287.1 * 2100 < 1.0 * 42.8e6
    unfold cp; norm_num

end Aerokit.Props
