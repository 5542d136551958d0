import Verif.Props.Turbojet

/-! # Properties C102–C104 : performances of `turbojet_opt` and `turbofan_adapt` -/

namespace Aerokit.Props

open Spec.Engine GasGenerator

/-! ### C102: what the performance methods return -/

/-- C102 (turbojet): per unit mass flow of air, a single jet of mass flow `1 + far`.  Thrust, specific thrust, kinetic power, heat and the
three efficiencies and specific consumption are those of the momentum and energy balances. -/
theorem C102_turbojet (o : Turbojet.Obj) (f : Flight) (F : Feasible o.params f) :
    ∃ o' g j, Turbojet.update (Turbojet.flight_conditions o f) = .ok o' ∧ o'.res = some (g, j) ∧
      g.V0 = f.M0 * Real.sqrt (o.params.gam_cold * o.params.r_cold * f.T0) ∧
      Turbojet.norm_thrust o' = .ok (thrust 1 g.V0 [(1 + g.far, j.V9)]) ∧
      Turbojet.spec_thrust o' = .ok (thrust 1 g.V0 [(1 + g.far, j.V9)] / 1) ∧
      Turbojet.Wsp_kinEn o' = .ok (kineticPower 1 g.V0 [(1 + g.far, j.V9)]) ∧
      Turbojet.Wsp_cc o' = .ok (g.far * o.params.Pci) ∧
      (∀ e, Turbojet.thermal_efficiency o' = .ok e ↔
        g.far * o.params.Pci ≠ 0 ∧ e = kineticPower 1 g.V0 [(1 + g.far, j.V9)] / (g.far * o.params.Pci)) ∧
      (∀ e, Turbojet.propulsive_efficiency o' = .ok e ↔ kineticPower 1 g.V0 [(1 + g.far, j.V9)] ≠ 0 ∧
        e = thrust 1 g.V0 [(1 + g.far, j.V9)] * g.V0 / kineticPower 1 g.V0 [(1 + g.far, j.V9)]) ∧
      (∀ e, Turbojet.thermoprop_efficiency o' = .ok e ↔ g.far * o.params.Pci ≠ 0 ∧
        e = thrust 1 g.V0 [(1 + g.far, j.V9)] * g.V0 / (g.far * o.params.Pci)) ∧
      (∀ e, Turbojet.Sfc o' = .ok e ↔ thrust 1 g.V0 [(1 + g.far, j.V9)] ≠ 0 ∧
        e = g.far / thrust 1 g.V0 [(1 + g.far, j.V9)]) := by
  obtain ⟨g, j, hu, hg, -⟩ := tj_update_ok o f F
  have hV := (compute_inv hg).2.2.2.2.2.2.2.2.2.2.1
  have h10 : (1.0 : ℝ) = 1 := by norm_num
  have h05 : (0.5 : ℝ) = 1 / 2 := by norm_num
  have hdiv : ∀ a b e : ℝ, Py.div a b = .ok e ↔ b ≠ 0 ∧ e = a / b := by
    intro a b e
    constructor
    · intro h; obtain ⟨h1, h2⟩ := Py.div_inv h; exact ⟨h1, h2⟩
    · rintro ⟨h1, rfl⟩; exact Py.div_ok h1
  have et : thrust 1 g.V0 [(1 + g.far, j.V9)] = (1 + g.far) * j.V9 - g.V0 := by simp [thrust]
  have ek : kineticPower 1 g.V0 [(1 + g.far, j.V9)] = 1 / 2 * ((1 + g.far) * j.V9 ^ 2 - g.V0 ^ 2) := by
    simp [kineticPower]; ring
  refine ⟨_, g, j, hu, rfl, hV, ?_⟩
  rw [et, ek]
  refine ⟨?_, ?_, ?_, rfl, ?_, ?_, ?_, ?_⟩
  · unfold Turbojet.norm_thrust Turbojet.Obj.theRes; simp only [Py.ok_bind, Py.pure_eq, h10]
  · unfold Turbojet.spec_thrust Turbojet.norm_thrust Turbojet.Obj.theRes; simp only [Py.ok_bind, Py.pure_eq, h10, div_one]
  · unfold Turbojet.Wsp_kinEn Turbojet.Obj.theRes; simp only [Py.ok_bind, Py.pure_eq, h10, h05]
  · intro e
    unfold Turbojet.thermal_efficiency Turbojet.Wsp_kinEn Turbojet.Wsp_cc Turbojet.Obj.theRes
    simp only [Py.ok_bind, Py.pure_eq, h10, h05, hdiv]
  · intro e
    unfold Turbojet.propulsive_efficiency Turbojet.norm_thrust Turbojet.V0 Turbojet.Wsp_kinEn Turbojet.Obj.theRes
    simp only [Py.ok_bind, Py.pure_eq, h10, h05, hdiv]
  · intro e
    unfold Turbojet.thermoprop_efficiency Turbojet.norm_thrust Turbojet.V0 Turbojet.Wsp_cc Turbojet.Obj.theRes
    simp only [Py.ok_bind, Py.pure_eq, h10, hdiv]
  · intro e
    unfold Turbojet.Sfc Turbojet.norm_thrust Turbojet.Obj.theRes
    simp only [Py.ok_bind, Py.pure_eq, h10, hdiv]

/-- C102 (turbofan): per unit mass flow of air in the core, a core jet of mass flow `1 + far` and a bypass jet of mass flow `bpr`, for a captured
air flow `1 + bpr`, to which the specific thrust refers. -/
theorem C102_turbofan (o : Turbofan.Obj) (f : Flight) (F : FanFeasible o f) :
    ∃ o' g n, Turbofan.update (Turbofan.flight_conditions o f) = .ok o' ∧ o'.res = some (g, n) ∧
      g.V0 = f.M0 * Real.sqrt (o.params.gam_cold * o.params.r_cold * f.T0) ∧
      Turbofan.norm_thrust o' = .ok (thrust (1 + o.bpr) g.V0 [(1 + g.far, n.V9), (o.bpr, n.V19)]) ∧
      Turbofan.spec_thrust o' = .ok (thrust (1 + o.bpr) g.V0 [(1 + g.far, n.V9), (o.bpr, n.V19)] / (1 + o.bpr)) ∧
      Turbofan.Wsp_kinEn o' = .ok (kineticPower (1 + o.bpr) g.V0 [(1 + g.far, n.V9), (o.bpr, n.V19)]) ∧
      Turbofan.Wsp_cc o' = .ok (g.far * o.params.Pci) ∧
      (∀ e, Turbofan.thermal_efficiency o' = .ok e ↔ g.far * o.params.Pci ≠ 0 ∧
        e = kineticPower (1 + o.bpr) g.V0 [(1 + g.far, n.V9), (o.bpr, n.V19)] / (g.far * o.params.Pci)) ∧
      (∀ e, Turbofan.propulsive_efficiency o' = .ok e ↔
        kineticPower (1 + o.bpr) g.V0 [(1 + g.far, n.V9), (o.bpr, n.V19)] ≠ 0 ∧
        e = thrust (1 + o.bpr) g.V0 [(1 + g.far, n.V9), (o.bpr, n.V19)] * g.V0 /
          kineticPower (1 + o.bpr) g.V0 [(1 + g.far, n.V9), (o.bpr, n.V19)]) ∧
      (∀ e, Turbofan.thermoprop_efficiency o' = .ok e ↔ g.far * o.params.Pci ≠ 0 ∧
        e = thrust (1 + o.bpr) g.V0 [(1 + g.far, n.V9), (o.bpr, n.V19)] * g.V0 / (g.far * o.params.Pci)) ∧
      (∀ e, Turbofan.Sfc o' = .ok e ↔ thrust (1 + o.bpr) g.V0 [(1 + g.far, n.V9), (o.bpr, n.V19)] ≠ 0 ∧
        e = g.far / thrust (1 + o.bpr) g.V0 [(1 + g.far, n.V9), (o.bpr, n.V19)]) := by
  obtain ⟨g, n, hu, hg, -⟩ := tf_update_ok o f F
  have hV := (compute_inv hg).2.2.2.2.2.2.2.2.2.2.1
  have hb := F.bpr
  have h10 : (1.0 : ℝ) = 1 := by norm_num
  have h05 : (0.5 : ℝ) = 1 / 2 := by norm_num
  have hdiv : ∀ a b e : ℝ, Py.div a b = .ok e ↔ b ≠ 0 ∧ e = a / b := by
    intro a b e
    constructor
    · intro h; obtain ⟨h1, h2⟩ := Py.div_inv h; exact ⟨h1, h2⟩
    · rintro ⟨h1, rfl⟩; exact Py.div_ok h1
  have et : thrust (1 + o.bpr) g.V0 [(1 + g.far, n.V9), (o.bpr, n.V19)] =
      (1 + g.far) * n.V9 - g.V0 + o.bpr * (n.V19 - g.V0) := by simp [thrust]; ring
  have ek : kineticPower (1 + o.bpr) g.V0 [(1 + g.far, n.V9), (o.bpr, n.V19)] =
      1 / 2 * ((1 + g.far) * n.V9 ^ 2 - g.V0 ^ 2 + o.bpr * (n.V19 ^ 2 - g.V0 ^ 2)) := by
    simp [kineticPower]; ring
  refine ⟨_, g, n, hu, rfl, hV, ?_⟩
  rw [et, ek]
  refine ⟨?_, ?_, ?_, rfl, ?_, ?_, ?_, ?_⟩
  · unfold Turbofan.norm_thrust Turbofan.Obj.theRes; simp only [Py.ok_bind, Py.pure_eq, h10]
  · unfold Turbofan.spec_thrust Turbofan.norm_thrust Turbofan.Obj.theRes
    simp only [Py.ok_bind, Py.pure_eq, h10]
    exact Py.div_ok (by linarith)
  · unfold Turbofan.Wsp_kinEn Turbofan.Obj.theRes; simp only [Py.ok_bind, Py.pure_eq, h10, h05]
  · intro e
    unfold Turbofan.thermal_efficiency Turbofan.Wsp_kinEn Turbofan.Wsp_cc Turbofan.Obj.theRes
    simp only [Py.ok_bind, Py.pure_eq, h10, h05, hdiv]
  · intro e
    unfold Turbofan.propulsive_efficiency Turbofan.norm_thrust Turbofan.V0 Turbofan.Wsp_kinEn Turbofan.Obj.theRes
    simp only [Py.ok_bind, Py.pure_eq, h10, h05, hdiv]
  · intro e
    unfold Turbofan.thermoprop_efficiency Turbofan.norm_thrust Turbofan.V0 Turbofan.Wsp_cc Turbofan.Obj.theRes
    simp only [Py.ok_bind, Py.pure_eq, h10, hdiv]
  · intro e
    unfold Turbofan.Sfc Turbofan.norm_thrust Turbofan.Obj.theRes
    simp only [Py.ok_bind, Py.pure_eq, h10, hdiv]

/-! ### C103: first law for the whole engine -/

/-- kinetic energy of a jet expanded to `P` -/
theorem jet_energy {γ r Pt Tt P : ℝ} (hγ : 1 < γ) (hr : 0 < r) (hT : 0 < Tt) (hP : 0 < P) (h : P ≤ Pt) :
    jetVelocity γ r Pt Tt P ^ 2 / 2 = cp γ r * (Tt - jetTemperature γ Pt Tt P) := by
  have hc : 0 < cp γ r := cp_pos hγ hr
  have h1 : (P / Pt) ^ ((γ - 1) / γ) ≤ 1 := by
    apply Real.rpow_le_one (by apply div_nonneg <;> linarith) (by rw [div_le_one (by linarith)]; exact h)
    apply div_nonneg <;> linarith
  unfold jetVelocity jetTemperature
  rw [Real.sq_sqrt]
  · ring
  · exact mul_nonneg (by positivity) (by linarith)

/-- kinetic energy of the captured air -/
theorem inlet_energy {γ r M T : ℝ} (hγ : 1 < γ) (hr : 0 < r) (hT : 0 < T) :
    (M * Real.sqrt (γ * r * T)) ^ 2 / 2 = cp γ r * (T * Isentropic.tt M γ - T) := by
  have h0 : 0 < γ := by linarith
  rw [mul_pow, Real.sq_sqrt (by positivity)]
  unfold cp Isentropic.tt
  have : γ - 1 ≠ 0 := by linarith
  field_simp
  ring

/-- energy balance of the core up to the turbine exit -/
theorem core_energy {s : Params} {f : Flight} {g : Gen} (F : Feasible s f) (hg : compute s f = .ok g) :
    (1 + g.far) * (cp s.gam_hot s.r_hot * g.Tt45) = cp s.gam_cold s.r_cold * g.Tt2 + s.xi_cc * (g.far * s.Pci)
      - (1 / s.eta_shaft - 1) * (cp s.gam_cold s.r_cold * (g.Tt3 - g.Tt2)) := by
  obtain ⟨-, -, -, hA, hB, -, -, -, -, -, -, -, -, -, -, -, e1, e2, -⟩ := compute_inv hg
  have hf : g.far * (s.xi_cc * s.Pci - cp s.gam_hot s.r_hot * s.Tt4) =
      cp s.gam_hot s.r_hot * s.Tt4 - cp s.gam_cold s.r_cold * g.Tt3 := by
    rw [e1]; field_simp
  have hsh : s.eta_shaft ≠ 0 := F.shaft.ne'
  have hc : cp s.gam_hot s.r_hot ≠ 0 := (cp_pos F.gh F.rh).ne'
  have h1f : 1 + g.far ≠ 0 := by
    intro h; rw [h, mul_zero] at hB; exact hB rfl
  have e3 : (1 + g.far) * (cp s.gam_hot s.r_hot * g.Tt45) =
      (1 + g.far) * (cp s.gam_hot s.r_hot * s.Tt4) - cp s.gam_cold s.r_cold * (g.Tt3 - g.Tt2) / s.eta_shaft := by
    rw [e2]; field_simp
  rw [e3]
  field_simp
  linear_combination -s.eta_shaft * hf

/-- C103 (turbojet): the heat actually released, `xi_cc · far · Pci`, is shared between the kinetic power given to the flow, the enthalpy
carried away by the jet above that of the ambient air, and the shaft loss. -/
theorem C103_turbojet (o : Turbojet.Obj) (f : Flight) (F : Feasible o.params f) :
    ∃ o' g j k, Turbojet.update (Turbojet.flight_conditions o f) = .ok o' ∧ o'.res = some (g, j) ∧
      Turbojet.Wsp_kinEn o' = .ok k ∧
      o.params.xi_cc * (g.far * o.params.Pci) = k +
        ((1 + g.far) * (cp o.params.gam_hot o.params.r_hot * jetTemperature o.params.gam_hot j.Pt9 g.Tt45 f.P0)
          - cp o.params.gam_cold o.params.r_cold * f.T0) +
        (1 / o.params.eta_shaft - 1) * (cp o.params.gam_cold o.params.r_cold * (g.Tt3 - g.Tt2)) := by
  obtain ⟨g, j, hu, hg, h1, h2, h3, h4, -, h6⟩ := tj_update_ok o f F
  have hI := compute_inv hg
  have hV := hI.2.2.2.2.2.2.2.2.2.2.1
  have hT0 := hI.2.2.2.2.2.2.2.2.1
  have hT2 := hI.2.2.2.2.2.2.2.2.2.2.2.2.1
  have h10 : (1.0 : ℝ) = 1 := by norm_num
  have h05 : (0.5 : ℝ) = 1 / 2 := by norm_num
  refine ⟨_, g, j, _, hu, rfl, rfl, ?_⟩
  have eJ := jet_energy F.gh F.rh h2 F.P0 (Pt := j.Pt9) (by rw [h4]; exact le_max_right _ _)
  rw [← h6] at eJ
  have eI := inlet_energy (M := f.M0) F.gc F.rc F.T0
  rw [← hV, ← hT0, ← hT2] at eI
  have eC := core_energy F hg
  rw [h10, h05]
  linear_combination (-1 : ℝ) * eC - (1 + g.far) * eJ + eI

/-- C103 (turbofan): the same balance with two jets; the low pressure shaft loses `(1 - eta_shaft)` of the turbine work. -/
theorem C103_turbofan (o : Turbofan.Obj) (f : Flight) (F : FanFeasible o f) :
    ∃ o' g n k, Turbofan.update (Turbofan.flight_conditions o f) = .ok o' ∧ o'.res = some (g, n) ∧
      Turbofan.Wsp_kinEn o' = .ok k ∧
      o.params.xi_cc * (g.far * o.params.Pci) = k +
        ((1 + g.far) * (cp o.params.gam_hot o.params.r_hot * jetTemperature o.params.gam_hot n.Pt9 n.Tt5 f.P0)
          + o.bpr * (cp o.params.gam_cold o.params.r_cold * jetTemperature o.params.gam_cold n.Pt19 n.Tt17 f.P0)
          - (1 + o.bpr) * (cp o.params.gam_cold o.params.r_cold * f.T0)) +
        (1 / o.params.eta_shaft - 1) * (cp o.params.gam_cold o.params.r_cold * (g.Tt3 - g.Tt2)) +
        (1 - o.params.eta_shaft) * ((1 + g.far) * (cp o.params.gam_hot o.params.r_hot * (g.Tt45 - n.Tt5))) := by
  obtain ⟨o', g, n, hu, hr, hW, -, -, hP9, hP19, q9, q19, v9, v19⟩ := C71_turbofan o f F
  obtain ⟨g', n', hu', hg, hn, h1, h3, h5, h2, h4, p1, p2⟩ := tf_update_ok o f F
  rw [hu] at hu'
  have ho := Except.ok.inj hu'
  subst ho
  have hgn : (g', n') = (g, n) := by injection hr
  injection hgn with hg' hn'
  subst hg'; subst hn'
  obtain ⟨n2, hn2, c0, c1, c2, -⟩ := fan_ok o f g' F.core.gh F.core.gc F.core.rh F.core.rc F.core.P0 h3 h5 h2 h1 F.nozzle
    F.core.shaft F.etaT F.etaF F.bpr F.ratio0 F.ratio1 p1 p2
  rw [hn] at hn2
  have hn3 := Except.ok.inj hn2
  subst hn3
  have hT17 : 0 < n'.Tt17 := by
    have hb := F.bpr
    have hc := cp_pos F.core.gc F.core.rc
    have hch := cp_pos F.core.gh F.core.rh
    have hs := F.core.shaft
    have : 0 ≤ o.bpr * (cp o.params.gam_cold o.params.r_cold * (n'.Tt17 - g'.Tt2)) := by
      rw [hW]
      exact mul_nonneg hs.le (mul_nonneg h1.le (mul_nonneg hch.le (by linarith)))
    have := nonneg_of_mul_nonneg_right this hb
    have := nonneg_of_mul_nonneg_right this hc
    linarith
  have hI := compute_inv hg
  have hV := hI.2.2.2.2.2.2.2.2.2.2.1
  have hT0 := hI.2.2.2.2.2.2.2.2.1
  have hT2 := hI.2.2.2.2.2.2.2.2.2.2.2.2.1
  have h10 : (1.0 : ℝ) = 1 := by norm_num
  have h05 : (0.5 : ℝ) = 1 / 2 := by norm_num
  refine ⟨_, g', n', _, hu, rfl, rfl, ?_⟩
  have e9 := jet_energy F.core.gh F.core.rh c1 F.core.P0 q9
  have e19 := jet_energy F.core.gc F.core.rc hT17 F.core.P0 q19
  rw [← v9] at e9
  rw [← v19] at e19
  have eI := inlet_energy (M := f.M0) F.core.gc F.core.rc F.core.T0
  rw [← hV, ← hT0, ← hT2] at eI
  have eC := core_energy F.core hg
  rw [h10, h05]
  linear_combination (-1 : ℝ) * eC - (1 + g'.far) * e9 - o.bpr * e19 + (1 + o.bpr) * eI - hW

/-! ### C104: ideal cycle -/

/-- C104: the ideal turbojet (one gas, no loss, unit efficiencies, choked or not, exhaust above ambient pressure) has exactly the efficiency of the
Brayton cycle, `1 - T0/Tt3`: it depends on the overall compression only, not on the turbine entry temperature nor on the fuel. -/
theorem C104_brayton (o : Turbojet.Obj) (f : Flight) (F : Feasible o.params f)
    (hγ : o.params.gam_hot = o.params.gam_cold) (hr : o.params.r_hot = o.params.r_cold)
    (h1 : o.params.xi_inlet = 1) (h2 : o.params.xi_cc = 1) (h3 : o.params.etapolCHP = 1) (h4 : o.params.etapolTHP = 1)
    (h5 : o.params.eta_shaft = 1) (h6 : o.xi_nozzle = 1) :
    ∃ o' g j, Turbojet.update (Turbojet.flight_conditions o f) = .ok o' ∧ o'.res = some (g, j) ∧ 0 < g.Tt3 ∧
      (f.P0 ≤ g.Pt45 → g.far * o.params.Pci ≠ 0 → Turbojet.thermal_efficiency o' = .ok (1 - f.T0 / g.Tt3)) := by
  obtain ⟨o', g, j, k, hu, hrr, hk, hE⟩ := C103_turbojet o f F
  obtain ⟨g', j', hu', hg, p1, p2, p3, p4, -, -⟩ := tj_update_ok o f F
  rw [hu] at hu'
  have ho := Except.ok.inj hu'
  subst ho
  have hgn : (g', j') = (g, j) := by injection hrr
  injection hgn with hg' hn'
  subst hg'; subst hn'
  have hI := compute_inv hg
  obtain ⟨-, -, -, -, -, -, -, -, eT0, ⟨pr, epr, eP0⟩, -, eP2, eT2, eP3, eT3, eP4, efar, eT45, eP45⟩ := hI
  have gc := F.gc
  have T0 := F.T0
  have P0 := F.P0
  have hO := F.OPR
  have ht := Isentropic.tt_pos (M := f.M0) F.gc
  rw [Isentropic.PtPs_Mach_ok gc] at epr
  have epr := Except.ok.inj epr
  rw [h3, mul_one] at eT3
  rw [h4, mul_one, hγ] at eP45
  have hT2 : 0 < g'.Tt2 := by rw [eT2, eT0]; positivity
  have hT3 : 0 < g'.Tt3 := by
    rw [eT3]; exact mul_pos hT2 (Real.rpow_pos_of_pos hO _)
  refine ⟨_, g', j', hu, rfl, hT3, fun hP45 hheat => ?_⟩
  set γ := o.params.gam_cold with hγd
  have hTt4 := F.Tt4
  -- the exit temperature of the jet is Tt4 T0 / Tt3
  have hg0 : 0 < γ := by linarith
  have hg1 : 0 < γ - 1 := by linarith
  have hP9 : j'.Pt9 = g'.Pt45 := by rw [p4, h6, mul_one, max_eq_left hP45]
  have hP4 : g'.Pt4 = f.P0 * (g'.Tt3 / f.T0) ^ (γ / (γ - 1)) := by
    have e : g'.Tt3 / f.T0 = Isentropic.tt f.M0 γ * o.params.OPR ^ ((γ - 1) / γ) := by
      rw [eT3, eT2, eT0]; field_simp
    have e2 : (o.params.OPR ^ ((γ - 1) / γ)) ^ (γ / (γ - 1)) = o.params.OPR := by
      rw [← Real.rpow_mul hO.le]
      rw [show (γ - 1) / γ * (γ / (γ - 1)) = 1 by field_simp, Real.rpow_one]
    rw [e, Real.mul_rpow ht.le (Real.rpow_nonneg hO.le _), e2, eP4, eP3, eP2, eP0, h1, h2, ← epr]
    ring
  have hTj : jetTemperature o.params.gam_hot j'.Pt9 g'.Tt45 f.P0 = o.params.Tt4 * (f.T0 / g'.Tt3) := by
    unfold jetTemperature
    rw [hγ, hP9]
    have e : f.P0 / g'.Pt45 = (g'.Tt3 / f.T0 * (g'.Tt45 / o.params.Tt4)) ^ (-(γ / (γ - 1))) := by
      rw [Real.rpow_neg (by positivity), Real.mul_rpow (by positivity) (by positivity), eP45, hP4]
      have := Real.rpow_pos_of_pos (show 0 < g'.Tt3 / f.T0 by positivity) (γ / (γ - 1))
      have := Real.rpow_pos_of_pos (show 0 < g'.Tt45 / o.params.Tt4 by positivity) (γ / (γ - 1))
      field_simp
    rw [e, ← Real.rpow_mul (by positivity), show -(γ / (γ - 1)) * ((γ - 1) / γ) = -1 by field_simp,
      Real.rpow_neg_one]
    field_simp
  have hkin : k = g'.far * o.params.Pci * (1 - f.T0 / g'.Tt3) := by
    rw [hTj, h2, h5, hγ, hr] at hE
    have hf : (1 + g'.far) * (cp γ o.params.r_cold * o.params.Tt4) = cp γ o.params.r_cold * g'.Tt3 + g'.far * o.params.Pci := by
      have hA : o.params.Pci - cp γ o.params.r_cold * o.params.Tt4 ≠ 0 := by
        have := F.fuel
        rw [h2, hγ, hr, one_mul] at this
        exact (sub_pos.2 this).ne'
      rw [h2, hγ, hr, one_mul] at efar
      rw [eq_div_iff hA] at efar
      linear_combination -efar
    have hx : (1 + g'.far) * (cp γ o.params.r_cold * (o.params.Tt4 * (f.T0 / g'.Tt3))) =
        cp γ o.params.r_cold * f.T0 + g'.far * o.params.Pci * (f.T0 / g'.Tt3) := by
      have : (1 + g'.far) * (cp γ o.params.r_cold * (o.params.Tt4 * (f.T0 / g'.Tt3))) =
        ((1 + g'.far) * (cp γ o.params.r_cold * o.params.Tt4)) * (f.T0 / g'.Tt3) := by ring
      rw [this, hf]
      field_simp
    rw [hx] at hE
    linear_combination -hE
  unfold Turbojet.thermal_efficiency
  rw [hk, Py.ok_bind]
  show Py.div k (g'.far * o.params.Pci) = _
  rw [Py.div_ok hheat, hkin]
  congr 1
  exact mul_div_cancel_left₀ _ hheat

/-- the hypotheses hold for the ideal engine `OPR = 128`, `Tt4 = 2000`, flying at Mach 1 (where `Tt2 = 240`, `Tt3 = 960`): its efficiency is
`1 - 200/960` -/
example : ∃ o', Turbojet.update (Turbojet.flight_conditions ⟨ggArgs.params, 1, none, none⟩ ggFlight) = .ok o' ∧
    Turbojet.thermal_efficiency o' = .ok (1 - 200 / 960) := by
  have hid : ggArgs.params.gam_hot = ggArgs.params.gam_cold ∧ ggArgs.params.r_hot = ggArgs.params.r_cold ∧
      ggArgs.params.xi_inlet = 1 ∧ ggArgs.params.xi_cc = 1 ∧ ggArgs.params.etapolCHP = 1 ∧ ggArgs.params.etapolTHP = 1 ∧
      ggArgs.params.eta_shaft = 1 := by
    simp only [ggArgs, GasGenerator.Args.params]
    norm_num
  obtain ⟨h1, h2, h3, h4, h5, h6, h7⟩ := hid
  obtain ⟨o', g, j, hu, hr, hT, he⟩ := C104_brayton ⟨ggArgs.params, 1, none, none⟩ ggFlight gg_feasible h1 h2 h3 h4 h5 h6 h7 rfl
  obtain ⟨g', j', hu', hg, -⟩ := tj_update_ok ⟨ggArgs.params, 1, none, none⟩ ggFlight gg_feasible
  rw [hu] at hu'
  have ho := Except.ok.inj hu'
  subst ho
  have hgn : (g', j') = (g, j) := by injection hr
  injection hgn with hg' hn'
  subst hg'; subst hn'
  obtain ⟨p1, p2⟩ := gg_pressures hg
  obtain ⟨_, _, _, _, _, _, _, _, e1, _, e4, e5, e6, e7, e8, e9, e10, -⟩ := compute_inv hg
  have t2 : g'.Tt2 = 240 := by
    have e1' : g'.Tt0 = (200:ℝ) * Isentropic.tt 1 1.4 := e1
    rw [e6, e1']; unfold Isentropic.tt; norm_num
  have t3 : g'.Tt3 = 960 := by
    replace e8 : g'.Tt3 = g'.Tt2 * (128:ℝ) ^ (((1.4 : ℝ) - 1) / (1.4 * 1.0)) := e8
    rw [show (1.4 : ℝ) * 1.0 = 1.4 * 1 by norm_num, ggRise, t2] at e8
    rw [e8]; norm_num
  have hf0 : 0 < g'.far := by
    replace e10 : g'.far = (cp 1.4 287.1 * 2000 - cp 1.4 287.1 * g'.Tt3) / (1.0 * 42.8e6 - cp 1.4 287.1 * 2000) := e10
    rw [e10, t3]; unfold cp; norm_num
  refine ⟨_, hu, ?_⟩
  have hP : (0:ℝ) < ggArgs.params.Pci := by show (0:ℝ) < 42.8e6; norm_num
  have := he p1 (mul_pos hf0 hP).ne'
  rw [t3] at this
  exact this

/-- a feasible turbofan for C102 and C103 -/
example : FanFeasible (Turbofan.new tfArgs) ggFlight ∧ Feasible (Turbojet.new { toArgs := ggArgs, xi_nozzle := 0.9 }).params ggFlight :=
  ⟨tf_feasible, gg_feasible⟩

end Aerokit.Props
