import Verif.Props.GasGenerator

/-! Properties C71 and C87–C89 (turbojet and turbofan). -/

namespace Aerokit.Props

open Spec.Engine GasGenerator

/-! ### Turbojet -/

/-- Closed form of a successful turbojet update. -/
theorem tj_update_ok (o : Turbojet.Obj) (f : Flight) (F : Feasible o.params f) :
    ∃ g j, Turbojet.update (Turbojet.flight_conditions o f) = .ok { o with flight := some f, res := some (g, j) } ∧
      compute o.params f = .ok g ∧ 0 < 1 + g.far ∧ 0 < g.Tt45 ∧ 0 < g.Pt45 ∧
      j.Pt9 = max (g.Pt45 * o.xi_nozzle) f.P0 ∧
      Isentropic.PtPs_Mach j.M9 o.params.gam_hot = .ok (j.Pt9 / f.P0) ∧
      j.V9 = jetVelocity o.params.gam_hot o.params.r_hot j.Pt9 g.Tt45 f.P0 := by
  obtain ⟨g, hg, h1, h2, h3, h4, h5⟩ := compute_ok F
  obtain ⟨M, hM, hM0, hM1, hV⟩ := Engine.nozzle_ok F.gh F.rh h3 F.P0 (le_max_right (g.Pt45 * o.xi_nozzle) f.P0)
  refine ⟨g, ⟨_, M, jetVelocity o.params.gam_hot o.params.r_hot (max (g.Pt45 * o.xi_nozzle) f.P0) g.Tt45 f.P0⟩,
    ?_, hg, h1, h3, h5, rfl, hM1, rfl⟩
  show (compute o.params f >>= _) = _
  rw [hg, Py.ok_bind]
  show ((Turbojet.nozzle o.params o.xi_nozzle f g) >>= _) = _
  unfold Turbojet.nozzle
  simp only []
  rw [Py.div_ok F.P0.ne', Py.ok_bind, hM, Py.ok_bind, hV, Py.ok_bind]
  rfl

/-- **C71 (turbojet nozzle).** For every feasible engine, `update` succeeds after
`flight_conditions`; the nozzle has the loss coefficient given to the constructor (the total
pressure being at least the ambient one) and is adapted: the exhaust velocity is that of the
isentropic expansion to the ambient pressure, and the exit Mach number belongs to the pressure
ratio. -/
theorem C71_turbojet_nozzle (a : Turbojet.Args) (f : Flight) (F : Feasible a.params f) :
    ∃ o' g j, Turbojet.update (Turbojet.flight_conditions (Turbojet.new a) f) = .ok o' ∧
      o'.res = some (g, j) ∧
      j.Pt9 = max (a.xi_nozzle * g.Pt45) f.P0 ∧
      Isentropic.PtPs_Mach j.M9 a.gam_hot = .ok (j.Pt9 / f.P0) ∧
      j.V9 = jetVelocity a.gam_hot a.r_hot j.Pt9 g.Tt45 f.P0 := by
  obtain ⟨g, j, h, -, -, -, -, h1, h2, h3⟩ := tj_update_ok (Turbojet.new a) f F
  refine ⟨_, g, j, h, rfl, ?_, h2, h3⟩
  rw [h1, mul_comm]; rfl

example : ∃ (a : Turbojet.Args) (f : Flight), Feasible a.params f ∧ a.xi_nozzle = 0.9 :=
  ⟨{ ggArgs with xi_nozzle := 0.9 }, ggFlight, gg_feasible, rfl⟩

/-- **C71 (efficiencies, turbojet).** Whenever the thermal and propulsive efficiencies are defined,
their product is `thermoprop_efficiency`. -/
theorem C71_turbojet_efficiencies (o : Turbojet.Obj) (t p : ℝ)
    (ht : Turbojet.thermal_efficiency o = .ok t) (hp : Turbojet.propulsive_efficiency o = .ok p) :
    Turbojet.thermoprop_efficiency o = .ok (t * p) := by
  unfold Turbojet.thermal_efficiency at ht
  unfold Turbojet.propulsive_efficiency at hp
  unfold Turbojet.thermoprop_efficiency
  obtain ⟨k, ek, ht⟩ := Py.bind_inv ht
  obtain ⟨c, ec, ht⟩ := Py.bind_inv ht
  obtain ⟨h, eh, hp⟩ := Py.bind_inv hp
  obtain ⟨v, ev, hp⟩ := Py.bind_inv hp
  obtain ⟨k', ek', hp⟩ := Py.bind_inv hp
  rw [ek] at ek'; injection ek' with ek'; subst ek'
  obtain ⟨n1, rfl⟩ := Py.div_inv ht
  obtain ⟨n2, rfl⟩ := Py.div_inv hp
  rw [eh, Py.ok_bind, ev, Py.ok_bind, ec, Py.ok_bind, Py.div_ok n1]
  congr 1
  field_simp

/-- **C71 (consumption, turbojet).** `Sfc · Pci · thermoprop_efficiency` is the flight velocity:
the specific consumption and the overall efficiency tell the same. -/
theorem C71_turbojet_sfc (o : Turbojet.Obj) (s e : ℝ)
    (hs : Turbojet.Sfc o = .ok s) (he : Turbojet.thermoprop_efficiency o = .ok e) :
    ∃ v, Turbojet.V0 o = .ok v ∧ s * (o.params.Pci * e) = v := by
  unfold Turbojet.Sfc at hs
  unfold Turbojet.thermoprop_efficiency at he
  obtain ⟨⟨g, j⟩, er, hs⟩ := Py.bind_inv hs
  simp only [] at hs
  obtain ⟨t, et, hs⟩ := Py.bind_inv hs
  obtain ⟨t', et', he⟩ := Py.bind_inv he
  obtain ⟨v, ev, he⟩ := Py.bind_inv he
  obtain ⟨c, ec, he⟩ := Py.bind_inv he
  rw [et] at et'; injection et' with et'; subst et'
  obtain ⟨n1, rfl⟩ := Py.div_inv hs
  obtain ⟨n2, rfl⟩ := Py.div_inv he
  refine ⟨v, ev, ?_⟩
  unfold Turbojet.Wsp_cc at ec
  rw [er, Py.ok_bind] at ec
  injection ec with ec
  subst ec
  have a1 : g.far ≠ 0 := left_ne_zero_of_mul n2
  have a2 : o.params.Pci ≠ 0 := right_ne_zero_of_mul n2
  field_simp

/-- An updated turbojet at Mach 1 with nonzero kinetic energy and heat: the witness of the
hypotheses of the efficiency theorems. -/
theorem tj_witness (c : ℝ) (hc1 : 1 ≤ c) (hc2 : c ≤ 2) : ∃ o t p s e, Turbojet.thermal_efficiency o = .ok t ∧
    Turbojet.propulsive_efficiency o = .ok p ∧ Turbojet.Sfc o = .ok s ∧
    Turbojet.thermoprop_efficiency o = .ok e ∧
    ∃ g j, o.res = some (g, j) ∧ compute ggArgs.params ggFlight = .ok g ∧ j.V9 = c * g.V0 ∧ g.far ≠ 0 ∧
      o.params = ggArgs.params ∧ 0 < g.V0 ∧ 0 < g.far ∧
      ∃ x, Turbojet.update (Turbojet.flight_conditions (Turbojet.new { ggArgs with xi_nozzle := x }) ggFlight) = .ok o := by
  obtain ⟨g, hg, hfar, -, hT, -, hP⟩ := compute_ok gg_feasible
  have I := compute_inv hg
  have ht : g.Tt3 = 960 := by
    have e1 : g.Tt0 = (200:ℝ) * Isentropic.tt 1 1.4 := I.2.2.2.2.2.2.2.2.1
    have e2 : g.Tt2 = g.Tt0 := I.2.2.2.2.2.2.2.2.2.2.2.2.1
    have e3 : g.Tt3 = g.Tt2 * (128:ℝ) ^ (((1.4 : ℝ) - 1) / (1.4 * 1.0)) := I.2.2.2.2.2.2.2.2.2.2.2.2.2.2.1
    rw [show (1.4 : ℝ) * 1.0 = 1.4 * 1 by norm_num, ggRise, e2, e1] at e3
    rw [e3]; unfold Isentropic.tt; norm_num
  have h2 : g.Tt2 = 240 := by
    have e1 : g.Tt0 = (200:ℝ) * Isentropic.tt 1 1.4 := I.2.2.2.2.2.2.2.2.1
    have e2 : g.Tt2 = g.Tt0 := I.2.2.2.2.2.2.2.2.2.2.2.2.1
    rw [e2, e1]; unfold Isentropic.tt; norm_num
  have hf : g.far = (cp 1.4 287.1 * 2000 - cp 1.4 287.1 * g.Tt3) /
      (1.0 * 42.8e6 - cp 1.4 287.1 * 2000) := I.2.2.2.2.2.2.2.2.2.2.2.2.2.2.2.2.1
  have hf0 : 0 < g.far := by rw [hf, ht]; unfold cp; norm_num
  have hT45 : g.Tt45 = 2000 - cp 1.4 287.1 * (g.Tt3 - g.Tt2) /
      (1.0 * cp 1.4 287.1 * (1 + g.far)) := I.2.2.2.2.2.2.2.2.2.2.2.2.2.2.2.2.2.1
  have hT45' : 1280 < g.Tt45 := by
    have c : (0:ℝ) < cp 1.4 287.1 := by unfold cp; norm_num
    have : cp 1.4 287.1 * (g.Tt3 - g.Tt2) / (1.0 * cp 1.4 287.1 * (1 + g.far)) = 720 / (1 + g.far) := by
      rw [ht, h2]; field_simp; norm_num
    rw [hT45, this]
    have : 720 / (1 + g.far) < 720 := by rw [div_lt_iff₀ (by linarith)]; linarith
    linarith
  have hV : g.V0 = 1 * Real.sqrt (1.4 * 287.1 * 200) := I.2.2.2.2.2.2.2.2.2.2.1
  have hV0 : 0 < g.V0 := by rw [hV]; positivity
  have hV2 : g.V0 ^ 2 = 1.4 * 287.1 * 200 := by rw [hV, one_mul, Real.sq_sqrt (by positivity)]
  -- choose the nozzle loss so that the exhaust velocity is `c` times the flight velocity
  set k := 1 - (c * g.V0) ^ 2 / (2 * cp 1.4 287.1 * g.Tt45) with hk
  have hc : cp 1.4 287.1 = 1004.85 := by unfold cp; norm_num
  have hk0 : 0 < k := by
    rw [hk, sub_pos, div_lt_one (by rw [hc]; positivity), mul_pow, hV2, hc]
    have h4 : c ^ 2 ≤ 2 ^ 2 := pow_le_pow_left₀ (by linarith only [hc1]) hc2 2
    linarith only [h4, hT45']
  have hk1 : k ≤ 1 := by
    rw [hk]
    have : 0 ≤ (c * g.V0) ^ 2 / (2 * cp 1.4 287.1 * g.Tt45) := by rw [hc]; positivity
    linarith
  set x := k ^ (-(3.5:ℝ)) / g.Pt45 with hx
  have hge : 1 ≤ k ^ (-(3.5:ℝ)) := Real.one_le_rpow_of_pos_of_le_one_of_nonpos hk0 hk1 (by norm_num)
  obtain ⟨g', j, hu, hg', -, -, -, hPt9, -, hV9⟩ :=
    tj_update_ok (Turbojet.new { ggArgs with xi_nozzle := x }) ggFlight gg_feasible
  have : g' = g := by
    have e : compute ggArgs.params ggFlight = .ok g' := hg'
    rw [hg] at e; injection e with e; exact e.symm
  subst this
  have hPt9' : j.Pt9 = k ^ (-(3.5:ℝ)) := by
    rw [hPt9]
    show max (g'.Pt45 * x) 1 = _
    rw [hx, mul_div_cancel₀ _ hP.ne', max_eq_left hge]
  have hV9' : j.V9 = c * g'.V0 := by
    rw [hV9, hPt9']
    show jetVelocity 1.4 287.1 _ g'.Tt45 1 = _
    unfold jetVelocity
    rw [Real.rpow_neg hk0.le, one_div, inv_inv, ← Real.rpow_mul hk0.le]
    norm_num
    rw [hk]
    have hne : 2 * cp 1.4 287.1 * g'.Tt45 ≠ 0 := by rw [hc]; positivity
    have : 2 * cp (7/5) (2871/10) * g'.Tt45 * ((c * g'.V0) ^ 2 / (2 * cp 1.4 287.1 * g'.Tt45)) = (c * g'.V0) ^ 2 := by
      rw [show (cp (7/5) (2871/10)) = cp 1.4 287.1 by norm_num]
      field_simp
    rw [show (1 - (1 - (c * g'.V0) ^ 2 / (2 * cp 1.4 287.1 * g'.Tt45))) = (c * g'.V0) ^ 2 / (2 * cp 1.4 287.1 * g'.Tt45) by ring,
      this, Real.sqrt_sq (by positivity)]
  have h10 : (1.0 : ℝ) = 1 := by norm_num
  have hres : ∀ o : Turbojet.Obj, o.res = some (g', j) → o.theRes = .ok (g', j) := by
    intro o ho; unfold Turbojet.Obj.theRes; rw [ho]
  have hkin : (0.5:ℝ) * ((1.0 + g'.far) * j.V9 ^ 2 - g'.V0 ^ 2) ≠ 0 := by
    rw [hV9', h10]
    have h1 : 0 < g'.far * g'.V0 ^ 2 * c ^ 2 := by positivity
    have h2 : 0 ≤ g'.V0 ^ 2 * (c ^ 2 - 1) := mul_nonneg (by positivity) (by
      have := one_le_pow₀ hc1 (n := 2); linarith only [this])
    have e : (0.5:ℝ) * ((1 + g'.far) * (c * g'.V0) ^ 2 - g'.V0 ^ 2) =
      0.5 * (g'.far * g'.V0 ^ 2 * c ^ 2 + g'.V0 ^ 2 * (c ^ 2 - 1)) := by ring
    rw [e]; positivity
  have hthr : (1.0 + g'.far) * j.V9 - g'.V0 ≠ 0 := by
    rw [hV9', h10]
    have h1 : 0 < g'.far * g'.V0 * c := by positivity
    have h2 : 0 ≤ g'.V0 * (c - 1) := mul_nonneg (by positivity) (by linarith only [hc1])
    have e : (1 + g'.far) * (c * g'.V0) - g'.V0 = g'.far * g'.V0 * c + g'.V0 * (c - 1) := by ring
    rw [e]; positivity
  have hcc : g'.far * (42.8e6 : ℝ) ≠ 0 := by positivity
  set o : Turbojet.Obj := { Turbojet.new { ggArgs with xi_nozzle := x } with flight := some ggFlight, res := some (g', j) } with ho
  refine ⟨o, _, _, _, _, Py.div_ok hcc, Py.div_ok hkin, Py.div_ok hthr, Py.div_ok hcc, g', j, rfl, hg, hV9', hf0.ne', rfl, hV0,
    hf0, x, hu⟩

example : ∃ o t p, Turbojet.thermal_efficiency o = .ok t ∧ Turbojet.propulsive_efficiency o = .ok p := by
  obtain ⟨o, t, p, _, _, h1, h2, -⟩ := tj_witness 2 (by norm_num) le_rfl
  exact ⟨o, t, p, h1, h2⟩

example : ∃ o s e, Turbojet.Sfc o = .ok s ∧ Turbojet.thermoprop_efficiency o = .ok e := by
  obtain ⟨o, _, _, s, e, -, -, h1, h2, -⟩ := tj_witness 2 (by norm_num) le_rfl
  exact ⟨o, s, e, h1, h2⟩

/-! ### C88: the propulsive efficiency is at most one -/

/-- **C88, partial.** The propulsive efficiency of a turbojet that accelerates the gas enough
(`(1+far) (V9 - V0)² ≥ far V0²`) lies below 1.  Missing: the general case, which is false
(`C88_false`), because the thrust includes the momentum of the fuel and the kinetic energy does not
include its initial one. -/
theorem C88_partial (o : Turbojet.Obj) (g : Gen) (j : Turbojet.Jet) (hr : o.res = some (g, j)) (p : ℝ)
    (hp : Turbojet.propulsive_efficiency o = .ok p)
    (hkin : 0 < (1 + g.far) * j.V9 ^ 2 - g.V0 ^ 2)
    (hacc : g.far * g.V0 ^ 2 ≤ (1 + g.far) * (j.V9 - g.V0) ^ 2) : p ≤ 1 := by
  have h10 : (1.0 : ℝ) = 1 := by norm_num
  have hres : o.theRes = .ok (g, j) := by unfold Turbojet.Obj.theRes; rw [hr]
  unfold Turbojet.propulsive_efficiency Turbojet.norm_thrust Turbojet.V0 Turbojet.Wsp_kinEn at hp
  rw [hres] at hp
  simp only [Py.ok_bind, Py.pure_eq, h10] at hp
  obtain ⟨-, rfl⟩ := Py.div_inv hp
  rw [div_le_one (by norm_num; linarith)]
  norm_num
  nlinarith

/-- the witness engine of `C88_partial`: exhaust at twice the flight velocity -/
example : ∃ (o : Turbojet.Obj) (g : Gen) (j : Turbojet.Jet) (p : ℝ), o.res = some (g, j) ∧
    Turbojet.propulsive_efficiency o = .ok p ∧ 0 < (1 + g.far) * j.V9 ^ 2 - g.V0 ^ 2 ∧
    g.far * g.V0 ^ 2 ≤ (1 + g.far) * (j.V9 - g.V0) ^ 2 := by
  obtain ⟨o, t, p, _, _, -, h2, -, -, g, j, hr, -, hv, -, -, hV, hf, -⟩ := tj_witness 2 (by norm_num) le_rfl
  refine ⟨o, g, j, p, hr, h2, ?_, ?_⟩
  · rw [hv]
    have : 0 < g.far * g.V0 ^ 2 := by positivity
    nlinarith
  · rw [hv]
    nlinarith [sq_nonneg g.V0]

/-- **C88 is false of the code**: there is an engine (overall pressure ratio 128, 2000 K, Mach 1,
nozzle losses such that the exhaust velocity equals the flight velocity) whose propulsive
efficiency is 2. -/
theorem C88_false : ∃ (a : Turbojet.Args) (f : Flight) (o : Turbojet.Obj),
    Turbojet.update (Turbojet.flight_conditions (Turbojet.new a) f) = .ok o ∧
      Turbojet.propulsive_efficiency o = .ok 2 := by
  obtain ⟨o, _, _, _, _, -, -, -, -, g, j, hr, hg, hv, hf, hpar, hV, hf0, x, hu⟩ := tj_witness 1 le_rfl (by norm_num)
  rw [one_mul] at hv
  refine ⟨_, _, o, hu, ?_⟩
  have h10 : (1.0 : ℝ) = 1 := by norm_num
  have hres : o.theRes = .ok (g, j) := by unfold Turbojet.Obj.theRes; rw [hr]
  unfold Turbojet.propulsive_efficiency Turbojet.norm_thrust Turbojet.V0 Turbojet.Wsp_kinEn
  rw [hres]
  simp only [Py.ok_bind, Py.pure_eq, h10]
  rw [hv, Py.div_ok]
  · congr 1
    have : (0.5:ℝ) * ((1 + g.far) * g.V0 ^ 2 - g.V0 ^ 2) = g.far * g.V0 ^ 2 / 2 := by norm_num; ring
    rw [this]; field_simp; ring
  · have : (0.5:ℝ) * ((1 + g.far) * g.V0 ^ 2 - g.V0 ^ 2) = g.far * g.V0 ^ 2 / 2 := by norm_num; ring
    rw [this]; positivity

/-! ### Turbofan -/

theorem fan_ok (o : Turbofan.Obj) (f : Flight) (g : Gen) (gh : 1 < o.params.gam_hot)
    (gc : 1 < o.params.gam_cold) (rh : 0 < o.params.r_hot) (rc : 0 < o.params.r_cold)
    (hP0 : 0 < f.P0) (hT : 0 < g.Tt45) (hP : 0 < g.Pt45) (hT2 : 0 < g.Tt2)
    (hfar : 0 < 1 + g.far) (hxi : 0 < o.xi_nozzle)
    (hsh : 0 < o.params.eta_shaft) (htb : 0 < o.etapolTBP) (hfa : 0 < o.etapolfan) (hb : 0 < o.bpr)
    (hr0 : 0 ≤ o.fanpower_ratio) (hr1 : o.fanpower_ratio ≤ 1)
    (hcore : f.P0 ≤ g.Pt45 * o.xi_nozzle) (hby : f.P0 ≤ g.Pt2 * o.xi_nozzle) :
    ∃ n, Turbofan.fan o f g = .ok n ∧
      n.Tt5 = g.Tt45 * (1 - (1 - (g.Pt45 / f.P0 * o.xi_nozzle) ^
        (-(o.params.gam_hot - 1) * o.etapolTBP / o.params.gam_hot)) * o.fanpower_ratio) ∧
      0 < n.Tt5 ∧ n.Tt5 ≤ g.Tt45 ∧
      n.Pt5 = g.Pt45 * (n.Tt5 / g.Tt45) ^ (o.params.gam_hot / ((o.params.gam_hot - 1) * o.etapolTBP)) ∧
      0 < n.Pt5 ∧ n.Pt9 = n.Pt5 * o.xi_nozzle ∧ f.P0 ≤ n.Pt9 ∧ n.Pt9 ≤ g.Pt45 * o.xi_nozzle ∧
      Isentropic.PtPs_Mach n.M9 o.params.gam_hot = .ok (n.Pt9 / f.P0) ∧
      n.V9 = jetVelocity o.params.gam_hot o.params.r_hot n.Pt9 n.Tt5 f.P0 ∧
      o.bpr * (cp o.params.gam_cold o.params.r_cold * (n.Tt17 - g.Tt2)) =
        o.params.eta_shaft * ((1 + g.far) * (cp o.params.gam_hot o.params.r_hot * (g.Tt45 - n.Tt5))) ∧
      g.Tt2 ≤ n.Tt17 ∧
      n.Pt17 = g.Pt2 * (n.Tt17 / g.Tt2) ^ (o.params.gam_cold * o.etapolfan / (o.params.gam_cold - 1)) ∧
      n.Tt19 = n.Tt17 ∧ n.Pt19 = n.Pt17 * o.xi_nozzle ∧ f.P0 ≤ n.Pt19 ∧
      Isentropic.PtPs_Mach n.M19 o.params.gam_cold = .ok (n.Pt19 / f.P0) ∧
      n.V19 = jetVelocity o.params.gam_cold o.params.r_cold n.Pt19 n.Tt19 f.P0 := by
  have h10 : (1.0 : ℝ) = 1 := by norm_num
  set γ := o.params.gam_hot with hγ
  set q := g.Pt45 / f.P0 * o.xi_nozzle with hq
  have hq1 : 1 ≤ q := by
    rw [hq, div_mul_eq_mul_div, le_div_iff₀ hP0]; linarith
  have hq0 : 0 < q := by linarith
  set τ := q ^ (-(γ - 1) * o.etapolTBP / γ) with hτ
  have hτ0 : 0 < τ := Real.rpow_pos_of_pos hq0 _
  have hτ1 : τ ≤ 1 := Real.rpow_le_one_of_one_le_of_nonpos hq1 (by
    apply div_nonpos_of_nonpos_of_nonneg
    · nlinarith
    · linarith)
  set fr := o.fanpower_ratio with hfr
  set u := 1 - (1 - τ) * fr with hu
  have hu_ge : τ ≤ u := by rw [hu]; nlinarith
  have hu_le : u ≤ 1 := by rw [hu]; nlinarith
  have hu0 : 0 < u := by linarith
  set ch := cp γ o.params.r_hot with hch
  have hch0 : 0 < ch := cp_pos gh rh
  set cc := cp o.params.gam_cold o.params.r_cold with hcc
  have hcc0 : 0 < cc := cp_pos gc rc
  have hTt5 : g.Tt45 - (1 - τ) * g.Tt45 * ch * (1 + g.far) * fr / ch / (1 + g.far) = g.Tt45 * u := by
    rw [hu]; field_simp
  set E := γ / ((γ - 1) * o.etapolTBP) with hE
  have hE0 : 0 < E := by rw [hE]; apply div_pos (by linarith) (mul_pos (by linarith) htb)
  have hτE : τ ^ E = q⁻¹ := by
    rw [hτ, ← Real.rpow_mul hq0.le, ← Real.rpow_neg_one]
    congr 1
    rw [hE]
    have : γ ≠ 0 := by linarith
    have : γ - 1 ≠ 0 := by linarith
    field_simp
  have hPt9lo : f.P0 ≤ g.Pt45 * u ^ E * o.xi_nozzle := by
    have h1 : q⁻¹ ≤ u ^ E := by rw [← hτE]; exact Real.rpow_le_rpow hτ0.le hu_ge hE0.le
    have h2 : g.Pt45 * o.xi_nozzle = q * f.P0 := by rw [hq]; field_simp
    calc f.P0 = q⁻¹ * (q * f.P0) := by field_simp
      _ ≤ u ^ E * (q * f.P0) := mul_le_mul_of_nonneg_right h1 (by positivity)
      _ = g.Pt45 * u ^ E * o.xi_nozzle := by rw [← h2]; ring
  have hPt9hi : g.Pt45 * u ^ E * o.xi_nozzle ≤ g.Pt45 * o.xi_nozzle := by
    have : u ^ E ≤ 1 := Real.rpow_le_one hu0.le hu_le hE0.le
    have h := mul_le_mul_of_nonneg_left this (show 0 ≤ g.Pt45 * o.xi_nozzle by positivity)
    linarith
  obtain ⟨M9, hM9, hM90, hM91, hV9⟩ := Engine.nozzle_ok gh rh (mul_pos hT hu0) hP0 hPt9lo
  set d2 := o.params.eta_shaft * ((1 - τ) * g.Tt45 * ch * (1 + g.far)) * fr / (o.bpr * cc) with hd2
  have hd20 : 0 ≤ d2 := by
    rw [hd2]
    have : 0 ≤ 1 - τ := by linarith
    positivity
  set v := (g.Tt2 + d2) / g.Tt2 with hv
  have hv1 : 1 ≤ v := by rw [hv, le_div_iff₀ hT2]; linarith
  set E2 := o.params.gam_cold * o.etapolfan / (o.params.gam_cold - 1) with hE2
  have hE20 : 0 < E2 := by rw [hE2]; apply div_pos (mul_pos (by linarith) hfa) (by linarith)
  have hP2 : 0 < g.Pt2 := by
    have : 0 < g.Pt2 * o.xi_nozzle := by linarith
    exact pos_of_mul_pos_left this hxi.le
  have hPt19 : f.P0 ≤ g.Pt2 * v ^ E2 * o.xi_nozzle := by
    have : 1 ≤ v ^ E2 := Real.one_le_rpow hv1 hE20.le
    have h := mul_le_mul_of_nonneg_left this (show 0 ≤ g.Pt2 * o.xi_nozzle by positivity)
    linarith
  obtain ⟨M19, hM19, hM190, hM191, hV19⟩ := Engine.nozzle_ok gc rc (show 0 < g.Tt2 + d2 by linarith) hP0 hPt19
  refine ⟨⟨g.Tt45 * u, g.Pt45 * u ^ E, g.Pt45 * u ^ E * o.xi_nozzle, M9,
    jetVelocity γ o.params.r_hot (g.Pt45 * u ^ E * o.xi_nozzle) (g.Tt45 * u) f.P0, g.Tt2 + d2, g.Pt2 * v ^ E2,
    g.Tt2 + d2, g.Pt2 * v ^ E2 * o.xi_nozzle, M19,
    jetVelocity o.params.gam_cold o.params.r_cold (g.Pt2 * v ^ E2 * o.xi_nozzle) (g.Tt2 + d2) f.P0⟩, ?_, rfl, mul_pos hT hu0, ?_, ?_, ?_, rfl, hPt9lo, hPt9hi,
    hM91, rfl, ?_, ?_, rfl, rfl, rfl, hPt19, hM191, rfl⟩
  · unfold Turbofan.fan
    simp only [h10]
    rw [Py.div_ok (by linarith), Py.ok_bind, Py.div_ok hP0.ne', Py.ok_bind, Py.div_ok (by linarith),
      Py.ok_bind, Py.pow_ok _ hq0, Py.ok_bind]
    change (Py.div ((1 - τ) * g.Tt45 * ch * (1 + g.far) * fr) ch >>= _) = _
    rw [Py.div_ok hch0.ne', Py.ok_bind, Py.div_ok hfar.ne', Py.ok_bind, hTt5, Py.div_ok hT.ne', Py.ok_bind,
      Py.div_ok (mul_pos (by linarith) htb).ne', Py.ok_bind, mul_div_cancel_left₀ _ hT.ne',
      Py.pow_ok _ hu0, Py.ok_bind]
    change (Py.div (g.Pt45 * u ^ E * o.xi_nozzle) f.P0 >>= _) = _
    rw [Py.div_ok hP0.ne', Py.ok_bind, hM9, Py.ok_bind, hV9, Py.ok_bind, Py.div_ok (by linarith), Py.ok_bind]
    change (Py.div (o.params.eta_shaft * ((1 - τ) * g.Tt45 * ch * (1 + g.far)) * fr) (o.bpr * cc) >>= _) = _
    rw [Py.div_ok (mul_pos hb hcc0).ne', Py.ok_bind, Py.div_ok hT2.ne', Py.ok_bind, Py.div_ok (by linarith),
      Py.ok_bind]
    change (Py.pow v E2 >>= _) = _
    rw [Py.pow_ok _ (by linarith), Py.ok_bind, Py.div_ok hP0.ne', Py.ok_bind, hM19, Py.ok_bind]
    change (Isentropic.Velocity_MachTi M19 (g.Tt2 + d2) o.params.r_cold o.params.gam_cold >>= _) = _
    rw [hV19, Py.ok_bind]
    rfl
  · show g.Tt45 * u ≤ g.Tt45
    nlinarith
  · show g.Pt45 * u ^ E = g.Pt45 * (g.Tt45 * u / g.Tt45) ^ E
    rw [mul_div_cancel_left₀ _ hT.ne']
  · exact mul_pos hP (Real.rpow_pos_of_pos hu0 _)
  · show o.bpr * (cc * (g.Tt2 + d2 - g.Tt2)) = o.params.eta_shaft * ((1 + g.far) * (ch * (g.Tt45 - g.Tt45 * u)))
    rw [hd2, hu]
    field_simp
    ring
  · show g.Tt2 ≤ g.Tt2 + d2
    linarith

/-- The conditions under which a turbofan computes: a feasible gas generator, positive
efficiencies, a fan that takes at most all the power available, and total pressures in front of
both nozzles above the ambient pressure. -/
structure FanFeasible (o : Turbofan.Obj) (f : Flight) : Prop where
  core : Feasible o.params f
  nozzle : 0 < o.xi_nozzle
  etaT : 0 < o.etapolTBP
  etaF : 0 < o.etapolfan
  bpr : 0 < o.bpr
  ratio0 : 0 ≤ o.fanpower_ratio
  ratio1 : o.fanpower_ratio ≤ 1
  press : ∀ g, compute o.params f = .ok g →
    f.P0 ≤ g.Pt45 * o.xi_nozzle ∧ f.P0 ≤ g.Pt2 * o.xi_nozzle

theorem tf_update_ok (o : Turbofan.Obj) (f : Flight) (F : FanFeasible o f) :
    ∃ g n, Turbofan.update (Turbofan.flight_conditions o f) = .ok { o with flight := some f, res := some (g, n) } ∧
      compute o.params f = .ok g ∧ Turbofan.fan o f g = .ok n ∧
      0 < 1 + g.far ∧ 0 < g.Tt45 ∧ 0 < g.Pt45 ∧ 0 < g.Tt2 ∧ 0 < g.Pt2 ∧
      f.P0 ≤ g.Pt45 * o.xi_nozzle ∧ f.P0 ≤ g.Pt2 * o.xi_nozzle := by
  obtain ⟨g, hg, h1, h2, h3, h4, h5⟩ := compute_ok F.core
  obtain ⟨p1, p2⟩ := F.press g hg
  obtain ⟨n, hn, -⟩ := fan_ok o f g F.core.gh F.core.gc F.core.rh F.core.rc F.core.P0 h3 h5 h2 h1 F.nozzle
    F.core.shaft F.etaT F.etaF F.bpr F.ratio0 F.ratio1 p1 p2
  refine ⟨g, n, ?_, hg, hn, h1, h3, h5, h2, h4, p1, p2⟩
  obtain ⟨M, hM, hM0, hM1, hV⟩ := Engine.nozzle_ok F.core.gh F.core.rh h3 F.core.P0 (le_max_right (g.Pt45 * o.xi_nozzle) f.P0)
  show (compute o.params f >>= _) = _
  rw [hg, Py.ok_bind]
  show ((Turbojet.nozzle o.params o.xi_nozzle f g) >>= _) = _
  unfold Turbojet.nozzle
  simp only []
  rw [Py.div_ok F.core.P0.ne', Py.ok_bind, hM, Py.ok_bind, hV, Py.ok_bind]
  show (Turbofan.fan (Turbofan.flight_conditions o f) f g >>= _) = _
  have : Turbofan.fan (Turbofan.flight_conditions o f) f g = Turbofan.fan o f g := rfl
  rw [this, hn]
  rfl

/-- **C71 (turbofan).** For every feasible turbofan, `update` succeeds; the power given to the
bypass flow is the shaft efficiency times the power of the low pressure turbine; this turbine and
the fan have the polytropic efficiencies `etapolTBP` and `etapolfan`; both nozzles have the loss
coefficient stored in the object and are adapted. -/
theorem C71_turbofan (o : Turbofan.Obj) (f : Flight) (F : FanFeasible o f) :
    ∃ o' g n, Turbofan.update (Turbofan.flight_conditions o f) = .ok o' ∧ o'.res = some (g, n) ∧
      o.bpr * (cp o.params.gam_cold o.params.r_cold * (n.Tt17 - g.Tt2)) =
        o.params.eta_shaft * ((1 + g.far) * (cp o.params.gam_hot o.params.r_hot * (g.Tt45 - n.Tt5))) ∧
      PolytropicExpansion o.params.gam_hot o.etapolTBP g.Pt45 g.Tt45 n.Pt5 n.Tt5 ∧
      PolytropicCompression o.params.gam_cold o.etapolfan g.Pt2 g.Tt2 n.Pt17 n.Tt17 ∧
      n.Pt9 = o.xi_nozzle * n.Pt5 ∧ n.Pt19 = o.xi_nozzle * n.Pt17 ∧ f.P0 ≤ n.Pt9 ∧ f.P0 ≤ n.Pt19 ∧
      n.V9 = jetVelocity o.params.gam_hot o.params.r_hot n.Pt9 n.Tt5 f.P0 ∧
      n.V19 = jetVelocity o.params.gam_cold o.params.r_cold n.Pt19 n.Tt17 f.P0 := by
  obtain ⟨g, n, hu, hg, hn, h1, h3, h5, h2, h4, p1, p2⟩ := tf_update_ok o f F
  obtain ⟨n', hn', -, c1, c2, c3, c4, c5, c6, c7, c8, c9, c10, c11, c12, c13, c14, c15, c16, c17⟩ :=
    fan_ok o f g F.core.gh F.core.gc F.core.rh F.core.rc F.core.P0 h3 h5 h2 h1 F.nozzle
    F.core.shaft F.etaT F.etaF F.bpr F.ratio0 F.ratio1 p1 p2
  rw [hn] at hn'; injection hn' with hn'; subst hn'
  have gh := F.core.gh
  have gc := F.core.gc
  have et := F.etaT
  have ef := F.etaF
  refine ⟨_, g, n, hu, rfl, c10, ?_, ?_, by rw [c5]; ring, by rw [c14]; ring, c6, c15, c9, by rw [c17, c13]⟩
  · unfold PolytropicExpansion
    rw [c3, mul_div_cancel_left₀ _ h5.ne', Real.log_rpow (div_pos c1 h3)]
    have : o.params.gam_hot ≠ 0 := by linarith
    have : o.params.gam_hot - 1 ≠ 0 := by linarith
    field_simp
  · unfold PolytropicCompression
    rw [c12, mul_div_cancel_left₀ _ h4.ne', Real.log_rpow (by apply div_pos _ h2; linarith)]
    have : o.params.gam_cold ≠ 0 := by linarith
    have : o.params.gam_cold - 1 ≠ 0 := by linarith
    field_simp

/-- Efficiencies of the turbofan: same statement as for the turbojet. -/
theorem C71_turbofan_efficiencies (o : Turbofan.Obj) (t p : ℝ)
    (ht : Turbofan.thermal_efficiency o = .ok t) (hp : Turbofan.propulsive_efficiency o = .ok p) :
    Turbofan.thermoprop_efficiency o = .ok (t * p) := by
  unfold Turbofan.thermal_efficiency at ht
  unfold Turbofan.propulsive_efficiency at hp
  unfold Turbofan.thermoprop_efficiency
  obtain ⟨k, ek, ht⟩ := Py.bind_inv ht
  obtain ⟨c, ec, ht⟩ := Py.bind_inv ht
  obtain ⟨h, eh, hp⟩ := Py.bind_inv hp
  obtain ⟨v, ev, hp⟩ := Py.bind_inv hp
  obtain ⟨k', ek', hp⟩ := Py.bind_inv hp
  rw [ek] at ek'; injection ek' with ek'; subst ek'
  obtain ⟨n1, rfl⟩ := Py.div_inv ht
  obtain ⟨n2, rfl⟩ := Py.div_inv hp
  rw [eh, Py.ok_bind, ev, Py.ok_bind, ec, Py.ok_bind, Py.div_ok n1]
  congr 1
  field_simp

/-- The arguments of a feasible turbofan: bypass ratio 5, half of the power to the fan. -/
noncomputable def tfArgs : Turbofan.Args :=
  { toArgs := ggArgs, bpr := 5, fanpower_ratio := 1 / 2, xi_nozzle := 0.9 }

theorem gg_pressures_strong {g : Gen} (hg : compute ggArgs.params ggFlight = .ok g) :
    2 ≤ g.Pt45 ∧ 1.2 ≤ g.Pt2 ∧ 1280 ≤ g.Tt45 := by
  obtain ⟨_, _, _, _, _, _, _, _, e1, ⟨p, e2, e3⟩, e4, e5, e6, e7, e8, e9, e10, e11, e12⟩ := compute_inv hg
  have e2' : Isentropic.PtPs_Mach 1 (1.4:ℝ) = .ok p := e2
  rw [Isentropic.PtPs_Mach_ok (by norm_num)] at e2'
  injection e2' with e2'
  have hp : 1.2 ≤ p := by
    rw [← e2']
    have : Isentropic.tt 1 1.4 = 1.2 := by unfold Isentropic.tt; norm_num
    rw [this]
    calc (1.2:ℝ) = 1.2 ^ (1:ℝ) := by rw [Real.rpow_one]
      _ ≤ _ := Real.rpow_le_rpow_of_exponent_le (by norm_num) (by norm_num)
  replace e5 : g.Pt2 = g.Pt0 * 1.0 := e5
  replace e3 : g.Pt0 = 1 * p := e3
  have h2 : g.Pt2 = p := by rw [e5, e3]; norm_num
  replace e7 : g.Pt3 = g.Pt2 * 128 := e7
  replace e9 : g.Pt4 = g.Pt3 * 1.0 := e9
  have h4 : g.Pt4 = p * 128 := by rw [e9, e7, h2]; norm_num
  have e1' : g.Tt0 = (200:ℝ) * Isentropic.tt 1 1.4 := e1
  have t2 : g.Tt2 = 240 := by rw [e6, e1']; unfold Isentropic.tt; norm_num
  have t3 : g.Tt3 = 960 := by
    replace e8 : g.Tt3 = g.Tt2 * (128:ℝ) ^ (((1.4 : ℝ) - 1) / (1.4 * 1.0)) := e8
    rw [show (1.4 : ℝ) * 1.0 = 1.4 * 1 by norm_num, ggRise, t2] at e8
    rw [e8]; norm_num
  replace e10 : g.far = (cp 1.4 287.1 * 2000 - cp 1.4 287.1 * g.Tt3) / (1.0 * 42.8e6 - cp 1.4 287.1 * 2000) := e10
  have hf0 : 0 < g.far := by rw [e10, t3]; unfold cp; norm_num
  replace e11 : g.Tt45 = 2000 - cp 1.4 287.1 * (g.Tt3 - g.Tt2) / (1.0 * cp 1.4 287.1 * (1 + g.far)) := e11
  have hT : 1280 ≤ g.Tt45 := by
    have c : (0:ℝ) < cp 1.4 287.1 := by unfold cp; norm_num
    have : cp 1.4 287.1 * (g.Tt3 - g.Tt2) / (1.0 * cp 1.4 287.1 * (1 + g.far)) = 720 / (1 + g.far) := by
      rw [t3, t2]; field_simp; norm_num
    rw [e11, this]
    have : 720 / (1 + g.far) ≤ 720 := by rw [div_le_iff₀ (by linarith)]; linarith
    linarith
  replace e12 : g.Pt45 = g.Pt4 * (g.Tt45 / 2000) ^ ((1.4:ℝ) / ((1.4 - 1) * 1.0)) := e12
  refine ⟨?_, by rw [h2]; exact hp, hT⟩
  have hw : (0.2:ℝ) ≤ (g.Tt45 / 2000) ^ ((1.4:ℝ) / ((1.4 - 1) * 1.0)) := by
    calc (0.2:ℝ) ≤ (0.8:ℝ) ^ (7:ℝ) := by norm_num
      _ = ((0.64:ℝ)) ^ ((1.4:ℝ) / ((1.4 - 1) * 1.0)) := by
        rw [show (0.64:ℝ) = 0.8 ^ (2:ℝ) by norm_num, ← Real.rpow_mul (by norm_num)]; norm_num
      _ ≤ _ := by
        apply Real.rpow_le_rpow (by norm_num)
        · rw [le_div_iff₀ (by norm_num)]; linarith
        · norm_num
  rw [e12, h4]
  nlinarith

theorem gg_pressures {g : Gen} (hg : compute ggArgs.params ggFlight = .ok g) :
    1 ≤ g.Pt45 ∧ 1 ≤ g.Pt2 := by
  obtain ⟨h1, h2, -⟩ := gg_pressures_strong hg
  norm_num at h2
  constructor <;> linarith

theorem tf_feasible : FanFeasible (Turbofan.new tfArgs) ggFlight := by
  refine ⟨gg_feasible, ?_, ?_, ?_, ?_, ?_, ?_, ?_⟩
  · show (0:ℝ) < 1.0; norm_num
  · show (0:ℝ) < 1.0; norm_num
  · show (0:ℝ) < 1.0; norm_num
  · show (0:ℝ) < 5; norm_num
  · show (0:ℝ) ≤ 1 / 2; norm_num
  · show (1:ℝ) / 2 ≤ 1; norm_num
  · intro g hg
    obtain ⟨h1, h2⟩ := gg_pressures hg
    constructor
    · show (1:ℝ) ≤ g.Pt45 * 1.0; linarith
    · show (1:ℝ) ≤ g.Pt2 * 1.0; linarith

example : ∃ o f, FanFeasible o f := ⟨_, _, tf_feasible⟩

/-- **C71 (turbofan nozzles) is false of the code**: the constructor argument `xi_nozzle` is
dropped.  A feasible turbofan built with `xi_nozzle = 0.9` has no nozzle loss. -/
theorem C71_turbofan_xi_nozzle_false : ¬ ∀ (a : Turbofan.Args) (f : Flight) (o' : Turbofan.Obj),
    Turbofan.update (Turbofan.flight_conditions (Turbofan.new a) f) = .ok o' →
      ∃ g n, o'.res = some (g, n) ∧ n.Pt9 = a.xi_nozzle * n.Pt5 := by
  intro H
  obtain ⟨g, n, hu, hg, hn, h1, h3, h5, h2, h4, p1, p2⟩ := tf_update_ok _ _ tf_feasible
  have F := tf_feasible
  obtain ⟨n', hn', -, c1, c2, c3, c4, c5, -⟩ :=
    fan_ok _ _ g F.core.gh F.core.gc F.core.rh F.core.rc F.core.P0 h3 h5 h2 h1 F.nozzle
    F.core.shaft F.etaT F.etaF F.bpr F.ratio0 F.ratio1 p1 p2
  rw [hn] at hn'; injection hn' with hn'; subst hn'
  obtain ⟨g2, n2, hr, hx⟩ := H _ _ _ hu
  have : (g, n) = (g2, n2) := by
    have e : some (g, n) = some (g2, n2) := hr
    injection e
  injection this with e1 e2
  subst e1 e2
  have hx' : n.Pt9 = 0.9 * n.Pt5 := hx
  have c5' : n.Pt9 = n.Pt5 * 1.0 := c5
  rw [c5'] at hx'
  norm_num at hx'
  linarith

/-! ### C87: share of the power taken by the fan -/

/-- **C87 (all the power).** When the fan takes all the power available (`fanpower_ratio = 1`), the
core flow leaves at the ambient total pressure and without velocity. -/
theorem C87_all (o : Turbofan.Obj) (f : Flight) (F : FanFeasible o f) (h : o.fanpower_ratio = 1) :
    ∃ o' g n, Turbofan.update (Turbofan.flight_conditions o f) = .ok o' ∧ o'.res = some (g, n) ∧
      n.Pt9 = f.P0 ∧ n.V9 = 0 := by
  obtain ⟨g, n, hu, hg, hn, h1, h3, h5, h2, h4, p1, p2⟩ := tf_update_ok o f F
  obtain ⟨n', hn', c0, c1, c2, c3, c4, c5, c6, c7, c8, c9, -⟩ :=
    fan_ok o f g F.core.gh F.core.gc F.core.rh F.core.rc F.core.P0 h3 h5 h2 h1 F.nozzle
    F.core.shaft F.etaT F.etaF F.bpr F.ratio0 F.ratio1 p1 p2
  rw [hn] at hn'; injection hn' with hn'; subst hn'
  have gh := F.core.gh
  have et := F.etaT
  have hP0 := F.core.P0
  have hxi := F.nozzle
  have hq : 0 < g.Pt45 / f.P0 * o.xi_nozzle := by positivity
  have hP : n.Pt9 = f.P0 := by
    rw [c5, c3, c0, h, mul_div_cancel_left₀ _ h3.ne']
    rw [show ∀ x : ℝ, 1 - (1 - x) * 1 = x from fun x => by ring, ← Real.rpow_mul hq.le]
    have : -(o.params.gam_hot - 1) * o.etapolTBP / o.params.gam_hot *
        (o.params.gam_hot / ((o.params.gam_hot - 1) * o.etapolTBP)) = -1 := by
      have : o.params.gam_hot ≠ 0 := by linarith
      have : o.params.gam_hot - 1 ≠ 0 := by linarith
      field_simp
    rw [this, Real.rpow_neg_one]
    field_simp
  refine ⟨_, g, n, hu, rfl, hP, ?_⟩
  rw [c9, hP]
  unfold jetVelocity
  rw [div_self hP0.ne', Real.one_rpow, sub_self, mul_zero, Real.sqrt_zero]

/-- A feasible turbofan for every share `x ∈ [0, 1]` (in particular 0 and 1). -/
theorem tf_feasible_ratio (x : ℝ) (h0 : 0 ≤ x) (h1 : x ≤ 1) :
    FanFeasible (Turbofan.new { tfArgs with fanpower_ratio := x }) ggFlight :=
  ⟨gg_feasible, tf_feasible.nozzle, tf_feasible.etaT, tf_feasible.etaF, tf_feasible.bpr, h0, h1,
    tf_feasible.press⟩

example : ∃ o f, FanFeasible o f ∧ o.fanpower_ratio = 1 := ⟨_, _, tf_feasible_ratio 1 (by norm_num) le_rfl, rfl⟩
example : ∃ o f, FanFeasible o f ∧ o.fanpower_ratio = 0 := ⟨_, _, tf_feasible_ratio 0 le_rfl (by norm_num), rfl⟩

/-- **C87 (no power).** With `fanpower_ratio = 0` the fan leaves the bypass flow unchanged and the
core exhausts exactly like the turbojet of the same gas generator and nozzle. -/
theorem C87_none (o : Turbofan.Obj) (f : Flight) (F : FanFeasible o f) (h : o.fanpower_ratio = 0)
    (j : Turbojet.Obj) (hj : j.params = o.params) (hx : j.xi_nozzle = o.xi_nozzle) :
    ∃ o' j' g n e, Turbofan.update (Turbofan.flight_conditions o f) = .ok o' ∧
      Turbojet.update (Turbojet.flight_conditions j f) = .ok j' ∧
      o'.res = some (g, n) ∧ j'.res = some (g, e) ∧ n.Tt17 = g.Tt2 ∧ n.Pt9 = e.Pt9 ∧ n.V9 = e.V9 := by
  obtain ⟨g, n, hu, hg, hn, h1, h3, h5, h2, h4, p1, p2⟩ := tf_update_ok o f F
  obtain ⟨n', hn', c0, c1, c2, c3, c4, c5, c6, c7, c8, c9, c10, -⟩ :=
    fan_ok o f g F.core.gh F.core.gc F.core.rh F.core.rc F.core.P0 h3 h5 h2 h1 F.nozzle
    F.core.shaft F.etaT F.etaF F.bpr F.ratio0 F.ratio1 p1 p2
  rw [hn] at hn'; injection hn' with hn'; subst hn'
  obtain ⟨g', e, hu', hg', -, -, -, d1, -, d3⟩ := tj_update_ok j f (by rw [hj]; exact F.core)
  have : g' = g := by rw [hj, hg] at hg'; injection hg' with hg'; exact hg'.symm
  subst this
  have hT5 : n.Tt5 = g'.Tt45 := by rw [c0, h]; ring
  have hP9 : n.Pt9 = e.Pt9 := by
    rw [d1, hx, max_eq_left p1, c5, c3, hT5, div_self h3.ne', Real.one_rpow, mul_one]
  refine ⟨_, _, g', n, e, hu, hu', rfl, rfl, ?_, hP9, ?_⟩
  · rw [hT5, sub_self, mul_zero, mul_zero, mul_zero] at c10
    have hb := F.bpr
    have hc := cp_pos F.core.gc F.core.rc
    rcases mul_eq_zero.mp c10 with k | k
    · exact absurd k hb.ne'
    · rcases mul_eq_zero.mp k with k | k
      · exact absurd k hc.ne'
      · linarith
  · rw [c9, d3, hP9, hT5, hj]

/-! ### C89: performances reflect the last update -/

/-- **C89 (turbojet and turbofan).** Changing the flight conditions without a new `update` does not
change any performance. -/
theorem C89_turbo (o : Turbojet.Obj) (n : Turbofan.Obj) (f : Flight) :
    Turbojet.norm_thrust (Turbojet.flight_conditions o f) = Turbojet.norm_thrust o ∧
    Turbojet.thermal_efficiency (Turbojet.flight_conditions o f) = Turbojet.thermal_efficiency o ∧
    Turbojet.propulsive_efficiency (Turbojet.flight_conditions o f) = Turbojet.propulsive_efficiency o ∧
    Turbojet.thermoprop_efficiency (Turbojet.flight_conditions o f) = Turbojet.thermoprop_efficiency o ∧
    Turbojet.Sfc (Turbojet.flight_conditions o f) = Turbojet.Sfc o ∧
    Turbofan.spec_thrust (Turbofan.flight_conditions n f) = Turbofan.spec_thrust n ∧
    Turbofan.thermal_efficiency (Turbofan.flight_conditions n f) = Turbofan.thermal_efficiency n ∧
    Turbofan.propulsive_efficiency (Turbofan.flight_conditions n f) = Turbofan.propulsive_efficiency n ∧
    Turbofan.thermoprop_efficiency (Turbofan.flight_conditions n f) = Turbofan.thermoprop_efficiency n ∧
    Turbofan.Sfc (Turbofan.flight_conditions n f) = Turbofan.Sfc n :=
  ⟨rfl, rfl, rfl, rfl, rfl, rfl, rfl, rfl, rfl, rfl⟩

/-- **C89 is false for the gas generator**: `Wsp_TBP_ideal()` (hence `thermal_efficiency`) mixes the
new ambient pressure with the turbine exit of the last update. -/
theorem C89_generator_false : ¬ ∀ (o : GasGenerator.Obj) (f : Flight), o.gen ≠ none →
    GasGenerator.Wsp_TBP_ideal (flight_conditions o f) none = GasGenerator.Wsp_TBP_ideal o none := by
  intro H
  obtain ⟨o', h⟩ := gg_returns
  obtain ⟨g, hg, hpar, hfl, hc⟩ := gg_update_inv h
  obtain ⟨g1, hc', -, -, hT, -, hp5⟩ := compute_ok gg_feasible
  have e1 : g1 = g := by
    have e : compute (GasGenerator.new ggArgs).params ggFlight = .ok g1 := hc'
    rw [hc] at e; injection e with e; exact e.symm
  subst e1
  obtain ⟨ga, hga, w1⟩ := C86_partial ggArgs [] ggFlight o' (some g1.Pt45) h gg_feasible (by rintro _ ⟨⟩; exact hp5)
  obtain ⟨gb, hgb, -, w3⟩ := C86_false ggArgs [] ggFlight o' h gg_feasible (g1.Pt45 / 2) (by positivity)
  rw [hg] at hga hgb; cases hga; cases hgb
  obtain ⟨w, hw, hneg, -⟩ := w3 (by linarith)
  have k1 : GasGenerator.Wsp_TBP_ideal (flight_conditions o' { ggFlight with P0 := g1.Pt45 }) none =
      GasGenerator.Wsp_TBP_ideal o' (some g1.Pt45) := rfl
  have k2 : GasGenerator.Wsp_TBP_ideal (flight_conditions o' { ggFlight with P0 := g1.Pt45 / 2 }) none =
      GasGenerator.Wsp_TBP_ideal o' (some (g1.Pt45 / 2)) := rfl
  have a1 := H o' { ggFlight with P0 := g1.Pt45 } (by rw [hg]; simp)
  have a2 := H o' { ggFlight with P0 := g1.Pt45 / 2 } (by rw [hg]; simp)
  rw [k1, w1, ← a2, k2, hw] at a1
  injection a1 with a1
  have z : idealWork ggArgs.gam_hot ggArgs.r_hot g1.far g1.Pt45 g1.Tt45 ((some g1.Pt45).getD ggFlight.P0) = 0 := by
    show idealWork _ _ _ _ _ g1.Pt45 = 0
    unfold idealWork
    rw [div_self hp5.ne', Real.one_rpow]; ring
  rw [z] at a1
  norm_num at a1
  linarith

end Aerokit.Props
