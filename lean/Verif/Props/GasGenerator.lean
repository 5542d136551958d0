import Verif.Lemmas.Engine
import Verif.Lemmas.Lits

/-! Properties C70 and C86 (gas generator). -/

namespace Aerokit.Props

open Spec.Engine GasGenerator

/-- Calls on a gas generator that may change its state. -/
inductive GGCall
  | fly (f : Flight)
  | update

/-- State after a history of calls (exceptions are caught by the caller). -/
noncomputable def ggRun (o : Obj) : List GGCall → Obj
  | [] => o
  | .fly f :: cs => ggRun (flight_conditions o f) cs
  | .update :: cs => ggRun ((update o).toOption.getD o) cs

theorem ggRun_params (cs : List GGCall) : ∀ o, (ggRun o cs).params = o.params := by
  induction cs with
  | nil => intro o; rfl
  | cons c cs ih =>
    intro o
    cases c with
    | fly f => exact ih _
    | update =>
      rw [ggRun, ih]
      unfold update
      cases ho : o.flight with
      | none => rfl
      | some f =>
        cases hc : compute o.params f with
        | error e => simp only [hc]; rfl
        | ok g => simp only [hc]; rfl

theorem gg_update_inv {o o' : Obj} {f : Flight} (h : update (flight_conditions o f) = .ok o') :
    ∃ g, o'.gen = some g ∧ o'.params = o.params ∧ o'.flight = some f ∧ compute o.params f = .ok g := by
  unfold update flight_conditions at h
  obtain ⟨g, e, h⟩ := Py.bind_inv h
  injection h with h
  subst h
  exact ⟨g, rfl, rfl, rfl, e⟩

/-- A feasible engine: overall pressure ratio 128, turbine entry at 2000 K, Mach 1 flight. -/
noncomputable def ggArgs : GasGenerator.Args := { OPR := 128, Tt4 := 2000 }
/-- its flight conditions -/
noncomputable def ggFlight : Flight := { T0 := 200, P0 := 1, M0 := 1 }

theorem ggRise : (128 : ℝ) ^ (((1.4 : ℝ) - 1) / (1.4 * 1)) = 4 := by
  rw [show (128 : ℝ) = 2 ^ (7 : ℝ) by norm_num, ← Real.rpow_mul (by norm_num)]; norm_num

theorem gg_tt3 {s : Params} (h1 : s.OPR = 128) (h2 : s.gam_cold = 1.4) (h3 : s.etapolCHP = 1) :
    tt3 s ggFlight = 960 := by
  unfold tt3 ggFlight Isentropic.tt
  rw [h1, h2, h3, ggRise]; norm_num

theorem gg_feasible : Feasible ggArgs.params ggFlight := by
  have h3 : tt3 ggArgs.params ggFlight = 960 := by
    apply gg_tt3
    · rfl
    · rfl
    · show (1.0 : ℝ) = 1; norm_num
  constructor
  · show (1:ℝ) < 1.4; norm_num
  · show (1:ℝ) < 1.4; norm_num
  · show (0:ℝ) < 287.1; norm_num
  · show (0:ℝ) < 287.1; norm_num
  · show (0:ℝ) < 200; norm_num
  · show (0:ℝ) < 1; norm_num
  · show (0:ℝ) < 128; norm_num
  · show (0:ℝ) < 1.0; norm_num
  · show (0:ℝ) < 1.0; norm_num
  · show (0:ℝ) < 1.0; norm_num
  · show (0:ℝ) < 2000; norm_num
  · show (0:ℝ) < 1.0; norm_num
  · show (0:ℝ) < 1.0; norm_num
  · show cp 1.4 287.1 * 2000 < 1.0 * 42.8e6
    unfold cp; norm_num
  · rw [h3]
    show cp 1.4 287.1 * 960 < 1.0 * 42.8e6
    unfold cp; norm_num
  · rw [h3]
    show cp 1.4 287.1 * (960 - 200 * Isentropic.tt 1 1.4) * (1.0 * 42.8e6 - cp 1.4 287.1 * 2000) <
      1.0 * (cp 1.4 287.1 * 2000) * (1.0 * 42.8e6 - cp 1.4 287.1 * 960)
    unfold cp Isentropic.tt; norm_num

/-- The feasible engine is updated successfully. -/
theorem gg_returns : ∃ o', update (flight_conditions (GasGenerator.new ggArgs) ggFlight) = .ok o' := by
  obtain ⟨g, hg, _⟩ := compute_ok gg_feasible
  refine ⟨⟨ggArgs.params, some ggFlight, some g⟩, ?_⟩
  show (compute ggArgs.params ggFlight >>= _) = _
  rw [hg]; rfl

/-- **C70 (combustion), partial.** After any history of calls, a successful `update` leaves a fuel
to air ratio that balances the combustion chamber — but with `xi_cc` (the total pressure loss
coefficient) in the place of the combustion efficiency `eta_cc`.
Missing: the balance with the constructor argument `eta_cc`, which is false
(`C70_combustion_false`), except when both are equal. -/
theorem C70_combustion_partial (a : GasGenerator.Args) (cs : List GGCall) (f : Flight) (o' : Obj)
    (h : update (flight_conditions (ggRun (GasGenerator.new a) cs) f) = .ok o') :
    ∃ g, o'.gen = some g ∧
      CombustionBalance (cp a.gam_cold a.r_cold) g.Tt3 (cp a.gam_hot a.r_hot) a.Tt4 g.far a.xi_cc a.Pci ∧
      (a.eta_cc = a.xi_cc →
        CombustionBalance (cp a.gam_cold a.r_cold) g.Tt3 (cp a.gam_hot a.r_hot) a.Tt4 g.far a.eta_cc a.Pci) := by
  obtain ⟨g, hg, -, -, hc⟩ := gg_update_inv h
  rw [ggRun_params] at hc
  have I := compute_inv hc
  have key : CombustionBalance (cp a.gam_cold a.r_cold) g.Tt3 (cp a.gam_hot a.r_hot) a.Tt4 g.far a.xi_cc a.Pci := by
    have hn : a.xi_cc * a.Pci - cp a.gam_hot a.r_hot * a.Tt4 ≠ 0 := I.2.2.2.1
    have hf : g.far = (cp a.gam_hot a.r_hot * a.Tt4 - cp a.gam_cold a.r_cold * g.Tt3) /
      (a.xi_cc * a.Pci - cp a.gam_hot a.r_hot * a.Tt4) := I.2.2.2.2.2.2.2.2.2.2.2.2.2.2.2.2.1
    have := (eq_div_iff hn).mp hf
    unfold CombustionBalance
    linarith
  exact ⟨g, hg, key, fun e => by rw [e]; exact key⟩

example : ∃ a cs f o', update (flight_conditions (ggRun (GasGenerator.new a) cs) f) = .ok o' ∧
    a.eta_cc = a.xi_cc := by
  obtain ⟨o', h⟩ := gg_returns
  exact ⟨ggArgs, [], ggFlight, o', h, rfl⟩

/-- **C70 (combustion) is false of the code**: the constructor argument `eta_cc` is dropped.  With
`eta_cc = 0.9` the stored fuel to air ratio does not balance the chamber. -/
theorem C70_combustion_false : ¬ ∀ (a : GasGenerator.Args) (f : Flight) (o' : Obj),
    update (flight_conditions (GasGenerator.new a) f) = .ok o' → ∃ g, o'.gen = some g ∧
      CombustionBalance (cp a.gam_cold a.r_cold) g.Tt3 (cp a.gam_hot a.r_hot) a.Tt4 g.far a.eta_cc a.Pci := by
  intro H
  obtain ⟨o', h⟩ := gg_returns
  have h' : update (flight_conditions (GasGenerator.new { ggArgs with eta_cc := 0.9 }) ggFlight) = .ok o' := h
  obtain ⟨g, hg, hb⟩ := H _ _ _ h'
  obtain ⟨g', hg', -, -, hc⟩ := gg_update_inv h
  rw [hg] at hg'; cases hg'
  obtain ⟨g2, hg2, hb2, -⟩ := C70_combustion_partial ggArgs [] ggFlight o' h
  rw [hg] at hg2; cases hg2
  have I := compute_inv hc
  have ht : g.Tt3 = 960 := by
    have e1 : g.Tt0 = (200:ℝ) * Isentropic.tt 1 1.4 := I.2.2.2.2.2.2.2.2.1
    have e2 : g.Tt2 = g.Tt0 := I.2.2.2.2.2.2.2.2.2.2.2.2.1
    have e3 : g.Tt3 = g.Tt2 * (128:ℝ) ^ (((1.4 : ℝ) - 1) / (1.4 * 1.0)) := I.2.2.2.2.2.2.2.2.2.2.2.2.2.2.1
    rw [show (1.4 : ℝ) * 1.0 = 1.4 * 1 by norm_num, ggRise, e2, e1] at e3
    rw [e3]; unfold Isentropic.tt; norm_num
  have h1 : (1 + g.far) * (cp 1.4 287.1 * 2000) - cp 1.4 287.1 * g.Tt3 = 0.9 * (g.far * 42.8e6) := hb
  have h2 : (1 + g.far) * (cp 1.4 287.1 * 2000) - cp 1.4 287.1 * g.Tt3 = 1.0 * (g.far * 42.8e6) := hb2
  rw [ht] at h1 h2
  have hf : g.far = 0 := by linarith
  rw [hf] at h2
  unfold cp at h2
  norm_num at h2

/-- Indeed the result does not depend on `eta_cc` at all. -/
theorem C70_eta_cc_ignored (a : GasGenerator.Args) (x : ℝ) :
    GasGenerator.new { a with eta_cc := x } = GasGenerator.new a := rfl

/-- **C70 (shaft).** After any history, a successful `update` leaves turbine and compressor powers
(per unit mass of air) in balance with the shaft efficiency. -/
theorem C70_shaft (a : GasGenerator.Args) (cs : List GGCall) (f : Flight) (o' : Obj)
    (h : update (flight_conditions (ggRun (GasGenerator.new a) cs) f) = .ok o') :
    ∃ g, o'.gen = some g ∧
      a.eta_shaft * ((1 + g.far) * (cp a.gam_hot a.r_hot * (a.Tt4 - g.Tt45))) =
        cp a.gam_cold a.r_cold * (g.Tt3 - g.Tt2) := by
  obtain ⟨g, hg, -, -, hc⟩ := gg_update_inv h
  rw [ggRun_params] at hc
  have I := compute_inv hc
  refine ⟨g, hg, ?_⟩
  have hn : a.eta_shaft * cp a.gam_hot a.r_hot * (1 + g.far) ≠ 0 := I.2.2.2.2.1
  have hf : g.Tt45 = a.Tt4 - cp a.gam_cold a.r_cold * (g.Tt3 - g.Tt2) /
      (a.eta_shaft * cp a.gam_hot a.r_hot * (1 + g.far)) := I.2.2.2.2.2.2.2.2.2.2.2.2.2.2.2.2.2.1
  have h3 : cp a.gam_cold a.r_cold * (g.Tt3 - g.Tt2) /
      (a.eta_shaft * cp a.gam_hot a.r_hot * (1 + g.far)) = a.Tt4 - g.Tt45 := by linarith
  rw [div_eq_iff hn] at h3
  linarith

/-- **C70 (pressures and temperatures).** The inlet and the combustion chamber multiply the total
pressure by `xi_inlet` and `xi_cc`, the inlet keeps the total temperature, which is the isentropic
one of the flight Mach number, the compressor raises the pressure by `OPR` with the polytropic
efficiency `etapolCHP` and the turbine expands with the polytropic efficiency `etapolTHP`. -/
theorem C70_components (a : GasGenerator.Args) (cs : List GGCall) (f : Flight) (o' : Obj)
    (h : update (flight_conditions (ggRun (GasGenerator.new a) cs) f) = .ok o')
    (F : Feasible a.params f) :
    ∃ g, o'.gen = some g ∧
      g.Tt2 = f.T0 * (1 + (a.gam_cold - 1) / 2 * f.M0 ^ 2) ∧
      g.Pt2 = a.xi_inlet * (f.P0 * (1 + (a.gam_cold - 1) / 2 * f.M0 ^ 2) ^ (a.gam_cold / (a.gam_cold - 1))) ∧
      g.V0 = f.M0 * Real.sqrt (a.gam_cold * a.r_cold * f.T0) ∧
      g.Pt3 = a.OPR * g.Pt2 ∧ g.Pt4 = a.xi_cc * g.Pt3 ∧
      PolytropicCompression a.gam_cold a.etapolCHP g.Pt2 g.Tt2 g.Pt3 g.Tt3 ∧
      PolytropicExpansion a.gam_hot a.etapolTHP g.Pt4 a.Tt4 g.Pt45 g.Tt45 := by
  obtain ⟨g, hg, -, -, hc⟩ := gg_update_inv h
  rw [ggRun_params] at hc
  obtain ⟨g', hc', hp1, hp2, hp3, hp4, hp5⟩ := compute_ok F
  have : g' = g := by
    have e : compute (GasGenerator.new a).params f = .ok g' := hc'
    rw [hc] at e; injection e with e; exact e.symm
  subst this
  obtain ⟨_, _, n3, _, _, n6, n7, _, e1, ⟨p, e2, e3⟩, e4, e5, e6, e7, e8, e9, e10, e11, e12⟩ := compute_inv hc
  have gc : 1 < a.gam_cold := F.gc
  have gh : 1 < a.gam_hot := F.gh
  have hO : 0 < a.OPR := F.OPR
  have hη : 0 < a.etapolCHP := F.etaC
  have hη' : 0 < a.etapolTHP := F.etaT
  have hx : 0 < a.xi_cc := F.xicc
  have h4 : 0 < a.Tt4 := F.Tt4
  have htt : Isentropic.tt f.M0 a.gam_cold = 1 + (a.gam_cold - 1) / 2 * f.M0 ^ 2 := by
    unfold Isentropic.tt; ring
  have e2' : Isentropic.PtPs_Mach f.M0 a.gam_cold = .ok p := e2
  rw [Isentropic.PtPs_Mach_ok gc] at e2'
  injection e2' with e2'
  replace e1 : g'.Tt0 = f.T0 * Isentropic.tt f.M0 a.gam_cold := e1
  replace e5 : g'.Pt2 = g'.Pt0 * a.xi_inlet := e5
  replace e7 : g'.Pt3 = g'.Pt2 * a.OPR := e7
  replace e8 : g'.Tt3 = g'.Tt2 * a.OPR ^ ((a.gam_cold - 1) / (a.gam_cold * a.etapolCHP)) := e8
  replace e9 : g'.Pt4 = g'.Pt3 * a.xi_cc := e9
  replace e12 : g'.Pt45 = g'.Pt4 * (g'.Tt45 / a.Tt4) ^ (a.gam_hot / ((a.gam_hot - 1) * a.etapolTHP)) := e12
  have hp4' : 0 < g'.Pt4 := by rw [e9, e7]; positivity
  refine ⟨g', hg, ?_, ?_, e4, by rw [e7]; ring, by rw [e9]; ring, ?_, ?_⟩
  · rw [e6, e1, htt]
  · rw [e5, e3, ← e2', htt]; ring
  · unfold PolytropicCompression
    rw [e8, e7, mul_div_cancel_left₀ _ hp2.ne', mul_div_cancel_left₀ _ hp4.ne', Real.log_rpow hO]
    have : a.gam_cold ≠ 0 := by linarith
    field_simp
  · unfold PolytropicExpansion
    rw [e12, mul_div_cancel_left₀ _ hp4'.ne', Real.log_rpow (div_pos hp3 h4)]
    have : a.gam_hot ≠ 0 := by linarith
    have : a.gam_hot - 1 ≠ 0 := by linarith
    field_simp

/-- **C70 (before use).** `update` raises `AttributeError` when the flight conditions were never
given, and the performance methods when `update` never succeeded. -/
theorem C70_before_use (a : GasGenerator.Args) :
    update (GasGenerator.new a) = .error .attributeError ∧
    (∀ f, GasGenerator.Wsp_cc (flight_conditions (GasGenerator.new a) f) = .error .attributeError) :=
  ⟨rfl, fun _ => rfl⟩

/-! ### C86: ideal work of the low pressure turbine -/

/-- Work of an ideal (isentropic) expansion of the core flow from the turbine exit to `P19`, per
unit mass of air. -/
noncomputable def idealWork (γ r far Pt Tt P : ℝ) : ℝ :=
  (1 + far) * (cp γ r * Tt * (1 - (P / Pt) ^ ((γ - 1) / γ)))

/-- **C86, partial.** `Wsp_TBP_ideal(P19)` is `-1/(γ-1)` times the ideal work of the expansion to
`P19` (default: the ambient pressure).  Missing: it is not the ideal work itself, see
`C86_false`. -/
theorem C86_partial (a : GasGenerator.Args) (cs : List GGCall) (f : Flight) (o' : Obj) (P19 : Option ℝ)
    (h : update (flight_conditions (ggRun (GasGenerator.new a) cs) f) = .ok o')
    (F : Feasible a.params f) (hP : ∀ P, P19 = some P → 0 < P) :
    ∃ g, o'.gen = some g ∧ GasGenerator.Wsp_TBP_ideal o' P19 =
      .ok (-(idealWork a.gam_hot a.r_hot g.far g.Pt45 g.Tt45 (P19.getD f.P0)) / (a.gam_hot - 1)) := by
  obtain ⟨g, hg, hpar, hfl, hc⟩ := gg_update_inv h
  rw [ggRun_params] at hc hpar
  obtain ⟨g', hc', hp1, hp2, hp3, hp4, hp5⟩ := compute_ok F
  have : g' = g := by
    have e : compute (GasGenerator.new a).params f = .ok g' := hc'
    rw [hc] at e; injection e with e; exact e.symm
  subst this
  refine ⟨g', hg, ?_⟩
  have gh : 1 < a.gam_hot := F.gh
  have hP0 : 0 < P19.getD f.P0 := by
    cases P19 with
    | none => exact F.P0
    | some P => exact hP P rfl
  obtain ⟨par, fl, gen⟩ := o'
  simp only at hg hpar hfl
  subst hg hpar hfl
  have e0 : GasGenerator.Wsp_TBP_ideal ⟨(GasGenerator.new a).params, some f, some g'⟩ P19 =
    ((.ok (P19.getD f.P0) : Py ℝ) >>= fun P => do
      let gogm1 ← Py.div a.gam_hot (a.gam_hot - 1.0)
      let q ← Py.div P g'.Pt45
      let e ← Py.div 1.0 gogm1
      let w ← Py.pow q e
      let c ← Py.div ((1.0 + g'.far) * gogm1 * a.r_hot) (a.gam_hot - 1.0)
      return c * g'.Tt45 * (w - 1.0)) := by
    cases P19 <;> rfl
  rw [e0, Py.ok_bind]
  have h10 : (1.0 : ℝ) = 1 := by norm_num
  have hg1 : a.gam_hot - 1 ≠ 0 := by linarith
  have hg0 : a.gam_hot ≠ 0 := by linarith
  simp only [h10]
  rw [Py.div_ok hg1, Py.ok_bind, Py.div_ok hp5.ne', Py.ok_bind, Py.div_ok (by positivity), Py.ok_bind,
    Py.pow_ok _ (by positivity), Py.ok_bind, Py.div_ok hg1, Py.ok_bind]
  rw [Py.pure_eq]
  congr 1
  unfold idealWork cp
  rw [show 1 / (a.gam_hot / (a.gam_hot - 1)) = (a.gam_hot - 1) / a.gam_hot by field_simp]
  field_simp
  ring

example : ∃ a cs f o', update (flight_conditions (ggRun (GasGenerator.new a) cs) f) = .ok o' ∧
    Feasible a.params f := by
  obtain ⟨o', h⟩ := gg_returns
  exact ⟨ggArgs, [], ggFlight, o', h, gg_feasible⟩

/-- **C86 is false of the code**: whenever the turbine exit pressure exceeds `P19`, the work
returned is negative while the ideal work is positive. -/
theorem C86_false (a : GasGenerator.Args) (cs : List GGCall) (f : Flight) (o' : Obj)
    (h : update (flight_conditions (ggRun (GasGenerator.new a) cs) f) = .ok o')
    (F : Feasible a.params f) (P19 : ℝ) (hP : 0 < P19) :
    ∃ g, o'.gen = some g ∧ 0 < g.Pt45 ∧ (P19 < g.Pt45 → ∃ w, GasGenerator.Wsp_TBP_ideal o' (some P19) = .ok w ∧
      w < 0 ∧ 0 < idealWork a.gam_hot a.r_hot g.far g.Pt45 g.Tt45 P19) := by
  obtain ⟨g, hg, hw⟩ := C86_partial a cs f o' (some P19) h F (by rintro _ ⟨⟩; exact hP)
  obtain ⟨g1, hg1, hpar, hfl, hc⟩ := gg_update_inv h
  rw [hg] at hg1; cases hg1
  rw [ggRun_params] at hc
  obtain ⟨g', hc', hp1, hp2, hp3, hp4, hp5⟩ := compute_ok F
  have : g' = g := by
    have e : compute (GasGenerator.new a).params f = .ok g' := hc'
    rw [hc] at e; injection e with e; exact e.symm
  subst this
  refine ⟨g', hg, hp5, fun hlt => ⟨_, hw, ?_⟩⟩
  have gh : 1 < a.gam_hot := F.gh
  have hpos : 0 < idealWork a.gam_hot a.r_hot g'.far g'.Pt45 g'.Tt45 P19 := by
    unfold idealWork
    have : (P19 / g'.Pt45) ^ ((a.gam_hot - 1) / a.gam_hot) < 1 :=
      Real.rpow_lt_one (by positivity) (by rw [div_lt_one hp5]; exact hlt) (by apply div_pos <;> linarith)
    have c := cp_pos F.gh F.rh
    exact mul_pos hp1 (mul_pos (mul_pos c hp3) (by linarith))
  refine ⟨?_, hpos⟩
  apply div_neg_of_neg_of_pos
  · show -(idealWork a.gam_hot a.r_hot g'.far g'.Pt45 g'.Tt45 P19) < 0
    linarith
  · linarith

/-- **C86 is false for the thermal efficiency too**: it is the ideal work divided by the heat `far · Pci`, times `-1/(γ-1)`; whenever the
turbine exit is above the ambient pressure and fuel is burnt, the efficiency returned is negative. -/
theorem C86_thermal_false (a : GasGenerator.Args) (cs : List GGCall) (f : Flight) (o' : Obj)
    (h : update (flight_conditions (ggRun (GasGenerator.new a) cs) f) = .ok o')
    (F : Feasible a.params f) :
    ∃ g, o'.gen = some g ∧ (f.P0 < g.Pt45 → 0 < g.far * a.Pci → ∃ e, GasGenerator.thermal_efficiency o' = .ok e ∧ e < 0 ∧
      e * (g.far * a.Pci) * (1 - a.gam_hot) = idealWork a.gam_hot a.r_hot g.far g.Pt45 g.Tt45 f.P0) := by
  obtain ⟨g, hg, hw⟩ := C86_partial a cs f o' none h F (by rintro _ ⟨⟩)
  obtain ⟨g1, hg1, hpar, hfl, hc⟩ := gg_update_inv h
  rw [hg] at hg1; cases hg1
  obtain ⟨g2, hg2, h5, hneg⟩ := C86_false a cs f o' h F f.P0 F.P0
  rw [hg] at hg2; cases hg2
  refine ⟨g, hg, fun hlt hheat => ?_⟩
  obtain ⟨w, -, -, hpos⟩ := hneg hlt
  have gh : 1 < a.gam_hot := F.gh
  have hcc : GasGenerator.Wsp_cc o' = .ok (g.far * a.Pci) := by
    rw [ggRun_params] at hpar
    unfold GasGenerator.Wsp_cc Obj.theGen
    rw [hg, hpar]; rfl
  have hg1 : a.gam_hot - 1 ≠ 0 := by linarith
  refine ⟨-(idealWork a.gam_hot a.r_hot g.far g.Pt45 g.Tt45 f.P0) / (a.gam_hot - 1) / (g.far * a.Pci), ?_, ?_, ?_⟩
  · unfold GasGenerator.thermal_efficiency
    rw [hw, Py.ok_bind, hcc, Py.ok_bind, Py.div_ok hheat.ne']
    rfl
  · refine div_neg_of_neg_of_pos (div_neg_of_neg_of_pos ?_ (by linarith)) hheat
    linarith
  · show -(idealWork a.gam_hot a.r_hot g.far g.Pt45 g.Tt45 f.P0) / (a.gam_hot - 1) / (g.far * a.Pci) * (g.far * a.Pci) * (1 - a.gam_hot) = _
    rw [div_mul_cancel₀ _ hheat.ne']
    field_simp
    ring

end Aerokit.Props
