import Verif.Props.EnginePerf

/-! # Property C123 : similarity of the engines (ambient pressure, temperature level) -/

namespace Aerokit.Props
open GasGenerator

/-- same outcome, the values (if any) being related by `R` -/
def PyRel {α β : Type} (R : α → β → Prop) (x : Py α) (y : Py β) : Prop :=
  (∃ a b, x = .ok a ∧ y = .ok b ∧ R a b) ∨ ∃ e, x = .error e ∧ y = .error e

namespace PyRel

variable {α β α' β' : Type}

theorem bind {R : α → β → Prop} {S : α' → β' → Prop} {x : Py α} {y : Py β} {f : α → Py α'} {g : β → Py β'} (h : PyRel R x y)
    (h' : ∀ a b, R a b → PyRel S (f a) (g b)) : PyRel S (x >>= f) (y >>= g) := by
  rcases h with ⟨a, b, rfl, rfl, hr⟩ | ⟨e, rfl, rfl⟩
  · exact h' a b hr
  · exact Or.inr ⟨e, rfl, rfl⟩

theorem ok {R : α → β → Prop} {a : α} {b : β} (h : R a b) : PyRel R (.ok a) (.ok b) := Or.inl ⟨a, b, rfl, rfl, h⟩

theorem same {x : Py α} : PyRel (fun a b => b = a) x x := by
  cases x with
  | ok a => exact ok rfl
  | error e => exact Or.inr ⟨e, rfl, rfl⟩

theorem of_eq {x y : Py α} (h : y = x) : PyRel (fun a b => b = a) x y := by subst h; exact same

theorem div {p q c a b a' b' : ℝ} (hq : q ≠ 0) (ha : a' = p * a) (hb : b' = q * b) (hc : p = c * q) :
    PyRel (fun u v => v = c * u) (Py.div a b) (Py.div a' b') := by
  subst ha hb hc
  by_cases h : b = 0
  · subst h; rw [mul_zero, Py.div_err, Py.div_err]; exact Or.inr ⟨_, rfl, rfl⟩
  · rw [Py.div_ok h, Py.div_ok (mul_ne_zero hq h)]
    exact ok (by field_simp)

theorem div1 {q a b a' b' : ℝ} (hq : q ≠ 0) (ha : a' = q * a) (hb : b' = q * b) :
    PyRel (fun u v => v = u) (Py.div a b) (Py.div a' b') := by
  have := div (c := 1) hq ha hb (one_mul q).symm
  simpa using this

theorem sqrt {l a a' : ℝ} (hl : 0 < l) (ha : a' = l * a) : PyRel (fun u v => v = √l * u) (Py.sqrt a) (Py.sqrt a') := by
  subst ha
  by_cases h : a < 0
  · have h' : l * a < 0 := mul_neg_of_pos_of_neg hl h
    unfold Py.sqrt
    rw [if_pos h, if_pos h']
    exact Or.inr ⟨_, rfl, rfl⟩
  · have h0 : 0 ≤ a := not_lt.1 h
    rw [Py.sqrt_ok h0, Py.sqrt_ok (by positivity)]
    exact ok (Real.sqrt_mul hl.le a)

theorem to_map {x y : Py ℝ} {f : ℝ → ℝ} (h : PyRel (fun a b => b = f a) x y) : y = f <$> x := by
  rcases h with ⟨a, b, rfl, rfl, rfl⟩ | ⟨e, rfl, rfl⟩ <;> rfl

theorem to_eq {x y : Py ℝ} (h : PyRel (fun a b => b = a) x y) : y = x := by
  rcases h with ⟨a, b, rfl, rfl, rfl⟩ | ⟨e, rfl, rfl⟩ <;> rfl

end PyRel

/-- the engine with temperatures (turbine entry, heat of combustion) multiplied by `l` -/
def hotter (l : ℝ) (s : Params) : Params := { s with Tt4 := l * s.Tt4, Pci := l * s.Pci }

/-- flight at the same Mach number, ambient temperature multiplied by `l` and pressure by `k` -/
def elsewhere (l k : ℝ) (f : Flight) : Flight := { T0 := l * f.T0, P0 := k * f.P0, M0 := f.M0 }

structure GenScale (l k : ℝ) (g g' : Gen) : Prop where
  V0 : g'.V0 = √l * g.V0
  Pt2 : g'.Pt2 = k * g.Pt2
  Tt2 : g'.Tt2 = l * g.Tt2
  Tt3 : g'.Tt3 = l * g.Tt3
  far : g'.far = g.far
  Tt45 : g'.Tt45 = l * g.Tt45
  Pt45 : g'.Pt45 = k * g.Pt45

theorem compute_scale {l k : ℝ} (hl : 0 < l) (s : Params) (f : Flight) :
    PyRel (GenScale l k) (compute s f) (compute (hotter l s) (elsewhere l k f)) := by
  have h10 : (1.0 : ℝ) = 1 := by norm_num
  unfold compute hotter elsewhere
  simp only [h10]
  refine PyRel.same.bind fun cpc _ h => ?_; subst h
  refine PyRel.same.bind fun t _ h => ?_; subst h
  refine PyRel.same.bind fun p _ h => ?_; subst h
  refine (PyRel.sqrt hl (by ring)).bind fun a a' ha => ?_
  refine PyRel.same.bind fun e _ h => ?_; subst h
  refine PyRel.same.bind fun q _ h => ?_; subst h
  refine PyRel.same.bind fun cph _ h => ?_; subst h
  refine (PyRel.div1 hl.ne' (by ring) (by ring)).bind fun far _ h => ?_; subst h
  refine (PyRel.div (p := l) (q := 1) (c := l) one_ne_zero (by ring) (by ring) (by ring)).bind fun d d' hd => ?_
  refine (PyRel.div1 hl.ne' (by rw [hd]; ring) (by ring)).bind fun u _ h => ?_; subst h
  refine PyRel.same.bind fun e' _ h => ?_; subst h
  refine PyRel.same.bind fun w _ h => ?_; subst h
  exact PyRel.ok ⟨by simp only [ha]; ring, by ring, by ring, by ring, rfl, by simp only [hd]; ring, by ring⟩

theorem velocity_scale {l M T T' r γ : ℝ} (hl : 0 < l) (hT : T' = l * T) :
    PyRel (fun u v => v = √l * u) (Isentropic.Velocity_MachTi M T r γ) (Isentropic.Velocity_MachTi M T' r γ) := by
  unfold Isentropic.Velocity_MachTi Isentropic.Velocity_MachTt
  refine PyRel.same.bind fun t _ h => ?_; subst h
  refine (PyRel.div (p := l) (q := 1) (c := l) one_ne_zero (by rw [hT]; ring) (by ring) (by ring)).bind fun q q' hq => ?_
  refine (PyRel.sqrt hl hq).bind fun a a' ha => ?_
  exact PyRel.ok (by rw [ha]; ring)

/-! ### turbojet -/

theorem tj_update_scale {l k : ℝ} (hl : 0 < l) (hk : 0 < k) (o : Turbojet.Obj) (f : Flight) :
    PyRel (fun a a' => ∃ g j g' j', a.res = some (g, j) ∧ a'.res = some (g', j') ∧ a'.params = hotter l a.params ∧
        GenScale l k g g' ∧ j'.M9 = j.M9 ∧ j'.V9 = √l * j.V9)
      (Turbojet.update (Turbojet.flight_conditions o f))
      (Turbojet.update (Turbojet.flight_conditions { o with params := hotter l o.params } (elsewhere l k f))) := by
  unfold Turbojet.update Turbojet.flight_conditions
  simp only []
  refine (compute_scale (k := k) hl o.params f).bind fun g g' hg => ?_
  have hn : PyRel (fun j j' : Turbojet.Jet => j'.M9 = j.M9 ∧ j'.V9 = √l * j.V9) (Turbojet.nozzle o.params o.xi_nozzle f g)
      (Turbojet.nozzle (hotter l o.params) o.xi_nozzle (elsewhere l k f) g') := by
    unfold Turbojet.nozzle
    simp only []
    have hm : max (g'.Pt45 * o.xi_nozzle) (elsewhere l k f).P0 = k * max (g.Pt45 * o.xi_nozzle) f.P0 := by
      rw [hg.Pt45, mul_max_of_nonneg _ _ hk.le, mul_assoc]; rfl
    refine (PyRel.div1 hk.ne' hm rfl).bind fun q _ h => ?_; subst h
    refine PyRel.same.bind fun M _ h => ?_; subst h
    refine (velocity_scale hl hg.Tt45).bind fun V V' hV => ?_
    exact PyRel.ok ⟨rfl, hV⟩
  refine hn.bind fun j j' hj => ?_
  exact PyRel.ok ⟨g, j, g', j', rfl, rfl, rfl, hg, hj⟩

/-- C123 (turbojet): for every engine, whether the update succeeds or not: multiplying the ambient pressure by `k` changes nothing
in the performances; multiplying the temperatures (ambient, turbine entry) and the heat of combustion by `l` multiplies velocities,
hence thrusts, by `√l`, powers by `l`, divides the specific consumption by `√l` and changes no efficiency. -/
theorem C123_turbojet (l k : ℝ) (hl : 0 < l) (hk : 0 < k) (o : Turbojet.Obj) (f : Flight) :
    let run := Turbojet.update (Turbojet.flight_conditions o f)
    let run' := Turbojet.update (Turbojet.flight_conditions
      { o with params := { o.params with Tt4 := l * o.params.Tt4, Pci := l * o.params.Pci } } ⟨l * f.T0, k * f.P0, f.M0⟩)
    (run' >>= Turbojet.norm_thrust) = (√l * ·) <$> (run >>= Turbojet.norm_thrust) ∧
    (run' >>= Turbojet.spec_thrust) = (√l * ·) <$> (run >>= Turbojet.spec_thrust) ∧
    (run' >>= Turbojet.Wsp_kinEn) = (l * ·) <$> (run >>= Turbojet.Wsp_kinEn) ∧
    (run' >>= Turbojet.Wsp_cc) = (l * ·) <$> (run >>= Turbojet.Wsp_cc) ∧
    (run' >>= Turbojet.thermal_efficiency) = (run >>= Turbojet.thermal_efficiency) ∧
    (run' >>= Turbojet.propulsive_efficiency) = (run >>= Turbojet.propulsive_efficiency) ∧
    (run' >>= Turbojet.thermoprop_efficiency) = (run >>= Turbojet.thermoprop_efficiency) ∧
    (run' >>= Turbojet.Sfc) = (1 / √l * ·) <$> (run >>= Turbojet.Sfc) := by
  have H := tj_update_scale hl hk o f
  have hs := Real.sqrt_pos.2 hl
  have hs2 : √l * √l = l := Real.mul_self_sqrt hl.le
  have h10 : (1.0 : ℝ) = 1 := by norm_num
  have h05 : (0.5 : ℝ) = 1 / 2 := by norm_num
  have T : ∀ a a' : Turbojet.Obj, (∃ g j g' j', a.res = some (g, j) ∧ a'.res = some (g', j') ∧ a'.params = hotter l a.params ∧
      GenScale l k g g' ∧ j'.M9 = j.M9 ∧ j'.V9 = √l * j.V9) →
      PyRel (fun u v => v = √l * u) (Turbojet.norm_thrust a) (Turbojet.norm_thrust a') ∧
      PyRel (fun u v => v = l * u) (Turbojet.Wsp_kinEn a) (Turbojet.Wsp_kinEn a') ∧
      PyRel (fun u v => v = l * u) (Turbojet.Wsp_cc a) (Turbojet.Wsp_cc a') ∧
      PyRel (fun u v => v = √l * u) (Turbojet.V0 a) (Turbojet.V0 a') ∧
      PyRel (fun u v => v = 1 / √l * u) (Turbojet.Sfc a) (Turbojet.Sfc a') := by
    rintro a a' ⟨g, j, g', j', h1, h2, h3, hg, -, hj⟩
    have t1 : a.theRes = .ok (g, j) := by unfold Turbojet.Obj.theRes; rw [h1]
    have t2 : a'.theRes = .ok (g', j') := by unfold Turbojet.Obj.theRes; rw [h2]
    have hN : PyRel (fun u v => v = √l * u) (Turbojet.norm_thrust a) (Turbojet.norm_thrust a') := by
      unfold Turbojet.norm_thrust
      rw [t1, t2, Py.ok_bind, Py.ok_bind]
      exact PyRel.ok (by rw [hg.far, hg.V0, hj, h10]; ring)
    refine ⟨hN, ?_, ?_, ?_, ?_⟩
    · unfold Turbojet.Wsp_kinEn
      rw [t1, t2, Py.ok_bind, Py.ok_bind]
      exact PyRel.ok (by rw [hg.far, hg.V0, hj, h10, h05]; linear_combination (1 / 2 * ((1 + g.far) * j.V9 ^ 2 - g.V0 ^ 2)) * hs2)
    · unfold Turbojet.Wsp_cc
      rw [t1, t2, Py.ok_bind, Py.ok_bind]
      exact PyRel.ok (by rw [hg.far, h3]; unfold hotter; ring)
    · unfold Turbojet.V0
      rw [t1, t2, Py.ok_bind, Py.ok_bind]
      exact PyRel.ok hg.V0
    · unfold Turbojet.Sfc
      rw [t1, t2, Py.ok_bind, Py.ok_bind]
      refine hN.bind fun t t' ht => ?_
      exact PyRel.div (p := 1) (q := √l) hs.ne' (by rw [hg.far]; ring) ht (by field_simp)
  refine ⟨(H.bind fun a a' h => (T a a' h).1).to_map, (H.bind fun a a' h => (T a a' h).1).to_map,
    (H.bind fun a a' h => (T a a' h).2.1).to_map, (H.bind fun a a' h => (T a a' h).2.2.1).to_map, ?_, ?_, ?_,
    (H.bind fun a a' h => (T a a' h).2.2.2.2).to_map⟩
  · refine (H.bind fun a a' h => ?_).to_eq
    obtain ⟨h1, h2, h3, h4, h5⟩ := T a a' h
    exact h2.bind fun _ _ e => h3.bind fun _ _ e' => PyRel.div1 hl.ne' e e'
  · refine (H.bind fun a a' h => ?_).to_eq
    obtain ⟨h1, h2, h3, h4, h5⟩ := T a a' h
    exact h1.bind fun t _ e => h4.bind fun v _ e' => h2.bind fun _ _ e'' =>
      PyRel.div1 hl.ne' (by rw [e, e']; linear_combination (t * v) * hs2) e''
  · refine (H.bind fun a a' h => ?_).to_eq
    obtain ⟨h1, h2, h3, h4, h5⟩ := T a a' h
    exact h1.bind fun t _ e => h4.bind fun v _ e' => h3.bind fun _ _ e'' =>
      PyRel.div1 hl.ne' (by rw [e, e']; linear_combination (t * v) * hs2) e''

/-! ### turbofan -/

theorem fan_scale {l k : ℝ} (hl : 0 < l) (hk : 0 < k) (o : Turbofan.Obj) (f : Flight) {g g' : Gen} (hg : GenScale l k g g') :
    PyRel (fun n n' : Turbofan.Fan => n'.V9 = √l * n.V9 ∧ n'.V19 = √l * n.V19) (Turbofan.fan o f g)
      (Turbofan.fan { o with params := hotter l o.params } (elsewhere l k f) g') := by
  have h10 : (1.0 : ℝ) = 1 := by norm_num
  unfold Turbofan.fan
  simp only [h10]
  refine (PyRel.of_eq rfl).bind fun cph _ h => ?_; subst h
  refine (PyRel.div1 hk.ne' hg.Pt45 rfl).bind fun q _ h => ?_; subst h
  refine (PyRel.of_eq rfl).bind fun e _ h => ?_; subst h
  refine (PyRel.of_eq rfl).bind fun w _ h => ?_; subst h
  refine (PyRel.div (p := l) (q := 1) (c := l) one_ne_zero (by rw [hg.Tt45, hg.far]; ring) (by ring) (by ring)).bind fun d d' hd => ?_
  refine (PyRel.div (p := l) (q := 1) (c := l) one_ne_zero hd (by rw [hg.far]; ring) (by ring)).bind fun d2 d2' hd2 => ?_
  refine (PyRel.div1 hl.ne' (by rw [hd2, hg.Tt45]; ring) hg.Tt45).bind fun u _ h => ?_; subst h
  refine (PyRel.of_eq rfl).bind fun e' _ h => ?_; subst h
  refine (PyRel.of_eq rfl).bind fun x _ h => ?_; subst h
  refine (PyRel.div1 hk.ne' (by rw [hg.Pt45]; ring) rfl).bind fun n _ h => ?_; subst h
  refine (PyRel.of_eq rfl).bind fun M _ h => ?_; subst h
  refine (velocity_scale (T := g.Tt45 - d2) hl (by rw [hd2, hg.Tt45]; ring)).bind fun V V' hV => ?_
  refine (PyRel.of_eq rfl).bind fun cpc _ h => ?_; subst h
  refine (PyRel.div (p := l) (q := 1) (c := l) one_ne_zero
    (by show o.params.eta_shaft * _ * _ = _; rw [hg.Tt45, hg.far]; ring) (by ring) (by ring)).bind fun d3 d3' hd3 => ?_
  refine (PyRel.div1 hl.ne' (by rw [hd3, hg.Tt2]; ring) hg.Tt2).bind fun v _ h => ?_; subst h
  refine (PyRel.of_eq rfl).bind fun e'' _ h => ?_; subst h
  refine (PyRel.of_eq rfl).bind fun y _ h => ?_; subst h
  refine (PyRel.div1 hk.ne' (by rw [hg.Pt2]; ring) rfl).bind fun n' _ h => ?_; subst h
  refine (PyRel.of_eq rfl).bind fun M' _ h => ?_; subst h
  refine (velocity_scale (T := g.Tt2 + d3) hl (by rw [hd3, hg.Tt2]; ring)).bind fun W W' hW => ?_
  exact PyRel.ok ⟨hV, hW⟩

theorem tf_update_scale {l k : ℝ} (hl : 0 < l) (hk : 0 < k) (o : Turbofan.Obj) (f : Flight) :
    PyRel (fun a a' => ∃ g n g' n', a.res = some (g, n) ∧ a'.res = some (g', n') ∧ a'.params = hotter l a.params ∧ a'.bpr = a.bpr ∧
        GenScale l k g g' ∧ n'.V9 = √l * n.V9 ∧ n'.V19 = √l * n.V19)
      (Turbofan.update (Turbofan.flight_conditions o f))
      (Turbofan.update (Turbofan.flight_conditions { o with params := hotter l o.params } (elsewhere l k f))) := by
  unfold Turbofan.update Turbofan.flight_conditions
  simp only []
  refine (compute_scale (k := k) hl o.params f).bind fun g g' hg => ?_
  have hn : PyRel (fun _ _ : Turbojet.Jet => True) (Turbojet.nozzle o.params o.xi_nozzle f g)
      (Turbojet.nozzle (hotter l o.params) o.xi_nozzle (elsewhere l k f) g') := by
    unfold Turbojet.nozzle
    simp only []
    have hm : max (g'.Pt45 * o.xi_nozzle) (elsewhere l k f).P0 = k * max (g.Pt45 * o.xi_nozzle) f.P0 := by
      rw [hg.Pt45, mul_max_of_nonneg _ _ hk.le, mul_assoc]; rfl
    refine (PyRel.div1 hk.ne' hm rfl).bind fun q _ h => ?_; subst h
    refine PyRel.same.bind fun M _ h => ?_; subst h
    refine (velocity_scale hl hg.Tt45).bind fun V V' hV => ?_
    exact PyRel.ok trivial
  refine hn.bind fun _ _ _ => ?_
  refine (fan_scale (k := k) hl hk { o with flight := some f } f hg).bind fun n n' hj => ?_
  exact PyRel.ok ⟨g, n, g', n', rfl, rfl, rfl, rfl, hg, hj⟩

/-- C123 (turbofan). -/
theorem C123_turbofan (l k : ℝ) (hl : 0 < l) (hk : 0 < k) (o : Turbofan.Obj) (f : Flight) :
    let run := Turbofan.update (Turbofan.flight_conditions o f)
    let run' := Turbofan.update (Turbofan.flight_conditions
      { o with params := { o.params with Tt4 := l * o.params.Tt4, Pci := l * o.params.Pci } } ⟨l * f.T0, k * f.P0, f.M0⟩)
    (run' >>= Turbofan.norm_thrust) = (√l * ·) <$> (run >>= Turbofan.norm_thrust) ∧
    (run' >>= Turbofan.spec_thrust) = (√l * ·) <$> (run >>= Turbofan.spec_thrust) ∧
    (run' >>= Turbofan.Wsp_kinEn) = (l * ·) <$> (run >>= Turbofan.Wsp_kinEn) ∧
    (run' >>= Turbofan.Wsp_cc) = (l * ·) <$> (run >>= Turbofan.Wsp_cc) ∧
    (run' >>= Turbofan.thermal_efficiency) = (run >>= Turbofan.thermal_efficiency) ∧
    (run' >>= Turbofan.propulsive_efficiency) = (run >>= Turbofan.propulsive_efficiency) ∧
    (run' >>= Turbofan.thermoprop_efficiency) = (run >>= Turbofan.thermoprop_efficiency) ∧
    (run' >>= Turbofan.Sfc) = (1 / √l * ·) <$> (run >>= Turbofan.Sfc) := by
  have H := tf_update_scale hl hk o f
  have hs := Real.sqrt_pos.2 hl
  have hs2 : √l * √l = l := Real.mul_self_sqrt hl.le
  have h10 : (1.0 : ℝ) = 1 := by norm_num
  have h05 : (0.5 : ℝ) = 1 / 2 := by norm_num
  have T : ∀ a a' : Turbofan.Obj, (∃ g n g' n', a.res = some (g, n) ∧ a'.res = some (g', n') ∧ a'.params = hotter l a.params ∧
      a'.bpr = a.bpr ∧ GenScale l k g g' ∧ n'.V9 = √l * n.V9 ∧ n'.V19 = √l * n.V19) →
      PyRel (fun u v => v = √l * u) (Turbofan.norm_thrust a) (Turbofan.norm_thrust a') ∧
      PyRel (fun u v => v = √l * u) (Turbofan.spec_thrust a) (Turbofan.spec_thrust a') ∧
      PyRel (fun u v => v = l * u) (Turbofan.Wsp_kinEn a) (Turbofan.Wsp_kinEn a') ∧
      PyRel (fun u v => v = l * u) (Turbofan.Wsp_cc a) (Turbofan.Wsp_cc a') ∧
      PyRel (fun u v => v = √l * u) (Turbofan.V0 a) (Turbofan.V0 a') ∧
      PyRel (fun u v => v = 1 / √l * u) (Turbofan.Sfc a) (Turbofan.Sfc a') := by
    rintro a a' ⟨g, j, g', j', h1, h2, h3, h4, hg, hj, hj'⟩
    have t1 : a.theRes = .ok (g, j) := by unfold Turbofan.Obj.theRes; rw [h1]
    have t2 : a'.theRes = .ok (g', j') := by unfold Turbofan.Obj.theRes; rw [h2]
    have hN : PyRel (fun u v => v = √l * u) (Turbofan.norm_thrust a) (Turbofan.norm_thrust a') := by
      unfold Turbofan.norm_thrust
      rw [t1, t2, Py.ok_bind, Py.ok_bind]
      exact PyRel.ok (by rw [hg.far, hg.V0, hj, hj', h4, h10]; ring)
    refine ⟨hN, ?_, ?_, ?_, ?_, ?_⟩
    · unfold Turbofan.spec_thrust
      refine hN.bind fun t t' ht => ?_
      exact PyRel.div (p := √l) (q := 1) one_ne_zero ht (by rw [h4, one_mul]) (by ring)
    · unfold Turbofan.Wsp_kinEn
      rw [t1, t2, Py.ok_bind, Py.ok_bind]
      exact PyRel.ok (by rw [hg.far, hg.V0, hj, hj', h4, h10, h05]; linear_combination (1 / 2 * ((1 + g.far) * j.V9 ^ 2 - g.V0 ^ 2 + a.bpr * (j.V19 ^ 2 - g.V0 ^ 2))) * hs2)
    · unfold Turbofan.Wsp_cc
      rw [t1, t2, Py.ok_bind, Py.ok_bind]
      exact PyRel.ok (by rw [hg.far, h3]; unfold hotter; ring)
    · unfold Turbofan.V0
      rw [t1, t2, Py.ok_bind, Py.ok_bind]
      exact PyRel.ok hg.V0
    · unfold Turbofan.Sfc
      rw [t1, t2, Py.ok_bind, Py.ok_bind]
      refine hN.bind fun t t' ht => ?_
      exact PyRel.div (p := 1) (q := √l) hs.ne' (by rw [hg.far]; ring) ht (by field_simp)
  refine ⟨(H.bind fun a a' h => (T a a' h).1).to_map, (H.bind fun a a' h => (T a a' h).2.1).to_map,
    (H.bind fun a a' h => (T a a' h).2.2.1).to_map, (H.bind fun a a' h => (T a a' h).2.2.2.1).to_map, ?_, ?_, ?_,
    (H.bind fun a a' h => (T a a' h).2.2.2.2.2).to_map⟩
  · refine (H.bind fun a a' h => ?_).to_eq
    obtain ⟨h1, -, h2, h3, h4, h5⟩ := T a a' h
    exact h2.bind fun _ _ e => h3.bind fun _ _ e' => PyRel.div1 hl.ne' e e'
  · refine (H.bind fun a a' h => ?_).to_eq
    obtain ⟨h1, -, h2, h3, h4, h5⟩ := T a a' h
    exact h1.bind fun t _ e => h4.bind fun v _ e' => h2.bind fun _ _ e'' =>
      PyRel.div1 hl.ne' (by rw [e, e']; linear_combination (t * v) * hs2) e''
  · refine (H.bind fun a a' h => ?_).to_eq
    obtain ⟨h1, -, h2, h3, h4, h5⟩ := T a a' h
    exact h1.bind fun t _ e => h4.bind fun v _ e' => h3.bind fun _ _ e'' =>
      PyRel.div1 hl.ne' (by rw [e, e']; linear_combination (t * v) * hs2) e''

/-- the runs related by the theorems do succeed: a feasible turbojet and a feasible turbofan -/
example : (∃ (o : Turbojet.Obj) (f : Flight) (t : ℝ),
      (Turbojet.update (Turbojet.flight_conditions o f) >>= Turbojet.norm_thrust) = .ok t) ∧
    ∀ (o : Turbofan.Obj) (f : Flight), FanFeasible o f →
      ∃ t, (Turbofan.update (Turbofan.flight_conditions o f) >>= Turbofan.norm_thrust) = .ok t := by
  constructor
  · obtain ⟨o', g, j, h, hr, -, ht, -⟩ := C102_turbojet (Turbojet.new { ggArgs with }) ggFlight gg_feasible
    exact ⟨_, _, _, by rw [h, Py.ok_bind, ht]⟩
  · intro o f F
    obtain ⟨o', g, n, h, hr, -, ht, -⟩ := C102_turbofan o f F
    exact ⟨_, by rw [h, Py.ok_bind, ht]⟩

end Aerokit.Props
