import Verif.Props.Cycle

/-! Property C72 for `cycle_taux_fan_calcule`. -/

namespace Aerokit.Props

open Cycle
open LinOperator (Meth)
open LinOperator.Meth (bind_ok get_apply lift_apply)

/-- Public methods of a `cycle_taux_fan_calcule` object. -/
inductive CalculeCall
  | InitialValues | stage_2 | stage_3 | stage_4 | calculs_1_to_4
  | stage_4_etoile | stage_5 | stage_9 | stage_13 | stage_19 | perfo | show_perfo | calculs_5_to_9
  deriving DecidableEq

/-- Execution of a method call. -/
noncomputable def CalculeCall.exec : CalculeCall → Meth Calcule Unit
  | .InitialValues => Calcule.inherit Cycle.InitialValues
  | .stage_2 => Calcule.inherit Cycle.stage_2
  | .stage_3 => Calcule.inherit Cycle.stage_3
  | .stage_4 => Calcule.inherit Cycle.stage_4
  | .calculs_1_to_4 => Calcule.inherit Cycle.calculs_1_to_4
  | .stage_4_etoile => Calcule.stage_4_etoile
  | .stage_5 => Calcule.stage_5
  | .stage_9 => Calcule.stage_9
  | .stage_13 => Calcule.stage_13
  | .stage_19 => Calcule.stage_19
  | .perfo => Calcule.perfo
  | .show_perfo => fun o => ((Calcule.show_perfo o).1.map fun _ => (), (Calcule.show_perfo o).2)
  | .calculs_5_to_9 => Calcule.calculs_5_to_9

/-- The object after its construction and a history of calls (exceptions caught by the caller). -/
noncomputable def calculeRun (i : Inp) (tm : ℝ) (cs : List CalculeCall) : Calcule :=
  cs.foldl (fun o c => (c.exec o).2) (Calcule.new i tm).2

/-- successive stages -/
structure CalculeOk (i : Inp) (tm : ℝ) (v : CalculeVals) : Prop where
  base : BaseVals.Ok i v.base
  h4e : val4e i v.base.s3 v.base.s4 = .ok v.s4e
  h5 : val5c i tm v.base.s3 v.base.s4 v.s4e = .ok v.s5
  h9 : val9 i v.base.s0 v.base.s3 v.s5.Tt5 v.s5.Pt5 = .ok v.s9
  h13 : val13c i v.base.s2 v.s5 = .ok v.s13
  h19 : val19 i v.base.s0 v.s13.m_f v.s13.Tt13 v.s13.Pt13 = .ok v.s19
  hP : valP i v.base.s0 v.base.s3 v.base.s4 v.s13.m_f v.s19 v.s9 = .ok v.perf

theorem calculeOk_of {i : Inp} {tm : ℝ} {v : CalculeVals} (h : calculeStraight i tm = .ok v) :
    CalculeOk i tm v := by
  unfold calculeStraight at h
  obtain ⟨s0, e0, h⟩ := Py.bind_inv h
  obtain ⟨s2, e2, h⟩ := Py.bind_inv h
  obtain ⟨s3, e3, h⟩ := Py.bind_inv h
  obtain ⟨s4, e4, h⟩ := Py.bind_inv h
  obtain ⟨s4e, e4e, h⟩ := Py.bind_inv h
  obtain ⟨s5, e5, h⟩ := Py.bind_inv h
  obtain ⟨s9, e9, h⟩ := Py.bind_inv h
  obtain ⟨s13, e13, h⟩ := Py.bind_inv h
  obtain ⟨s19, e19, h⟩ := Py.bind_inv h
  obtain ⟨p, eP, h⟩ := Py.bind_inv h
  injection h with h
  subst h
  exact ⟨⟨e0, e2, e3, e4⟩, e4e, e5, e9, e13, e19, eP⟩

/-- invariant of the object -/
structure KInv (i : Inp) (tm : ℝ) (v : CalculeVals) (o : Calcule) : Prop where
  b : BInv i v.base o.base
  pf : o.taux_meca = tm
  i4e : Is o.s4e v.s4e
  i5 : Is o.s5 v.s5
  i9 : Is o.s9 v.s9
  i13 : Is o.s13 v.s13
  i19 : Is o.s19 v.s19
  iP : Is o.perf v.perf
  c5 : 5 ≤ o.base.corps → o.s4e = some v.s4e
  c6 : 6 ≤ o.base.corps → o.s5 = some v.s5
  c9 : 9 ≤ o.base.corps → o.s9 = some v.s9
  f13 : 13 ≤ o.fan → o.s13 = some v.s13
  f19 : 19 ≤ o.fan → o.s19 = some v.s19
  wfan : o.fan = 0 ∨ o.fan = 13 ∨ o.fan = 19
  wcorps : o.base.corps ≤ 6 ∨ o.base.corps = 9
  w1 : 1 ≤ o.base.corps

/-- progress counters -/
def kabs (o : Calcule) : ℕ × ℕ × Bool := (o.base.corps, o.fan, o.perf.isSome)

/-- effect of `stage_4_etoile` on the progress counters -/
def k4e (a : ℕ × ℕ × Bool) : ℕ × ℕ × Bool := if a.1 = 4 then (5, a.2) else a
/-- effect of `stage_5` on the progress counters -/
def k5 (a : ℕ × ℕ × Bool) : ℕ × ℕ × Bool := if a.1 = 5 then (6, a.2) else a
/-- effect of `stage_9` on the progress counters -/
def k9 (a : ℕ × ℕ × Bool) : ℕ × ℕ × Bool := if a.1 = 6 then (9, a.2) else a
/-- effect of `stage_13` on the progress counters -/
def k13 (a : ℕ × ℕ × Bool) : ℕ × ℕ × Bool := if 6 ≤ a.1 then (a.1, 13, a.2.2) else a
/-- effect of `stage_19` on the progress counters -/
def k19 (a : ℕ × ℕ × Bool) : ℕ × ℕ × Bool := if a.2.1 = 13 then (a.1, 19, a.2.2) else a
/-- effect of `perfo` on the progress counters -/
def kP (a : ℕ × ℕ × Bool) : ℕ × ℕ × Bool := if a.1 = 9 ∧ a.2.1 = 19 then (a.1, a.2.1, true) else a
/-- first block of `calculs_5_to_9` -/
def q1 (a : ℕ × ℕ × Bool) : ℕ × ℕ × Bool := if a.1 = 4 then kP (k19 (k13 (k9 (k5 (k4e a))))) else a
/-- second block of `calculs_5_to_9` -/
def q2 (a : ℕ × ℕ × Bool) : ℕ × ℕ × Bool := if a.1 = 5 then kP (k19 (k13 (k9 (k5 a)))) else a
/-- third block of `calculs_5_to_9` -/
def q3 (a : ℕ × ℕ × Bool) : ℕ × ℕ × Bool := if a.1 = 6 then kP (k19 (k13 (k9 a))) else a
/-- fourth block of `calculs_5_to_9` -/
def q4 (a : ℕ × ℕ × Bool) : ℕ × ℕ × Bool := if a.1 = 9 then kP (k19 (k13 a)) else a
/-- fifth block of `calculs_5_to_9` -/
def q5 (a : ℕ × ℕ × Bool) : ℕ × ℕ × Bool := if a.2.1 = 13 then kP (k19 a) else a
/-- sixth block of `calculs_5_to_9` -/
def q6 (a : ℕ × ℕ × Bool) : ℕ × ℕ × Bool := if a.2.1 = 19 ∧ a.1 = 9 then kP a else a

variable {i : Inp} {tm : ℝ} {v : CalculeVals}

theorem kref_inherit {m : Meth Base Unit} {f : ℕ → ℕ} (h : Ref (BInv i v.base) Base.corps m f)
    (hf : ∀ c, 1 ≤ c → 1 ≤ f c ∧ (5 ≤ f c → f c = c)) :
    Ref (KInv i tm v) kabs (Calcule.inherit m) (fun a => (f a.1, a.2)) := by
  intro o ho
  obtain ⟨b', e, ib, ab⟩ := h o.base ho.b
  refine ⟨{ o with base := b' }, ?_, ?_, ?_⟩
  · unfold Calcule.inherit; rw [e]
  · have hc : b'.corps ≤ 4 ∨ b'.corps = o.base.corps := by
      rw [ab]
      have := hf o.base.corps ho.w1
      rcases Nat.lt_or_ge (f o.base.corps) 5 with h5 | h5
      · exact Or.inl (by omega)
      · exact Or.inr (this.2 h5)
    refine ⟨ib, ho.pf, ho.i4e, ho.i5, ho.i9, ho.i13, ho.i19, ho.iP, ?_, ?_, ?_, ho.f13, ho.f19,
      ho.wfan, ?_, ?_⟩
    · intro (h5 : 5 ≤ b'.corps); exact ho.c5 (by omega)
    · intro (h5 : 6 ≤ b'.corps); exact ho.c6 (by omega)
    · intro (h5 : 9 ≤ b'.corps); exact ho.c9 (by omega)
    · show b'.corps ≤ 6 ∨ b'.corps = 9
      have := ho.wcorps; omega
    · show 1 ≤ b'.corps
      rw [ab]; exact (hf _ ho.w1).1
  · show (b'.corps, _) = _
    rw [ab]; rfl

theorem kref_4e (V : CalculeOk i tm v) : Ref (KInv i tm v) kabs Calcule.stage_4_etoile k4e := by
  apply Ref.test' (fun o : Calcule => o.base.corps = 4) (fun a : ℕ × ℕ × Bool => a.1 = 4) (fun _ => Iff.rfl)
  intro o h hp
  refine ⟨{ o with s4e := some v.s4e, base := { o.base with corps := 5 } }, ?_, ?_, rfl⟩
  · rw [bind_ok (get_apply _ _),
      bind_ok (attr_ok (f := fun o : Calcule => o.base.s3) (h.b.c3 (by omega))),
      bind_ok (attr_ok (f := fun o : Calcule => o.base.s4) (h.b.c4 (by omega))), bind_ok
      (a := v.s4e) (s' := o) (by rw [lift_apply, h.b.inp, V.h4e])]
    rfl
  · exact ⟨h.b.move (by omega) 5, h.pf, Is.some _, h.i5, h.i9, h.i13, h.i19, h.iP, fun _ => rfl,
      fun k => absurd k (by simp), fun k => absurd k (by simp), h.f13, h.f19, h.wfan,
      Or.inl (by decide : 5 ≤ 6), (by decide : 1 ≤ 5)⟩

theorem kref_5 (V : CalculeOk i tm v) : Ref (KInv i tm v) kabs Calcule.stage_5 k5 := by
  apply Ref.test' (fun o : Calcule => o.base.corps = 5) (fun a : ℕ × ℕ × Bool => a.1 = 5) (fun _ => Iff.rfl)
  intro o h hp
  refine ⟨{ o with s5 := some v.s5, base := { o.base with corps := 6 } }, ?_, ?_, rfl⟩
  · rw [bind_ok (get_apply _ _), bind_ok (get_apply _ _),
      bind_ok (attr_ok (f := Calcule.s4e) (h.c5 (by omega))),
      bind_ok (attr_ok (f := fun o : Calcule => o.base.s3) (h.b.c3 (by omega))),
      bind_ok (attr_ok (f := fun o : Calcule => o.base.s4) (h.b.c4 (by omega))), bind_ok
      (a := v.s5) (s' := o) (by rw [lift_apply, h.b.inp, h.pf, V.h5])]
    rfl
  · exact ⟨h.b.move (by omega) 6, h.pf, h.i4e, Is.some _, h.i9, h.i13, h.i19, h.iP, fun _ => h.c5 (by omega),
      fun _ => rfl, fun k => absurd k (by simp), h.f13, h.f19, h.wfan,
      Or.inl (by decide : 6 ≤ 6), (by decide : 1 ≤ 6)⟩

theorem kref_9 (V : CalculeOk i tm v) : Ref (KInv i tm v) kabs Calcule.stage_9 k9 := by
  apply Ref.test' (fun o : Calcule => o.base.corps = 6) (fun a : ℕ × ℕ × Bool => a.1 = 6) (fun _ => Iff.rfl)
  intro o h hp
  refine ⟨{ o with s9 := some v.s9, base := { o.base with corps := 9 } }, ?_, ?_, rfl⟩
  · rw [bind_ok (get_apply _ _), bind_ok (attr_ok (f := Calcule.s5) (h.c6 (by omega))),
      bind_ok (attr_ok (f := fun o : Calcule => o.base.s3) (h.b.c3 (by omega))),
      bind_ok (attr_ok (f := fun o : Calcule => o.base.s0) (h.b.c0 (by omega))), bind_ok
      (a := v.s9) (s' := o) (by rw [lift_apply, h.b.inp, V.h9])]
    rfl
  · exact ⟨h.b.move (by omega) 9, h.pf, h.i4e, h.i5, Is.some _, h.i13, h.i19, h.iP, fun _ => h.c5 (by omega),
      fun _ => h.c6 (by omega), fun _ => rfl, h.f13, h.f19, h.wfan,
      Or.inr rfl, (by decide : 1 ≤ 9)⟩

theorem kref_13 (V : CalculeOk i tm v) : Ref (KInv i tm v) kabs Calcule.stage_13 k13 := by
  apply Ref.test' (fun o : Calcule => 6 ≤ o.base.corps) (fun a : ℕ × ℕ × Bool => 6 ≤ a.1) (fun _ => Iff.rfl)
  intro o h hp
  refine ⟨{ o with s13 := some v.s13, fan := 13 }, ?_, ?_, rfl⟩
  · rw [bind_ok (get_apply _ _), bind_ok (attr_ok (f := Calcule.s5) (h.c6 (by omega))),
      bind_ok (attr_ok (f := fun o : Calcule => o.base.s2) (h.b.c2 (by omega))), bind_ok
      (a := v.s13) (s' := o) (by rw [lift_apply, h.b.inp, V.h13])]
    rfl
  · exact ⟨h.b, h.pf, h.i4e, h.i5, h.i9, Is.some _, h.i19, h.iP, h.c5, h.c6, h.c9, fun _ => rfl,
      fun k => absurd k (by simp), Or.inr (Or.inl rfl), h.wcorps, h.w1⟩

theorem kref_19 (V : CalculeOk i tm v) : Ref (KInv i tm v) kabs Calcule.stage_19 k19 := by
  apply Ref.test' (fun o : Calcule => o.fan = 13) (fun a : ℕ × ℕ × Bool => a.2.1 = 13) (fun _ => Iff.rfl)
  intro o h hp
  refine ⟨{ o with s19 := some v.s19, fan := 19 }, ?_, ?_, rfl⟩
  · rw [bind_ok (get_apply _ _), bind_ok (attr_ok (f := Calcule.s13) (h.f13 (by omega))),
      bind_ok (attr_ok (f := fun o : Calcule => o.base.s0) (h.b.c0 h.w1)), bind_ok
      (a := v.s19) (s' := o) (by rw [lift_apply, h.b.inp, V.h19])]
    rfl
  · exact ⟨h.b, h.pf, h.i4e, h.i5, h.i9, h.i13, Is.some _, h.iP, h.c5, h.c6, h.c9,
      fun _ => h.f13 (by omega), fun _ => rfl, Or.inr (Or.inr rfl), h.wcorps, h.w1⟩

theorem kref_P (V : CalculeOk i tm v) : Ref (KInv i tm v) kabs Calcule.perfo kP := by
  apply Ref.test' (fun o : Calcule => o.base.corps = 9 ∧ o.fan = 19)
    (fun a : ℕ × ℕ × Bool => a.1 = 9 ∧ a.2.1 = 19) (fun _ => Iff.rfl)
  intro o h hp
  refine ⟨{ o with perf := some v.perf }, ?_, ?_, rfl⟩
  · rw [bind_ok (get_apply _ _), bind_ok (attr_ok (f := Calcule.s19) (h.f19 (by omega))),
      bind_ok (attr_ok (f := Calcule.s9) (h.c9 (by omega))),
      bind_ok (attr_ok (f := fun o : Calcule => o.base.s0) (h.b.c0 (by omega))),
      bind_ok (attr_ok (f := fun o : Calcule => o.base.s3) (h.b.c3 (by omega))),
      bind_ok (attr_ok (f := fun o : Calcule => o.base.s4) (h.b.c4 (by omega))),
      bind_ok (attr_ok (f := Calcule.s13) (h.f13 (by omega))), bind_ok
      (a := v.perf) (s' := o) (by rw [lift_apply, h.b.inp, V.hP])]
    rfl
  · exact ⟨h.b, h.pf, h.i4e, h.i5, h.i9, h.i13, h.i19, Is.some _, h.c5, h.c6, h.c9, h.f13, h.f19,
      h.wfan, h.wcorps, h.w1⟩

/-- effect of `calculs_5_to_9` on the progress counters -/
def kcalc (a : ℕ × ℕ × Bool) : ℕ × ℕ × Bool :=
  if 4 ≤ a.1 then (9, 19, true) else if a.2.1 = 13 then (a.1, 19, a.2.2) else a

theorem kcalc_eq (c f : ℕ) (p : Bool) (hf : f = 0 ∨ f = 13 ∨ f = 19) (hc : c ≤ 6 ∨ c = 9) (h1 : 1 ≤ c) :
    q6 (q5 (q4 (q3 (q2 (q1 (c, f, p)))))) = kcalc (c, f, p) := by
  have hc' : c = 1 ∨ c = 2 ∨ c = 3 ∨ c = 4 ∨ c = 5 ∨ c = 6 ∨ c = 9 := by omega
  rcases hf with rfl | rfl | rfl <;> rcases hc' with rfl | rfl | rfl | rfl | rfl | rfl | rfl <;>
    simp [q1, q2, q3, q4, q5, q6, k13, k19, k5, k9, kP, k4e, kcalc]

theorem kref_59 (V : CalculeOk i tm v) : Ref (KInv i tm v) kabs Calcule.calculs_5_to_9 kcalc := by
  have h1 : Ref (KInv i tm v) kabs _ q1 := Ref.test (fun o : Calcule => o.base.corps = 4)
    (fun a : ℕ × ℕ × Bool => a.1 = 4) (fun _ => Iff.rfl)
    ((kref_4e V).seq ((kref_5 V).seq ((kref_9 V).seq ((kref_13 V).seq ((kref_19 V).seq (kref_P V))))))
  have h2 : Ref (KInv i tm v) kabs _ q2 := Ref.test (fun o : Calcule => o.base.corps = 5)
    (fun a : ℕ × ℕ × Bool => a.1 = 5) (fun _ => Iff.rfl)
    ((kref_5 V).seq ((kref_9 V).seq ((kref_13 V).seq ((kref_19 V).seq (kref_P V)))))
  have h3 : Ref (KInv i tm v) kabs _ q3 := Ref.test (fun o : Calcule => o.base.corps = 6)
    (fun a : ℕ × ℕ × Bool => a.1 = 6) (fun _ => Iff.rfl)
    ((kref_9 V).seq ((kref_13 V).seq ((kref_19 V).seq (kref_P V))))
  have h4 : Ref (KInv i tm v) kabs _ q4 := Ref.test (fun o : Calcule => o.base.corps = 9)
    (fun a : ℕ × ℕ × Bool => a.1 = 9) (fun _ => Iff.rfl)
    ((kref_13 V).seq ((kref_19 V).seq (kref_P V)))
  have h5 : Ref (KInv i tm v) kabs _ q5 := Ref.test (fun o : Calcule => o.fan = 13)
    (fun a : ℕ × ℕ × Bool => a.2.1 = 13) (fun _ => Iff.rfl) ((kref_19 V).seq (kref_P V))
  have h6 : Ref (KInv i tm v) kabs _ q6 := Ref.test (fun o : Calcule => o.fan = 19 ∧ o.base.corps = 9)
    (fun a : ℕ × ℕ × Bool => a.2.1 = 19 ∧ a.1 = 9) (fun _ => Iff.rfl) (kref_P V)
  have h := h1.seq (h2.seq (h3.seq (h4.seq (h5.seq h6))))
  intro o ho
  obtain ⟨o', e, io, ao⟩ := h o ho
  refine ⟨o', e, io, ?_⟩
  rw [ao]
  exact kcalc_eq _ _ _ ho.wfan ho.wcorps ho.w1

theorem kinv_new (V : CalculeOk i tm v) : ∃ o, Calcule.new i tm = (.ok (), o) ∧ KInv i tm v o ∧
    kabs o = (4, 0, false) := by
  obtain ⟨b, e, ib, ab⟩ := ref_14 V.base (Base.new i) BInv.new
  have ab' : b.corps = 4 := ab
  refine ⟨⟨b, tm, 0, none, none, none, none, none, none⟩, ?_, ?_, ?_⟩
  · unfold Calcule.new Calcule.inherit
    rw [e]
  · exact ⟨ib, rfl, Is.none _, Is.none _, Is.none _, Is.none _, Is.none _, Is.none _,
      fun (k : 5 ≤ b.corps) => absurd k (by omega), fun (k : 6 ≤ b.corps) => absurd k (by omega),
      fun (k : 9 ≤ b.corps) => absurd k (by omega), fun (k : 13 ≤ 0) => absurd k (by decide),
      fun (k : 19 ≤ 0) => absurd k (by decide),
      Or.inl rfl, Or.inl (show b.corps ≤ 6 by omega), show 1 ≤ b.corps by omega⟩
  · show (b.corps, 0, false) = _
    rw [ab']

/-- Every method except `show_perfo` raises nothing and keeps the invariant; only `InitialValues`
moves the core counter below 4. -/
theorem kexec (V : CalculeOk i tm v) (c : CalculeCall) (hc : c ≠ .show_perfo) (o : Calcule) (ho : KInv i tm v o) :
    ∃ o', c.exec o = (.ok (), o') ∧ KInv i tm v o' ∧
      (c ≠ .InitialValues → 4 ≤ o.base.corps → 4 ≤ o'.base.corps) := by
  have key : ∀ {m : Meth Calcule Unit} {f : ℕ × ℕ × Bool → ℕ × ℕ × Bool}, Ref (KInv i tm v) kabs m f →
      (∀ a, 4 ≤ a.1 → 4 ≤ (f a).1) → ∃ o', m o = (.ok (), o') ∧ KInv i tm v o' ∧
      (4 ≤ o.base.corps → 4 ≤ o'.base.corps) := by
    intro m f h hf
    obtain ⟨o', e, io, ao⟩ := h o ho
    refine ⟨o', e, io, fun h4 => ?_⟩
    have : (kabs o').1 = (f (kabs o)).1 := by rw [ao]
    have h2 : o'.base.corps = (f (kabs o)).1 := this
    rw [h2]; exact hf _ h4
  cases c with
  | show_perfo => exact absurd rfl hc
  | InitialValues =>
    obtain ⟨o', e, io, -⟩ := kref_inherit (ref_init V.base) (fun c _ => ⟨le_refl 1, fun h => absurd h (by decide)⟩) o ho
    exact ⟨o', e, io, fun h => absurd rfl h⟩
  | stage_2 =>
    obtain ⟨o', e, io, h4⟩ := key (kref_inherit (ref_2 V.base) (fun c _ => by
      constructor
      · show 1 ≤ if c = 1 then 2 else c
        split <;> omega
      · show 5 ≤ (if c = 1 then 2 else c) → (if c = 1 then 2 else c) = c
        split <;> omega)) (fun a h => by
        show 4 ≤ if a.1 = 1 then 2 else a.1
        split <;> omega)
    exact ⟨o', e, io, fun _ => h4⟩
  | stage_3 =>
    obtain ⟨o', e, io, h4⟩ := key (kref_inherit (ref_3 V.base) (fun c _ => by
      constructor
      · show 1 ≤ if c = 2 then 3 else c
        split <;> omega
      · show 5 ≤ (if c = 2 then 3 else c) → (if c = 2 then 3 else c) = c
        split <;> omega)) (fun a h => by
        show 4 ≤ if a.1 = 2 then 3 else a.1
        split <;> omega)
    exact ⟨o', e, io, fun _ => h4⟩
  | stage_4 =>
    obtain ⟨o', e, io, h4⟩ := key (kref_inherit (ref_4 V.base) (fun c _ => by
      constructor
      · show 1 ≤ if c = 3 then 4 else c
        split <;> omega
      · show 5 ≤ (if c = 3 then 4 else c) → (if c = 3 then 4 else c) = c
        split <;> omega)) (fun a h => by
        show 4 ≤ if a.1 = 3 then 4 else a.1
        split <;> omega)
    exact ⟨o', e, io, fun _ => h4⟩
  | calculs_1_to_4 =>
    obtain ⟨o', e, io, h4⟩ := key (kref_inherit (ref_14 V.base) (fun c _ => by
      constructor
      · show 1 ≤ if c < 4 then 4 else c
        split <;> omega
      · show 5 ≤ (if c < 4 then 4 else c) → (if c < 4 then 4 else c) = c
        split <;> omega)) (fun a h => by
        show 4 ≤ if a.1 < 4 then 4 else a.1
        split <;> omega)
    exact ⟨o', e, io, fun _ => h4⟩
  | stage_4_etoile =>
    obtain ⟨o', e, io, h4⟩ := key (kref_4e V) (fun a h => by unfold k4e; split <;> first | exact h | exact (by decide : 4 ≤ 5))
    exact ⟨o', e, io, fun _ => h4⟩
  | stage_13 =>
    obtain ⟨o', e, io, h4⟩ := key (kref_13 V) (fun a h => by unfold k13; split <;> exact h)
    exact ⟨o', e, io, fun _ => h4⟩
  | stage_19 =>
    obtain ⟨o', e, io, h4⟩ := key (kref_19 V) (fun a h => by unfold k19; split <;> exact h)
    exact ⟨o', e, io, fun _ => h4⟩
  | stage_5 =>
    obtain ⟨o', e, io, h4⟩ := key (kref_5 V) (fun a h => by unfold k5; split <;> first | exact h | exact (by decide : 4 ≤ 6))
    exact ⟨o', e, io, fun _ => h4⟩
  | stage_9 =>
    obtain ⟨o', e, io, h4⟩ := key (kref_9 V) (fun a h => by unfold k9; split <;> first | exact h | exact (by decide : 4 ≤ 9))
    exact ⟨o', e, io, fun _ => h4⟩
  | perfo =>
    obtain ⟨o', e, io, h4⟩ := key (kref_P V) (fun a h => by unfold kP; split <;> exact h)
    exact ⟨o', e, io, fun _ => h4⟩
  | calculs_5_to_9 =>
    obtain ⟨o', e, io, h4⟩ := key (kref_59 V) (fun a h => by unfold kcalc; rw [if_pos h]; decide)
    exact ⟨o', e, io, fun _ => h4⟩

theorem kshow_state (o : Calcule) : (Calcule.show_perfo o).2 = o := by
  unfold Calcule.show_perfo
  rw [bind_ok (get_apply _ _), bind_ok (get_apply _ _)]
  split
  · rw [LinOperator.Meth.bind_apply]
    unfold attr
    cases o.perf <;> rfl
  · rfl

/-- Reachable states satisfy the invariant. -/
theorem krun_inv (V : CalculeOk i tm v) (cs : List CalculeCall) : KInv i tm v (calculeRun i tm cs) ∧
    (.InitialValues ∉ cs → 4 ≤ (calculeRun i tm cs).base.corps) := by
  obtain ⟨o0, e0, i0, a0⟩ := kinv_new V
  have h0 : 4 ≤ o0.base.corps := by
    have : (kabs o0).1 = 4 := by rw [a0]
    exact this.ge
  unfold calculeRun
  rw [e0]
  clear e0 a0
  have : ∀ (cs : List CalculeCall) (o : Calcule), KInv i tm v o →
      KInv i tm v (cs.foldl (fun o c => (c.exec o).2) o) ∧
      (.InitialValues ∉ cs → 4 ≤ o.base.corps → 4 ≤ (cs.foldl (fun o c => (c.exec o).2) o).base.corps) := by
    intro cs
    induction cs with
    | nil => intro o ho; exact ⟨ho, fun _ h => h⟩
    | cons c cs ih =>
      intro o ho
      rw [List.foldl_cons]
      by_cases hc : c = .show_perfo
      · subst hc
        have : (CalculeCall.exec .show_perfo o).2 = o := kshow_state o
        rw [this]
        obtain ⟨h1, h2⟩ := ih o ho
        exact ⟨h1, fun hn => h2 (fun hm => hn (List.mem_cons_of_mem _ hm))⟩
      · obtain ⟨o', e, io, h4⟩ := kexec V c hc o ho
        rw [e]
        obtain ⟨h1, h2⟩ := ih o' io
        refine ⟨h1, fun hn hh => h2 (fun hm => hn (List.mem_cons_of_mem _ hm)) (h4 (fun h => hn ?_) hh)⟩
        rw [h]; exact List.mem_cons_self
  obtain ⟨h1, h2⟩ := this cs o0 i0
  exact ⟨h1, fun hn => h2 hn h0⟩

/-! ### C72 for `cycle_taux_fan_calcule` -/

/-- After any history of calls on a fan-computed cycle whose straight-line computation is defined,
each stored stage holds the straight-line values. -/
theorem C72_calcule_values (i : Inp) (tm : ℝ) (v : CalculeVals) (h : calculeStraight i tm = .ok v)
    (cs : List CalculeCall) :
    (∀ s, (calculeRun i tm cs).base.s0 = some s → s = v.base.s0) ∧
    (∀ s, (calculeRun i tm cs).base.s2 = some s → s = v.base.s2) ∧
    (∀ s, (calculeRun i tm cs).base.s3 = some s → s = v.base.s3) ∧
    (∀ s, (calculeRun i tm cs).base.s4 = some s → s = v.base.s4) ∧
    (∀ s, (calculeRun i tm cs).s4e = some s → s = v.s4e) ∧
    (∀ s, (calculeRun i tm cs).s13 = some s → s = v.s13) ∧
    (∀ s, (calculeRun i tm cs).s19 = some s → s = v.s19) ∧
    (∀ s, (calculeRun i tm cs).s5 = some s → s = v.s5) ∧
    (∀ s, (calculeRun i tm cs).s9 = some s → s = v.s9) ∧
    (∀ s, (calculeRun i tm cs).perf = some s → s = v.perf) := by
  have I := (krun_inv (calculeOk_of h) cs).1
  exact ⟨I.b.i0, I.b.i2, I.b.i3, I.b.i4, I.i4e, I.i13, I.i19, I.i5, I.i9, I.iP⟩

/-- After any history, no method except `show_perfo` raises. -/
theorem C72_calcule_no_error (i : Inp) (tm : ℝ) (v : CalculeVals) (h : calculeStraight i tm = .ok v)
    (cs : List CalculeCall) (c : CalculeCall) (hc : c ≠ .show_perfo) :
    (c.exec (calculeRun i tm cs)).1 = .ok () := by
  obtain ⟨o', e, -⟩ := kexec (calculeOk_of h) c hc _ (krun_inv (calculeOk_of h) cs).1
  rw [e]

theorem kshow_ok {o : Calcule} {p : Perf} (hf : o.fan = 19) (hc : o.base.corps = 9) (hp : o.perf = some p) :
    Calcule.show_perfo o = (.ok (some p), o) := by
  unfold Calcule.show_perfo
  rw [bind_ok (get_apply _ _), bind_ok (get_apply _ _), if_pos ⟨hf, hc⟩,
    bind_ok (attr_ok (f := Calcule.perf) hp)]
  rfl

theorem kcomplete (V : CalculeOk i tm v) (o : Calcule) (ho : KInv i tm v o) (h4 : 4 ≤ o.base.corps) :
    ∃ o', Calcule.calculs_5_to_9 o = (.ok (), o') ∧ o'.perf = some v.perf ∧
      Calcule.show_perfo o' = (.ok (some v.perf), o') := by
  obtain ⟨o', e, io, ao⟩ := kref_59 V o ho
  have ha : kabs o' = (9, 19, true) := by rw [ao]; exact if_pos h4
  have hc : o'.base.corps = 9 := congrArg (fun a => a.1) ha
  have hf : o'.fan = 19 := congrArg (fun a => a.2.1) ha
  have hs : o'.perf.isSome = true := congrArg (fun a => a.2.2) ha
  obtain ⟨p, hp⟩ := Option.isSome_iff_exists.mp hs
  have := io.iP p hp
  subst this
  exact ⟨o', e, hp, kshow_ok hf hc hp⟩

/-- After any history (including calls out of order), recomputing the first stages and then the
others gives the performances of the straight-line computation, and `show_perfo` prints them. -/
theorem C72_calcule_recompute (i : Inp) (tm : ℝ) (v : CalculeVals) (h : calculeStraight i tm = .ok v)
    (cs : List CalculeCall) :
    (calculeRun i tm (cs ++ [.calculs_1_to_4, .calculs_5_to_9])).perf = some v.perf ∧
    (Calcule.show_perfo (calculeRun i tm (cs ++ [.calculs_1_to_4, .calculs_5_to_9]))).1 = .ok (some v.perf) := by
  have V := calculeOk_of h
  have I := (krun_inv V cs).1
  have e : calculeRun i tm (cs ++ [.calculs_1_to_4, .calculs_5_to_9]) =
      (Calcule.calculs_5_to_9 (Calcule.inherit Cycle.calculs_1_to_4 (calculeRun i tm cs)).2).2 := by
    unfold calculeRun
    rw [List.foldl_append]
    rfl
  obtain ⟨o1, e1, i1, a1⟩ := kref_inherit (ref_14 V.base) (fun c _ => by
      constructor
      · show 1 ≤ if c < 4 then 4 else c
        split <;> omega
      · show 5 ≤ (if c < 4 then 4 else c) → (if c < 4 then 4 else c) = c
        split <;> omega) _ I
  have h4 : 4 ≤ o1.base.corps := by
    have : o1.base.corps = if (calculeRun i tm cs).base.corps < 4 then 4 else (calculeRun i tm cs).base.corps :=
      congrArg (fun a => a.1) a1
    rw [this]; split <;> omega
  obtain ⟨o2, e2, hp, hs⟩ := kcomplete V o1 i1 h4
  rw [e, e1, e2]
  exact ⟨hp, by rw [hs]⟩

/-- `calculs_5_to_9` alone completes the cycle after every history without `InitialValues`.
(Partial: the intended property has no restriction on the history, see the next theorem.) -/
theorem C72_calcule_complete_partial (i : Inp) (tm : ℝ) (v : CalculeVals) (h : calculeStraight i tm = .ok v)
    (cs : List CalculeCall) (hcs : .InitialValues ∉ cs) :
    (calculeRun i tm (cs ++ [.calculs_5_to_9])).perf = some v.perf ∧
    (Calcule.show_perfo (calculeRun i tm (cs ++ [.calculs_5_to_9]))).1 = .ok (some v.perf) := by
  have V := calculeOk_of h
  obtain ⟨I, h4⟩ := krun_inv V cs
  have e : calculeRun i tm (cs ++ [.calculs_5_to_9]) = (Calcule.calculs_5_to_9 (calculeRun i tm cs)).2 := by
    unfold calculeRun
    rw [List.foldl_append]
    rfl
  obtain ⟨o2, e2, hp, hs⟩ := kcomplete V _ I (h4 hcs)
  rw [e, e2]
  exact ⟨hp, by rw [hs]⟩

/-- Running `InitialValues` again resets the progress counter: `calculs_5_to_9` then computes
nothing, without an error. -/
theorem C72_calcule_complete_false (i : Inp) (tm : ℝ) (v : CalculeVals) (h : calculeStraight i tm = .ok v) :
    (calculeRun i tm [.InitialValues, .calculs_5_to_9]).perf = none ∧
    (CalculeCall.exec .calculs_5_to_9 (calculeRun i tm [.InitialValues])).1 = .ok () := by
  have V := calculeOk_of h
  obtain ⟨o0, e0, i0, a0⟩ := kinv_new V
  obtain ⟨o1, e1, i1, a1⟩ := kref_inherit (ref_init V.base)
    (fun c _ => ⟨le_refl 1, fun h => absurd h (by decide)⟩) o0 i0
  obtain ⟨o2, e2, i2, a2⟩ := kref_59 V o1 i1
  have r1 : calculeRun i tm [.InitialValues] = o1 := by
    show (Calcule.inherit Cycle.InitialValues (Calcule.new i tm).2).2 = _
    rw [e0, e1]
  have r2 : calculeRun i tm [.InitialValues, .calculs_5_to_9] = o2 := by
    show (Calcule.calculs_5_to_9 (Calcule.inherit Cycle.InitialValues (Calcule.new i tm).2).2).2 = _
    rw [e0, e1, e2]
  rw [a1, a0] at a2
  have a3 : kabs o2 = (1, 0, false) := a2
  have hs : o2.perf.isSome = false := congrArg (fun a => a.2.2) a3
  rw [r1, r2]
  refine ⟨Option.isNone_iff_eq_none.mp (by rw [Option.isNone_iff_eq_none]; cases hp : o2.perf with
    | none => rfl
    | some p => rw [hp] at hs; exact absurd hs (by simp)), ?_⟩
  show (Calcule.calculs_5_to_9 o1).1 = _
  rw [e2]

/-- Running the stages one by one without `perfo`, then `show_perfo`, raises `AttributeError`. -/
theorem C72_calcule_show_false (i : Inp) (tm : ℝ) (v : CalculeVals) (h : calculeStraight i tm = .ok v) :
    (Calcule.show_perfo (calculeRun i tm [.stage_4_etoile, .stage_5, .stage_9, .stage_13, .stage_19])).1
      = .error .attributeError := by
  have V := calculeOk_of h
  obtain ⟨o0, e0, i0, a0⟩ := kinv_new V
  obtain ⟨o1, e1, i1, a1⟩ := kref_4e V o0 i0
  obtain ⟨o2, e2, i2, a2⟩ := kref_5 V o1 i1
  obtain ⟨o3, e3, i3, a3⟩ := kref_9 V o2 i2
  obtain ⟨o4, e4, i4, a4⟩ := kref_13 V o3 i3
  obtain ⟨o5, e5, i5, a5⟩ := kref_19 V o4 i4
  have r : calculeRun i tm [.stage_4_etoile, .stage_5, .stage_9, .stage_13, .stage_19] = o5 := by
    show (Calcule.stage_19 (Calcule.stage_13 (Calcule.stage_9 (Calcule.stage_5 (Calcule.stage_4_etoile
      (Calcule.new i tm).2).2).2).2).2).2 = _
    rw [e0, e1, e2, e3, e4, e5]
  have ha : kabs o5 = (9, 19, false) := by
    rw [a5, a4, a3, a2, a1, a0]
    simp [k13, k19, k5, k9, k4e]
  have hc : o5.base.corps = 9 := congrArg (fun a => a.1) ha
  have hf : o5.fan = 19 := congrArg (fun a => a.2.1) ha
  have hs : o5.perf.isSome = false := congrArg (fun a => a.2.2) ha
  have hp : o5.perf = none := by
    cases hp : o5.perf with
    | none => rfl
    | some p => rw [hp] at hs; exact absurd hs (by simp)
  rw [r]
  unfold Calcule.show_perfo
  rw [bind_ok (get_apply _ _), bind_ok (get_apply _ _), if_pos ⟨hf, hc⟩, LinOperator.Meth.bind_apply]
  unfold attr
  rw [hp]

end Aerokit.Props
