import Verif.Lemmas.Cycle

/-! Property C72: stage machines of `Cycle_Turbofan.py`. -/

namespace Aerokit.Props

open Cycle
open LinOperator (Meth)
open LinOperator.Meth (bind_ok get_apply lift_apply)

/-! ### The straight-line computations (specification) -/

/-- Values of all the stages of a cycle with fixed fan pressure ratio. -/
structure FixeVals where
  base : BaseVals
  s13 : S13
  s19 : S19
  s5 : S5
  s9 : S9
  perf : Perf

/-- All the stages computed once, in the natural order. -/
noncomputable def fixeStraight (i : Inp) (pi_f : ℝ) : Py FixeVals := do
  let s0 ← val0 i
  let s2 ← val2 s0
  let s3 ← val3 i s2
  let s4 ← val4 i s3
  let s13 ← val13 i pi_f s2
  let s19 ← val19 i s0 s13.m_f s13.Tt13 s13.Pt13
  let s5 ← val5 i s3 s4 s13
  let s9 ← val9 i s0 s3 s5.Tt5 s5.Pt5
  let perf ← valP i s0 s3 s4 s13.m_f s19 s9
  return ⟨⟨s0, s2, s3, s4⟩, s13, s19, s5, s9, perf⟩

/-- Values of all the stages of a cycle with computed fan pressure ratio. -/
structure CalculeVals where
  base : BaseVals
  s4e : S4e
  s5 : S5c
  s9 : S9
  s13 : S13c
  s19 : S19
  perf : Perf

/-- All the stages computed once, in the natural order. -/
noncomputable def calculeStraight (i : Inp) (taux_meca : ℝ) : Py CalculeVals := do
  let s0 ← val0 i
  let s2 ← val2 s0
  let s3 ← val3 i s2
  let s4 ← val4 i s3
  let s4e ← val4e i s3 s4
  let s5 ← val5c i taux_meca s3 s4 s4e
  let s9 ← val9 i s0 s3 s5.Tt5 s5.Pt5
  let s13 ← val13c i s2 s5
  let s19 ← val19 i s0 s13.m_f s13.Tt13 s13.Pt13
  let perf ← valP i s0 s3 s4 s13.m_f s19 s9
  return ⟨⟨s0, s2, s3, s4⟩, s4e, s5, s9, s13, s19, perf⟩

/-! ### `cycle_taux_fan_fixe` -/

/-- Public methods of a `cycle_taux_fan_fixe` object. -/
inductive FixeCall
  | InitialValues | stage_2 | stage_3 | stage_4 | calculs_1_to_4
  | stage_13 | stage_19 | stage_5 | stage_9 | perfo | show_perfo | calculs_5_to_9
  deriving DecidableEq

/-- Execution of a method call. -/
noncomputable def FixeCall.exec : FixeCall → Meth Fixe Unit
  | .InitialValues => Fixe.inherit Cycle.InitialValues
  | .stage_2 => Fixe.inherit Cycle.stage_2
  | .stage_3 => Fixe.inherit Cycle.stage_3
  | .stage_4 => Fixe.inherit Cycle.stage_4
  | .calculs_1_to_4 => Fixe.inherit Cycle.calculs_1_to_4
  | .stage_13 => Fixe.stage_13
  | .stage_19 => Fixe.stage_19
  | .stage_5 => Fixe.stage_5
  | .stage_9 => Fixe.stage_9
  | .perfo => Fixe.perfo
  | .show_perfo => fun o => ((Fixe.show_perfo o).1.map fun _ => (), (Fixe.show_perfo o).2)
  | .calculs_5_to_9 => Fixe.calculs_5_to_9

/-- The object after its construction and a history of calls (exceptions caught by the caller). -/
noncomputable def fixeRun (i : Inp) (pi_f : ℝ) (cs : List FixeCall) : Fixe :=
  cs.foldl (fun o c => (c.exec o).2) (Fixe.new i pi_f).2

/-- successive stages -/
structure FixeOk (i : Inp) (pi_f : ℝ) (v : FixeVals) : Prop where
  base : BaseVals.Ok i v.base
  h13 : val13 i pi_f v.base.s2 = .ok v.s13
  h19 : val19 i v.base.s0 v.s13.m_f v.s13.Tt13 v.s13.Pt13 = .ok v.s19
  h5 : val5 i v.base.s3 v.base.s4 v.s13 = .ok v.s5
  h9 : val9 i v.base.s0 v.base.s3 v.s5.Tt5 v.s5.Pt5 = .ok v.s9
  hP : valP i v.base.s0 v.base.s3 v.base.s4 v.s13.m_f v.s19 v.s9 = .ok v.perf

theorem fixeOk_of {i : Inp} {pi_f : ℝ} {v : FixeVals} (h : fixeStraight i pi_f = .ok v) :
    FixeOk i pi_f v := by
  unfold fixeStraight at h
  obtain ⟨s0, e0, h⟩ := Py.bind_inv h
  obtain ⟨s2, e2, h⟩ := Py.bind_inv h
  obtain ⟨s3, e3, h⟩ := Py.bind_inv h
  obtain ⟨s4, e4, h⟩ := Py.bind_inv h
  obtain ⟨s13, e13, h⟩ := Py.bind_inv h
  obtain ⟨s19, e19, h⟩ := Py.bind_inv h
  obtain ⟨s5, e5, h⟩ := Py.bind_inv h
  obtain ⟨s9, e9, h⟩ := Py.bind_inv h
  obtain ⟨p, eP, h⟩ := Py.bind_inv h
  injection h with h
  subst h
  exact ⟨⟨e0, e2, e3, e4⟩, e13, e19, e5, e9, eP⟩

/-- invariant of the object -/
structure FInv (i : Inp) (pi_f : ℝ) (v : FixeVals) (o : Fixe) : Prop where
  b : BInv i v.base o.base
  pf : o.pi_f = pi_f
  i13 : Is o.s13 v.s13
  i19 : Is o.s19 v.s19
  i5 : Is o.s5 v.s5
  i9 : Is o.s9 v.s9
  iP : Is o.perf v.perf
  f13 : 13 ≤ o.fan → o.s13 = some v.s13
  f19 : 19 ≤ o.fan → o.s19 = some v.s19
  c5 : 5 ≤ o.base.corps → o.s5 = some v.s5
  c9 : 9 ≤ o.base.corps → o.s9 = some v.s9
  f0 : o.fan = 0 → o.base.corps ≤ 4
  wfan : o.fan = 0 ∨ o.fan = 13 ∨ o.fan = 19
  wcorps : o.base.corps ≤ 5 ∨ o.base.corps = 9
  w1 : 1 ≤ o.base.corps

/-- progress counters -/
def fabs (o : Fixe) : ℕ × ℕ × Bool := (o.base.corps, o.fan, o.perf.isSome)

/-- effect of `stage_13` on the progress counters -/
def f13 (a : ℕ × ℕ × Bool) : ℕ × ℕ × Bool := if 2 ≤ a.1 then (a.1, 13, a.2.2) else a
/-- effect of `stage_19` on the progress counters -/
def f19 (a : ℕ × ℕ × Bool) : ℕ × ℕ × Bool := if a.2.1 = 13 then (a.1, 19, a.2.2) else a
/-- effect of `stage_5` on the progress counters -/
def f5 (a : ℕ × ℕ × Bool) : ℕ × ℕ × Bool := if a.1 = 4 ∧ 13 ≤ a.2.1 then (5, a.2) else a
/-- effect of `stage_9` on the progress counters -/
def f9 (a : ℕ × ℕ × Bool) : ℕ × ℕ × Bool := if a.1 = 5 then (9, a.2) else a
/-- effect of `perfo` on the progress counters -/
def fP (a : ℕ × ℕ × Bool) : ℕ × ℕ × Bool := if a.1 = 9 ∧ a.2.1 = 19 then (a.1, a.2.1, true) else a
/-- first block of `calculs_5_to_9` -/
def g1 (a : ℕ × ℕ × Bool) : ℕ × ℕ × Bool := if a.2.1 = 0 then fP (f9 (f5 (f19 (f13 a)))) else a
/-- second block of `calculs_5_to_9` -/
def g2 (a : ℕ × ℕ × Bool) : ℕ × ℕ × Bool := if a.2.1 = 13 then fP (f9 (f5 (f19 a))) else a
/-- third block of `calculs_5_to_9` -/
def g3 (a : ℕ × ℕ × Bool) : ℕ × ℕ × Bool := if a.2.1 = 19 then fP (f9 (f5 a)) else a
/-- fourth block of `calculs_5_to_9` -/
def g4 (a : ℕ × ℕ × Bool) : ℕ × ℕ × Bool := if a.1 = 5 then fP (f9 a) else a
/-- fifth block of `calculs_5_to_9` -/
def g5 (a : ℕ × ℕ × Bool) : ℕ × ℕ × Bool := if a.2.1 = 19 ∧ a.1 = 9 then fP a else a

variable {i : Inp} {pi_f : ℝ} {v : FixeVals}

theorem fref_inherit {m : Meth Base Unit} {f : ℕ → ℕ} (h : Ref (BInv i v.base) Base.corps m f)
    (hf : ∀ c, 1 ≤ c → 1 ≤ f c ∧ (5 ≤ f c → f c = c)) :
    Ref (FInv i pi_f v) fabs (Fixe.inherit m) (fun a => (f a.1, a.2)) := by
  intro o ho
  obtain ⟨b', e, ib, ab⟩ := h o.base ho.b
  refine ⟨{ o with base := b' }, ?_, ?_, ?_⟩
  · unfold Fixe.inherit; rw [e]
  · have hc : b'.corps ≤ 4 ∨ b'.corps = o.base.corps := by
      rw [ab]
      have := hf o.base.corps ho.w1
      rcases Nat.lt_or_ge (f o.base.corps) 5 with h5 | h5
      · exact Or.inl (by omega)
      · exact Or.inr (this.2 h5)
    refine ⟨ib, ho.pf, ho.i13, ho.i19, ho.i5, ho.i9, ho.iP, ho.f13, ho.f19, ?_, ?_, ?_, ho.wfan, ?_, ?_⟩
    · intro (h5 : 5 ≤ b'.corps); exact ho.c5 (by omega)
    · intro (h5 : 9 ≤ b'.corps); exact ho.c9 (by omega)
    · intro h0
      show b'.corps ≤ 4
      have := ho.f0 h0; omega
    · show b'.corps ≤ 5 ∨ b'.corps = 9
      have := ho.wcorps; omega
    · show 1 ≤ b'.corps
      rw [ab]; exact (hf _ ho.w1).1
  · show (b'.corps, _) = _
    rw [ab]; rfl

theorem fref_13 (V : FixeOk i pi_f v) : Ref (FInv i pi_f v) fabs Fixe.stage_13 f13 := by
  apply Ref.test' (fun o : Fixe => 2 ≤ o.base.corps) (fun a : ℕ × ℕ × Bool => 2 ≤ a.1) (fun _ => Iff.rfl)
  intro o h hp
  refine ⟨{ o with s13 := some v.s13, fan := 13 }, ?_, ?_, rfl⟩
  · rw [bind_ok (get_apply _ _), bind_ok (get_apply _ _),
      bind_ok (attr_ok (f := fun o : Fixe => o.base.s2) (h.b.c2 hp)), bind_ok
      (a := v.s13) (s' := o) (by rw [lift_apply, h.b.inp, h.pf, V.h13])]
    rfl
  · exact ⟨h.b, h.pf, Is.some _, h.i19, h.i5, h.i9, h.iP, fun _ => rfl, fun k => absurd k (by simp),
      h.c5, h.c9, fun k => absurd k (by simp), Or.inr (Or.inl rfl), h.wcorps, h.w1⟩

theorem fref_19 (V : FixeOk i pi_f v) :
    Ref (FInv i pi_f v) fabs Fixe.stage_19 f19 := by
  apply Ref.test' (fun o : Fixe => o.fan = 13) (fun a : ℕ × ℕ × Bool => a.2.1 = 13) (fun _ => Iff.rfl)
  intro o h hp
  refine ⟨{ o with s19 := some v.s19, fan := 19 }, ?_, ?_, rfl⟩
  · rw [bind_ok (get_apply _ _), bind_ok (attr_ok (f := Fixe.s13) (h.f13 (by omega))),
      bind_ok (attr_ok (f := fun o : Fixe => o.base.s0) (h.b.c0 h.w1)), bind_ok
      (a := v.s19) (s' := o) (by rw [lift_apply, h.b.inp, V.h19])]
    rfl
  · exact ⟨h.b, h.pf, h.i13, Is.some _, h.i5, h.i9, h.iP, fun _ => h.f13 (by omega), fun _ => rfl,
      h.c5, h.c9, fun k => absurd k (by simp), Or.inr (Or.inr rfl), h.wcorps, h.w1⟩

theorem fref_5 (V : FixeOk i pi_f v) :
    Ref (FInv i pi_f v) fabs Fixe.stage_5 f5 := by
  apply Ref.test' (fun o : Fixe => o.base.corps = 4 ∧ 13 ≤ o.fan)
    (fun a : ℕ × ℕ × Bool => a.1 = 4 ∧ 13 ≤ a.2.1) (fun _ => Iff.rfl)
  intro o h hp
  refine ⟨{ o with s5 := some v.s5, base := { o.base with corps := 5 } }, ?_, ?_, rfl⟩
  · rw [bind_ok (get_apply _ _), bind_ok (attr_ok (f := Fixe.s13) (h.f13 (by omega))),
      bind_ok (attr_ok (f := fun o : Fixe => o.base.s3) (h.b.c3 (by omega))),
      bind_ok (attr_ok (f := fun o : Fixe => o.base.s4) (h.b.c4 (by omega))), bind_ok
      (a := v.s5) (s' := o) (by rw [lift_apply, h.b.inp, V.h5])]
    rfl
  · exact ⟨h.b.move (by omega) 5, h.pf, h.i13, h.i19, Is.some _, h.i9, h.iP, h.f13, h.f19,
      fun _ => rfl, fun k => absurd k (by simp), fun k => by have : o.fan = 0 := k; omega, h.wfan,
      Or.inl (le_refl 5), (by decide : 1 ≤ 5)⟩

theorem fref_9 (V : FixeOk i pi_f v) :
    Ref (FInv i pi_f v) fabs Fixe.stage_9 f9 := by
  apply Ref.test' (fun o : Fixe => o.base.corps = 5) (fun a : ℕ × ℕ × Bool => a.1 = 5) (fun _ => Iff.rfl)
  intro o h hp
  refine ⟨{ o with s9 := some v.s9, base := { o.base with corps := 9 } }, ?_, ?_, rfl⟩
  · rw [bind_ok (get_apply _ _), bind_ok (attr_ok (f := Fixe.s5) (h.c5 (by omega))),
      bind_ok (attr_ok (f := fun o : Fixe => o.base.s3) (h.b.c3 (by omega))),
      bind_ok (attr_ok (f := fun o : Fixe => o.base.s0) (h.b.c0 (by omega))), bind_ok
      (a := v.s9) (s' := o) (by rw [lift_apply, h.b.inp, V.h9])]
    rfl
  · exact ⟨h.b.move (by omega) 9, h.pf, h.i13, h.i19, h.i5, Is.some _, h.iP, h.f13, h.f19,
      fun _ => h.c5 (by omega), fun _ => rfl, fun k => by have := h.f0 k; omega, h.wfan,
      Or.inr rfl, (by decide : 1 ≤ 9)⟩

theorem fref_P (V : FixeOk i pi_f v) :
    Ref (FInv i pi_f v) fabs Fixe.perfo fP := by
  apply Ref.test' (fun o : Fixe => o.base.corps = 9 ∧ o.fan = 19)
    (fun a : ℕ × ℕ × Bool => a.1 = 9 ∧ a.2.1 = 19) (fun _ => Iff.rfl)
  intro o h hp
  refine ⟨{ o with perf := some v.perf }, ?_, ?_, rfl⟩
  · rw [bind_ok (get_apply _ _), bind_ok (attr_ok (f := Fixe.s19) (h.f19 (by omega))),
      bind_ok (attr_ok (f := Fixe.s9) (h.c9 (by omega))),
      bind_ok (attr_ok (f := fun o : Fixe => o.base.s0) (h.b.c0 (by omega))),
      bind_ok (attr_ok (f := fun o : Fixe => o.base.s3) (h.b.c3 (by omega))),
      bind_ok (attr_ok (f := fun o : Fixe => o.base.s4) (h.b.c4 (by omega))),
      bind_ok (attr_ok (f := Fixe.s13) (h.f13 (by omega))), bind_ok
      (a := v.perf) (s' := o) (by rw [lift_apply, h.b.inp, V.hP])]
    rfl
  · exact ⟨h.b, h.pf, h.i13, h.i19, h.i5, h.i9, Is.some _, h.f13, h.f19, h.c5, h.c9, h.f0, h.wfan,
      h.wcorps, h.w1⟩

/-- effect of `calculs_5_to_9` on the progress counters -/
def fcalc (a : ℕ × ℕ × Bool) : ℕ × ℕ × Bool :=
  if 4 ≤ a.1 then (9, 19, true) else
  if a.1 = 1 then (if a.2.1 = 13 then (1, 19, a.2.2) else a) else (a.1, 19, a.2.2)

theorem fcalc_eq (c f : ℕ) (p : Bool) (hf : f = 0 ∨ f = 13 ∨ f = 19) (hc : c ≤ 5 ∨ c = 9) (h1 : 1 ≤ c)
    (h0 : f = 0 → c ≤ 4) : g5 (g4 (g3 (g2 (g1 (c, f, p))))) = fcalc (c, f, p) := by
  have hc' : c = 1 ∨ c = 2 ∨ c = 3 ∨ c = 4 ∨ c = 5 ∨ c = 9 := by omega
  rcases hf with rfl | rfl | rfl <;> rcases hc' with rfl | rfl | rfl | rfl | rfl | rfl <;>
    first
    | (exfalso; have := h0 rfl; omega)
    | simp [g1, g2, g3, g4, g5, f13, f19, f5, f9, fP, fcalc]

theorem fref_59 (V : FixeOk i pi_f v) : Ref (FInv i pi_f v) fabs Fixe.calculs_5_to_9 fcalc := by
  have h1 : Ref (FInv i pi_f v) fabs _ g1 := Ref.test (fun o : Fixe => o.fan = 0)
    (fun a : ℕ × ℕ × Bool => a.2.1 = 0) (fun _ => Iff.rfl)
    ((fref_13 V).seq ((fref_19 V).seq ((fref_5 V).seq ((fref_9 V).seq (fref_P V)))))
  have h2 : Ref (FInv i pi_f v) fabs _ g2 := Ref.test (fun o : Fixe => o.fan = 13)
    (fun a : ℕ × ℕ × Bool => a.2.1 = 13) (fun _ => Iff.rfl)
      ((fref_19 V).seq ((fref_5 V).seq ((fref_9 V).seq (fref_P V))))
  have h3 : Ref (FInv i pi_f v) fabs _ g3 := Ref.test (fun o : Fixe => o.fan = 19)
    (fun a : ℕ × ℕ × Bool => a.2.1 = 19) (fun _ => Iff.rfl) ((fref_5 V).seq ((fref_9 V).seq (fref_P V)))
  have h4 : Ref (FInv i pi_f v) fabs _ g4 := Ref.test (fun o : Fixe => o.base.corps = 5)
    (fun a : ℕ × ℕ × Bool => a.1 = 5) (fun _ => Iff.rfl) ((fref_9 V).seq (fref_P V))
  have h5 : Ref (FInv i pi_f v) fabs _ g5 := Ref.test (fun o : Fixe => o.fan = 19 ∧ o.base.corps = 9)
    (fun a : ℕ × ℕ × Bool => a.2.1 = 19 ∧ a.1 = 9) (fun _ => Iff.rfl) (fref_P V)
  have h := h1.seq (h2.seq (h3.seq (h4.seq h5)))
  intro o ho
  obtain ⟨o', e, io, ao⟩ := h o ho
  refine ⟨o', e, io, ?_⟩
  rw [ao]
  exact fcalc_eq _ _ _ ho.wfan ho.wcorps ho.w1 ho.f0

theorem finv_new (V : FixeOk i pi_f v) : ∃ o, Fixe.new i pi_f = (.ok (), o) ∧ FInv i pi_f v o ∧
    fabs o = (4, 0, false) := by
  obtain ⟨b, e, ib, ab⟩ := ref_14 V.base (Base.new i) BInv.new
  have ab' : b.corps = 4 := ab
  refine ⟨⟨b, pi_f, 0, none, none, none, none, none⟩, ?_, ?_, ?_⟩
  · unfold Fixe.new Fixe.inherit
    rw [e]
  · exact ⟨ib, rfl, Is.none _, Is.none _, Is.none _, Is.none _, Is.none _, fun (k : 13 ≤ 0) => absurd k (by decide),
      fun (k : 19 ≤ 0) => absurd k (by decide), fun (k : 5 ≤ b.corps) => absurd k (by omega), fun (k : 9 ≤ b.corps) => absurd k (by omega),
      fun _ => ab'.le, Or.inl rfl, Or.inl (show b.corps ≤ 5 by omega), show 1 ≤ b.corps by omega⟩
  · show (b.corps, 0, false) = _
    rw [ab']

/-- Every method except `show_perfo` raises nothing and keeps the invariant; only `InitialValues`
moves the core counter below 4. -/
theorem fexec (V : FixeOk i pi_f v) (c : FixeCall) (hc : c ≠ .show_perfo) (o : Fixe) (ho : FInv i pi_f v o) :
    ∃ o', c.exec o = (.ok (), o') ∧ FInv i pi_f v o' ∧
      (c ≠ .InitialValues → 4 ≤ o.base.corps → 4 ≤ o'.base.corps) := by
  have key : ∀ {m : Meth Fixe Unit} {f : ℕ × ℕ × Bool → ℕ × ℕ × Bool}, Ref (FInv i pi_f v) fabs m f →
      (∀ a, 4 ≤ a.1 → 4 ≤ (f a).1) → ∃ o', m o = (.ok (), o') ∧ FInv i pi_f v o' ∧
      (4 ≤ o.base.corps → 4 ≤ o'.base.corps) := by
    intro m f h hf
    obtain ⟨o', e, io, ao⟩ := h o ho
    refine ⟨o', e, io, fun h4 => ?_⟩
    have : (fabs o').1 = (f (fabs o)).1 := by rw [ao]
    have h2 : o'.base.corps = (f (fabs o)).1 := this
    rw [h2]; exact hf _ h4
  cases c with
  | show_perfo => exact absurd rfl hc
  | InitialValues =>
    obtain ⟨o', e, io, -⟩ := fref_inherit (ref_init V.base) (fun c _ => ⟨le_refl 1, fun h => absurd h (by decide)⟩) o ho
    exact ⟨o', e, io, fun h => absurd rfl h⟩
  | stage_2 =>
    obtain ⟨o', e, io, h4⟩ := key (fref_inherit (ref_2 V.base) (fun c _ => by
      constructor
      · show 1 ≤ if c = 1 then 2 else c
        split <;> omega
      · show 5 ≤ (if c = 1 then 2 else c) → (if c = 1 then 2 else c) = c
        split <;> omega)) (fun a h => by
        show 4 ≤ if a.1 = 1 then 2 else a.1
        split <;> omega)
    exact ⟨o', e, io, fun _ => h4⟩
  | stage_3 =>
    obtain ⟨o', e, io, h4⟩ := key (fref_inherit (ref_3 V.base) (fun c _ => by
      constructor
      · show 1 ≤ if c = 2 then 3 else c
        split <;> omega
      · show 5 ≤ (if c = 2 then 3 else c) → (if c = 2 then 3 else c) = c
        split <;> omega)) (fun a h => by
        show 4 ≤ if a.1 = 2 then 3 else a.1
        split <;> omega)
    exact ⟨o', e, io, fun _ => h4⟩
  | stage_4 =>
    obtain ⟨o', e, io, h4⟩ := key (fref_inherit (ref_4 V.base) (fun c _ => by
      constructor
      · show 1 ≤ if c = 3 then 4 else c
        split <;> omega
      · show 5 ≤ (if c = 3 then 4 else c) → (if c = 3 then 4 else c) = c
        split <;> omega)) (fun a h => by
        show 4 ≤ if a.1 = 3 then 4 else a.1
        split <;> omega)
    exact ⟨o', e, io, fun _ => h4⟩
  | calculs_1_to_4 =>
    obtain ⟨o', e, io, h4⟩ := key (fref_inherit (ref_14 V.base) (fun c _ => by
      constructor
      · show 1 ≤ if c < 4 then 4 else c
        split <;> omega
      · show 5 ≤ (if c < 4 then 4 else c) → (if c < 4 then 4 else c) = c
        split <;> omega)) (fun a h => by
        show 4 ≤ if a.1 < 4 then 4 else a.1
        split <;> omega)
    exact ⟨o', e, io, fun _ => h4⟩
  | stage_13 =>
    obtain ⟨o', e, io, h4⟩ := key (fref_13 V) (fun a h => by unfold f13; split <;> exact h)
    exact ⟨o', e, io, fun _ => h4⟩
  | stage_19 =>
    obtain ⟨o', e, io, h4⟩ := key (fref_19 V) (fun a h => by unfold f19; split <;> exact h)
    exact ⟨o', e, io, fun _ => h4⟩
  | stage_5 =>
    obtain ⟨o', e, io, h4⟩ := key (fref_5 V) (fun a h => by unfold f5; split <;> first | exact h | exact (by decide : 4 ≤ 5))
    exact ⟨o', e, io, fun _ => h4⟩
  | stage_9 =>
    obtain ⟨o', e, io, h4⟩ := key (fref_9 V) (fun a h => by unfold f9; split <;> first | exact h | exact (by decide : 4 ≤ 9))
    exact ⟨o', e, io, fun _ => h4⟩
  | perfo =>
    obtain ⟨o', e, io, h4⟩ := key (fref_P V) (fun a h => by unfold fP; split <;> exact h)
    exact ⟨o', e, io, fun _ => h4⟩
  | calculs_5_to_9 =>
    obtain ⟨o', e, io, h4⟩ := key (fref_59 V) (fun a h => by unfold fcalc; rw [if_pos h]; decide)
    exact ⟨o', e, io, fun _ => h4⟩

theorem fshow_state (o : Fixe) : (Fixe.show_perfo o).2 = o := by
  unfold Fixe.show_perfo
  rw [bind_ok (get_apply _ _), bind_ok (get_apply _ _)]
  split
  · rw [LinOperator.Meth.bind_apply]
    unfold attr
    cases o.perf <;> rfl
  · rfl

/-- Reachable states satisfy the invariant. -/
theorem frun_inv (V : FixeOk i pi_f v) (cs : List FixeCall) : FInv i pi_f v (fixeRun i pi_f cs) ∧
    (.InitialValues ∉ cs → 4 ≤ (fixeRun i pi_f cs).base.corps) := by
  obtain ⟨o0, e0, i0, a0⟩ := finv_new V
  have h0 : 4 ≤ o0.base.corps := by
    have : (fabs o0).1 = 4 := by rw [a0]
    exact this.ge
  unfold fixeRun
  rw [e0]
  clear e0 a0
  have : ∀ (cs : List FixeCall) (o : Fixe), FInv i pi_f v o →
      FInv i pi_f v (cs.foldl (fun o c => (c.exec o).2) o) ∧
      (.InitialValues ∉ cs → 4 ≤ o.base.corps → 4 ≤ (cs.foldl (fun o c => (c.exec o).2) o).base.corps) := by
    intro cs
    induction cs with
    | nil => intro o ho; exact ⟨ho, fun _ h => h⟩
    | cons c cs ih =>
      intro o ho
      rw [List.foldl_cons]
      by_cases hc : c = .show_perfo
      · subst hc
        have : (FixeCall.exec .show_perfo o).2 = o := fshow_state o
        rw [this]
        obtain ⟨h1, h2⟩ := ih o ho
        exact ⟨h1, fun hn => h2 (fun hm => hn (List.mem_cons_of_mem _ hm))⟩
      · obtain ⟨o', e, io, h4⟩ := fexec V c hc o ho
        rw [e]
        obtain ⟨h1, h2⟩ := ih o' io
        refine ⟨h1, fun hn hh => h2 (fun hm => hn (List.mem_cons_of_mem _ hm)) (h4 (fun h => hn ?_) hh)⟩
        rw [h]; exact List.mem_cons_self
  obtain ⟨h1, h2⟩ := this cs o0 i0
  exact ⟨h1, fun hn => h2 hn h0⟩

/-! ### C72 for `cycle_taux_fan_fixe` -/

/-- After any history of calls on a fan-fixed cycle whose straight-line computation is defined,
each stored stage holds the straight-line values. -/
theorem C72_fixe_values (i : Inp) (pi_f : ℝ) (v : FixeVals) (h : fixeStraight i pi_f = .ok v)
    (cs : List FixeCall) :
    (∀ s, (fixeRun i pi_f cs).base.s0 = some s → s = v.base.s0) ∧
    (∀ s, (fixeRun i pi_f cs).base.s2 = some s → s = v.base.s2) ∧
    (∀ s, (fixeRun i pi_f cs).base.s3 = some s → s = v.base.s3) ∧
    (∀ s, (fixeRun i pi_f cs).base.s4 = some s → s = v.base.s4) ∧
    (∀ s, (fixeRun i pi_f cs).s13 = some s → s = v.s13) ∧
    (∀ s, (fixeRun i pi_f cs).s19 = some s → s = v.s19) ∧
    (∀ s, (fixeRun i pi_f cs).s5 = some s → s = v.s5) ∧
    (∀ s, (fixeRun i pi_f cs).s9 = some s → s = v.s9) ∧
    (∀ s, (fixeRun i pi_f cs).perf = some s → s = v.perf) := by
  have I := (frun_inv (fixeOk_of h) cs).1
  exact ⟨I.b.i0, I.b.i2, I.b.i3, I.b.i4, I.i13, I.i19, I.i5, I.i9, I.iP⟩

/-- After any history, no method except `show_perfo` raises. -/
theorem C72_fixe_no_error (i : Inp) (pi_f : ℝ) (v : FixeVals) (h : fixeStraight i pi_f = .ok v)
    (cs : List FixeCall) (c : FixeCall) (hc : c ≠ .show_perfo) :
    (c.exec (fixeRun i pi_f cs)).1 = .ok () := by
  obtain ⟨o', e, -⟩ := fexec (fixeOk_of h) c hc _ (frun_inv (fixeOk_of h) cs).1
  rw [e]

theorem fshow_ok {o : Fixe} {p : Perf} (hf : o.fan = 19) (hc : o.base.corps = 9) (hp : o.perf = some p) :
    Fixe.show_perfo o = (.ok (some p), o) := by
  unfold Fixe.show_perfo
  rw [bind_ok (get_apply _ _), bind_ok (get_apply _ _), if_pos ⟨hf, hc⟩,
    bind_ok (attr_ok (f := Fixe.perf) hp)]
  rfl

theorem fcomplete (V : FixeOk i pi_f v) (o : Fixe) (ho : FInv i pi_f v o) (h4 : 4 ≤ o.base.corps) :
    ∃ o', Fixe.calculs_5_to_9 o = (.ok (), o') ∧ o'.perf = some v.perf ∧
      Fixe.show_perfo o' = (.ok (some v.perf), o') := by
  obtain ⟨o', e, io, ao⟩ := fref_59 V o ho
  have ha : fabs o' = (9, 19, true) := by rw [ao]; exact if_pos h4
  have hc : o'.base.corps = 9 := congrArg (fun a => a.1) ha
  have hf : o'.fan = 19 := congrArg (fun a => a.2.1) ha
  have hs : o'.perf.isSome = true := congrArg (fun a => a.2.2) ha
  obtain ⟨p, hp⟩ := Option.isSome_iff_exists.mp hs
  have := io.iP p hp
  subst this
  exact ⟨o', e, hp, fshow_ok hf hc hp⟩

/-- After any history (including calls out of order), recomputing the first stages and then the
others gives the performances of the straight-line computation, and `show_perfo` prints them. -/
theorem C72_fixe_recompute (i : Inp) (pi_f : ℝ) (v : FixeVals) (h : fixeStraight i pi_f = .ok v)
    (cs : List FixeCall) :
    (fixeRun i pi_f (cs ++ [.calculs_1_to_4, .calculs_5_to_9])).perf = some v.perf ∧
    (Fixe.show_perfo (fixeRun i pi_f (cs ++ [.calculs_1_to_4, .calculs_5_to_9]))).1 = .ok (some v.perf) := by
  have V := fixeOk_of h
  have I := (frun_inv V cs).1
  have e : fixeRun i pi_f (cs ++ [.calculs_1_to_4, .calculs_5_to_9]) =
      (Fixe.calculs_5_to_9 (Fixe.inherit Cycle.calculs_1_to_4 (fixeRun i pi_f cs)).2).2 := by
    unfold fixeRun
    rw [List.foldl_append]
    rfl
  obtain ⟨o1, e1, i1, a1⟩ := fref_inherit (ref_14 V.base) (fun c _ => by
      constructor
      · show 1 ≤ if c < 4 then 4 else c
        split <;> omega
      · show 5 ≤ (if c < 4 then 4 else c) → (if c < 4 then 4 else c) = c
        split <;> omega) _ I
  have h4 : 4 ≤ o1.base.corps := by
    have : o1.base.corps = if (fixeRun i pi_f cs).base.corps < 4 then 4 else (fixeRun i pi_f cs).base.corps :=
      congrArg (fun a => a.1) a1
    rw [this]; split <;> omega
  obtain ⟨o2, e2, hp, hs⟩ := fcomplete V o1 i1 h4
  rw [e, e1, e2]
  exact ⟨hp, by rw [hs]⟩

/-- `calculs_5_to_9` alone completes the cycle after every history without `InitialValues`.
(Partial: the intended property has no restriction on the history, see the next theorem.) -/
theorem C72_fixe_complete_partial (i : Inp) (pi_f : ℝ) (v : FixeVals) (h : fixeStraight i pi_f = .ok v)
    (cs : List FixeCall) (hcs : .InitialValues ∉ cs) :
    (fixeRun i pi_f (cs ++ [.calculs_5_to_9])).perf = some v.perf ∧
    (Fixe.show_perfo (fixeRun i pi_f (cs ++ [.calculs_5_to_9]))).1 = .ok (some v.perf) := by
  have V := fixeOk_of h
  obtain ⟨I, h4⟩ := frun_inv V cs
  have e : fixeRun i pi_f (cs ++ [.calculs_5_to_9]) = (Fixe.calculs_5_to_9 (fixeRun i pi_f cs)).2 := by
    unfold fixeRun
    rw [List.foldl_append]
    rfl
  obtain ⟨o2, e2, hp, hs⟩ := fcomplete V _ I (h4 hcs)
  rw [e, e2]
  exact ⟨hp, by rw [hs]⟩

/-- Running `InitialValues` again resets the progress counter: `calculs_5_to_9` then computes
nothing, without an error. -/
theorem C72_fixe_complete_false (i : Inp) (pi_f : ℝ) (v : FixeVals) (h : fixeStraight i pi_f = .ok v) :
    (fixeRun i pi_f [.InitialValues, .calculs_5_to_9]).perf = none ∧
    (FixeCall.exec .calculs_5_to_9 (fixeRun i pi_f [.InitialValues])).1 = .ok () := by
  have V := fixeOk_of h
  obtain ⟨o0, e0, i0, a0⟩ := finv_new V
  obtain ⟨o1, e1, i1, a1⟩ := fref_inherit (ref_init V.base)
    (fun c _ => ⟨le_refl 1, fun h => absurd h (by decide)⟩) o0 i0
  obtain ⟨o2, e2, i2, a2⟩ := fref_59 V o1 i1
  have r1 : fixeRun i pi_f [.InitialValues] = o1 := by
    show (Fixe.inherit Cycle.InitialValues (Fixe.new i pi_f).2).2 = _
    rw [e0, e1]
  have r2 : fixeRun i pi_f [.InitialValues, .calculs_5_to_9] = o2 := by
    show (Fixe.calculs_5_to_9 (Fixe.inherit Cycle.InitialValues (Fixe.new i pi_f).2).2).2 = _
    rw [e0, e1, e2]
  rw [a1, a0] at a2
  have a3 : fabs o2 = (1, 0, false) := a2
  have hs : o2.perf.isSome = false := congrArg (fun a => a.2.2) a3
  rw [r1, r2]
  refine ⟨Option.isNone_iff_eq_none.mp (by rw [Option.isNone_iff_eq_none]; cases hp : o2.perf with
    | none => rfl
    | some p => rw [hp] at hs; exact absurd hs (by simp)), ?_⟩
  show (Fixe.calculs_5_to_9 o1).1 = _
  rw [e2]

/-- Running the stages one by one without `perfo`, then `show_perfo`, raises `AttributeError`. -/
theorem C72_fixe_show_false (i : Inp) (pi_f : ℝ) (v : FixeVals) (h : fixeStraight i pi_f = .ok v) :
    (Fixe.show_perfo (fixeRun i pi_f [.stage_13, .stage_19, .stage_5, .stage_9])).1
      = .error .attributeError := by
  have V := fixeOk_of h
  obtain ⟨o0, e0, i0, a0⟩ := finv_new V
  obtain ⟨o1, e1, i1, a1⟩ := fref_13 V o0 i0
  obtain ⟨o2, e2, i2, a2⟩ := fref_19 V o1 i1
  obtain ⟨o3, e3, i3, a3⟩ := fref_5 V o2 i2
  obtain ⟨o4, e4, i4, a4⟩ := fref_9 V o3 i3
  have r : fixeRun i pi_f [.stage_13, .stage_19, .stage_5, .stage_9] = o4 := by
    show (Fixe.stage_9 (Fixe.stage_5 (Fixe.stage_19 (Fixe.stage_13 (Fixe.new i pi_f).2).2).2).2).2 = _
    rw [e0, e1, e2, e3, e4]
  have ha : fabs o4 = (9, 19, false) := by
    rw [a4, a3, a2, a1, a0]
    simp [f13, f19, f5, f9]
  have hc : o4.base.corps = 9 := congrArg (fun a => a.1) ha
  have hf : o4.fan = 19 := congrArg (fun a => a.2.1) ha
  have hs : o4.perf.isSome = false := congrArg (fun a => a.2.2) ha
  have hp : o4.perf = none := by
    cases hp : o4.perf with
    | none => rfl
    | some p => rw [hp] at hs; exact absurd hs (by simp)
  rw [r]
  unfold Fixe.show_perfo
  rw [bind_ok (get_apply _ _), bind_ok (get_apply _ _), if_pos ⟨hf, hc⟩, LinOperator.Meth.bind_apply]
  unfold attr
  rw [hp]

end Aerokit.Props
