import Verif.Model.PyclassNotebook
import Verif.Props.CycleScale
import Verif.Props.CycleWitness

/-! Property C158: the turbofan notebook and the package. -/

namespace Aerokit.Props

open Cycle
open LinOperator (Meth)
open LinOperator.Meth (bind_ok bind_err get_apply lift_apply)

theorem pc_cond_pos {σ : Type} {p : σ → Prop} [DecidablePred p] {m : Meth σ Unit} {s : σ} (h : p s) : cond p m s = m s := if_pos h
theorem pc_cond_neg {σ : Type} {p : σ → Prop} [DecidablePred p] {m : Meth σ Unit} {s : σ} (h : ¬ p s) : cond p m s = (.ok (), s) := if_neg h

section fixe
variable {i : Inp} {pi_f : ℝ} {v : FixeVals}

/-- the object just before `stage_9` -/
theorem pc_fixe_before (V : FixeOk i pi_f v) : ∃ o o1 o2 o3, Fixe.new i pi_f = (.ok (), o) ∧ o.base.corps = 4 ∧ o.fan = 0 ∧
    Fixe.stage_13 o = (.ok (), o1) ∧ Fixe.stage_19 o1 = (.ok (), o2) ∧ Fixe.stage_5 o2 = (.ok (), o3) ∧
    o3.base.corps = 5 ∧ o3.fan = 19 ∧ FInv i pi_f v o3 := by
  obtain ⟨o, e, I, a⟩ := finv_new V
  obtain ⟨o1, e1, I1, a1⟩ := fref_13 V o I
  obtain ⟨o2, e2, I2, a2⟩ := fref_19 V o1 I1
  obtain ⟨o3, e3, I3, a3⟩ := fref_5 V o2 I2
  rw [a2, a1, a] at a3
  have a3' : fabs o3 = (5, 19, false) := by rw [a3]; simp [f13, f19, f5]
  exact ⟨o, o1, o2, o3, e, congrArg (fun a => a.1) a, congrArg (fun a => a.2.1) a, e1, e2, e3,
    congrArg (fun a => a.1) a3', congrArg (fun a => a.2.1) a3', I3⟩

theorem pc_fixe_9 (V : FixeOk i pi_f v) {o : Fixe} (I : FInv i pi_f v o) (h5 : o.base.corps = 5) :
    Pyclass.Fixe.stage_9 o = match Pyclass.val9 i v.base.s0 v.base.s3 v.s5.Tt5 v.s5.Pt5 with
      | .ok s9 => (.ok (), { o with s9 := some s9, base := { o.base with corps := 9 } })
      | .error e => (.error e, o) := by
  unfold Pyclass.Fixe.stage_9
  rw [pc_cond_pos (p := fun o : Fixe => o.base.corps = 5) h5,
    bind_ok (get_apply _ _), bind_ok (attr_ok (f := Fixe.s5) (I.c5 (by omega))),
    bind_ok (attr_ok (f := fun o : Fixe => o.base.s3) (I.b.c3 (by omega))),
    bind_ok (attr_ok (f := fun o : Fixe => o.base.s0) (I.b.c0 (by omega))), I.b.inp]
  cases h : Pyclass.val9 i v.base.s0 v.base.s3 v.s5.Tt5 v.s5.Pt5 with
  | ok s => rw [bind_ok (a := s) (s' := o) (by rw [lift_apply])]; rfl
  | error e => rw [bind_err (e := e) (s' := o) (by rw [lift_apply])]

theorem pc_fixe_P (V : FixeOk i pi_f v) {o : Fixe} {s9 : S9} (hb : BInv i v.base o.base) (hc : o.base.corps = 9) (hf : o.fan = 19)
    (h13 : o.s13 = some v.s13) (h19 : o.s19 = some v.s19) (h9 : o.s9 = some s9) :
    Fixe.perfo o = match valP i v.base.s0 v.base.s3 v.base.s4 v.s13.m_f v.s19 s9 with
      | .ok p => (.ok (), { o with perf := some p })
      | .error e => (.error e, o) := by
  unfold Fixe.perfo
  rw [pc_cond_pos (p := fun o : Fixe => o.base.corps = 9 ∧ o.fan = 19) ⟨hc, hf⟩,
    bind_ok (get_apply _ _), bind_ok (attr_ok (f := Fixe.s19) h19), bind_ok (attr_ok (f := Fixe.s9) h9),
      bind_ok (attr_ok (f := fun o : Fixe => o.base.s0) (hb.c0 (by omega))),
      bind_ok (attr_ok (f := fun o : Fixe => o.base.s3) (hb.c3 (by omega))),
      bind_ok (attr_ok (f := fun o : Fixe => o.base.s4) (hb.c4 (by omega))),
      bind_ok (attr_ok (f := Fixe.s13) h13), hb.inp]
  cases h : valP i v.base.s0 v.base.s3 v.base.s4 v.s13.m_f v.s19 s9 with
  | ok s => rw [bind_ok (a := s) (s' := o) (by rw [lift_apply])]; rfl
  | error e => rw [bind_err (e := e) (s' := o) (by rw [lift_apply])]

/-- what cell 18 shows for an engine that the package can evaluate -/
theorem pc_fixe_shown (V : FixeOk i pi_f v) : Pyclass.cell18_fixe i pi_f = (do
    let s9 ← Pyclass.val9 i v.base.s0 v.base.s3 v.s5.Tt5 v.s5.Pt5
    let p ← valP i v.base.s0 v.base.s3 v.base.s4 v.s13.m_f v.s19 s9
    pure (some p)) := by
  obtain ⟨o, o1, o2, o3, en, hc0, hf0, e1, e2, e3, hc3, hf3, I3⟩ := pc_fixe_before V
  unfold Pyclass.cell18_fixe Pyclass.show_engine
  rw [en]
  show ((do Pyclass.Fixe.calculs_5_to_9; Fixe.show_perfo : Meth Fixe (Option Perf)) o).1 = _
  have e9 := pc_fixe_9 V I3 hc3
  cases h9 : Pyclass.val9 i v.base.s0 v.base.s3 v.s5.Tt5 v.s5.Pt5 with
  | error e =>
    rw [h9] at e9
    have hb : (do Fixe.stage_13; Fixe.stage_19; Fixe.stage_5; Pyclass.Fixe.stage_9; Fixe.perfo : Meth Fixe Unit) o = (.error e, o3) := by
      rw [bind_ok e1, bind_ok e2, bind_ok e3, bind_err e9]
    have hcal : Pyclass.Fixe.calculs_5_to_9 o = (.error e, o3) := by
      unfold Pyclass.Fixe.calculs_5_to_9
      rw [bind_err (s' := o3) (by rw [pc_cond_pos (p := fun o : Fixe => o.fan = 0) hf0, hb])]
    rw [bind_err hcal]
    rfl
  | ok s9 =>
    rw [h9] at e9
    simp only [] at e9
    obtain ⟨o4, ho4⟩ : ∃ o4 : Fixe, o4 = { o3 with s9 := some s9, base := { o3.base with corps := 9 } } := ⟨_, rfl⟩
    rw [← ho4] at e9
    have hb4 : BInv i v.base o4.base := by rw [ho4]; exact I3.b.move (by omega) 9
    have hc4 : o4.base.corps = 9 := by rw [ho4]
    have hf4 : o4.fan = 19 := by rw [ho4]; exact hf3
    have h13 : o4.s13 = some v.s13 := by rw [ho4]; exact I3.f13 (by omega)
    have h19 : o4.s19 = some v.s19 := by rw [ho4]; exact I3.f19 (by omega)
    have h94 : o4.s9 = some s9 := by rw [ho4]
    have eP := pc_fixe_P V hb4 hc4 hf4 h13 h19 h94
    rw [Py.ok_bind]
    cases hP : valP i v.base.s0 v.base.s3 v.base.s4 v.s13.m_f v.s19 s9 with
    | error e =>
      rw [hP] at eP
      have hb : (do Fixe.stage_13; Fixe.stage_19; Fixe.stage_5; Pyclass.Fixe.stage_9; Fixe.perfo : Meth Fixe Unit) o = (.error e, o4) := by
        rw [bind_ok e1, bind_ok e2, bind_ok e3, bind_ok e9, eP]
      have hcal : Pyclass.Fixe.calculs_5_to_9 o = (.error e, o4) := by
        unfold Pyclass.Fixe.calculs_5_to_9
        rw [bind_err (s' := o4) (by rw [pc_cond_pos (p := fun o : Fixe => o.fan = 0) hf0, hb])]
      rw [bind_err hcal]
      rfl
    | ok p =>
      rw [hP] at eP
      simp only [] at eP
      obtain ⟨o5, ho5⟩ : ∃ o5 : Fixe, o5 = { o4 with perf := some p } := ⟨_, rfl⟩
      rw [← ho5] at eP
      have hb : (do Fixe.stage_13; Fixe.stage_19; Fixe.stage_5; Pyclass.Fixe.stage_9; Fixe.perfo : Meth Fixe Unit) o = (.ok (), o5) := by
        rw [bind_ok e1, bind_ok e2, bind_ok e3, bind_ok e9, eP]
      have hb5 : BInv i v.base o5.base := by rw [ho5]; exact hb4
      have hc5 : o5.base.corps = 9 := by rw [ho5]; exact hc4
      have hf5 : o5.fan = 19 := by rw [ho5]; exact hf4
      have eP5 := pc_fixe_P V hb5 hc5 hf5 (by rw [ho5]; exact h13) (by rw [ho5]; exact h19) (s9 := s9) (by rw [ho5]; exact h94)
      rw [hP] at eP5
      simp only [] at eP5
      have hsame : ({ o5 with perf := some p } : Fixe) = o5 := by rw [ho5]
      rw [hsame] at eP5
      have n5 : Fixe.stage_5 o5 = (.ok (), o5) := by
        unfold Fixe.stage_5
        rw [pc_cond_neg (p := fun o : Fixe => o.base.corps = 4 ∧ 13 ≤ o.fan) (by omega)]
      have n9 : Pyclass.Fixe.stage_9 o5 = (.ok (), o5) := by
        unfold Pyclass.Fixe.stage_9
        rw [pc_cond_neg (p := fun o : Fixe => o.base.corps = 5) (by omega)]
      have hcal : Pyclass.Fixe.calculs_5_to_9 o = (.ok (), o5) := by
        unfold Pyclass.Fixe.calculs_5_to_9
        rw [bind_ok (a := ()) (s' := o5) (by rw [pc_cond_pos (p := fun o : Fixe => o.fan = 0) hf0, hb]),
          bind_ok (a := ()) (s' := o5) (pc_cond_neg (p := fun o : Fixe => o.fan = 13) (by omega)),
          bind_ok (a := ()) (s' := o5) (by
            rw [pc_cond_pos (p := fun o : Fixe => o.fan = 19) hf5, bind_ok n5, bind_ok n9, eP5]),
          bind_ok (a := ()) (s' := o5) (pc_cond_neg (p := fun o : Fixe => o.base.corps = 5) (by omega)),
          pc_cond_pos (p := fun o : Fixe => o.fan = 19 ∧ o.base.corps = 9) ⟨hf5, hc5⟩, eP5]
      rw [bind_ok hcal, fshow_ok hf5 hc5 (p := p) (by rw [ho5])]
      rfl

end fixe

section calcule
variable {i : Inp} {tm : ℝ} {v : CalculeVals}

/-- the object just before `stage_9` -/
theorem pc_calcule_before (V : CalculeOk i tm v) : ∃ o o1 o2, Calcule.new i tm = (.ok (), o) ∧ o.base.corps = 4 ∧
    Calcule.stage_4_etoile o = (.ok (), o1) ∧ Calcule.stage_5 o1 = (.ok (), o2) ∧ o2.base.corps = 6 ∧ KInv i tm v o2 := by
  obtain ⟨o, e, I, a⟩ := kinv_new V
  obtain ⟨o1, e1, I1, a1⟩ := kref_4e V o I
  obtain ⟨o2, e2, I2, a2⟩ := kref_5 V o1 I1
  rw [a1, a] at a2
  have a2' : kabs o2 = (6, 0, false) := by rw [a2]; simp [k4e, k5]
  exact ⟨o, o1, o2, e, congrArg (fun a => a.1) a, e1, e2, congrArg (fun a => a.1) a2', I2⟩

theorem pc_calcule_9 (V : CalculeOk i tm v) {o : Calcule} (I : KInv i tm v o) (h6 : o.base.corps = 6) :
    Pyclass.Calcule.stage_9 o = match Pyclass.val9 i v.base.s0 v.base.s3 v.s5.Tt5 v.s5.Pt5 with
      | .ok s9 => (.ok (), { o with s9 := some s9, base := { o.base with corps := 9 } })
      | .error e => (.error e, o) := by
  unfold Pyclass.Calcule.stage_9
  rw [pc_cond_pos (p := fun o : Calcule => o.base.corps = 6) h6,
    bind_ok (get_apply _ _), bind_ok (attr_ok (f := Calcule.s5) (I.c6 (by omega))),
    bind_ok (attr_ok (f := fun o : Calcule => o.base.s3) (I.b.c3 (by omega))),
    bind_ok (attr_ok (f := fun o : Calcule => o.base.s0) (I.b.c0 (by omega))), I.b.inp]
  cases h : Pyclass.val9 i v.base.s0 v.base.s3 v.s5.Tt5 v.s5.Pt5 with
  | ok s => rw [bind_ok (a := s) (s' := o) (by rw [lift_apply])]; rfl
  | error e => rw [bind_err (e := e) (s' := o) (by rw [lift_apply])]

/-- fan, fan nozzle and performances after the core nozzle -/
theorem pc_calcule_tail (V : CalculeOk i tm v) {o : Calcule} {s9 : S9} (hb : BInv i v.base o.base) (hc : o.base.corps = 9)
    (h5 : o.s5 = some v.s5) (h9 : o.s9 = some s9) :
    ∃ o', (do Calcule.stage_13; Calcule.stage_19; Calcule.perfo : Meth Calcule Unit) o =
      match valP i v.base.s0 v.base.s3 v.base.s4 v.s13.m_f v.s19 s9 with
      | .ok p => (.ok (), { o with s13 := some v.s13, s19 := some v.s19, fan := 19, perf := some p })
      | .error e => (.error e, o') := by
  obtain ⟨o1, ho1⟩ : ∃ o1 : Calcule, o1 = { o with s13 := some v.s13, fan := 13 } := ⟨_, rfl⟩
  obtain ⟨o2, ho2⟩ : ∃ o2 : Calcule, o2 = { o1 with s19 := some v.s19, fan := 19 } := ⟨_, rfl⟩
  have e1 : Calcule.stage_13 o = (.ok (), o1) := by
    unfold Calcule.stage_13
    rw [pc_cond_pos (p := fun o : Calcule => 6 ≤ o.base.corps) (by omega), bind_ok (get_apply _ _), bind_ok (attr_ok (f := Calcule.s5) h5),
      bind_ok (attr_ok (f := fun o : Calcule => o.base.s2) (hb.c2 (by omega))), bind_ok
      (a := v.s13) (s' := o) (by rw [lift_apply, hb.inp, V.h13]), ho1]
    rfl
  have b1 : BInv i v.base o1.base := by rw [ho1]; exact hb
  have c1 : o1.base.corps = 9 := by rw [ho1]; exact hc
  have e2 : Calcule.stage_19 o1 = (.ok (), o2) := by
    unfold Calcule.stage_19
    rw [pc_cond_pos (p := fun o : Calcule => o.fan = 13) (by rw [ho1]), bind_ok (get_apply _ _), bind_ok (attr_ok (f := Calcule.s13) (a := v.s13) (by rw [ho1])),
      bind_ok (attr_ok (f := fun o : Calcule => o.base.s0) (b1.c0 (by omega))), bind_ok
      (a := v.s19) (s' := o1) (by rw [lift_apply, b1.inp, V.h19]), ho2]
    rfl
  have b2 : BInv i v.base o2.base := by rw [ho2]; exact b1
  have c2 : o2.base.corps = 9 := by rw [ho2]; exact c1
  refine ⟨o2, ?_⟩
  rw [bind_ok e1, bind_ok e2]
  unfold Calcule.perfo
  rw [pc_cond_pos (p := fun o : Calcule => o.base.corps = 9 ∧ o.fan = 19) ⟨c2, by rw [ho2]⟩,
    bind_ok (get_apply _ _), bind_ok (attr_ok (f := Calcule.s19) (a := v.s19) (by rw [ho2])),
    bind_ok (attr_ok (f := Calcule.s9) (a := s9) (by rw [ho2, ho1]; exact h9)),
    bind_ok (attr_ok (f := fun o : Calcule => o.base.s0) (b2.c0 (by omega))),
    bind_ok (attr_ok (f := fun o : Calcule => o.base.s3) (b2.c3 (by omega))),
    bind_ok (attr_ok (f := fun o : Calcule => o.base.s4) (b2.c4 (by omega))),
    bind_ok (attr_ok (f := Calcule.s13) (a := v.s13) (by rw [ho2, ho1])), b2.inp]
  cases h : valP i v.base.s0 v.base.s3 v.base.s4 v.s13.m_f v.s19 s9 with
  | ok s => rw [bind_ok (a := s) (s' := o2) (by rw [lift_apply]), ho2, ho1]; rfl
  | error e => rw [bind_err (e := e) (s' := o2) (by rw [lift_apply])]

/-- what cell 18 shows for an engine that the package can evaluate -/
theorem pc_calcule_shown (V : CalculeOk i tm v) : Pyclass.cell18_calcule i tm = (do
    let s9 ← Pyclass.val9 i v.base.s0 v.base.s3 v.s5.Tt5 v.s5.Pt5
    let p ← valP i v.base.s0 v.base.s3 v.base.s4 v.s13.m_f v.s19 s9
    pure (some p)) := by
  obtain ⟨o, o1, o2, en, hc0, e1, e2, hc2, I2⟩ := pc_calcule_before V
  unfold Pyclass.cell18_calcule Pyclass.show_engine
  rw [en]
  show ((do Pyclass.Calcule.calculs_5_to_9; Calcule.show_perfo : Meth Calcule (Option Perf)) o).1 = _
  have e9 := pc_calcule_9 V I2 hc2
  cases h9 : Pyclass.val9 i v.base.s0 v.base.s3 v.s5.Tt5 v.s5.Pt5 with
  | error e =>
    rw [h9] at e9
    have hcal : Pyclass.Calcule.calculs_5_to_9 o = (.error e, o2) := by
      unfold Pyclass.Calcule.calculs_5_to_9
      rw [bind_err (s' := o2) (by rw [pc_cond_pos (p := fun o : Calcule => o.base.corps = 4) hc0, bind_ok e1, bind_ok e2, bind_err e9])]
    rw [bind_err hcal]
    rfl
  | ok s9 =>
    rw [h9] at e9
    simp only [] at e9
    obtain ⟨o3, ho3⟩ : ∃ o3 : Calcule, o3 = { o2 with s9 := some s9, base := { o2.base with corps := 9 } } := ⟨_, rfl⟩
    rw [← ho3] at e9
    have hb3 : BInv i v.base o3.base := by rw [ho3]; exact I2.b.move (by omega) 9
    have hc3 : o3.base.corps = 9 := by rw [ho3]
    have h53 : o3.s5 = some v.s5 := by rw [ho3]; exact I2.c6 (by omega)
    have h93 : o3.s9 = some s9 := by rw [ho3]
    obtain ⟨o', eT⟩ := pc_calcule_tail V hb3 hc3 h53 h93
    rw [Py.ok_bind]
    cases hP : valP i v.base.s0 v.base.s3 v.base.s4 v.s13.m_f v.s19 s9 with
    | error e =>
      rw [hP] at eT
      have hcal : Pyclass.Calcule.calculs_5_to_9 o = (.error e, o') := by
        unfold Pyclass.Calcule.calculs_5_to_9
        rw [bind_err (s' := o') (by rw [pc_cond_pos (p := fun o : Calcule => o.base.corps = 4) hc0, bind_ok e1, bind_ok e2, bind_ok e9, eT])]
      rw [bind_err hcal]
      rfl
    | ok p =>
      rw [hP] at eT
      simp only [] at eT
      obtain ⟨o4, ho4⟩ : ∃ o4 : Calcule, o4 = { o3 with s13 := some v.s13, s19 := some v.s19, fan := 19, perf := some p } := ⟨_, rfl⟩
      rw [← ho4] at eT
      have hb4 : BInv i v.base o4.base := by rw [ho4]; exact hb3
      have hc4 : o4.base.corps = 9 := by rw [ho4]; exact hc3
      have hf4 : o4.fan = 19 := by rw [ho4]
      obtain ⟨o'', eT4⟩ := pc_calcule_tail V hb4 hc4 (by rw [ho4]; exact h53) (s9 := s9) (by rw [ho4]; exact h93)
      rw [hP] at eT4
      simp only [] at eT4
      have hsame : ({ o4 with s13 := some v.s13, s19 := some v.s19, fan := 19, perf := some p } : Calcule) = o4 := by rw [ho4]
      rw [hsame] at eT4
      have eP4 : Calcule.perfo o4 = (.ok (), o4) := by
        unfold Calcule.perfo
        rw [pc_cond_pos (p := fun o : Calcule => o.base.corps = 9 ∧ o.fan = 19) ⟨hc4, hf4⟩,
          bind_ok (get_apply _ _), bind_ok (attr_ok (f := Calcule.s19) (a := v.s19) (by rw [ho4])),
          bind_ok (attr_ok (f := Calcule.s9) (a := s9) (by rw [ho4]; exact h93)),
          bind_ok (attr_ok (f := fun o : Calcule => o.base.s0) (hb4.c0 (by omega))),
          bind_ok (attr_ok (f := fun o : Calcule => o.base.s3) (hb4.c3 (by omega))),
          bind_ok (attr_ok (f := fun o : Calcule => o.base.s4) (hb4.c4 (by omega))),
          bind_ok (attr_ok (f := Calcule.s13) (a := v.s13) (by rw [ho4])), hb4.inp,
          bind_ok (a := p) (s' := o4) (by rw [lift_apply, hP])]
        rw [LinOperator.Meth.modify_apply, ho4]
      have hcal : Pyclass.Calcule.calculs_5_to_9 o = (.ok (), o4) := by
        unfold Pyclass.Calcule.calculs_5_to_9
        rw [bind_ok (a := ()) (s' := o4) (by rw [pc_cond_pos (p := fun o : Calcule => o.base.corps = 4) hc0, bind_ok e1, bind_ok e2, bind_ok e9, eT]),
          bind_ok (a := ()) (s' := o4) (pc_cond_neg (p := fun o : Calcule => o.base.corps = 5) (by omega)),
          bind_ok (a := ()) (s' := o4) (pc_cond_neg (p := fun o : Calcule => o.base.corps = 6) (by omega)),
          bind_ok (a := ()) (s' := o4) (by rw [pc_cond_pos (p := fun o : Calcule => o.base.corps = 9) hc4, eT4]),
          bind_ok (a := ()) (s' := o4) (pc_cond_neg (p := fun o : Calcule => o.fan = 13) (by omega)),
          pc_cond_pos (p := fun o : Calcule => o.fan = 19 ∧ o.base.corps = 9) ⟨hf4, hc4⟩, eP4]
      rw [bind_ok hcal, kshow_ok hf4 hc4 (p := p) (by rw [ho4])]
      rfl

end calcule

/-! ### Comparison of the exhaust velocities -/

/-- the radicands of the two exhaust velocities -/
theorem pc_radicand {g r T M : ℝ} (hg : 1 < g) (hr : g < r) (hT : 0 < T) :
    (M ^ 2 < 2 → g * r * T / Isentropic.tt M g < r * r * T / Isentropic.tt M r) ∧
    (M ^ 2 = 2 → g * r * T / Isentropic.tt M g = r * r * T / Isentropic.tt M r) ∧
    (2 < M ^ 2 → r * r * T / Isentropic.tt M r < g * r * T / Isentropic.tt M g) := by
  have p1 : 0 < Isentropic.tt M g := Isentropic.tt_pos hg
  have p2 : 0 < Isentropic.tt M r := Isentropic.tt_pos (by linarith)
  have key : r * r * T * Isentropic.tt M g - g * r * T * Isentropic.tt M r = (r * T * (r - g)) * (1 - M ^ 2 / 2) := by
    unfold Isentropic.tt; ring
  have hk : 0 < r * T * (r - g) := mul_pos (mul_pos (by linarith) hT) (by linarith)
  refine ⟨fun h => ?_, fun h => ?_, fun h => ?_⟩
  · rw [div_lt_div_iff₀ p1 p2]
    have := mul_pos hk (show 0 < 1 - M ^ 2 / 2 by linarith)
    linarith
  · rw [div_eq_div_iff p1.ne' p2.ne']
    have : (r * T * (r - g)) * (1 - M ^ 2 / 2) = 0 := by rw [h]; norm_num
    linarith
  · rw [div_lt_div_iff₀ p2 p1]
    have := mul_pos hk (show 0 < M ^ 2 / 2 - 1 by linarith)
    linarith

/-- the two `stage_9` -/
theorem pc_val9 {i : Inp} {s0 : S0} {s3 : S3} {T P : ℝ} {s9 : S9} (hg : 1 < i.g_fuel.gamma) (hr : i.g_fuel.gamma < i.g_fuel.r)
    (hT : T ≠ 0) (h : Cycle.val9 i s0 s3 T P = .ok s9) :
    0 ≤ s9.M9 ∧ s9.F_c = s3.m_c * (s9.V9 - s0.V0) ∧
    ∃ V', Pyclass.val9 i s0 s3 T P = .ok { s9 with V9 := V', F_c := s3.m_c * (V' - s0.V0) } ∧
      (0 < s9.M9 → s9.M9 ^ 2 < 2 → s9.V9 < V') ∧ (s9.M9 = 0 ∨ s9.M9 ^ 2 = 2 → V' = s9.V9) ∧ (2 < s9.M9 ^ 2 → V' < s9.V9) := by
  unfold Cycle.val9 at h
  obtain ⟨n, en, h⟩ := Py.bind_inv h
  obtain ⟨M, eM, h⟩ := Py.bind_inv h
  obtain ⟨V, eV, h⟩ := Py.bind_inv h
  have h := Except.ok.inj h
  obtain ⟨t, A, -, hM, -, -⟩ := noz_prim hg eM eV
  have hM0 : 0 ≤ M := by rw [(Py.sqrt_inv hM).2]; exact Real.sqrt_nonneg _
  have eV0 := eV
  unfold Isentropic.Velocity_MachTi Isentropic.Velocity_MachTt at eV0
  rw [Isentropic.TtTs_Mach_ok, Py.ok_bind, Py.div_ok (Isentropic.tt_pos hg).ne', Py.ok_bind] at eV0
  obtain ⟨A', hA', -⟩ := Py.bind_inv eV0
  have hrad := (Py.sqrt_inv hA').1
  have hT0 : 0 < T := by
    by_contra hn
    have hneg : T < 0 := lt_of_le_of_ne (not_lt.mp hn) hT
    have : i.g_fuel.gamma * i.g_fuel.r * T / Isentropic.tt M i.g_fuel.gamma < 0 :=
      div_neg_of_neg_of_pos (mul_neg_of_pos_of_neg (mul_pos (by linarith) (by linarith)) hneg) (Isentropic.tt_pos hg)
    linarith
  have e1 : V = M * Real.sqrt (i.g_fuel.gamma * i.g_fuel.r * T / Isentropic.tt M i.g_fuel.gamma) := by
    have := Isentropic.Velocity_MachTt_ok (M := M) (Tt := T) (r := i.g_fuel.r) hg (by linarith) hT0.le
    exact Except.ok.inj (eV.symm.trans this)
  have e2 : Isentropic.Velocity_MachTi M T i.g_fuel.r i.g_fuel.r =
      .ok (M * Real.sqrt (i.g_fuel.r * i.g_fuel.r * T / Isentropic.tt M i.g_fuel.r)) :=
    Isentropic.Velocity_MachTt_ok (by linarith) (by linarith) hT0.le
  obtain ⟨k1, k2, k3⟩ := pc_radicand (M := M) hg hr hT0
  subst h
  refine ⟨hM0, rfl, M * Real.sqrt (i.g_fuel.r * i.g_fuel.r * T / Isentropic.tt M i.g_fuel.r), ?_, ?_, ?_, ?_⟩
  · unfold Pyclass.val9
    simp only []
    rw [en, Py.ok_bind, eM, Py.ok_bind, e2, Py.ok_bind]
    rfl
  · intro (hM : 0 < M) (h2 : M ^ 2 < 2)
    show V < _
    rw [e1]
    exact mul_lt_mul_of_pos_left (Real.sqrt_lt_sqrt hrad (k1 h2)) hM
  · intro (h2 : M = 0 ∨ M ^ 2 = 2)
    show _ = V
    rw [e1]
    rcases h2 with h2 | h2
    · rw [h2]; ring
    · rw [k2 h2]
  · intro (h2 : 2 < M ^ 2)
    show _ < V
    rw [e1]
    have hM : 0 < M := by
      rcases hM0.lt_or_eq with h | h
      · exact h
      · rw [← h] at h2; norm_num at h2
    refine mul_lt_mul_of_pos_left (Real.sqrt_lt_sqrt ?_ (k3 h2)) hM
    exact div_nonneg (mul_nonneg (mul_nonneg (by linarith) (by linarith)) hT0.le) (Isentropic.tt_pos (by linarith)).le

theorem pc_F {i : Inp} {s0 : S0} {s3 : S3} {s4 : S4} {m_f : ℝ} {s19 : S19} {s9 : S9} {p : Perf}
    (h : valP i s0 s3 s4 m_f s19 s9 = .ok p) : p.F = s19.F_f + s9.F_c := by
  unfold valP at h
  obtain ⟨_, -, h⟩ := Py.bind_inv h
  obtain ⟨_, -, h⟩ := Py.bind_inv h
  obtain ⟨_, -, h⟩ := Py.bind_inv h
  obtain ⟨_, -, h⟩ := Py.bind_inv h
  have h := Except.ok.inj h
  subst h
  rfl

theorem pc_compare {i : Inp} {s0 : S0} {s3 : S3} {s4 : S4} {m_f T P : ℝ} {s19 : S19} {s9 : S9} {p q : Perf}
    (hg : 1 < i.g_fuel.gamma) (hr : i.g_fuel.gamma < i.g_fuel.r) (hT : T ≠ 0) (hm : 0 < s3.m_c)
    (h9 : Cycle.val9 i s0 s3 T P = .ok s9) (hP : valP i s0 s3 s4 m_f s19 s9 = .ok p)
    (hq : (do let s9 ← Pyclass.val9 i s0 s3 T P; let p ← valP i s0 s3 s4 m_f s19 s9; pure (some p)) = Except.ok (ε := PyErr) (some q)) :
    (0 < s9.M9 → s9.M9 ^ 2 < 2 → p.F < q.F) ∧ (s9.M9 = 0 ∨ s9.M9 ^ 2 = 2 → q = p) ∧ (2 < s9.M9 ^ 2 → q.F < p.F) := by
  obtain ⟨-, hF, V', e, k1, k2, k3⟩ := pc_val9 hg hr hT h9
  rw [e, Py.ok_bind] at hq
  obtain ⟨p', hp', hq⟩ := Py.bind_inv hq
  have hq := Option.some.inj (Except.ok.inj hq)
  subst hq
  have F1 := pc_F hP
  have F2 := pc_F hp'
  simp only [] at F2
  rw [hF] at F1
  refine ⟨fun a b => ?_, fun a => ?_, fun a => ?_⟩
  · rw [F1, F2]; linarith [mul_lt_mul_of_pos_left (k1 a b) hm]
  · have := k2 a
    subst this
    rw [← hF] at hp'
    exact Except.ok.inj (hp'.symm.trans hP)
  · rw [F1, F2]; linarith [mul_lt_mul_of_pos_left (k3 a) hm]

theorem pc_mc {i : Inp} {s2 : S2} {s3 : S3} (h : val3 i s2 = .ok s3) (hm : 0 < i.m) (hl : 0 ≤ i.lambda) : 0 < s3.m_c := by
  rw [(val3_inv h).2]; exact div_pos hm (by linarith)

theorem pc_T5 {i : Inp} {s3 : S3} {s4 : S4} {s13 : S13} {s5 : S5} (h : val5 i s3 s4 s13 = .ok s5) : s5.Tt5 ≠ 0 := by
  unfold val5 at h
  obtain ⟨_, -, h⟩ := Py.bind_inv h
  obtain ⟨_, -, h⟩ := Py.bind_inv h
  obtain ⟨u, hu, h⟩ := Py.bind_inv h
  obtain ⟨_, -, h⟩ := Py.bind_inv h
  obtain ⟨_, -, h⟩ := Py.bind_inv h
  obtain ⟨_, -, h⟩ := Py.bind_inv h
  have h := Except.ok.inj h
  subst h
  exact (Py.div_inv hu).1

theorem pc_T5c {i : Inp} {tm : ℝ} {s3 : S3} {s4 : S4} {s4e : S4e} {s5 : S5c} (h : val5c i tm s3 s4 s4e = .ok s5) : s5.Tt5 ≠ 0 := by
  unfold val5c at h
  obtain ⟨_, -, h⟩ := Py.bind_inv h
  obtain ⟨_, -, h⟩ := Py.bind_inv h
  obtain ⟨_, -, h⟩ := Py.bind_inv h
  obtain ⟨_, -, h⟩ := Py.bind_inv h
  obtain ⟨u, hu, h⟩ := Py.bind_inv h
  obtain ⟨_, -, h⟩ := Py.bind_inv h
  obtain ⟨_, -, h⟩ := Py.bind_inv h
  obtain ⟨_, -, h⟩ := Py.bind_inv h
  have h := Except.ok.inj h
  subst h
  exact (Py.div_inv hu).1

/-! ### C158 -/

/-- **C158, partial.** For an engine with a given fan pressure ratio that the package can evaluate, with a burnt gas whose
`gamma` is between 1 and `r`, the package (cell 20) shows its performances; if the classes of the notebook
(cell 18) show performances, their thrust is larger than the one of the package when the exhaust Mach
number is below `√2` (and not 0), smaller when it is above, and all the figures are the same in between.
(Missing part: the figures of the two cells are the same for every engine; this is false, see `C158_false`.) -/
theorem C158_fixe_partial (i : Inp) (pi_f : ℝ) (v : FixeVals) (h : fixeStraight i pi_f = .ok v)
    (hg : 1 < i.g_fuel.gamma) (hr : i.g_fuel.gamma < i.g_fuel.r) (hm : 0 < i.m) (hl : 0 ≤ i.lambda) :
    Pyclass.cell20_fixe i pi_f = .ok (some v.perf) ∧
    ∀ q, Pyclass.cell18_fixe i pi_f = .ok (some q) →
      (0 < v.s9.M9 → v.s9.M9 ^ 2 < 2 → v.perf.F < q.F) ∧ (v.s9.M9 = 0 ∨ v.s9.M9 ^ 2 = 2 → q = v.perf) ∧ (2 < v.s9.M9 ^ 2 → q.F < v.perf.F) := by
  have V := fixeOk_of h
  constructor
  · obtain ⟨o, e, I, a⟩ := finv_new V
    obtain ⟨o', e', -, hs⟩ := fcomplete V o I (by have : o.base.corps = 4 := congrArg (fun a => a.1) a; omega)
    unfold Pyclass.cell20_fixe Pyclass.show_engine
    rw [e]
    show ((do Fixe.calculs_5_to_9; Fixe.show_perfo : Meth Fixe (Option Perf)) o).1 = _
    rw [bind_ok e', hs]
  · intro q hq
    rw [pc_fixe_shown V] at hq
    exact pc_compare hg hr (pc_T5 V.h5) (pc_mc V.base.h3 hm hl) V.h9 V.hP hq

/-- **C158, partial,** for an engine with a computed fan. -/
theorem C158_calcule_partial (i : Inp) (tm : ℝ) (v : CalculeVals) (h : calculeStraight i tm = .ok v)
    (hg : 1 < i.g_fuel.gamma) (hr : i.g_fuel.gamma < i.g_fuel.r) (hm : 0 < i.m) (hl : 0 ≤ i.lambda) :
    Pyclass.cell20_calcule i tm = .ok (some v.perf) ∧
    ∀ q, Pyclass.cell18_calcule i tm = .ok (some q) →
      (0 < v.s9.M9 → v.s9.M9 ^ 2 < 2 → v.perf.F < q.F) ∧ (v.s9.M9 = 0 ∨ v.s9.M9 ^ 2 = 2 → q = v.perf) ∧ (2 < v.s9.M9 ^ 2 → q.F < v.perf.F) := by
  have V := calculeOk_of h
  constructor
  · obtain ⟨o, e, I, a⟩ := kinv_new V
    obtain ⟨o', e', -, hs⟩ := kcomplete V o I (by have : o.base.corps = 4 := congrArg (fun a => a.1) a; omega)
    unfold Pyclass.cell20_calcule Pyclass.show_engine
    rw [e]
    show ((do Calcule.calculs_5_to_9; Calcule.show_perfo : Meth Calcule (Option Perf)) o).1 = _
    rw [bind_ok e', hs]
  · intro q hq
    rw [pc_calcule_shown V] at hq
    exact pc_compare hg hr (pc_T5c V.h5) (pc_mc V.base.h3 hm hl) V.h9 V.hP hq

/-- `burnt` of the notebook has `1 < γ < r`, and both kinds of engines can be evaluated. -/
example : (∃ v, fixeStraight ⟨5, picW, 1600, 6, air, burnt⟩ pifW = .ok v) ∧ (∃ v, calculeStraight ⟨5, picW, 1600, 6, air, burnt⟩ 0.2 = .ok v) ∧
    1 < burnt.gamma ∧ burnt.gamma < burnt.r ∧ (0:ℝ) < 6 ∧ (0:ℝ) ≤ 5 :=
  ⟨fixeW, calculeW, one_lt_gB, by unfold burnt; norm_num, by norm_num, by norm_num⟩

theorem pc_M9 {s0 : S0} {s3 : S3} {T P : ℝ} {s9 : S9} (hP : 4 * P0 ≤ P) (h : Cycle.val9 inpW s0 s3 T P = .ok s9) : 2 < s9.M9 ^ 2 := by
  unfold Cycle.val9 at h
  rw [show inpW.g_fuel = burnt from rfl] at h
  obtain ⟨n, en, h⟩ := Py.bind_inv h
  obtain ⟨M, eM, h⟩ := Py.bind_inv h
  obtain ⟨V, eV, h⟩ := Py.bind_inv h
  have h := Except.ok.inj h
  subst h
  obtain ⟨t, A, ht, hM, -, -⟩ := noz_prim one_lt_gB eM eV
  obtain ⟨hr, hM⟩ := Py.sqrt_inv hM
  have ht := Py.pow_inv ht
  have hn := (Py.div_inv en).2
  have hP0 : 0 < P0 := by unfold P0; norm_num
  have hn1 : (3.88:ℝ) ≤ n := by
    rw [hn, le_div_iff₀ hP0]
    unfold xi_tuy
    linarith
  have h1 : (1.33:ℝ) < t := by
    have a : (3.88:ℝ) ^ ((33:ℝ) / 133) ≤ t := by
      rw [ht, show (burnt.gamma - 1) / burnt.gamma = (33:ℝ) / 133 by unfold burnt; norm_num]
      exact Real.rpow_le_rpow (by norm_num) hn1 (by norm_num)
    refine lt_of_lt_of_le ?_ a
    have b : ((1.33:ℝ) ^ (133:ℕ)) ^ ((1:ℝ) / 133) < ((3.88:ℝ) ^ (33:ℕ)) ^ ((1:ℝ) / 133) :=
      Real.rpow_lt_rpow (by positivity) (by norm_num) (by norm_num)
    rw [← Real.rpow_natCast, ← Real.rpow_natCast, ← Real.rpow_mul (by norm_num), ← Real.rpow_mul (by norm_num)] at b
    rw [show ((133:ℕ):ℝ) * (1 / 133) = 1 by norm_num, Real.rpow_one, show ((33:ℕ):ℝ) * (1 / 133) = 33 / 133 by norm_num] at b
    exact b
  show 2 < M ^ 2
  rw [hM, Real.sq_sqrt hr, show (2:ℝ) / (burnt.gamma - 1) = 200 / 33 by unfold burnt; norm_num]
  linarith

/-- **C158 is false of the notebook**: for this engine (bypass ratio 5, `Tt4 = 1600`, the gases of the notebook)
cell 20 shows the performances `p` of the package, and cell 18 does not show them: its thrust, if shown, is smaller. -/
theorem C158_false : ∃ i pi_f p, i.lambda = 5 ∧ i.Tt4 = 1600 ∧ i.m = 6 ∧
    Gaz.new 1.4 287 0 = .ok i.g ∧ Gaz.new 1.33 291.6 42800e3 = .ok i.g_fuel ∧
    Pyclass.cell20_fixe i pi_f = .ok (some p) ∧ Pyclass.cell18_fixe i pi_f ≠ .ok (some p) ∧
    ∀ q, Pyclass.cell18_fixe i pi_f = .ok (some q) → q.F < p.F := by
  obtain ⟨v, hv, h4⟩ := fixeW4
  have V := fixeOk_of hv
  obtain ⟨k1, k2⟩ := C158_fixe_partial inpW pifW v hv one_lt_gB (by show burnt.gamma < burnt.r; unfold burnt; norm_num)
    (by show (0:ℝ) < 6; norm_num) (by show (0:ℝ) ≤ 5; norm_num)
  have hM := pc_M9 h4 V.h9
  refine ⟨inpW, pifW, v.perf, rfl, rfl, rfl, ?_, ?_, k1, fun hq => ?_, fun q hq => (k2 q hq).2.2 hM⟩
  · unfold Gaz.new
    rw [Py.div_ok (by norm_num), Py.ok_bind, Py.div_ok (by norm_num), Py.ok_bind]
    show _ = Except.ok air
    unfold air
    norm_num
  · unfold Gaz.new
    rw [Py.div_ok (by norm_num), Py.ok_bind, Py.div_ok (by norm_num), Py.ok_bind]
    show _ = Except.ok burnt
    unfold burnt
    norm_num
  · exact lt_irrefl _ ((k2 _ hq).2.2 hM)

end Aerokit.Props
