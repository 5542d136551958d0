import Verif.Model.CycleTurbofan
import Verif.Lemmas.LinOperator
import Verif.Lemmas.Engine

/-! Stage machines: a method on objects refines a function on the abstract progress counters. -/

namespace Aerokit.Cycle

open LinOperator (Meth)

section Refinement
variable {σ A : Type} {Inv : σ → Prop} {abs : σ → A}

/-- `m` raises nothing, keeps `Inv`, and acts on the abstraction as `f`. -/
def Ref (Inv : σ → Prop) (abs : σ → A) (m : Meth σ Unit) (f : A → A) : Prop :=
  ∀ o, Inv o → ∃ o', m o = (.ok (), o') ∧ Inv o' ∧ abs o' = f (abs o)

theorem Ref.seq {m m' : Meth σ Unit} {f f' : A → A} (h : Ref Inv abs m f) (h' : Ref Inv abs m' f') :
    Ref Inv abs (m >>= fun _ => m') (fun a => f' (f a)) := by
  intro o ho
  obtain ⟨o1, e1, i1, a1⟩ := h o ho
  obtain ⟨o2, e2, i2, a2⟩ := h' o1 i1
  refine ⟨o2, ?_, i2, by rw [a2, a1]⟩
  rw [LinOperator.Meth.bind_ok e1, e2]

theorem Ref.test {m : Meth σ Unit} {f : A → A} (p : σ → Prop) [DecidablePred p] (q : A → Prop)
    [DecidablePred q] (hpq : ∀ o, p o ↔ q (abs o)) (h : Ref Inv abs m f) :
    Ref Inv abs (cond p m) (fun a => if q a then f a else a) := by
  intro o ho
  unfold Cycle.cond
  by_cases hp : p o
  · obtain ⟨o1, e1, i1, a1⟩ := h o ho
    refine ⟨o1, ?_, i1, ?_⟩
    · rw [if_pos hp, e1]
    · rw [a1]; exact (if_pos ((hpq o).mp hp)).symm
  · exact ⟨o, if_neg hp, ho, (if_neg (fun h => hp ((hpq o).mpr h))).symm⟩

/-- Only required when the test succeeds. -/
theorem Ref.test' {m : Meth σ Unit} {f : A → A} (p : σ → Prop) [DecidablePred p] (q : A → Prop)
    [DecidablePred q] (hpq : ∀ o, p o ↔ q (abs o))
    (h : ∀ o, Inv o → p o → ∃ o', m o = (.ok (), o') ∧ Inv o' ∧ abs o' = f (abs o)) :
    Ref Inv abs (cond p m) (fun a => if q a then f a else a) := by
  intro o ho
  unfold Cycle.cond
  by_cases hp : p o
  · obtain ⟨o1, e1, i1, a1⟩ := h o ho hp
    refine ⟨o1, ?_, i1, ?_⟩
    · rw [if_pos hp, e1]
    · rw [a1]; exact (if_pos ((hpq o).mp hp)).symm
  · exact ⟨o, if_neg hp, ho, (if_neg (fun h => hp ((hpq o).mpr h))).symm⟩

end Refinement

/-- an attribute record is absent or holds the value `v` -/
def Is {α : Type} (x : Option α) (v : α) : Prop := ∀ y, x = some y → y = v

theorem attr_ok {σ α : Type} {f : σ → Option α} {s : σ} {a : α} (h : f s = some a) :
    attr f s = (.ok a, s) := by unfold attr; rw [h]

/-- values of the straight-line computation up to the combustion chamber -/
structure BaseVals where
  s0 : S0
  s2 : S2
  s3 : S3
  s4 : S4

/-- the straight-line computation up to the combustion chamber has the values `v` -/
structure BaseVals.Ok (i : Inp) (v : BaseVals) : Prop where
  h0 : val0 i = .ok v.s0
  h2 : val2 v.s0 = .ok v.s2
  h3 : val3 i v.s2 = .ok v.s3
  h4 : val4 i v.s3 = .ok v.s4

/-- invariant of the base object -/
structure BInv (i : Inp) (v : BaseVals) (b : Base) : Prop where
  inp : b.inp = i
  i0 : Is b.s0 v.s0
  i2 : Is b.s2 v.s2
  i3 : Is b.s3 v.s3
  i4 : Is b.s4 v.s4
  c0 : 1 ≤ b.corps → b.s0 = some v.s0
  c2 : 2 ≤ b.corps → b.s2 = some v.s2
  c3 : 3 ≤ b.corps → b.s3 = some v.s3
  c4 : 4 ≤ b.corps → b.s4 = some v.s4

theorem Is.some {α : Type} (v : α) : Is (some v) v := by rintro y ⟨⟩; rfl
theorem Is.none {α : Type} (v : α) : Is (none : Option α) v := by rintro y ⟨⟩

variable {i : Inp} {v : BaseVals}

theorem BInv.new : BInv i v (Base.new i) :=
  ⟨rfl, Is.none _, Is.none _, Is.none _, Is.none _, by intro h; exact absurd h (by simp [Base.new]),
    by intro h; exact absurd h (by simp [Base.new]), by intro h; exact absurd h (by simp [Base.new]),
    by intro h; exact absurd h (by simp [Base.new])⟩

/-- Moving the counter between 4 and 9 keeps the invariant. -/
theorem BInv.move {b : Base} (h : BInv i v b) (h4 : 4 ≤ b.corps) (c : ℕ) :
    BInv i v { b with corps := c } :=
  ⟨h.inp, h.i0, h.i2, h.i3, h.i4, fun _ => h.c0 (by omega), fun _ => h.c2 (by omega),
    fun _ => h.c3 (by omega), fun _ => h.c4 (by omega)⟩

theorem ref_init (V : BaseVals.Ok i v) : Ref (BInv i v) Base.corps InitialValues (fun _ => 1) := by
  intro b h
  refine ⟨{ b with s0 := some v.s0, corps := 1 }, ?_, ?_, rfl⟩
  · unfold InitialValues
    rw [LinOperator.Meth.bind_ok (LinOperator.Meth.get_apply _ _), LinOperator.Meth.bind_ok
      (a := v.s0) (s' := b) (by rw [h.inp, LinOperator.Meth.lift_apply, V.h0])]
    rfl
  · exact ⟨h.inp, Is.some _, h.i2, h.i3, h.i4, fun _ => rfl, fun k => absurd k (by simp),
      fun k => absurd k (by simp), fun k => absurd k (by simp)⟩

theorem ref_2 (V : BaseVals.Ok i v) :
    Ref (BInv i v) Base.corps stage_2 (fun c => if c = 1 then 2 else c) := by
  apply Ref.test' _ (fun c => c = 1) (fun _ => Iff.rfl)
  intro b h hp
  refine ⟨{ b with s2 := some v.s2, corps := 2 }, ?_, ?_, rfl⟩
  · rw [LinOperator.Meth.bind_ok (attr_ok (h.c0 (by omega))), LinOperator.Meth.bind_ok
      (a := v.s2) (s' := b) (by rw [LinOperator.Meth.lift_apply, V.h2])]
    rfl
  · exact ⟨h.inp, h.i0, Is.some _, h.i3, h.i4, fun _ => h.c0 (by omega), fun _ => rfl,
      fun k => absurd k (by simp), fun k => absurd k (by simp)⟩

theorem ref_3 (V : BaseVals.Ok i v) :
    Ref (BInv i v) Base.corps stage_3 (fun c => if c = 2 then 3 else c) := by
  apply Ref.test' _ (fun c => c = 2) (fun _ => Iff.rfl)
  intro b h hp
  refine ⟨{ b with s3 := some v.s3, corps := 3 }, ?_, ?_, rfl⟩
  · rw [LinOperator.Meth.bind_ok (LinOperator.Meth.get_apply _ _),
      LinOperator.Meth.bind_ok (attr_ok (h.c2 (by omega))), LinOperator.Meth.bind_ok
      (a := v.s3) (s' := b) (by rw [LinOperator.Meth.lift_apply, h.inp, V.h3])]
    rfl
  · exact ⟨h.inp, h.i0, h.i2, Is.some _, h.i4, fun _ => h.c0 (by omega), fun _ => h.c2 (by omega),
      fun _ => rfl, fun k => absurd k (by simp)⟩

theorem ref_4 (V : BaseVals.Ok i v) :
    Ref (BInv i v) Base.corps stage_4 (fun c => if c = 3 then 4 else c) := by
  apply Ref.test' _ (fun c => c = 3) (fun _ => Iff.rfl)
  intro b h hp
  refine ⟨{ b with s4 := some v.s4, corps := 4 }, ?_, ?_, rfl⟩
  · rw [LinOperator.Meth.bind_ok (LinOperator.Meth.get_apply _ _),
      LinOperator.Meth.bind_ok (attr_ok (h.c3 (by omega))), LinOperator.Meth.bind_ok
      (a := v.s4) (s' := b) (by rw [LinOperator.Meth.lift_apply, h.inp, V.h4])]
    rfl
  · exact ⟨h.inp, h.i0, h.i2, h.i3, Is.some _, fun _ => h.c0 (by omega), fun _ => h.c2 (by omega),
      fun _ => h.c3 (by omega), fun _ => rfl⟩

theorem Ref.congr {σ A : Type} {Inv : σ → Prop} {abs : σ → A} {m : Meth σ Unit} {f g : A → A}
    (h : Ref Inv abs m f) (e : ∀ a, f a = g a) : Ref Inv abs m g := by
  intro o ho
  obtain ⟨o', h1, h2, h3⟩ := h o ho
  exact ⟨o', h1, h2, by rw [h3, e]⟩

theorem ref_14 (V : BaseVals.Ok i v) :
    Ref (BInv i v) Base.corps calculs_1_to_4 (fun c => if c < 4 then 4 else c) := by
  have h := ((Ref.test (fun b : Base => b.corps = 0) (fun c => c = 0) (fun _ => Iff.rfl)
    ((ref_init V).seq ((ref_2 V).seq ((ref_3 V).seq (ref_4 V))))).seq
    ((Ref.test (fun b : Base => b.corps = 1) (fun c => c = 1) (fun _ => Iff.rfl)
      ((ref_2 V).seq ((ref_3 V).seq (ref_4 V)))).seq
    ((Ref.test (fun b : Base => b.corps = 2) (fun c => c = 2) (fun _ => Iff.rfl)
      ((ref_3 V).seq (ref_4 V))).seq
    (Ref.test (fun b : Base => b.corps = 3) (fun c => c = 3) (fun _ => Iff.rfl) (ref_4 V)))))
  apply Ref.congr h
  intro a
  by_cases h4 : a < 4
  · interval_cases a <;> rfl
  · have e0 : a ≠ 0 := by omega
    have e1 : a ≠ 1 := by omega
    have e2 : a ≠ 2 := by omega
    have e3 : a ≠ 3 := by omega
    simp only [if_neg e0, if_neg e1, if_neg e2, if_neg e3, if_neg h4]

end Aerokit.Cycle
