import Verif.Model.LinOperator
import Verif.Lemmas.NumSpectral

/-! Evaluation lemmas for `Meth` and the in-place array operations. -/

namespace Aerokit.LinOperator
namespace Meth
variable {σ α β : Type}

theorem bind_ok {m : Meth σ α} {f : α → Meth σ β} {s s' : σ} {a : α} (h : m s = (.ok a, s')) : (m >>= f) s = f a s' := by
  show (match m s with | (.ok a, s') => f a s' | (.error e, s') => (.error e, s')) = _
  rw [h]

theorem bind_err {m : Meth σ α} {f : α → Meth σ β} {s s' : σ} {e : PyErr} (h : m s = (.error e, s')) :
    (m >>= f) s = (.error e, s') := by
  show (match m s with | (.ok a, s') => f a s' | (.error e, s') => (.error e, s')) = _
  rw [h]

@[simp] theorem pure_apply (a : α) (s : σ) : (pure a : Meth σ α) s = (.ok a, s) := rfl
@[simp] theorem get_apply (f : σ → α) (s : σ) : Meth.get f s = (.ok (f s), s) := rfl
@[simp] theorem modify_apply (f : σ → σ) (s : σ) : Meth.modify f s = (.ok (), f s) := rfl
@[simp] theorem throw_apply (e : PyErr) (s : σ) : (Meth.throw e : Meth σ α) s = (.error e, s) := rfl
@[simp] theorem lift_apply (x : Py α) (s : σ) : (Meth.lift x : Meth σ α) s = (x, s) := rfl

theorem bind_apply (m : Meth σ α) (f : α → Meth σ β) (s : σ) :
    (m >>= f) s = match m s with | (.ok a, s') => f a s' | (.error e, s') => (.error e, s') := rfl

/-- a property of objects kept by a method whatever its outcome -/
def Keeps (P : σ → Prop) (m : Meth σ α) : Prop := ∀ s, P s → P (m s).2

theorem Keeps.bind {P : σ → Prop} {m : Meth σ α} {f : α → Meth σ β} (h : Keeps P m) (h' : ∀ a, Keeps P (f a)) :
    Keeps P (m >>= f) := by
  intro s hs
  rw [bind_apply]
  have := h s hs
  rcases e : m s with ⟨_ | a, s'⟩
  · rw [e] at this; exact this
  · rw [e] at this; exact h' a s' this

theorem Keeps.pure {P : σ → Prop} (a : α) : Keeps P (Pure.pure a : Meth σ α) := fun _ h => h
theorem Keeps.get {P : σ → Prop} (f : σ → α) : Keeps P (Meth.get f) := fun _ h => h
theorem Keeps.throw {P : σ → Prop} (e : PyErr) : Keeps P (Meth.throw e : Meth σ α) := fun _ h => h
theorem Keeps.lift {P : σ → Prop} (x : Py α) : Keeps P (Meth.lift x : Meth σ α) := fun _ h => h
theorem Keeps.modify {P : σ → Prop} {f : σ → σ} (h : ∀ s, P s → P (f s)) : Keeps P (Meth.modify f) := fun s hs => h s hs

theorem Keeps.ite {P : σ → Prop} {c : Prop} [Decidable c] {m m' : Meth σ α} (h : Keeps P m) (h' : Keeps P m') :
    Keeps P (if c then m else m') := by split_ifs <;> assumption
theorem Keeps.require {P : σ → Prop} (c : Prop) [Decidable c] (e : PyErr) : Keeps P (Meth.require c e : Meth σ Unit) :=
  Keeps.ite (Keeps.pure _) (Keeps.throw _)
theorem Keeps.when {P : σ → Prop} {c : Prop} [Decidable c] {m : Meth σ Unit} (h : Keeps P m) : Keeps P (Meth.when c m) :=
  Keeps.ite h (Keeps.pure _)

theorem require_ok {c : Prop} [Decidable c] (h : c) (e : PyErr) (s : σ) : (Meth.require c e : Meth σ Unit) s = (.ok (), s) := by
  unfold Meth.require; rw [if_pos h]; rfl
theorem require_err {c : Prop} [Decidable c] (h : ¬ c) (e : PyErr) (s : σ) :
    (Meth.require c e : Meth σ Unit) s = (.error e, s) := by
  unfold Meth.require; rw [if_neg h]; rfl
theorem when_pos {c : Prop} [Decidable c] (h : c) (m : Meth σ Unit) : Meth.when c m = m := if_pos h
theorem when_neg {c : Prop} [Decidable c] (h : ¬ c) (m : Meth σ Unit) : Meth.when c m = pure () := if_neg h

end Meth

namespace Mat
variable {R : Type}

/-- row `i` erased -/
def zr [Zero R] (m : Mat R) (i : ℕ) : Mat R := ⟨m.size, fun a b => if a = i then 0 else m.e a b⟩
/-- entry assigned -/
def st (m : Mat R) (i j : ℕ) (v : R) : Mat R := ⟨m.size, fun a b => if a = i ∧ b = j then v else m.e a b⟩
/-- row slice assigned -/
def sr (m : Mat R) (i lo hi : ℕ) (v : ℕ → R) : Mat R :=
  ⟨m.size, fun a b => if a = i ∧ lo ≤ b ∧ b < hi then v (b - lo) else m.e a b⟩

theorem zeroRow_ok [Zero R] {m : Mat R} {i : ℕ} (h : i < m.size) : m.zeroRow i = .ok (m.zr i) := if_pos h
theorem set_ok {m : Mat R} {i j : ℕ} {v : R} (h : i < m.size) (h' : j < m.size) : m.set i j v = .ok (m.st i j v) :=
  if_pos ⟨h, h'⟩
theorem setRow_ok {m : Mat R} {i lo hi : ℕ} {v : ℕ → R} (h : i < m.size) : m.setRow i lo hi v = .ok (m.sr i lo hi v) :=
  if_pos h

theorem zeroRow_err [Zero R] {m : Mat R} {i : ℕ} (h : m.size ≤ i) : m.zeroRow i = .error .indexError := if_neg (by omega)

theorem zr_ne [Zero R] {m : Mat R} {i a b : ℕ} (h : a ≠ i) : (m.zr i).e a b = m.e a b := if_neg h
theorem zr_eq [Zero R] {m : Mat R} {i a b : ℕ} (h : a = i) : (m.zr i).e a b = 0 := if_pos h
theorem st_ne {m : Mat R} {i j a b : ℕ} {v : R} (h : ¬ (a = i ∧ b = j)) : (m.st i j v).e a b = m.e a b := if_neg h
theorem st_eq {m : Mat R} {i j a b : ℕ} {v : R} (h : a = i ∧ b = j) : (m.st i j v).e a b = v := if_pos h
theorem sr_ne {m : Mat R} {i lo hi a b : ℕ} {v : ℕ → R} (h : ¬ (a = i ∧ lo ≤ b ∧ b < hi)) :
    (m.sr i lo hi v).e a b = m.e a b := if_neg h
theorem sr_eq {m : Mat R} {i lo hi a b : ℕ} {v : ℕ → R} (h : a = i ∧ lo ≤ b ∧ b < hi) :
    (m.sr i lo hi v).e a b = v (b - lo) := if_pos h

end Mat

theorem ix_eq {R : Type} [Zero R] {n : ℕ} (v : Fin n → R) {i : ℕ} (h : i < n) : ix v i = v ⟨i, h⟩ := dif_pos h

/-- the names accepted by `_check_BC`: type name of an argument -/
def argName (h : Heap) : BCArg → Option String
  | .str s => some s
  | .dict r => (h.at' r).type
  | .other => none

end Aerokit.LinOperator
