import Verif.Model.ChebHeap
import Verif.Props.NumSpectral
import Verif.Lemmas.Engine

/-! # Property C137 : the arrays handed out by `ChebCollocation` -/

namespace Aerokit.Props
open ChebHeap

/-- attributes holding an array -/
inductive CAttr | xi | x | mat
  deriving DecidableEq

/-- address held by an attribute of the `k`-th object -/
def slot (w : World) (k : ℕ) (t : CAttr) : Option ℕ :=
  match w.objs[k]? with
  | none => none
  | some o => match t with
    | .xi => o.cache_xi
    | .x => o.cache_x
    | .mat => o.mat

/-- what users do: create objects, read attributes, write into arrays (numpy item assignment) -/
inductive COp
  | new (n : ℕ) (xmin xmax : ℝ)
  | xi (k : ℕ)
  | x (k : ℕ)
  | matder (k order : ℕ)
  | compute_matder (k order : ℕ)
  | write (a : ℕ) (idx : List ℕ) (v : ℝ)

/-- one operation (a raising call changes nothing) -/
noncomputable def cstep (w : World) : COp → World
  | .new n a b => ChebHeap.new w n a b
  | .xi k => match ChebHeap.xi w k with | .ok r => r.1 | .error _ => w
  | .x k => match ChebHeap.x w k with | .ok r => r.1 | .error _ => w
  | .matder k m => match ChebHeap.matder w k m with | .ok r => r.1 | .error _ => w
  | .compute_matder k m => match ChebHeap.compute_matder w k m with | .ok r => r | .error _ => w
  | .write a i v => ChebHeap.write w a i v

noncomputable def crun (w : World) (ops : List COp) : World := ops.foldl cstep w

/-- nothing yet -/
def noObjs : World := ⟨[], []⟩

/-- no operation writes into an array the `k`-th object uses at that moment -/
def CClean (k : ℕ) : World → List COp → Prop
  | _, [] => True
  | w, op :: ops => (∀ a i v t, op = .write a i v → slot w k t ≠ some a) ∧ CClean k (cstep w op) ops

/-- arrays exist, and no two attributes share one -/
structure Sep (w : World) : Prop where
  lt : ∀ k t a, slot w k t = some a → a < w.heap.length
  inj : ∀ k t k' t' a, slot w k t = some a → slot w k' t' = some a → k = k' ∧ t = t'

/-- effect of a call -/
structure Grows (w w' : World) : Prop where
  len : w.heap.length ≤ w'.heap.length
  keep : ∀ a < w.heap.length, w'.at a = w.at a
  slots : ∀ k t, slot w' k t = slot w k t ∨ ∃ b, w.heap.length ≤ b ∧ slot w' k t = some b
  sticky : ∀ k t a, t ≠ .mat → slot w k t = some a → slot w' k t = some a
  sep : Sep w → Sep w'

theorem Grows.refl (w : World) : Grows w w := ⟨le_rfl, fun _ _ => rfl, fun _ _ => .inl rfl, fun _ _ _ _ h => h, id⟩

theorem Grows.trans {w₁ w₂ w₃ : World} (h : Grows w₁ w₂) (h' : Grows w₂ w₃) : Grows w₁ w₃ where
  len := h.len.trans h'.len
  keep a ha := (h'.keep a (lt_of_lt_of_le ha h.len)).trans (h.keep a ha)
  slots k t := by
    rcases h'.slots k t with e | ⟨b, hb, e⟩
    · rcases h.slots k t with f | ⟨b, hb, f⟩
      · exact .inl (e.trans f)
      · exact .inr ⟨b, hb, e.trans f⟩
    · exact .inr ⟨b, h.len.trans hb, e⟩
  sticky k t a ht h0 := h'.sticky k t a ht (h.sticky k t a ht h0)
  sep hs := h'.sep (h.sep hs)

/-- storing a new array in an attribute -/
theorem grows_place {w : World} {k : ℕ} {o o' : Obj} {t : CAttr} {A : Arr} (ho : w.objs[k]? = some o)
    (hne : ∀ t', slot ⟨w.heap ++ [A], w.objs.set k o'⟩ k t' = if t' = t then some w.heap.length else slot w k t')
    (hnew : t = .mat ∨ slot w k t = none) :
    Grows w ⟨w.heap ++ [A], w.objs.set k o'⟩ := by
  have hk : k < w.objs.length := by
    by_contra hc
    rw [List.getElem?_eq_none (by omega)] at ho; cases ho
  have hoth : ∀ k' t', k' ≠ k → slot ⟨w.heap ++ [A], w.objs.set k o'⟩ k' t' = slot w k' t' := by
    intro k' t' h
    unfold slot
    simp only [List.getElem?_set_ne (Ne.symm h)]
  refine ⟨by simp, ?_, ?_, ?_, ?_⟩
  · intro a ha
    unfold World.at
    simp [List.getD_eq_getElem?_getD, List.getElem?_append_left ha]
  · intro k' t'
    by_cases h : k' = k
    · subst h
      rw [hne]
      split_ifs
      · exact .inr ⟨_, le_rfl, rfl⟩
      · exact .inl rfl
    · exact .inl (hoth k' t' h)
  · intro k' t' a ht h
    by_cases hk' : k' = k
    · subst hk'
      rw [hne]
      split_ifs with htt
      · subst htt
        rcases hnew with hm | hm
        · exact absurd hm ht
        · rw [hm] at h; cases h
      · exact h
    · rw [hoth k' t' hk']; exact h
  · intro hs
    have val : ∀ k' t' a, slot ⟨w.heap ++ [A], w.objs.set k o'⟩ k' t' = some a →
        (k' = k ∧ t' = t ∧ a = w.heap.length) ∨ (slot w k' t' = some a ∧ ¬ (k' = k ∧ t' = t)) := by
      intro k' t' a h
      by_cases hkk : k' = k
      · subst hkk
        rw [hne] at h
        split_ifs at h with ht
        · exact .inl ⟨rfl, ht, (Option.some.inj h).symm⟩
        · exact .inr ⟨h, fun hc => ht hc.2⟩
      · rw [hoth k' t' hkk] at h
        exact .inr ⟨h, fun hc => hkk hc.1⟩
    refine ⟨?_, ?_⟩
    · intro k' t' a h
      simp only [List.length_append, List.length_singleton]
      rcases val k' t' a h with ⟨-, -, rfl⟩ | ⟨h, -⟩
      · omega
      · have := hs.lt k' t' a h; omega
    · intro k1 t1 k2 t2 a h1 h2
      rcases val k1 t1 a h1 with ⟨a1, a2, a3⟩ | ⟨a1, -⟩ <;> rcases val k2 t2 a h2 with ⟨b1, b2, b3⟩ | ⟨b1, -⟩
      · exact ⟨a1.trans b1.symm, a2.trans b2.symm⟩
      · have := hs.lt _ _ _ b1; omega
      · have := hs.lt _ _ _ a1; omega
      · exact hs.inj _ _ _ _ _ a1 b1

theorem slot_set {w : World} {k : ℕ} {o o' : Obj} {A : Arr} (ho : w.objs[k]? = some o) (t : CAttr) :
    slot ⟨w.heap ++ [A], w.objs.set k o'⟩ k t = match t with | .xi => o'.cache_xi | .x => o'.cache_x | .mat => o'.mat := by
  have hk : k < w.objs.length := by
    by_contra hc
    rw [List.getElem?_eq_none (by omega)] at ho; cases ho
  unfold slot
  simp only [List.getElem?_set_self hk]

theorem slot_of {w : World} {k : ℕ} {o : Obj} (ho : w.objs[k]? = some o) (t : CAttr) :
    slot w k t = match t with | .xi => o.cache_xi | .x => o.cache_x | .mat => o.mat := by
  unfold slot; rw [ho]

theorem objs_set {w : World} {k : ℕ} {o o' : Obj} {A : Arr} (ho : w.objs[k]? = some o) :
    (World.mk (w.heap ++ [A]) (w.objs.set k o')).objs[k]? = some o' := by
  have hk : k < w.objs.length := by
    by_contra hc
    rw [List.getElem?_eq_none (by omega)] at ho; cases ho
  simp only [List.getElem?_set_self hk]

/-- all that a call on the `k`-th object does: memory grows, other objects unchanged, `k` keeps its parameters -/
structure Call (k : ℕ) (w w' : World) : Prop where
  grows : Grows w w'
  other : ∀ k', k' ≠ k → w'.objs[k']? = w.objs[k']?
  param : ∀ o, w.objs[k]? = some o → ∃ o', w'.objs[k]? = some o' ∧ o'.n = o.n ∧ o'.xmin = o.xmin ∧ o'.xmax = o.xmax

theorem Call.refl (k : ℕ) (w : World) : Call k w w := ⟨.refl w, fun _ _ => rfl, fun o h => ⟨o, h, rfl, rfl, rfl⟩⟩

theorem Call.trans {k : ℕ} {w₁ w₂ w₃ : World} (h : Call k w₁ w₂) (h' : Call k w₂ w₃) : Call k w₁ w₃ :=
  ⟨h.grows.trans h'.grows, fun k' hk => (h'.other k' hk).trans (h.other k' hk), fun o ho => by
    obtain ⟨o1, h1, e1, e2, e3⟩ := h.param o ho
    obtain ⟨o2, h2, f1, f2, f3⟩ := h'.param o1 h1
    exact ⟨o2, h2, f1.trans e1, f2.trans e2, f3.trans e3⟩⟩

theorem call_place {w : World} {k : ℕ} {o o' : Obj} {t : CAttr} {A : Arr} (ho : w.objs[k]? = some o)
    (hne : ∀ t' : CAttr, (match t' with | .xi => o'.cache_xi | .x => o'.cache_x | .mat => o'.mat) =
      if t' = t then some w.heap.length else match t' with | .xi => o.cache_xi | .x => o.cache_x | .mat => o.mat)
    (hnew : t = .mat ∨ slot w k t = none)
    (hp : o'.n = o.n ∧ o'.xmin = o.xmin ∧ o'.xmax = o.xmax) : Call k w ⟨w.heap ++ [A], w.objs.set k o'⟩ where
  grows := grows_place ho (t := t) (fun t' => by rw [slot_set ho, slot_of ho]; exact hne t') hnew
  other k' h := by simp only [List.getElem?_set_ne (Ne.symm h)]
  param o1 h1 := by
    rw [ho] at h1
    have := Option.some.inj h1
    subst this
    exact ⟨o', objs_set ho, hp⟩

theorem call_xi {w w' : World} {k a : ℕ} (h : ChebHeap.xi w k = .ok (w', a)) : Call k w w' ∧ slot w' k .xi = some a := by
  unfold ChebHeap.xi at h
  cases ho : w.objs[k]? with
  | none => rw [ho] at h; cases h
  | some o =>
    rw [ho] at h
    simp only [] at h
    cases hc : o.cache_xi with
    | some b =>
      rw [hc] at h
      have h := Except.ok.inj h
      injection h with e1 e2
      subst e1 e2
      exact ⟨.refl k w, by rw [slot_of ho]; exact hc⟩
    | none =>
      rw [hc] at h
      obtain ⟨v, hv, h⟩ := Py.bind_inv h
      have h := Except.ok.inj h
      injection h with e1 e2
      subst e1 e2
      refine ⟨call_place ho (t := .xi) (fun t' => by cases t' <;> rfl) (.inr (by rw [slot_of ho]; exact hc)) ⟨rfl, rfl, rfl⟩, ?_⟩
      rw [slot_set ho]

/-- reading `xi` does not touch the attribute of `x` -/
theorem xi_keeps_x {w w' : World} {k a : ℕ} (h : ChebHeap.xi w k = .ok (w', a)) : slot w' k .x = slot w k .x := by
  unfold ChebHeap.xi at h
  cases ho : w.objs[k]? with
  | none => rw [ho] at h; cases h
  | some o =>
    rw [ho] at h
    simp only [] at h
    cases hc : o.cache_xi with
    | some b =>
      rw [hc] at h
      have h := Except.ok.inj h
      injection h with e1 e2
      rw [← e1]
    | none =>
      rw [hc] at h
      obtain ⟨v, hv, h⟩ := Py.bind_inv h
      have h := Except.ok.inj h
      injection h with e1 e2
      rw [← e1, slot_set ho, slot_of ho]

theorem call_x {w w' : World} {k a : ℕ} (h : ChebHeap.x w k = .ok (w', a)) : Call k w w' ∧ slot w' k .x = some a := by
  unfold ChebHeap.x at h
  cases ho : w.objs[k]? with
  | none => rw [ho] at h; cases h
  | some o =>
    rw [ho] at h
    simp only [] at h
    cases hc : o.cache_x with
    | some b =>
      rw [hc] at h
      have h := Except.ok.inj h
      injection h with e1 e2
      subst e1 e2
      exact ⟨.refl k w, by rw [slot_of ho]; exact hc⟩
    | none =>
      rw [hc] at h
      obtain ⟨⟨w1, b⟩, hv, h⟩ := Py.bind_inv h
      obtain ⟨hc1, -⟩ := call_xi hv
      have hx1 : slot w1 k .x = none := by
        rw [xi_keeps_x hv, slot_of ho]; exact hc
      simp only [] at h
      cases ho1 : w1.objs[k]? with
      | none => rw [ho1] at h; cases h
      | some o1 =>
        rw [ho1] at h
        have h := Except.ok.inj h
        injection h with e1 e2
        subst e1 e2
        refine ⟨hc1.trans (call_place ho1 (t := .x) (fun t' => by cases t' <;> rfl) (.inr hx1) ⟨rfl, rfl, rfl⟩), ?_⟩
        rw [slot_set ho1]

theorem call_cm {w w' : World} {k m : ℕ} (h : ChebHeap.compute_matder w k m = .ok w') : Call k w w' := by
  unfold ChebHeap.compute_matder at h
  cases ho : w.objs[k]? with
  | none => rw [ho] at h; cases h
  | some o =>
    rw [ho] at h
    obtain ⟨v, hv, h⟩ := Py.bind_inv h
    have h := Except.ok.inj h
    subst h
    exact call_place ho (t := .mat) (fun t' => by cases t' <;> rfl) (.inl rfl) ⟨rfl, rfl, rfl⟩

theorem call_matder {w w' : World} {k m a : ℕ} (h : ChebHeap.matder w k m = .ok (w', a)) : Call k w w' ∧ slot w' k .mat = some a := by
  unfold ChebHeap.matder at h
  cases ho : w.objs[k]? with
  | none => rw [ho] at h; cases h
  | some o =>
    rw [ho] at h
    simp only [] at h
    by_cases hm : m ≥ 1
    swap
    · rw [if_neg hm] at h; cases h
    rw [if_pos hm] at h
    obtain ⟨w1, hc1, h⟩ : ∃ w1, Call k w w1 ∧ (match w1.objs[k]? with
        | none => (Except.error PyErr.nameError : Py (World × ℕ))
        | some o => match o.mat with
          | some a => Except.ok (w1, a)
          | none => Except.error PyErr.attributeError) = .ok (w', a) := by
      by_cases hg : m > o.maxD
      · rw [if_pos hg] at h
        obtain ⟨w1, h1, h⟩ := Py.bind_inv h
        exact ⟨w1, call_cm h1, h⟩
      · rw [if_neg hg] at h
        exact ⟨w, .refl k w, h⟩
    cases ho1 : w1.objs[k]? with
    | none => rw [ho1] at h; cases h
    | some o1 =>
      rw [ho1] at h
      simp only [] at h
      cases hmat : o1.mat with
      | none => rw [hmat] at h; cases h
      | some b =>
        rw [hmat] at h
        have h := Except.ok.inj h
        injection h with e1 e2
        subst e1 e2
        exact ⟨hc1, by rw [slot_of ho1]; exact hmat⟩

theorem slot_write (w : World) (a : ℕ) (i : List ℕ) (v : ℝ) (k : ℕ) (t : CAttr) : slot (ChebHeap.write w a i v) k t = slot w k t := rfl

theorem sep_write {w : World} (h : Sep w) (a : ℕ) (i : List ℕ) (v : ℝ) : Sep (ChebHeap.write w a i v) :=
  ⟨fun k t b hb => by simpa [ChebHeap.write] using h.lt k t b hb, fun k t k' t' b h1 h2 => h.inj k t k' t' b h1 h2⟩

theorem slot_new (w : World) (n : ℕ) (a b : ℝ) (k : ℕ) (t : CAttr) : slot (ChebHeap.new w n a b) k t = slot w k t := by
  unfold slot ChebHeap.new
  rcases Nat.lt_or_ge k w.objs.length with h | h
  · simp only [List.getElem?_append_left h]
  · rw [List.getElem?_eq_none h]
    rcases h.eq_or_lt with e | e
    · subst e
      simp only [List.getElem?_append_right le_rfl, Nat.sub_self, List.getElem?_cons_zero]
      cases t <;> rfl
    · rw [List.getElem?_eq_none (by simp; omega)]

/-- an operation either grows the memory, or writes -/
theorem cstep_cases (w : World) (op : COp) : Grows w (cstep w op) ∨ ∃ a i v, op = .write a i v ∧ cstep w op = ChebHeap.write w a i v := by
  cases op with
  | new n a b =>
    left
    refine ⟨le_rfl, fun _ _ => rfl, fun k t => .inl (slot_new w n a b k t), fun k t c _ h => ?_, fun h => ⟨?_, ?_⟩⟩
    · exact (slot_new w n a b k t).trans h
    · intro k t c hc
      simp only [cstep] at hc
      rw [slot_new] at hc; exact h.lt k t c hc
    · intro k t k' t' c h1 h2
      simp only [cstep] at h1 h2
      rw [slot_new] at h1 h2; exact h.inj k t k' t' c h1 h2
  | xi k =>
    left; simp only [cstep]
    cases h : ChebHeap.xi w k with
    | ok r => exact (call_xi h).1.grows
    | error e => exact .refl w
  | x k =>
    left; simp only [cstep]
    cases h : ChebHeap.x w k with
    | ok r => exact (call_x h).1.grows
    | error e => exact .refl w
  | matder k m =>
    left; simp only [cstep]
    cases h : ChebHeap.matder w k m with
    | ok r => exact (call_matder h).1.grows
    | error e => exact .refl w
  | compute_matder k m =>
    left; simp only [cstep]
    cases h : ChebHeap.compute_matder w k m with
    | ok r => exact (call_cm h).grows
    | error e => exact .refl w
  | write a i v => exact .inr ⟨a, i, v, rfl, rfl⟩

theorem sep_step {w : World} (h : Sep w) (op : COp) : Sep (cstep w op) := by
  rcases cstep_cases w op with hg | ⟨a, i, v, -, he⟩
  · exact hg.sep h
  · rw [he]; exact sep_write h a i v

theorem sep_run {w : World} (h : Sep w) (ops : List COp) : Sep (crun w ops) := by
  unfold crun
  induction ops generalizing w with
  | nil => exact h
  | cons op ops ih => exact ih (sep_step h op)

theorem sep_empty : Sep Props.noObjs := by
  refine ⟨fun k t a h => ?_, fun k t k' t' a h => ?_⟩ <;> simp [slot, Props.noObjs] at h

/-- an array that is not one of the `k`-th object never becomes one -/
theorem not_owned {w : World} {k c : ℕ} (hlt : c < w.heap.length) (h : ∀ t, slot w k t ≠ some c) (ops : List COp) (t : CAttr) :
    slot (crun w ops) k t ≠ some c := by
  unfold crun
  induction ops generalizing w with
  | nil => exact h t
  | cons op ops ih =>
    rcases cstep_cases w op with hg | ⟨a, i, v, -, he⟩
    · refine ih (lt_of_lt_of_le hlt hg.len) fun t => ?_
      rcases hg.slots k t with e | ⟨b, hb, e⟩
      · rw [e]; exact h t
      · rw [e]; intro hc; have := Option.some.inj hc; omega
    · rw [List.foldl_cons, he]
      exact ih (by simpa [ChebHeap.write] using hlt) fun t => h t

/-- a cached array of nodes stays the same array -/
theorem sticky_run {w : World} {k c : ℕ} {t : CAttr} (ht : t ≠ .mat) (h : slot w k t = some c) (ops : List COp) :
    slot (crun w ops) k t = some c := by
  unfold crun
  induction ops generalizing w with
  | nil => exact h
  | cons op ops ih =>
    rcases cstep_cases w op with hg | ⟨a, i, v, -, he⟩
    · exact ih (hg.sticky k t c ht h)
    · rw [List.foldl_cons, he]; exact ih h

theorem x_cached {w : World} {k c : ℕ} (h : slot w k .x = some c) : ChebHeap.x w k = .ok (w, c) := by
  unfold slot at h
  unfold ChebHeap.x
  cases ho : w.objs[k]? with
  | none => rw [ho] at h; cases h
  | some o =>
    rw [ho] at h
    simp only [] at h ⊢
    rw [h]

theorem xi_cached {w : World} {k c : ℕ} (h : slot w k .xi = some c) : ChebHeap.xi w k = .ok (w, c) := by
  unfold slot at h
  unfold ChebHeap.xi
  cases ho : w.objs[k]? with
  | none => rw [ho] at h; cases h
  | some o =>
    rw [ho] at h
    simp only [] at h ⊢
    rw [h]

/-- **C137** the nodes are computed once: after the first reading of `x` (or `xi`), whatever happens, the same array is returned and nothing
is computed any more. -/
theorem C137_same_array {w w' : World} {k c : ℕ} (ops : List COp) :
    (ChebHeap.x w k = .ok (w', c) → ChebHeap.x (crun w' ops) k = .ok (crun w' ops, c)) ∧
    (ChebHeap.xi w k = .ok (w', c) → ChebHeap.xi (crun w' ops) k = .ok (crun w' ops, c)) :=
  ⟨fun h => x_cached (sticky_run (by decide) (call_x h).2 ops), fun h => xi_cached (sticky_run (by decide) (call_xi h).2 ops)⟩

/-- **C137** separate objects: an array obtained from an object (nodes or matrices) is never used by another one, whatever happens before
and afterwards. -/
theorem C137_isolated (pre ops : List COp) {w' : World} {k k' c m : ℕ} (hk : k' ≠ k)
    (h : ChebHeap.x (crun Props.noObjs pre) k' = .ok (w', c) ∨ ChebHeap.xi (crun Props.noObjs pre) k' = .ok (w', c) ∨
      ChebHeap.matder (crun Props.noObjs pre) k' m = .ok (w', c)) (t : CAttr) :
    slot (crun w' ops) k t ≠ some c := by
  have hs := sep_run sep_empty pre
  have key : ∃ t', slot w' k' t' = some c ∧ Sep w' := by
    rcases h with h | h | h
    · exact ⟨_, (call_x h).2, (call_x h).1.grows.sep hs⟩
    · exact ⟨_, (call_xi h).2, (call_xi h).1.grows.sep hs⟩
    · exact ⟨_, (call_matder h).2, (call_matder h).1.grows.sep hs⟩
  obtain ⟨t', h1, h2⟩ := key
  exact not_owned (h2.lt _ _ _ h1) (fun t hc => hk (h2.inj _ _ _ _ _ h1 hc).1) ops t

/-! ### contents -/

open NumSpectral (Dm Ds xv)
open Welfert (node)

/-- the arrays used by the `k`-th object hold what they should -/
structure CGood (w : World) (k : ℕ) (o : Obj) : Prop where
  obj : w.objs[k]? = some o
  xi : ∀ c, o.cache_xi = some c → ∀ i < o.n, w.at c [i] = node o.n i
  x : ∀ c, o.cache_x = some c → ∀ i : Fin o.n, w.at c [i] = xv o.n o.xmin o.xmax i
  has : o.maxD = 0 ∨ ∃ c, o.mat = some c
  mat : ∀ c, o.mat = some c → ∀ m, 1 ≤ m → m ≤ o.maxD → ∀ i j : Fin o.n, w.at c [i, j, m - 1] = Dm o.n o.xmin o.xmax m i j

theorem cheb_good_other {w w' : World} {k : ℕ} {o : Obj} (h : CGood w k o) (hs : Sep w) (hg : Grows w w') (he : w'.objs[k]? = w.objs[k]?) :
    CGood w' k o where
  obj := he.trans h.obj
  xi c hc i hi := by
    rw [hg.keep c (hs.lt k .xi c (by rw [slot_of h.obj]; exact hc))]; exact h.xi c hc i hi
  x c hc i := by
    rw [hg.keep c (hs.lt k .x c (by rw [slot_of h.obj]; exact hc))]; exact h.x c hc i
  has := h.has
  mat c hc m h1 h2 i j := by
    rw [hg.keep c (hs.lt k .mat c (by rw [slot_of h.obj]; exact hc))]; exact h.mat c hc m h1 h2 i j

theorem at_write_ne {w : World} {a c : ℕ} (i : List ℕ) (v : ℝ) (h : c ≠ a) : (ChebHeap.write w a i v).at c = w.at c := by
  unfold ChebHeap.write World.at
  simp only [List.getD_eq_getElem?_getD, List.getElem?_modify, if_neg (Ne.symm h)]
  cases w.heap[c]? <;> rfl

theorem at_write_eq {w : World} {a : ℕ} (i : List ℕ) (v : ℝ) (h : a < w.heap.length) :
    (ChebHeap.write w a i v).at a = Function.update (w.at a) i v := by
  unfold ChebHeap.write World.at
  simp [List.getD_eq_getElem?_getD, List.getElem?_modify, List.getElem?_eq_getElem h]

theorem cheb_good_write {w : World} {k : ℕ} {o : Obj} (h : CGood w k o) {a : ℕ} {i : List ℕ} {v : ℝ} (hn : ∀ t, slot w k t ≠ some a) :
    CGood (ChebHeap.write w a i v) k o where
  obj := h.obj
  xi c hc j hj := by
    rw [at_write_ne i v (by rintro rfl; exact hn .xi (by rw [slot_of h.obj]; exact hc))]; exact h.xi c hc j hj
  x c hc j := by
    rw [at_write_ne i v (by rintro rfl; exact hn .x (by rw [slot_of h.obj]; exact hc))]; exact h.x c hc j
  has := h.has
  mat c hc m h1 h2 i' j := by
    rw [at_write_ne i v (by rintro rfl; exact hn .mat (by rw [slot_of h.obj]; exact hc))]; exact h.mat c hc m h1 h2 i' j

theorem at_last (w : World) (A : Arr) (o : List Obj) : (World.mk (w.heap ++ [A]) o).at w.heap.length = A := by
  unfold World.at
  simp [List.getD_eq_getElem?_getD]

theorem at_old {w : World} {A : Arr} {o : List Obj} {c : ℕ} (h : c < w.heap.length) : (World.mk (w.heap ++ [A]) o).at c = w.at c := by
  unfold World.at
  simp [List.getD_eq_getElem?_getD, List.getElem?_append_left h]

theorem cheb_good_xi {w : World} {k : ℕ} {o : Obj} (hn : 2 ≤ o.n) (h : CGood w k o) (hs : Sep w) :
    ∃ w' c, ChebHeap.xi w k = .ok (w', c) ∧ CGood w' k { o with cache_xi := some c } := by
  cases hc : o.cache_xi with
  | some c =>
    refine ⟨w, c, xi_cached (by rw [slot_of h.obj]; exact hc), ?_⟩
    have : { o with cache_xi := some c } = o := by rw [← hc]
    rw [this]; exact h
  | none =>
    refine ⟨_, w.heap.length, ?_, ⟨objs_set (A := vecArr fun i : Fin o.n => node o.n i) h.obj, ?_, ?_, h.has, ?_⟩⟩
    · unfold ChebHeap.xi
      rw [h.obj]
      simp only [hc]
      rw [NumSpectral.xiBody_ok hn]; rfl
    · intro c hcc i hi
      simp only [Option.some.injEq] at hcc
      rw [← hcc, at_last]
      simp only [vecArr, dif_pos hi]
    · intro c hcc i
      rw [at_old (hs.lt k .x c (by rw [slot_of h.obj]; exact hcc))]; exact h.x c hcc i
    · intro c hcc m h1 h2 i j
      rw [at_old (hs.lt k .mat c (by rw [slot_of h.obj]; exact hcc))]; exact h.mat c hcc m h1 h2 i j

theorem cheb_good_x {w : World} {k : ℕ} {o : Obj} (hn : 2 ≤ o.n) (h : CGood w k o) (hs : Sep w) :
    ∃ w' c d, ChebHeap.x w k = .ok (w', c) ∧ CGood w' k { o with cache_xi := d, cache_x := some c } := by
  cases hc : o.cache_x with
  | some c =>
    refine ⟨w, c, o.cache_xi, x_cached (by rw [slot_of h.obj]; exact hc), ?_⟩
    have : { o with cache_x := some c } = o := by rw [← hc]
    rw [this]; exact h
  | none =>
    obtain ⟨w1, c1, e1, g1⟩ := cheb_good_xi hn h hs
    have hs1 := (call_xi e1).1.grows.sep hs
    have hat : ∀ i < o.n, w1.at c1 [i] = node o.n i := g1.xi c1 rfl
    refine ⟨_, w1.heap.length, some c1, ?_, ⟨objs_set (A := vecArr (xv o.n o.xmin o.xmax)) g1.obj, ?_, ?_, g1.has, ?_⟩⟩
    · unfold ChebHeap.x
      rw [h.obj]
      simp only [hc]
      rw [e1, Py.ok_bind]
      simp only [g1.obj]
      have : (vecArr fun i : Fin o.n => NumSpectral.xi_to_x (Obj.plain { o with cache_xi := some c1 }) (w1.at c1 [(i : ℕ)]))
          = vecArr (xv o.n o.xmin o.xmax) := by
        congr 1
        funext i
        rw [hat i i.2]
        unfold NumSpectral.xi_to_x xv Obj.plain NumSpectral.mk
        norm_num
      rw [this]; rfl
    · intro c hcc i hi
      rw [at_old (hs1.lt k .xi c (by rw [slot_of g1.obj]; exact hcc))]; exact g1.xi c hcc i hi
    · intro c hcc i
      simp only [Option.some.injEq] at hcc
      rw [← hcc, at_last]
      simp only [vecArr, dif_pos i.2]
    · intro c hcc m h1 h2 i j
      rw [at_old (hs1.lt k .mat c (by rw [slot_of g1.obj]; exact hcc))]; exact g1.mat c hcc m h1 h2 i j

/-- the matrices computed are those of the value model, whatever is in the other arrays -/
theorem cm_fresh {w : World} {k : ℕ} {o : Obj} (ho : w.objs[k]? = some o) (hn : 2 ≤ o.n) (hab : o.xmin ≠ o.xmax) (M : ℕ) :
    ∃ w' A, ChebHeap.compute_matder w k M = .ok w' ∧ w' = ⟨w.heap ++ [A], w.objs.set k { o with mat := some w.heap.length, maxD := M }⟩ ∧
      ∀ m, 1 ≤ m → m ≤ M → ∀ i j : Fin o.n, A [(i : ℕ), (j : ℕ), m - 1] = Dm o.n o.xmin o.xmax m i j := by
  refine ⟨_, matArr (Ds o.n (-2 / (o.xmax - o.xmin)) M), ?_, rfl, ?_⟩
  · unfold ChebHeap.compute_matder
    rw [ho]
    simp only []
    rw [NumSpectral.compute_matder_ok hn o.plain hab M]; rfl
  · intro m h1 h2 i j
    simp only [matArr]
    rw [NumSpectral.Ds_get hn _ (by omega), Nat.sub_add_cancel h1]
    simp only [dif_pos (And.intro i.2 j.2)]
    rfl

theorem cheb_good_cm {w : World} {k : ℕ} {o : Obj} (hn : 2 ≤ o.n) (hab : o.xmin ≠ o.xmax) (h : CGood w k o) (hs : Sep w) (M : ℕ) :
    ∃ w' c, ChebHeap.compute_matder w k M = .ok w' ∧ CGood w' k { o with mat := some c, maxD := M } := by
  obtain ⟨w', A, h1, h2, h3⟩ := cm_fresh h.obj hn hab M
  subst h2
  refine ⟨_, w.heap.length, h1, ⟨objs_set h.obj, ?_, ?_, .inr ⟨_, rfl⟩, ?_⟩⟩
  · intro c hc i hi
    rw [at_old (hs.lt k .xi c (by rw [slot_of h.obj]; exact hc))]; exact h.xi c hc i hi
  · intro c hc i
    rw [at_old (hs.lt k .x c (by rw [slot_of h.obj]; exact hc))]; exact h.x c hc i
  · intro c hc m m1 m2 i j
    simp only [Option.some.injEq] at hc
    rw [← hc, at_last]
    exact h3 m m1 m2 i j

theorem cheb_good_matder {w : World} {k : ℕ} {o : Obj} (hn : 2 ≤ o.n) (hab : o.xmin ≠ o.xmax) (h : CGood w k o) (hs : Sep w) {m : ℕ}
    (hm : 1 ≤ m) : ∃ w' c M, m ≤ M ∧ ChebHeap.matder w k m = .ok (w', c) ∧ CGood w' k { o with mat := some c, maxD := M } := by
  unfold ChebHeap.matder
  rw [h.obj]
  simp only [ge_iff_le, if_pos hm]
  by_cases hg : m > o.maxD
  · obtain ⟨w', c, h1, h2⟩ := cheb_good_cm hn hab h hs m
    refine ⟨w', c, m, le_rfl, ?_, h2⟩
    rw [if_pos hg, h1, Py.ok_bind]
    simp only [h2.obj]
  · rcases h.has with h0 | ⟨c, hc⟩
    · omega
    · refine ⟨w, c, o.maxD, by omega, ?_, ?_⟩
      · rw [if_neg hg, Py.pure_eq, Py.ok_bind]
        simp only [h.obj, hc]
      · have : { o with mat := some c } = o := by rw [← hc]
        rw [this]; exact h

theorem cheb_good_step {w : World} {k : ℕ} {o : Obj} (hn : 2 ≤ o.n) (hab : o.xmin ≠ o.xmax) (h : CGood w k o) (hs : Sep w) (op : COp)
    (hc : ∀ a i v t, op = .write a i v → slot w k t ≠ some a) :
    ∃ o', CGood (cstep w op) k o' ∧ o'.n = o.n ∧ o'.xmin = o.xmin ∧ o'.xmax = o.xmax := by
  have oth : ∀ w' k', k' ≠ k → Call k' w w' → ∃ o', CGood w' k o' ∧ o'.n = o.n ∧ o'.xmin = o.xmin ∧ o'.xmax = o.xmax := by
    intro w' k' hk hcall
    exact ⟨o, cheb_good_other h hs hcall.grows (hcall.other k (Ne.symm hk)), rfl, rfl, rfl⟩
  cases op with
  | new n a b =>
    refine ⟨o, cheb_good_other h hs ?_ ?_, rfl, rfl, rfl⟩
    · rcases cstep_cases w (.new n a b) with hg | ⟨_, _, _, hx, -⟩
      · exact hg
      · cases hx
    · have hk : k < w.objs.length := by
        by_contra hcon
        have := h.obj
        rw [List.getElem?_eq_none (by omega)] at this; cases this
      simp only [cstep, ChebHeap.new, List.getElem?_append_left hk]
  | xi k' =>
    simp only [cstep]
    by_cases hk : k' = k
    · subst hk
      obtain ⟨w', c, e, g⟩ := cheb_good_xi hn h hs
      rw [e]; exact ⟨_, g, rfl, rfl, rfl⟩
    · cases e : ChebHeap.xi w k' with
      | ok r => exact oth _ k' hk (call_xi e).1
      | error _ => exact ⟨o, h, rfl, rfl, rfl⟩
  | x k' =>
    simp only [cstep]
    by_cases hk : k' = k
    · subst hk
      obtain ⟨w', c, d, e, g⟩ := cheb_good_x hn h hs
      rw [e]; exact ⟨_, g, rfl, rfl, rfl⟩
    · cases e : ChebHeap.x w k' with
      | ok r => exact oth _ k' hk (call_x e).1
      | error _ => exact ⟨o, h, rfl, rfl, rfl⟩
  | matder k' m =>
    simp only [cstep]
    by_cases hk : k' = k
    · subst hk
      by_cases hm : 1 ≤ m
      · obtain ⟨w', c, M, -, e, g⟩ := cheb_good_matder hn hab h hs hm
        rw [e]; exact ⟨_, g, rfl, rfl, rfl⟩
      · have e : ChebHeap.matder w k' m = .error .assertionError := by
          unfold ChebHeap.matder
          rw [h.obj]
          simp only [ge_iff_le, if_neg hm]
        rw [e]; exact ⟨o, h, rfl, rfl, rfl⟩
    · cases e : ChebHeap.matder w k' m with
      | ok r => exact oth _ k' hk (call_matder e).1
      | error _ => exact ⟨o, h, rfl, rfl, rfl⟩
  | compute_matder k' m =>
    simp only [cstep]
    by_cases hk : k' = k
    · subst hk
      obtain ⟨w', c, e, g⟩ := cheb_good_cm hn hab h hs m
      rw [e]; exact ⟨_, g, rfl, rfl, rfl⟩
    · cases e : ChebHeap.compute_matder w k' m with
      | ok r => exact oth _ k' hk (call_cm e)
      | error _ => exact ⟨o, h, rfl, rfl, rfl⟩
  | write a i v => exact ⟨o, cheb_good_write h fun t => hc a i v t rfl, rfl, rfl, rfl⟩

theorem cheb_good_run {w : World} {k : ℕ} {o : Obj} (hn : 2 ≤ o.n) (hab : o.xmin ≠ o.xmax) (h : CGood w k o) (hs : Sep w) (ops : List COp)
    (hc : CClean k w ops) : ∃ o', CGood (crun w ops) k o' ∧ o'.n = o.n ∧ o'.xmin = o.xmin ∧ o'.xmax = o.xmax := by
  unfold crun
  induction ops generalizing w o with
  | nil => exact ⟨o, h, rfl, rfl, rfl⟩
  | cons op ops ih =>
    obtain ⟨o1, h1, e1, e2, e3⟩ := cheb_good_step hn hab h hs op hc.1
    obtain ⟨o2, h2, f1, f2, f3⟩ := ih (by rw [e1]; exact hn) (by rw [e2, e3]; exact hab) h1 (sep_step hs op) hc.2
    exact ⟨o2, h2, f1.trans e1, f2.trans e2, f3.trans e3⟩

theorem cheb_good_new (w : World) (n : ℕ) (a b : ℝ) : CGood (ChebHeap.new w n a b) w.objs.length ⟨n, a, b, 0, none, none, none⟩ where
  obj := by simp [ChebHeap.new]
  xi c h := by cases h
  x c h := by cases h
  has := .inl rfl
  mat c h := by cases h

/-- **C137** an object created at any time, and used in any way together with other objects, gives the right nodes and matrices, as long as nobody
writes into an array it uses. -/
theorem C137_content {n : ℕ} {a b : ℝ} (hn : 2 ≤ n) (hab : a ≠ b) (pre ops : List COp)
    (hc : CClean (crun Props.noObjs pre).objs.length (ChebHeap.new (crun Props.noObjs pre) n a b) ops) :
    let k := (crun Props.noObjs pre).objs.length
    let w := crun (ChebHeap.new (crun Props.noObjs pre) n a b) ops
    (∃ w' c, ChebHeap.xi w k = .ok (w', c) ∧ ∀ i < n, w'.at c [i] = Real.cos (i * Real.pi / (n - 1))) ∧
    (∃ w' c, ChebHeap.x w k = .ok (w', c) ∧ ∀ i < n, w'.at c [i] = a + (b - a) * (1 - Real.cos (i * Real.pi / (n - 1))) / 2) ∧
    ∀ m, 1 ≤ m → ∃ w' c s D, ChebHeap.matder w k m = .ok (w', c) ∧
      NumSpectral.matder (NumSpectral.mk n (some a) (some b)) m = .ok (s, D) ∧ ∀ i j : Fin n, w'.at c [i, j, m - 1] = D i j := by
  intro k w
  have hs : Sep (ChebHeap.new (crun Props.noObjs pre) n a b) := sep_step (sep_run sep_empty pre) (.new n a b)
  obtain ⟨o, g, rfl, rfl, rfl⟩ := cheb_good_run (o := ⟨n, a, b, 0, none, none, none⟩) hn hab (cheb_good_new _ n a b) hs ops hc
  have hs' : Sep w := sep_run hs ops
  refine ⟨?_, ?_, ?_⟩
  · obtain ⟨w', c, e, g'⟩ := cheb_good_xi hn g hs'
    exact ⟨w', c, e, fun i hi => g'.xi c rfl i hi⟩
  · obtain ⟨w', c, d, e, g'⟩ := cheb_good_x hn g hs'
    refine ⟨w', c, e, fun i hi => ?_⟩
    have := g'.x c rfl ⟨i, hi⟩
    rw [this]
    unfold xv node
    simp only []
    ring
  · intro m hm
    obtain ⟨w', c, M, hM, e, g'⟩ := cheb_good_matder hn hab g hs' hm
    obtain ⟨s, h1, -⟩ := NumSpectral.matder_spec hn hab (NumSpectral.inv_mk o.xmin o.xmax) hm
    exact ⟨w', c, s, _, e, h1, fun i j => g'.mat c rfl m hm hM i j⟩

/-- **C137** asking for an order never computed before gives the right matrix even after the matrices handed out before were overwritten. -/
theorem C137_matder_fresh (pre : List COp) {k m : ℕ} {o : Obj} (ho : (crun Props.noObjs pre).objs[k]? = some o) (hn : 2 ≤ o.n)
    (hab : o.xmin ≠ o.xmax) (hm : o.maxD < m) :
    ∃ w' c s D, ChebHeap.matder (crun Props.noObjs pre) k m = .ok (w', c) ∧
      NumSpectral.matder (NumSpectral.mk o.n (some o.xmin) (some o.xmax)) m = .ok (s, D) ∧ ∀ i j : Fin o.n, w'.at c [i, j, m - 1] = D i j := by
  obtain ⟨w', A, h1, h2, h3⟩ := cm_fresh ho hn hab m
  obtain ⟨s, e1, -⟩ := NumSpectral.matder_spec hn hab (NumSpectral.inv_mk o.xmin o.xmax) (show 1 ≤ m by omega)
  refine ⟨w', (crun Props.noObjs pre).heap.length, s, _, ?_, e1, fun i j => ?_⟩
  · unfold ChebHeap.matder
    rw [ho]
    simp only [ge_iff_le, if_pos (show 1 ≤ m by omega), gt_iff_lt, if_pos hm]
    rw [h1, Py.ok_bind]
    subst h2
    rw [objs_set ho]
  · subst h2
    rw [at_last]
    exact h3 m (by omega) le_rfl i j

/-- **C137** the nodes are not protected: what a caller writes into the array it got from `x` (or `xi`) is what the object returns afterwards. -/
theorem C137_written_false (pre : List COp) {k i : ℕ} {v : ℝ} {o : Obj} (ho : (crun Props.noObjs pre).objs[k]? = some o) (hn : 2 ≤ o.n) :
    (∃ w' c, ChebHeap.xi (crun Props.noObjs pre) k = .ok (w', c) ∧
      ChebHeap.xi (ChebHeap.write w' c [i] v) k = .ok (ChebHeap.write w' c [i] v, c) ∧ (ChebHeap.write w' c [i] v).at c [i] = v) ∧
    (∃ w' c, ChebHeap.x (crun Props.noObjs pre) k = .ok (w', c) ∧
      ChebHeap.x (ChebHeap.write w' c [i] v) k = .ok (ChebHeap.write w' c [i] v, c) ∧ (ChebHeap.write w' c [i] v).at c [i] = v) := by
  have hs := sep_run sep_empty pre
  have hxi : ∃ w' c, ChebHeap.xi (crun Props.noObjs pre) k = .ok (w', c) := by
    unfold ChebHeap.xi
    rw [ho]
    cases hc : o.cache_xi with
    | some a => simp only [hc]; exact ⟨_, _, rfl⟩
    | none =>
      simp only [hc]
      rw [NumSpectral.xiBody_ok hn]; exact ⟨_, _, rfl⟩
  have hx : ∃ w' c, ChebHeap.x (crun Props.noObjs pre) k = .ok (w', c) := by
    obtain ⟨w1, c1, e1⟩ := hxi
    obtain ⟨o1, h1, -⟩ := (call_xi e1).1.param o ho
    unfold ChebHeap.x
    rw [ho]
    cases hc : o.cache_x with
    | some a => simp only [hc]; exact ⟨_, _, rfl⟩
    | none =>
      simp only [hc]
      rw [e1, Py.ok_bind]
      simp only [h1]
      exact ⟨_, _, rfl⟩
  constructor
  · obtain ⟨w', c, e⟩ := hxi
    obtain ⟨hc, hsl⟩ := call_xi e
    refine ⟨w', c, e, xi_cached hsl, ?_⟩
    rw [at_write_eq _ _ ((hc.grows.sep hs).lt _ _ _ hsl), Function.update_self]
  · obtain ⟨w', c, e⟩ := hx
    obtain ⟨hc, hsl⟩ := call_x e
    refine ⟨w', c, e, x_cached hsl, ?_⟩
    rw [at_write_eq _ _ ((hc.grows.sep hs).lt _ _ _ hsl), Function.update_self]

/-- the hypotheses of C137 are met: two objects, the second used after an array of the first one was overwritten -/
example : CClean 1 (ChebHeap.new (crun Props.noObjs [.new 5 0 1]) 4 (-1) 1)
    [.xi 0, .write 0 [2] 7, .xi 1, .x 1, .matder 1 3] := by
  refine ⟨?_, ?_, ?_, ?_, ?_, trivial⟩
  · intro a i v t h; cases h
  · intro a i v t h
    have h0 : (ChebHeap.new (crun Props.noObjs [.new 5 0 1]) 4 (-1) 1).objs[1]? = some ⟨4, -1, 1, 0, none, none, none⟩ := rfl
    have h1 : (cstep (ChebHeap.new (crun Props.noObjs [.new 5 0 1]) 4 (-1) 1) (.xi 0)).objs[1]? = some ⟨4, -1, 1, 0, none, none, none⟩ := by
      simp only [cstep]
      cases e : ChebHeap.xi (ChebHeap.new (crun Props.noObjs [.new 5 0 1]) 4 (-1) 1) 0 with
      | ok r => rw [(call_xi e).1.other 1 (by decide)]; exact h0
      | error _ => exact h0
    rw [slot_of h1]
    cases t <;> simp
  · intro a i v t h; cases h
  · intro a i v t h; cases h
  · intro a i v t h; cases h

end Aerokit.Props
