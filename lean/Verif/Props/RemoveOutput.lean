import Verif.Model.RemoveOutput
import Verif.Lemmas.Engine

/-! # Properties C152, C153 : the script that removes the outputs of notebooks -/

namespace Aerokit.Props
open RemoveOutput

theorem bak_ne (f : String) : bak f ≠ f := by
  unfold bak
  intro h
  have := congrArg String.length h
  simp at this

theorem bak_inj {f g : String} (h : bak f = bak g) : f = g := by
  unfold bak at h
  have := congrArg String.toList h
  simp at this
  exact String.toList_inj.1 this

theorem ro_one_ok {nf : Nbformat} {f : String} {fs fs' : FS} (h : one nf f fs = (fs', none)) :
    ∃ t t', fs f = some t ∧ cleaned nf t = .ok t' ∧ fs' = put f t' (rename f (bak f) fs) := by
  unfold one at h
  cases ht : fs f with
  | none => rw [ht] at h; simp at h
  | some t =>
    rw [ht] at h
    simp only at h
    cases hc : cleaned nf t with
    | error e =>
      rw [hc] at h
      obtain ⟨b, e⟩ := e
      cases b <;> simp at h
    | ok t' =>
      rw [hc] at h
      simp only [Prod.mk.injEq, and_true] at h
      exact ⟨t, t', rfl, hc, h.symm⟩

/-- the end of a run is one of its intermediate states -/
theorem ro_end (nf : Nbformat) : ∀ (names : List String) (fs : FS), During nf names fs (main nf names fs).1 := by
  intro names
  induction names with
  | nil => intro fs; exact .start _ _
  | cons f r ih =>
    intro fs
    cases h : one nf f fs with
    | mk fs' e =>
      cases e with
      | none =>
        have : main nf (f :: r) fs = main nf r fs' := by rw [main, h]
        rw [this]
        exact .next f r fs fs' _ h (ih fs')
      | some e =>
        have : main nf (f :: r) fs = (fs', some e) := by rw [main, h]
        rw [this]
        unfold one at h
        cases ht : fs f with
        | none =>
          rw [ht] at h
          simp only [Prod.mk.injEq] at h
          rw [← h.1]; exact .start _ _
        | some t =>
          rw [ht] at h
          simp only at h
          cases hc : cleaned nf t with
          | error d =>
            rw [hc] at h
            obtain ⟨b, d⟩ := d
            cases b
            · simp only [Prod.mk.injEq] at h
              rw [← h.1]; exact .renamed f r fs t ht
            · simp only [Prod.mk.injEq] at h
              rw [← h.1]; exact .opened f r fs t d ht hc
          | ok t' => rw [hc] at h; simp at h

/-- C152 (the part that holds): the names are different and none is the backup name of another one.  Wherever the run is interrupted (crash, power cut,
exception), the original text of every file of the list is in the file or in its backup file, complete; and no file is changed but these. -/
theorem C152_crash_safe_partial (nf : Nbformat) (names : List String) (hnd : names.Nodup) (hb : ∀ f ∈ names, bak f ∉ names) (fs s : FS)
    (h : During nf names fs s) :
    (∀ f ∈ names, ∀ t, fs f = some t → s f = some t ∨ s (bak f) = some t) ∧
    (∀ g, g ∉ names → (∀ f ∈ names, g ≠ bak f) → s g = fs g) := by
  induction h with
  | start => exact ⟨fun f _ t h => .inl h, fun _ _ _ => rfl⟩
  | renamed f r fs t ht =>
    refine ⟨fun g hg u hu => ?_, fun g hg hgb => ?_⟩
    · by_cases e : g = f
      · subst e; right; simp [rename, hu]
      · left
        have e2 : g ≠ bak f := fun c => hb f (by simp) (c ▸ hg)
        simp [rename, e, e2, hu]
    · have e1 : g ≠ f := fun c => hg (by simp [c])
      have e2 : g ≠ bak f := hgb f (by simp)
      simp [rename, e1, e2]
  | opened f r fs t e ht hc =>
    refine ⟨fun g hg u hu => ?_, fun g hg hgb => ?_⟩
    · by_cases e : g = f
      · subst e; right; simp [put, rename, hu, bak_ne]
      · left
        have e2 : g ≠ bak f := fun c => hb f (by simp) (c ▸ hg)
        simp [put, rename, e, e2, hu]
    · have e1 : g ≠ f := fun c => hg (by simp [c])
      have e2 : g ≠ bak f := hgb f (by simp)
      simp [put, rename, e1, e2]
  | writing f r fs t t' p ht hc hp =>
    refine ⟨fun g hg u hu => ?_, fun g hg hgb => ?_⟩
    · by_cases e : g = f
      · subst e; right; simp [put, rename, hu, bak_ne]
      · left
        have e2 : g ≠ bak f := fun c => hb f (by simp) (c ▸ hg)
        simp [put, rename, e, e2, hu]
    · have e1 : g ≠ f := fun c => hg (by simp [c])
      have e2 : g ≠ bak f := hgb f (by simp)
      simp [put, rename, e1, e2]
  | next f r fs fs' s ho hd ih =>
    obtain ⟨t, t', ht, hc, rfl⟩ := ro_one_ok ho
    obtain ⟨i1, i2⟩ := ih (List.nodup_cons.1 hnd).2 (fun g hg c => hb g (by simp [hg]) (by simp [c]))
    have hfr : f ∉ r := (List.nodup_cons.1 hnd).1
    refine ⟨fun g hg u hu => ?_, fun g hg hgb => ?_⟩
    · rcases List.mem_cons.1 hg with e | e
      · subst e
        right
        rw [i2 (bak g) (fun c => hb g (by simp) (by simp [c])) (fun k hk c => hfr (by rw [bak_inj c]; exact hk))]
        simp [put, rename, hu, bak_ne]
      · have e1 : g ≠ f := fun c => hfr (c ▸ e)
        have e2 : g ≠ bak f := fun c => hb f (by simp) (by rw [← c]; simp [e])
        exact i1 g e u (by simp [put, rename, e1, e2, hu])
    · have e1 : g ≠ f := fun c => hg (by simp [c])
      have e2 : g ≠ bak f := hgb f (by simp)
      rw [i2 g (fun c => hg (by simp [c])) (fun k hk => hgb k (by simp [hk]))]
      simp [put, rename, e1, e2]

/-- cleaning succeeds exactly when the text is read, its outputs removed and the result written -/
theorem ro_cleaned_ok {nf : Nbformat} {t t' : Text} : cleaned nf t = .ok t' ↔ ∃ nb nb', nf.read t = .ok nb ∧ remove_outputs nb = .ok nb' ∧ nf.write nb' = .ok t' := by
  unfold cleaned
  cases h1 : nf.read t with
  | error e => simp
  | ok nb =>
    cases h2 : remove_outputs nb with
    | error e => simp [h2]
    | ok nb' => cases h3 : nf.write nb' <;> simp [h2, h3]

/-- C152 (completion): under the same hypotheses, a run without exception has replaced every file of the list by the text that the notebook format writes for
the notebook it reads in it, without its outputs, and kept its original text in the backup file. -/
theorem C152_complete_partial (nf : Nbformat) (names : List String) (hnd : names.Nodup) (hb : ∀ f ∈ names, bak f ∉ names) (fs s : FS)
    (h : main nf names fs = (s, none)) (f : String) (hf : f ∈ names) :
    ∃ t nb nb' t', fs f = some t ∧ nf.read t = .ok nb ∧ remove_outputs nb = .ok nb' ∧ nf.write nb' = .ok t' ∧ s f = some t' ∧ s (bak f) = some t := by
  suffices h : ∃ t t', fs f = some t ∧ cleaned nf t = .ok t' ∧ s f = some t' ∧ s (bak f) = some t by
    obtain ⟨t, t', a, b, c, d⟩ := h
    obtain ⟨nb, nb', b1, b2, b3⟩ := ro_cleaned_ok.1 b
    exact ⟨t, nb, nb', t', a, b1, b2, b3, c, d⟩
  induction names generalizing fs with
  | nil => simp at hf
  | cons a r ih =>
    have hfr : a ∉ r := (List.nodup_cons.1 hnd).1
    cases ho : one nf a fs with
    | mk fs' e =>
      cases e with
      | some e => rw [main, ho] at h; simp at h
      | none =>
        have hm : main nf r fs' = (s, none) := by rw [main, ho] at h; exact h
        obtain ⟨t, t', ht, hc, hfs⟩ := ro_one_ok ho
        have hb' : ∀ g ∈ r, bak g ∉ r := fun g hg c => hb g (by simp [hg]) (by simp [c])
        have hd : During nf r fs' s := by
          have := ro_end nf r fs'
          rwa [hm] at this
        obtain ⟨-, i2⟩ := C152_crash_safe_partial nf r (List.nodup_cons.1 hnd).2 hb' fs' s hd
        rcases List.mem_cons.1 hf with e | e
        · subst e
          refine ⟨t, t', ht, hc, ?_, ?_⟩
          · rw [i2 f hfr (fun k hk c => hb k (by simp [hk]) (by rw [← c]; simp)), hfs]
            simp [put]
          · rw [i2 (bak f) (fun c => hb f (by simp) (by simp [c])) (fun k hk c => hfr (by rw [bak_inj c]; exact hk)), hfs]
            simp [put, rename, bak_ne, ht]
        · obtain ⟨u, u', j1, j2, j3, j4⟩ := ih (List.nodup_cons.1 hnd).2 hb' fs' hm e
          have e1 : f ≠ a := fun c => hfr (c ▸ e)
          have e2 : f ≠ bak a := fun c => hb a (by simp) (by rw [← c]; simp [e])
          refine ⟨u, u', ?_, j2, j3, j4⟩
          rw [hfs] at j1
          simpa [put, rename, e1, e2] using j1

/-- C152 is false for a file cleaned twice (named twice, or in two runs): when the file held the only copy of its text, and the cleaned text and the text
cleaned again differ from it, no file holds the original any more. -/
theorem C152_twice_false (nf : Nbformat) (f : String) (fs : FS) (t t' t'' : Text) (ht : fs f = some t) (only : ∀ g, fs g = some t → g = f)
    (h1 : cleaned nf t = .ok t') (h2 : cleaned nf t' = .ok t'') (n1 : t' ≠ t) (n2 : t'' ≠ t) :
    ∃ s, main nf [f, f] fs = (s, none) ∧ main nf [f] (main nf [f] fs).1 = (s, none) ∧ ∀ g, s g ≠ some t := by
  have o1 : one nf f fs = (put f t' (rename f (bak f) fs), none) := by simp [one, ht, h1]
  have o2 : one nf f (put f t' (rename f (bak f) fs)) = (put f t'' (rename f (bak f) (put f t' (rename f (bak f) fs))), none) := by
    simp [one, put, h2]
  refine ⟨put f t'' (rename f (bak f) (put f t' (rename f (bak f) fs))), by simp [main, o1, o2], by simp [main, o1, o2], ?_⟩
  intro g
  by_cases e1 : g = f
  · subst e1; simp [put, n2]
  · by_cases e2 : g = bak f
    · subst e2; simp [put, rename, bak_ne, n1]
    · simp only [put, rename, e1, e2, if_false]
      exact fun c => e1 (only g c)

/-- C152 is false for a notebook that cannot be read: the run stops, and the file does not exist any more under its name. -/
theorem C152_unreadable_false (nf : Nbformat) (f : String) (r : List String) (fs : FS) (t : Text) (e : PyErr) (ht : fs f = some t) (h : nf.read t = .error e) :
    ∃ s, main nf (f :: r) fs = (s, some (.python e)) ∧ s f = none ∧ s (bak f) = some t := by
  have hc : cleaned nf t = .error (false, e) := by simp [cleaned, h]
  refine ⟨rename f (bak f) fs, ?_, ?_, ?_⟩
  · simp [main, one, ht, hc]
  · simp [rename, (bak_ne f).symm]
  · simp [rename, ht]

/-- C152 is false for a notebook that cannot be written: the run stops, and the file is empty under its name; the original is in the backup file only. -/
theorem C152_unwritable_false (nf : Nbformat) (f : String) (r : List String) (fs : FS) (t : Text) (nb nb' : Notebook) (e : PyErr) (ht : fs f = some t)
    (h : nf.read t = .ok nb) (hr : remove_outputs nb = .ok nb') (hw : nf.write nb' = .error e) :
    ∃ s, main nf (f :: r) fs = (s, some (.python e)) ∧ s f = some [] ∧ s (bak f) = some t := by
  have hc : cleaned nf t = .error (true, e) := by simp [cleaned, h, hr, hw]
  refine ⟨put f [] (rename f (bak f) fs), ?_, ?_, ?_⟩
  · simp [main, one, ht, hc]
  · simp [put]
  · simp [put, rename, bak_ne, ht]

/-- the hypotheses are met by a notebook format that writes nothing -/
example : ∃ (nf : Nbformat) (t : Text) (nb nb' : Notebook) (e : PyErr), nf.read t = .ok nb ∧ remove_outputs nb = .ok nb' ∧ nf.write nb' = .error e :=
  ⟨⟨fun _ => .ok ⟨[], fun _ => none⟩, fun _ => .error .valueError⟩, [], ⟨[], fun _ => none⟩, ⟨[], fun _ => none⟩, .valueError, rfl, rfl, rfl⟩

/-! ### C153 -/

theorem ro_mapM_ok {α β : Type} {f : α → Py β} : ∀ {l : List α} {r : List β}, l.mapM f = .ok r → List.Forall₂ (fun a b => f a = .ok b) l r := by
  intro l
  induction l with
  | nil => intro r h; rw [List.mapM_nil, Py.pure_eq] at h; rw [← Except.ok.inj h]; exact .nil
  | cons a l ih =>
    intro r h
    rw [List.mapM_cons] at h
    obtain ⟨b, hb, h⟩ := Py.bind_inv h
    obtain ⟨bs, hbs, h⟩ := Py.bind_inv h
    rw [Py.pure_eq] at h
    rw [← Except.ok.inj h]
    exact .cons hb (ih hbs)

theorem ro_mapM_of {α β : Type} {f : α → Py β} {l : List α} {r : List β} (h : List.Forall₂ (fun a b => f a = .ok b) l r) : l.mapM f = .ok r := by
  induction h with
  | nil => rfl
  | cons h _ ih => rw [List.mapM_cons, h, Py.ok_bind, ih, Py.ok_bind, Py.pure_eq]

theorem ro_mem {α β : Type} {R : α → β → Prop} {l : List α} {r : List β} (h : List.Forall₂ R l r) {x : α} (hx : x ∈ l) : ∃ b, R x b := by
  induction h with
  | nil => simp at hx
  | cons h0 _ ih =>
    rcases List.mem_cons.1 hx with e | e
    · subst e; exact ⟨_, h0⟩
    · exact ih e

theorem ro_right {α : Type} {R S : α → α → Prop} {l r : List α} (h : List.Forall₂ R l r) (hS : ∀ a b, R a b → S b b) : List.Forall₂ S r r := by
  induction h with
  | nil => exact .nil
  | cons h _ ih => exact .cons (hS _ _ h) ih

/-- what the property says of one cell -/
def CellClean (c d : Cell) : Prop :=
  (c "cell_type" = some (.str "code") → d "outputs" = some (.arr []) ∧ d "execution_count" = none ∧ d "prompt_number" = none ∧
    ∀ k, k ≠ "outputs" → k ≠ "execution_count" → k ≠ "prompt_number" → d k = c k) ∧
  (c "cell_type" ≠ some (.str "code") → d = c)

theorem cleanCell_spec {c d : Cell} (h : cleanCell c = .ok d) : CellClean c d ∧ cleanCell d = .ok d := by
  unfold cleanCell at h
  cases hc : c "cell_type" with
  | none => rw [hc] at h; simp at h
  | some v =>
    rw [hc] at h
    have other : (∀ s, v = .str s → s ≠ "code") → d = c → CellClean c d ∧ cleanCell d = .ok d := by
      intro hv e
      subst e
      refine ⟨⟨fun h => ?_, fun _ => rfl⟩, ?_⟩
      · rw [hc] at h
        exact absurd rfl (hv "code" (Option.some.inj h))
      · unfold cleanCell
        rw [hc]
        cases v <;> simp_all
    cases v with
    | str s =>
      simp only at h
      by_cases hs : s = "code"
      · rw [if_pos hs] at h
        have e := (Except.ok.inj h).symm
        subst e hs
        refine ⟨⟨fun _ => ⟨by simp [strip], by simp [strip], by simp [strip], fun k h1 h2 h3 => by simp [strip, h1, h2, h3]⟩, fun h => absurd hc h⟩, ?_⟩
        unfold cleanCell
        have : strip c "cell_type" = some (.str "code") := by simp [strip, hc]
        rw [this]
        simp only [if_true]
        congr 1
        funext k
        unfold strip
        split_ifs <;> rfl
      · rw [if_neg hs] at h
        exact other (fun s' e => by injection e with e; rwa [← e]) (Except.ok.inj h).symm
    | null => exact other (fun s e => by cases e) (Except.ok.inj h).symm
    | bool b => exact other (fun s e => by cases e) (Except.ok.inj h).symm
    | num x => exact other (fun s e => by cases e) (Except.ok.inj h).symm
    | arr l => exact other (fun s e => by cases e) (Except.ok.inj h).symm
    | obj l => exact other (fun s e => by cases e) (Except.ok.inj h).symm

/-- C153: `remove_outputs` keeps the worksheets, the number, order and kind of the cells, every entry of the cells that are not code and every entry of the code
cells but three: their outputs become empty, their counters are deleted; cleaning again changes nothing; the only failure is a cell without type. -/
theorem C153_remove_outputs (nb : Notebook) :
    (∀ nb', remove_outputs nb = .ok nb' → List.Forall₂ (List.Forall₂ CellClean) nb.worksheets nb'.worksheets ∧ nb'.rest = nb.rest ∧
      remove_outputs nb' = .ok nb') ∧
    ((∃ nb', remove_outputs nb = .ok nb') ↔ ∀ w ∈ nb.worksheets, ∀ c ∈ w, c "cell_type" ≠ none) ∧
    (∀ e, remove_outputs nb = .error e → e = .attributeError) := by
  have cell_iff : ∀ c : Cell, (∃ d, cleanCell c = .ok d) ↔ c "cell_type" ≠ none := by
    intro c
    unfold cleanCell
    cases hc : c "cell_type" with
    | none => simp
    | some v =>
      simp only [ne_eq, reduceCtorEq, not_false_eq_true, iff_true]
      cases v with
      | str s => by_cases hs : s = "code" <;> simp [hs]
      | _ => exact ⟨_, rfl⟩
  have cell_err : ∀ c : Cell, ∀ e, cleanCell c = .error e → e = .attributeError := by
    intro c e h
    unfold cleanCell at h
    cases hc : c "cell_type" with
    | none => rw [hc] at h; exact (Except.error.inj h).symm
    | some v =>
      rw [hc] at h
      cases v with
      | str s => by_cases hs : s = "code" <;> simp [hs] at h
      | _ => cases h
  have mapM_err : ∀ {α β : Type} (f : α → Py β) (l : List α), (∀ a ∈ l, ∀ e, f a = .error e → e = .attributeError) → ∀ e, l.mapM f = .error e → e = .attributeError := by
    intro α β f l
    induction l with
    | nil => intro _ e h; cases h
    | cons a l ih =>
      intro hl e h
      rw [List.mapM_cons] at h
      cases ha : f a with
      | error e' => rw [ha, Py.error_bind] at h; rw [← Except.error.inj h]; exact hl a (by simp) _ ha
      | ok b =>
        rw [ha, Py.ok_bind] at h
        cases hl' : l.mapM f with
        | error e' => rw [hl', Py.error_bind] at h; rw [← Except.error.inj h]; exact ih (fun x hx => hl x (by simp [hx])) _ hl'
        | ok bs => rw [hl', Py.ok_bind] at h; cases h
  have mapM_iff : ∀ {α β : Type} (f : α → Py β) (l : List α), (∃ r, l.mapM f = .ok r) ↔ ∀ a ∈ l, ∃ b, f a = .ok b := by
    intro α β f l
    induction l with
    | nil => simp only [List.mapM_nil, Py.pure_eq, List.not_mem_nil, false_imp_iff, implies_true, iff_true]; exact ⟨_, rfl⟩
    | cons a l ih =>
      constructor
      · rintro ⟨r, h⟩ x hx
        have := ro_mapM_ok h
        exact ro_mem this hx
      · intro h
        obtain ⟨b, hb⟩ := h a (by simp)
        obtain ⟨bs, hbs⟩ := ih.2 (fun x hx => h x (by simp [hx]))
        exact ⟨b :: bs, by rw [List.mapM_cons, hb, Py.ok_bind, hbs, Py.ok_bind, Py.pure_eq]⟩
  refine ⟨?_, ?_, ?_⟩
  · intro nb' h
    unfold remove_outputs at h
    obtain ⟨ws, hws, h⟩ := Py.bind_inv h
    rw [Py.pure_eq] at h
    have e := (Except.ok.inj h).symm
    subst e
    have f2 := ro_mapM_ok hws
    refine ⟨?_, rfl, ?_⟩
    · refine f2.imp fun w w' hw => ?_
      exact (ro_mapM_ok hw).imp fun c d hcd => (cleanCell_spec hcd).1
    · unfold remove_outputs
      have : ws.mapM (fun w => w.mapM cleanCell) = .ok ws := by
        apply ro_mapM_of
        have fix : ∀ {l l' : List Cell}, List.Forall₂ (fun a b => cleanCell a = .ok b) l l' → List.Forall₂ (fun a b => cleanCell a = .ok b) l' l' := by
          intro l l' h
          induction h with
          | nil => exact .nil
          | cons h _ ih => exact .cons (cleanCell_spec h).2 ih
        exact ro_right f2 (fun w w' h => ro_mapM_of (fix (ro_mapM_ok h)))
      simp only [this, Py.ok_bind, Py.pure_eq]
  · have : (∃ nb', remove_outputs nb = .ok nb') ↔ ∃ r, nb.worksheets.mapM (fun w => w.mapM cleanCell) = .ok r := by
      unfold remove_outputs
      constructor
      · rintro ⟨nb', h⟩
        obtain ⟨ws, hws, -⟩ := Py.bind_inv h
        exact ⟨ws, hws⟩
      · rintro ⟨r, h⟩
        exact ⟨_, by rw [h, Py.ok_bind, Py.pure_eq]⟩
    rw [this, mapM_iff]
    refine forall₂_congr fun w _ => ?_
    rw [mapM_iff]
    exact forall₂_congr fun c _ => cell_iff c
  · intro e h
    unfold remove_outputs at h
    cases hw : nb.worksheets.mapM (fun w => w.mapM cleanCell) with
    | error e' =>
      rw [hw, Py.error_bind] at h
      rw [← Except.error.inj h]
      exact mapM_err _ _ (fun w _ e he => mapM_err _ _ (fun c _ e he => cell_err c e he) e he) _ hw
    | ok ws => rw [hw, Py.ok_bind] at h; cases h

/-- a format, a file and an interrupted run: two files, the second being written; and a notebook with a code cell and a text -/
example : ∃ (nf : Nbformat) (fs s : FS), During nf ["a", "b"] fs s ∧ ["a", "b"].Nodup ∧ (∀ f ∈ ["a", "b"], bak f ∉ ["a", "b"]) ∧ fs "b" = some ['x'] ∧ s "b" = some ['y'] := by
  refine ⟨⟨fun _ => .ok ⟨[], fun _ => none⟩, fun _ => .ok ['y', 'z']⟩, fun _ => some ['x'], _, .next "a" ["b"] _ _ _ rfl (.writing "b" [] _ ['x'] ['y', 'z'] ['y'] rfl rfl ⟨['z'], rfl⟩), by decide, by decide, rfl, rfl⟩

example : ∃ nb', remove_outputs ⟨[[fun k => if k = "cell_type" then some (.str "code") else if k = "outputs" then some (.arr [.null]) else none,
    fun k => if k = "cell_type" then some (.str "markdown") else none]], fun _ => none⟩ = .ok nb' := by
  refine (C153_remove_outputs _).2.1.2 ?_
  intro w hw c hc
  simp only [List.mem_singleton] at hw
  subst hw
  simp only [List.mem_cons, List.not_mem_nil, or_false] at hc
  rcases hc with rfl | rfl <;> simp

end Aerokit.Props
