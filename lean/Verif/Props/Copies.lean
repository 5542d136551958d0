import Verif.Model.StateHeap
import Verif.Model.Unsteady1D
import Verif.Props.Unsteady1D
import Mathlib.Tactic

/-! # Properties C106 (copies of states) and C107 (`shock_downstream`) -/

namespace Aerokit.Props

open StateHeap

/-- a history of item assignments through a state: `q.attr[i] = x`, ... -/
def writes (o : Obj) (h : Heap) (ws : List (Attr × ℕ × ℝ)) : Heap :=
  ws.foldl (fun h w => setItem h o w.1 w.2.1 w.2.2) h

/-- the arrays of the state exist -/
def Valid (h : Heap) (o : Obj) : Prop := ∀ a, o.get a < h.length

theorem content_set_ne {h : Heap} {a b : ℕ} (hab : a ≠ b) (l : List ℝ) : content (h.set a l) b = content h b := by
  unfold content
  simp [List.getD_eq_getElem?_getD, List.getElem?_set_ne hab]

theorem writes_content (o : Obj) (b : ℕ) (hb : ∀ a, o.get a ≠ b) (ws : List (Attr × ℕ × ℝ)) (h : Heap) :
    content (writes o h ws) b = content h b := by
  induction ws generalizing h with
  | nil => rfl
  | cons w ws ih =>
    unfold writes at ih ⊢
    rw [List.foldl_cons, ih]
    exact content_set_ne (hb _) _

/-- what `deepAttr` guarantees: the arrays of the old memory are unchanged, the memo maps old addresses to copies. -/
structure MemoOK (h0 h : Heap) (memo : List (ℕ × ℕ)) : Prop where
  len : h0.length ≤ h.length
  old : ∀ a < h0.length, content h a = content h0 a
  memo : ∀ p ∈ memo, h0.length ≤ p.2 ∧ p.2 < h.length ∧ content h p.2 = content h0 p.1

theorem deepAttr_ok {h0 h : Heap} {memo : List (ℕ × ℕ)} (hm : MemoOK h0 h memo) {a : ℕ} (ha : a < h0.length) :
    MemoOK h0 (deepAttr h memo a).1 (deepAttr h memo a).2.1 ∧ (a, (deepAttr h memo a).2.2) ∈ (deepAttr h memo a).2.1 ∧
      memo ⊆ (deepAttr h memo a).2.1 := by
  unfold deepAttr
  cases e : memo.lookup a with
  | some b =>
    refine ⟨hm, ?_, fun _ h => h⟩
    obtain ⟨l₁, l₂, h1, -⟩ := List.lookup_eq_some_iff.1 e
    simp [h1]
  | none =>
    simp only []
    have hc : ∀ b < h.length, content (h ++ [content h a]) b = content h b := by
      intro b hb; unfold content; simp [List.getD_eq_getElem?_getD, List.getElem?_append_left hb]
    have hn : content (h ++ [content h a]) h.length = content h a := by
      unfold content; simp
    refine ⟨⟨by simp [alloc]; exact hm.len.trans (Nat.le_succ _), fun b hb => ?_, fun p hp => ?_⟩, by simp, fun p hp => List.mem_cons_of_mem _ hp⟩
    · rw [show (alloc h (content h a)).1 = h ++ [content h a] from rfl, hc b (lt_of_lt_of_le hb hm.len), hm.old b hb]
    · rw [show (alloc h (content h a)).1 = h ++ [content h a] from rfl]
      rcases List.mem_cons.1 hp with rfl | hp
      · exact ⟨hm.len, by simp, by rw [hn, hm.old _ ha]⟩
      · obtain ⟨h1, h2, h3⟩ := hm.memo p hp
        exact ⟨h1, by simp; omega, by rw [hc _ h2, h3]⟩

theorem deepcopy_ok {h : Heap} {o : Obj} (ho : Valid h o) :
    MemoOK h (deepcopy h o).1 (([Attr.rho, Attr.u, Attr.p]).map fun a => (o.get a, (deepcopy h o).2.get a)) := by
  have m0 : MemoOK h h [] := ⟨le_rfl, fun _ _ => rfl, fun _ hp => by cases hp⟩
  obtain ⟨m1, i1, s1⟩ := deepAttr_ok m0 (ho .rho)
  obtain ⟨m2, i2, s2⟩ := deepAttr_ok m1 (ho .u)
  obtain ⟨m3, i3, s3⟩ := deepAttr_ok m2 (ho .p)
  refine ⟨m3.len, m3.old, fun p hp => m3.memo p ?_⟩
  simp only [List.map_cons, List.map_nil, List.mem_cons, List.not_mem_nil, or_false] at hp
  rcases hp with rfl | rfl | rfl
  · exact s3 (s2 i1)
  · exact s3 i2
  · exact i3

/-- C106 (`unsteady_state.copy`): the copy has the same values and `gamma`; whatever is later written into the arrays of one, the other keeps
its values. -/
theorem C106_deepcopy (h : Heap) (o : Obj) (ho : Valid h o) :
    (deepcopy h o).2.gamma = o.gamma ∧
    (∀ a, content (deepcopy h o).1 ((deepcopy h o).2.get a) = content h (o.get a)) ∧
    (∀ ws a, content (writes (deepcopy h o).2 (deepcopy h o).1 ws) (o.get a) = content h (o.get a)) ∧
    (∀ ws a, content (writes o (deepcopy h o).1 ws) ((deepcopy h o).2.get a) = content h (o.get a)) := by
  have m := deepcopy_ok ho
  have key : ∀ a, h.length ≤ (deepcopy h o).2.get a ∧ content (deepcopy h o).1 ((deepcopy h o).2.get a) = content h (o.get a) := by
    intro a
    have := m.memo (o.get a, (deepcopy h o).2.get a) (by cases a <;> simp)
    exact ⟨this.1, this.2.2⟩
  refine ⟨rfl, fun a => (key a).2, fun ws a => ?_, fun ws a => ?_⟩
  · rw [writes_content, m.old _ (ho a)]
    intro b hb
    have := (key b).1
    have := ho a
    omega
  · rw [writes_content, (key a).2]
    intro b hb
    have := (key a).1
    have := ho b
    omega

/-- two points, `rho` and `p` being the same array -/
example : Valid [[1, 2], [0, 5]] ⟨0, 1, 0, 1.4⟩ := by intro a; cases a <;> decide

/-- C106 fails for `state.copy`: whatever is written into an array of the copy is written into the original. -/
theorem C106_state_copy_false (h : Heap) (o : Obj) (ws : List (Attr × ℕ × ℝ)) (a : Attr) :
    content (writes (copy o) h ws) (o.get a) = content (writes o h ws) (o.get a) ∧
    (∀ x i, Valid h o → i < (content h (o.get a)).length →
      (content (writes (copy o) h [(a, i, x)]) (o.get a))[i]? = some x) := by
  refine ⟨rfl, fun x i ho hi => ?_⟩
  have : writes (copy o) h [(a, i, x)] = h.set (o.get a) ((content h (o.get a)).set i x) := rfl
  rw [this]
  have e : content (h.set (o.get a) ((content h (o.get a)).set i x)) (o.get a) = (content h (o.get a)).set i x := by
    conv_lhs => unfold content
    simp [List.getD_eq_getElem?_getD, List.getElem?_set_self (ho a)]
    simp [content, List.getD_eq_getElem?_getD]
  rw [e, List.getElem?_set_self hi]

/-- C106 (`copysymmetric`): the velocity is a new array, opposite to the original one ... -/
theorem C106_symmetric_partial (h : Heap) (o : Obj) (ho : Valid h o) :
    content (copysymmetric h o).1 ((copysymmetric h o).2.get .u) = (content h (o.get .u)).map (fun x => -x) ∧
    (∀ a, a ≠ .u → content (copysymmetric h o).1 ((copysymmetric h o).2.get a) = content h (o.get a)) ∧
    (∀ ws a, (∀ w ∈ ws, w.1 = Attr.u) → content (writes (copysymmetric h o).2 (copysymmetric h o).1 ws) (o.get a) = content h (o.get a)) := by
  have hold : ∀ b < h.length, content (copysymmetric h o).1 b = content h b := by
    intro b hb; unfold copysymmetric alloc content; simp [List.getD_eq_getElem?_getD, List.getElem?_append_left hb]
  refine ⟨?_, ?_, ?_⟩
  · unfold copysymmetric alloc Obj.get content; simp
  · intro a ha
    cases a with
    | u => exact absurd rfl ha
    | rho => exact hold _ (ho .rho)
    | p => exact hold _ (ho .p)
  · intro ws a hw
    have : ∀ (ws : List (Attr × ℕ × ℝ)) (g : Heap), (∀ w ∈ ws, w.1 = Attr.u) →
        content (writes (copysymmetric h o).2 g ws) (o.get a) = content g (o.get a) := by
      intro ws
      induction ws with
      | nil => intro g _; rfl
      | cons w ws ih =>
        intro g hw
        unfold writes at ih ⊢
        rw [List.foldl_cons, ih _ (fun w' h' => hw w' (List.mem_cons_of_mem _ h'))]
        rw [hw w (List.mem_cons_self ..)]
        refine content_set_ne ?_ _
        change h.length ≠ o.get a
        exact (ho a).ne'
    rw [this ws _ hw]
    exact hold _ (ho a)

/-- C106 fails for `copysymmetric`: ... but density and pressure are the arrays of the original, and are changed together. -/
theorem C106_symmetric_false (h : Heap) (o : Obj) (ho : Valid h o) (a : Attr) (ha : a ≠ .u) (x : ℝ) (i : ℕ)
    (hi : i < (content h (o.get a)).length) :
    (content (writes (copysymmetric h o).2 (copysymmetric h o).1 [(a, i, x)]) (o.get a))[i]? = some x := by
  have e0 : (copysymmetric h o).2.get a = o.get a := by cases a <;> first | rfl | exact absurd rfl ha
  have hold : content (copysymmetric h o).1 (o.get a) = content h (o.get a) := by
    unfold copysymmetric alloc content; simp [List.getD_eq_getElem?_getD, List.getElem?_append_left (ho a)]
  have hlen : o.get a < (copysymmetric h o).1.length := by
    unfold copysymmetric alloc; simp; exact (ho a).le
  have : writes (copysymmetric h o).2 (copysymmetric h o).1 [(a, i, x)] =
      (copysymmetric h o).1.set (o.get a) ((content h (o.get a)).set i x) := by
    unfold writes setItem
    simp only [List.foldl_cons, List.foldl_nil, e0, hold]
  rw [this]
  have e : content ((copysymmetric h o).1.set (o.get a) ((content h (o.get a)).set i x)) (o.get a) = (content h (o.get a)).set i x := by
    conv_lhs => unfold content
    simp [List.getD_eq_getElem?_getD, List.getElem?_set_self hlen]
    simp [content, List.getD_eq_getElem?_getD]
  rw [e, List.getElem?_set_self hi]

/-! ### C107 -/

open Model1D Unsteady1D ShockWave

theorem rh_frame (s : State) (h : s.Valid) (σ : ℝ) :
    UState.rankinehugoniot_from_ushock s σ =
      (State.state_RH ⟨s.rho, s.u - σ, s.p, s.gamma⟩).map fun t => ⟨t.rho, σ + t.u, t.p, t.gamma⟩ := by
  have h' : State.Valid ⟨s.rho, s.u - σ, s.p, s.gamma⟩ := ⟨h.rho, h.p, h.gamma⟩
  have hc : State.cs ⟨s.rho, s.u - σ, s.p, s.gamma⟩ = s.cs := rfl
  unfold UState.rankinehugoniot_from_ushock State.state_RH
  rw [h.asound, Py.ok_bind, h'.Mach, Py.ok_bind, hc, Py.div_ok h.cs_pos.ne', Py.ok_bind]
  simp only []
  cases Rho_ratio ((s.u - σ) / s.cs) s.gamma with
  | error e => rfl
  | ok R =>
    simp only [Py.ok_bind]
    cases Py.div (s.u - σ) R with
    | error e => rfl
    | ok w =>
      simp only [Py.ok_bind]
      cases Ps_ratio ((s.u - σ) / s.cs) s.gamma <;> rfl

/-- C107 (partial, for the private method): the state returned by `_rankinehugoniot_from_ushock` for a supersonic relative velocity is the state
behind a genuine shock (compression) moving at `ushock`, and the method applied to it gives back the original state. -/
theorem C107_private_partial (s : State) (hρ : 0 < s.rho) (hp : 0 < s.p) (hγ : 1 < s.gamma) (a ushock : ℝ) (ha : s.asound = .ok a)
    (hs : a < |s.u - ushock|) :
    ∃ s', UState.rankinehugoniot_from_ushock s ushock = .ok s' ∧ MovingShock ushock s s' ∧ s.rho < s'.rho ∧ s.p < s'.p ∧
      UState.rankinehugoniot_from_ushock s' ushock = .ok s := by
  have h : s.Valid := ⟨hρ, hp, hγ⟩
  rw [h.asound] at ha
  have ha' := Except.ok.inj ha
  subst ha'
  have hc := h.cs_pos
  obtain ⟨t, ht⟩ : ∃ t : State, t = ⟨s.rho, s.u - ushock, s.p, s.gamma⟩ := ⟨_, rfl⟩
  have hv : t.Valid := by subst ht; exact ⟨hρ, hp, hγ⟩
  have hcs : t.cs = s.cs := by subst ht; rfl
  have hm1 : 1 < (t.u / t.cs) ^ 2 := by
    rw [hcs, div_pow, one_lt_div (by positivity), ← sq_abs t.u]
    have : t.u = s.u - ushock := by rw [ht]
    rw [this]
    exact pow_lt_pow_left₀ hs hc.le two_ne_zero
  have hg1 : 0 < s.gamma - 1 := by linarith
  have htg : t.gamma = s.gamma := by rw [ht]
  have hd : (t.gamma - 1) / (2 * t.gamma) < (t.u / t.cs) ^ 2 := by
    refine lt_trans ?_ hm1
    rw [div_lt_one (by rw [htg]; linarith), htg]; linarith
  obtain ⟨t', e1, hv', eg, hRH, e2⟩ := C55_RH t hv _ hv.Mach hd
  have hu0 : t.u ≠ 0 := by
    intro h0; rw [h0] at hm1; norm_num at hm1
  have e3 := state_RH_ok hv hu0
  rw [e1] at e3
  have e3' := Except.ok.inj e3
  have hρt : t.rho = s.rho := by rw [ht]
  have hpt : t.p = s.p := by rw [ht]
  have er : t'.rho = s.rho * rhr (t.u / t.cs) s.gamma := by rw [e3', hρt, htg]
  have ep : t'.p = s.p * psr (t.u / t.cs) s.gamma := by rw [e3', hpt, htg]
  refine ⟨⟨t'.rho, ushock + t'.u, t'.p, t'.gamma⟩, ?_, ⟨?_, ?_⟩, ?_, ?_, ?_⟩
  · rw [rh_frame s h, ← ht, e1]; rfl
  · exact eg.trans htg
  · unfold inFrame
    simp only [add_sub_cancel_left]
    rw [htg] at hRH
    have ef : flow t = ⟨s.rho, s.u - ushock, s.p⟩ := by rw [ht]; rfl
    rw [ef] at hRH
    exact hRH
  · simp only []
    rw [er]
    refine lt_mul_of_one_lt_right hρ ?_
    unfold rhr
    rw [one_lt_div (by nlinarith)]
    nlinarith
  · simp only []
    rw [ep]
    refine lt_mul_of_one_lt_right hp ?_
    unfold psr
    have : 0 < 2 * s.gamma / (s.gamma + 1) * ((t.u / t.cs) ^ 2 - 1) := mul_pos (by positivity) (by linarith)
    linarith
  · rw [rh_frame ⟨t'.rho, ushock + t'.u, t'.p, t'.gamma⟩ ⟨hv'.rho, hv'.p, hv'.gamma⟩]
    simp only [add_sub_cancel_left]
    rw [e2, ht]
    change Except.ok _ = Except.ok s
    cases s
    simp

/-- a shock running into air at rest -/
example : ∃ (s : State) (a ushock : ℝ), 0 < s.rho ∧ 0 < s.p ∧ 1 < s.gamma ∧ s.asound = .ok a ∧ a < |s.u - ushock| := by
  have h : State.Valid ⟨1.4, 0, 1, 1.4⟩ := ⟨by norm_num, by norm_num, by norm_num⟩
  refine ⟨⟨1.4, 0, 1, 1.4⟩, _, 2, h.rho, h.p, h.gamma, h.asound, ?_⟩
  unfold State.cs; norm_num

/-- C107 fails for the public method: whatever supersonic shock velocity is given, the downstream state exists, but `shock_downstream`, which has no body, does not return it. -/
theorem C107_public_false (s : State) (hρ : 0 < s.rho) (hp : 0 < s.p) (hγ : 1 < s.gamma) (a ushock : ℝ) (ha : s.asound = .ok a)
    (hs : a < |s.u - ushock|) :
    ∃ s', MovingShock ushock s s' ∧ s.p < s'.p ∧ UState.shock_downstream s ushock ≠ some s' := by
  obtain ⟨s', -, h, -, h', -⟩ := C107_private_partial s hρ hp hγ a ushock ha hs
  exact ⟨s', h, h', by unfold UState.shock_downstream; simp⟩

end Aerokit.Props
