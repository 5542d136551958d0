import Verif.Model.DefaultGas

/-! # Properties C34–C35 : `aerokit/common/defaultgas.py` -/

namespace Aerokit.Props
open DefaultGas

theorem run_append (s : State) (a b : List Op) : run s (a ++ b) = run (run s a) b := by
  simp [run, List.foldl_append]

theorem run_cons (s : State) (a : Op) (b : List Op) : run s (a :: b) = run (step s a) b := rfl

/-- calls that can change `gamma()` -/
def touchesGamma : Op → Prop
  | .setGamma _ => True
  | .restore => True
  | _ => False

/-- calls that can change `r_ideal()` -/
def touchesR : Op → Prop
  | .setR _ => True
  | .restore => True
  | _ => False

theorem run_gamma_of_untouched (ops : List Op) (s : State) (h : ∀ o ∈ ops, ¬ touchesGamma o) :
    (run s ops).gamma = s.gamma := by
  induction ops generalizing s with
  | nil => rfl
  | cons o t ih =>
    rw [run_cons, ih _ fun o' ho => h o' (List.mem_cons_of_mem _ ho)]
    have := h o List.mem_cons_self
    cases o <;> simp_all [step, set_r_ideal, save_default, touchesGamma]

theorem run_r_of_untouched (ops : List Op) (s : State) (h : ∀ o ∈ ops, ¬ touchesR o) :
    (run s ops).r = s.r := by
  induction ops generalizing s with
  | nil => rfl
  | cons o t ih =>
    rw [run_cons, ih _ fun o' ho => h o' (List.mem_cons_of_mem _ ho)]
    have := h o List.mem_cons_self
    cases o <;> simp_all [step, set_gamma, save_default, touchesR]

theorem step_restore_saved (s : State) : (step s .restore).saved = s.saved := by
  rcases h : s.saved with _ | ⟨a, b⟩
  · simp [step, restore_default, h]
  · simp [step, restore_default, h]

theorem run_saved_of_no_save (ops : List Op) (s : State) (h : Op.save ∉ ops) :
    (run s ops).saved = s.saved := by
  induction ops generalizing s with
  | nil => rfl
  | cons o t ih =>
    rw [run_cons, ih _ fun ho => h (List.mem_cons_of_mem _ ho)]
    cases o with
    | setGamma g => rfl
    | setR r => rfl
    | save => exact absurd List.mem_cons_self h
    | restore => exact step_restore_saved s

/-- C34 (set): whatever happened before, and whatever calls other than `set_gamma` and
`restore_default` came after, `gamma()` returns the last value set.  Same for `r_ideal()`. -/
theorem C34_last_set (before after : List Op) (v : ℝ) :
    ((∀ o ∈ after, ¬ touchesGamma o) →
      get_gamma (run init (before ++ .setGamma v :: after)) = v) ∧
    ((∀ o ∈ after, ¬ touchesR o) →
      r_ideal (run init (before ++ .setR v :: after)) = v) := by
  constructor
  · intro h
    rw [run_append, run_cons]
    exact run_gamma_of_untouched after _ h
  · intro h
    rw [run_append, run_cons]
    exact run_r_of_untouched after _ h

/-- C34 (save/restore): a restore gives back the two values current at the last save. -/
theorem C34_restore_gives_last_save (before between : List Op) (h : Op.save ∉ between) :
    restore_default (run init (before ++ .save :: between)) =
      .ok { gamma := (run init before).gamma, r := (run init before).r,
            saved := some ((run init before).r, (run init before).gamma) } := by
  rw [run_append, run_cons]
  have := run_saved_of_no_save between (step (run init before) .save) h
  unfold restore_default
  rw [this]
  simp [step, save_default]

/-- C34: after such a restore, until the next set or restore, `gamma()` and `r_ideal()` are those of
the save. -/
theorem C34_values_after_restore (before between after : List Op) (h : Op.save ∉ between)
    (hg : ∀ o ∈ after, ¬ touchesGamma o) :
    get_gamma (run init (before ++ .save :: between ++ .restore :: after))
      = get_gamma (run init before) := by
  rw [run_append, run_cons]
  unfold get_gamma
  rw [run_gamma_of_untouched after _ hg]
  simp only [step]
  rw [C34_restore_gives_last_save before between h]

/-- C34: `restore_default()` raises `NameError` exactly for the histories without `save_default()`,
and then changes nothing. -/
theorem C34_restore_without_save (ops : List Op) :
    (restore_default (run init ops) = .error .nameError ↔ Op.save ∉ ops) ∧
    (Op.save ∉ ops → step (run init ops) .restore = run init ops) := by
  have key : Op.save ∉ ops → (run init ops).saved = none := fun h => run_saved_of_no_save ops init h
  have key2 : Op.save ∈ ops → (run init ops).saved ≠ none := by
    intro hm
    obtain ⟨a, b, rfl⟩ := List.append_of_mem hm
    clear key hm
    rw [run_append, run_cons]
    have h0 : (step (run init a) .save).saved ≠ none := by simp [step, save_default]
    generalize step (run init a) .save = s at h0
    induction b generalizing s with
    | nil => exact h0
    | cons o t ih =>
      rw [run_cons]
      apply ih
      cases o with
      | setGamma g => exact h0
      | setR r => exact h0
      | save => simp [step, save_default]
      | restore => rw [step_restore_saved]; exact h0
  refine ⟨⟨fun h hm => ?_, fun h => ?_⟩, fun h => ?_⟩
  · have := key2 hm
    unfold restore_default at h
    split at h
    · contradiction
    · simp at h
  · unfold restore_default; rw [key h]
  · simp [step, restore_default, key h]

/-- C34: without any set and save, the values are the built-in ones. -/
theorem C34_initial_values (ops : List Op) (h : Op.save ∉ ops) :
    ((∀ g, Op.setGamma g ∉ ops) → get_gamma (run init ops) = 1.4) ∧
    ((∀ r, Op.setR r ∉ ops) → r_ideal (run init ops) = 287.1) := by
  have key : ∀ (ops : List Op) (s : State), s.saved = none → Op.save ∉ ops →
      ((∀ g, Op.setGamma g ∉ ops) → (run s ops).gamma = s.gamma) ∧
      ((∀ r, Op.setR r ∉ ops) → (run s ops).r = s.r) := by
    intro ops
    induction ops with
    | nil => intro s _ _; exact ⟨fun _ => rfl, fun _ => rfl⟩
    | cons o t ih =>
      intro s hs hsv
      have hres : o = .restore → step s o = s := by
        rintro rfl; simp [step, restore_default, hs]
      have hs' : (step s o).saved = none := by
        cases o with
        | setGamma g => exact hs
        | setR r => exact hs
        | save => exact absurd List.mem_cons_self hsv
        | restore => rw [step_restore_saved]; exact hs
      obtain ⟨i1, i2⟩ := ih (step s o) hs' fun h => hsv (List.mem_cons_of_mem _ h)
      rw [run_cons]
      constructor
      · intro hg
        rw [i1 fun g h => hg g (List.mem_cons_of_mem _ h)]
        cases o with
        | setGamma g => exact absurd List.mem_cons_self (hg g)
        | setR r => rfl
        | save => rfl
        | restore => rw [hres rfl]
      · intro hr
        rw [i2 fun g h => hr g (List.mem_cons_of_mem _ h)]
        cases o with
        | setGamma g => rfl
        | setR r => exact absurd List.mem_cons_self (hr r)
        | save => rfl
        | restore => rw [hres rfl]
  exact key ops init rfl h

example : get_gamma (run init [.setGamma 1.3, .save, .setGamma 1.2, .setR 300, .restore]) = 1.3 := by
  simpa [get_gamma, run, step, set_gamma] using
    C34_values_after_restore [.setGamma 1.3] [.setGamma 1.2, .setR 300] [] (by simp) (by simp)

/-! ### C35 -/

theorem exec1_keeps (p : Process) (m m' : Mod) (v : ℝ × ℝ) (h : p.captured m = some v) :
    (exec1 p m').captured m = some v := by
  unfold exec1
  split
  · exact h
  · rename_i hn
    by_cases e : m = m'
    · rw [e] at h; rw [h] at hn; simp at hn
    · simp [e, h]

theorem pstep_keeps (p : Process) (m : Mod) (e : Ev) (v : ℝ × ℝ) (h : p.captured m = some v) :
    (pstep p e).captured m = some v := by
  cases e with
  | gas o => exact h
  | imp m' =>
    show ((deps m').foldl exec1 p).captured m = some v
    generalize deps m' = l
    induction l generalizing p with
    | nil => exact h
    | cons a t ih => exact ih _ (exec1_keeps p m a v h)

/-- C35 is false of the code, in the strongest sense: once a module is imported, the gamma its
functions use when `gamma` is omitted never changes again, whatever calls to `set_gamma`,
`restore_default`, … or other imports follow. -/
theorem C35_false_frozen (evs : List Ev) (p : Process) (m : Mod) (g : ℝ)
    (h : defaultGammaSeenBy p m = some g) : defaultGammaSeenBy (prun p evs) m = some g := by
  unfold defaultGammaSeenBy at h ⊢
  obtain ⟨v, hv, rfl⟩ := Option.map_eq_some_iff.1 h
  have : (prun p evs).captured m = some v := by
    clear h
    induction evs generalizing p with
    | nil => exact hv
    | cons e t ih => exact ih _ (pstep_keeps p m e v hv)
  rw [this]; rfl

/-- C35: concretely, importing any module and then calling `set_gamma(g)` for any `g ≠ 1.4` leaves
its functions at 1.4 although `defaultgas.gamma()` answers `g`. -/
theorem C35_false (m : Mod) (g : ℝ) :
    defaultGammaSeenBy (prun Process.init [.imp m, .gas (.setGamma g)]) m = some 1.4 ∧
    get_gamma (prun Process.init [.imp m, .gas (.setGamma g)]).gas = g := by
  cases m <;> refine ⟨?_, ?_⟩ <;>
    simp [prun, pstep, deps, exec1, defaultGammaSeenBy, Process.init, DefaultGas.init, gamma0, step,
      set_gamma, get_gamma]

/-- C35, the part that holds: a `set_gamma(g)` made before the first import of a module (not
already loaded through another one) is used by its functions.  Missing: any later `set_gamma`. -/
theorem C35_before_import_partial (ops : List Op) (m : Mod) (g : ℝ)
    (hg : ∀ o ∈ ops, ¬ touchesGamma o) :
    defaultGammaSeenBy (prun Process.init ((.gas (.setGamma g)) :: ops.map Ev.gas ++ [.imp m])) m
      = some g := by
  have key : ∀ (ops : List Op) (p : Process), (∀ m, p.captured m = none) →
      (∀ o ∈ ops, ¬ touchesGamma o) →
      (prun p (ops.map Ev.gas)).gas.gamma = p.gas.gamma ∧
      ∀ m, (prun p (ops.map Ev.gas)).captured m = none := by
    intro ops
    induction ops with
    | nil => intro p hp _; exact ⟨rfl, hp⟩
    | cons o t ih =>
      intro p hp h
      obtain ⟨i1, i2⟩ := ih (pstep p (.gas o)) hp fun o' ho => h o' (List.mem_cons_of_mem _ ho)
      refine ⟨?_, i2⟩
      have e : prun p ((o :: t).map Ev.gas) = prun (pstep p (.gas o)) (t.map Ev.gas) := rfl
      rw [e, i1]
      have := h o List.mem_cons_self
      cases o <;> simp_all [pstep, step, set_r_ideal, save_default, touchesGamma]
  obtain ⟨k1, k2⟩ := key ops (pstep Process.init (.gas (.setGamma g))) (fun _ => rfl) hg
  have e : prun Process.init ((.gas (.setGamma g)) :: ops.map Ev.gas ++ [.imp m])
      = pstep (prun (pstep Process.init (.gas (.setGamma g))) (ops.map Ev.gas)) (.imp m) := by
    simp [prun, List.foldl_append]
  rw [e]
  generalize prun (pstep Process.init (.gas (.setGamma g))) (ops.map Ev.gas) = p at k1 k2
  have k1' : p.gas.gamma = g := k1
  cases m <;> simp [pstep, deps, exec1, defaultGammaSeenBy, k2, k1']

example : defaultGammaSeenBy (prun Process.init [.imp .massFlow]) .massFlow = some 1.4 := by
  simp [prun, pstep, deps, exec1, defaultGammaSeenBy, Process.init, DefaultGas.init, gamma0]

end Aerokit.Props
