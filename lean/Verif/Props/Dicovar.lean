import Verif.Model.Dicovar
import Verif.Spec.Registry
import Mathlib.Data.List.Basic

/-! # Properties C36–C39 : `aerokit/common/dicovar.py` -/

namespace Aerokit.Props
open Dicovar Spec

theorem find_update (d : Dict) (k v k' : String) (h : d.find k ≠ none) :
    (d.update k v).find k' = if k' = k then some v else d.find k' := by
  induction d with
  | nil => simp [Dict.find] at h
  | cons a t ih =>
    obtain ⟨x, y⟩ := a
    unfold Dict.update
    by_cases hx : x = k
    · subst hx
      rw [if_pos rfl]
      by_cases hk : k' = x
      · simp [Dict.find, List.lookup, hk]
      · have : (k' == x) = false := by simpa using hk
        simp [Dict.find, List.lookup, this, hk]
    · rw [if_neg hx]
      have hkx : (k == x) = false := by simpa using fun h => hx h.symm
      have ht : Dict.find t k ≠ none := by simpa [Dict.find, List.lookup, hkx] using h
      have := ih ht
      by_cases hk : k' = x
      · subst hk
        simp [Dict.find, List.lookup, hx]
      · have hb : (k' == x) = false := by simpa using hk
        simp only [Dict.find, List.lookup, hb] at this ⊢
        exact this

theorem find_insert (d : Dict) (k v k' : String) (h : d.find k = none) :
    (d.insert k v).find k' = if k' = k then some v else d.find k' := by
  induction d with
  | nil =>
    by_cases hk : k' = k
    · simp [Dict.find, Dict.insert, List.lookup, hk]
    · have : (k' == k) = false := by simpa using hk
      simp [Dict.find, Dict.insert, List.lookup, this, hk]
  | cons a t ih =>
    obtain ⟨x, y⟩ := a
    by_cases hkx : k = x
    · simp [Dict.find, List.lookup, hkx] at h
    · have hb : (k == x) = false := by simpa using hkx
      have ht : Dict.find t k = none := by simpa [Dict.find, List.lookup, hb] using h
      have := ih ht
      by_cases hk : k' = x
      · subst hk
        have hne : ¬ k' = k := fun h => hkx h.symm
        simp [Dict.find, Dict.insert, List.lookup, hne]
      · have hb : (k' == x) = false := by simpa using hk
        simp only [Dict.find, Dict.insert, List.cons_append, List.lookup, hb] at this ⊢
        exact this

/-- the map a world presents to the user: what `get` answers, name by name -/
def observed (w : World) : NameMap := fun v => (Dicovar.get w v).toOption

theorem observed_eq (w : World) (v : String) : observed w v = (w.deref w.dv).find v := by
  unfold observed Dicovar.get
  rcases (w.deref w.dv).find v with _ | x <;> rfl

/-- the pristine tables, by (case-insensitive) software name -/
def tables (s : String) : Option NameMap :=
  if lower s ∈ ofNames then some ofDico.find
  else if lower s ∈ cxNames then some cxDico.find
  else none

/-- calls of the model as calls of the specification -/
def toReg : Call → RegCall
  | .add v s => .add v s
  | .set v s => .set v s
  | .software s => .software s

/-- invariant of all reachable states: the two built-in dictionaries are pristine and the current
dictionary is another object -/
structure Good (w : World) : Prop where
  cx : w.heap[0]? = some cxDico
  of : w.heap[1]? = some ofDico
  lo : 2 ≤ w.dv
  hi : w.dv < w.heap.length

theorem alloc_pre (w : World) (d : Dict) (i : ℕ) (x : Dict) (h : w.heap[i]? = some x) :
    (w.alloc d).1.heap[i]? = some x := by
  have hi := (List.getElem?_eq_some_iff.1 h).1
  simp only [World.alloc]
  rw [List.getElem?_append_left hi]; exact h

theorem init_spec (w : World) (s : String) (h0 : w.heap[0]? = some cxDico)
    (h1 : w.heap[1]? = some ofDico) :
    Good (init w s).1 ∧
    ((init w s).1.deref (init w s).1.dv =
      if lower s ∈ ofNames then ofDico else if lower s ∈ cxNames then cxDico else []) ∧
    (init w s).2 = if lower s ∈ ofNames ∨ lower s ∈ cxNames then .ok () else .error .valueError := by
  have hlen : 2 ≤ w.heap.length := (List.getElem?_eq_some_iff.1 h1).1
  have g0 : ∀ l : List Dict, (w.heap ++ l)[0]? = some cxDico := fun l => by
    rw [List.getElem?_append_left (by omega)]; exact h0
  have g1 : ∀ l : List Dict, (w.heap ++ l)[1]? = some ofDico := fun l => by
    rw [List.getElem?_append_left (by omega)]; exact h1
  have d0 : ∀ (l : List Dict) (r : Ref) (nm : String), World.deref ⟨w.heap ++ l, r, nm⟩ 0 = cxDico :=
    fun l r nm => by simp only [World.deref, List.getD, g0, Option.getD_some]
  have d1 : ∀ (l : List Dict) (r : Ref) (nm : String), World.deref ⟨w.heap ++ l, r, nm⟩ 1 = ofDico :=
    fun l r nm => by simp only [World.deref, List.getD, g1, Option.getD_some]
  by_cases hc : lower s ∈ cxNames <;> by_cases ho : lower s ∈ ofNames
  · have e : init w s = (⟨w.heap ++ [[], cxDico, ofDico], w.heap.length + 2, ofNames.headD ""⟩, .ok ()) := by
      simp [init, dataBase, initStep, hc, ho, World.alloc, d0, d1, -List.headD_eq_head?_getD]
    rw [e]
    exact ⟨⟨g0 _, g1 _, by simp, by simp⟩, by simp [World.deref, List.getD, ho], by simp [ho]⟩
  · have e : init w s = (⟨w.heap ++ [[], cxDico], w.heap.length + 1, cxNames.headD ""⟩, .ok ()) := by
      simp [init, dataBase, initStep, hc, ho, World.alloc, d0, d1, -List.headD_eq_head?_getD]
    rw [e]
    exact ⟨⟨g0 _, g1 _, by simp; omega, by simp⟩, by simp [World.deref, List.getD, ho, hc], by simp [hc]⟩
  · have e : init w s = (⟨w.heap ++ [[], ofDico], w.heap.length + 1, ofNames.headD ""⟩, .ok ()) := by
      simp [init, dataBase, initStep, hc, ho, World.alloc, d0, d1, -List.headD_eq_head?_getD]
    rw [e]
    exact ⟨⟨g0 _, g1 _, by simp; omega, by simp⟩, by simp [World.deref, List.getD, ho], by simp [ho]⟩
  · have e : init w s = (⟨w.heap ++ [[]], w.heap.length, ""⟩, .error .valueError) := by
      simp [init, dataBase, initStep, hc, ho, World.alloc]
    rw [e]
    exact ⟨⟨g0 _, g1 _, by simpa using hlen, by simp⟩, by simp [World.deref, List.getD, ho, hc], by simp [hc, ho]⟩

theorem good_step (w : World) (c : Call) (h : Good w) : Good (step w c).1 := by
  have ne0 : w.dv ≠ 0 := fun e => by have := h.lo; rw [e] at this; exact absurd this (by decide)
  have ne1 : w.dv ≠ 1 := fun e => by have := h.lo; rw [e] at this; exact absurd this (by decide)
  cases c with
  | add v s =>
    simp only [step, addVar]
    split
    · exact ⟨by simp only [World.store]; rw [List.getElem?_set_ne ne0]; exact h.cx,
        by simp only [World.store]; rw [List.getElem?_set_ne ne1]; exact h.of, h.lo,
        by simpa [World.store] using h.hi⟩
    · exact h
  | set v s =>
    simp only [step, setVar]
    split
    · exact ⟨by simp only [World.store]; rw [List.getElem?_set_ne ne0]; exact h.cx,
        by simp only [World.store]; rw [List.getElem?_set_ne ne1]; exact h.of, h.lo,
        by simpa [World.store] using h.hi⟩
    · exact h
  | software s => exact (init_spec w s h.cx h.of).1

theorem good_world0 : Good world0 := (init_spec _ _ rfl rfl).1

theorem good_run (w : World) (cs : List Call) (h : Good w) : Good (run w cs) := by
  induction cs generalizing w with
  | nil => exact h
  | cons c t ih => exact ih _ (good_step w c h)

theorem deref_store (w : World) (d : Dict) (h : w.dv < w.heap.length) :
    (w.store w.dv d).deref (w.store w.dv d).dv = d := by
  simp [World.store, World.deref, List.getD, h]

theorem step_refines (w : World) (c : Call) (h : Good w) :
    observed (step w c).1 = (regStep tables (fun _ _ => none) (observed w) (toReg c)).1 ∧
    (step w c).2 = (regStep tables (fun _ _ => none) (observed w) (toReg c)).2 := by
  cases c with
  | add v s =>
    simp only [step, addVar, toReg, regStep, observed_eq]
    rcases hf : (w.deref w.dv).find v with _ | x
    · refine ⟨?_, rfl⟩
      funext k
      rw [observed_eq, deref_store _ _ h.hi, find_insert _ _ _ _ hf]
      simp [NameMap.write, observed_eq]
    · exact ⟨rfl, rfl⟩
  | set v s =>
    simp only [step, setVar, toReg, regStep, observed_eq]
    rcases hf : (w.deref w.dv).find v with _ | x
    · exact ⟨rfl, rfl⟩
    · refine ⟨?_, rfl⟩
      funext k
      rw [observed_eq, deref_store _ _ h.hi, find_update _ _ _ _ (by rw [hf]; simp)]
      simp [NameMap.write, observed_eq]
  | software s =>
    obtain ⟨-, h2, h3⟩ := init_spec w s h.cx h.of
    simp only [step, setDicoVar, toReg, regStep]
    constructor
    · funext k
      rw [observed_eq, h2]
      unfold tables
      by_cases ho : lower s ∈ ofNames
      · simp [ho]
      · by_cases hc : lower s ∈ cxNames
        · simp [ho, hc]
        · simp [ho, hc, Dict.find]
    · rw [h3]
      unfold tables
      by_cases ho : lower s ∈ ofNames
      · simp [ho]
      · by_cases hc : lower s ∈ cxNames
        · simp [ho, hc]
        · simp [ho, hc]

/-- C36: `dicoVar` is a guarded map.  For every history of calls, what `get` answers for every name
is what the specification map holds, and the next call succeeds or raises `ValueError` exactly as
the specification says (`add` refuses defined names, `set` refuses undefined ones, a refused call
changes nothing). -/
theorem C36_refines_map (cs : List Call) (c : Call) :
    observed (run world0 cs) = regRun tables (fun _ _ => none) cxDico.find (cs.map toReg) ∧
    (step (run world0 cs) c).2 =
      (regStep tables (fun _ _ => none) (observed (run world0 cs)) (toReg c)).2 := by
  refine ⟨?_, (step_refines _ c (good_run _ _ good_world0)).2⟩
  have h0 : observed world0 = cxDico.find := by
    funext k
    rw [observed_eq]
    have := (init_spec ⟨[cxDico, ofDico], 0, ""⟩ Dicovar.default rfl rfl).2.1
    unfold world0
    rw [this, if_neg (by decide), if_pos (by decide)]
  rw [← h0]
  have : ∀ (cs : List Call) (w : World), Good w →
      observed (run w cs) = regRun tables (fun _ _ => none) (observed w) (cs.map toReg) := by
    intro cs
    induction cs with
    | nil => intro w _; rfl
    | cons c t ih =>
      intro w h
      have := ih _ (good_step w c h)
      rw [(step_refines w c h).1] at this
      exact this
  exact this cs world0 good_world0

/-- C36: the three ways to read a name agree, and reading raises `ValueError` exactly for undefined
names. -/
theorem C36_accessors (w : World) (v : String) :
    call w v = Dicovar.get w v ∧ getitem w v = Dicovar.get w v ∧
    (Dicovar.get w v = .error .valueError ↔ observed w v = none) ∧
    ∀ s, Dicovar.get w v = .ok s ↔ observed w v = some s := by
  refine ⟨rfl, rfl, ?_, ?_⟩
  · rw [observed_eq]; unfold Dicovar.get; split <;> simp_all
  · intro s; rw [observed_eq]; unfold Dicovar.get; split <;> simp_all

/-- C36: a refused `addVar`/`setVar` changes nothing at all, an accepted one changes only the name
written; read-your-writes. -/
theorem C36_add_set (cs : List Call) (v s : String) :
    let w := run world0 cs
    (observed w v = none → observed (addVar w v s).1 = (observed w).write v s ∧
      (addVar w v s).2 = .ok () ∧ setVar w v s = (w, .error .valueError)) ∧
    (observed w v ≠ none → observed (setVar w v s).1 = (observed w).write v s ∧
      (setVar w v s).2 = .ok () ∧ addVar w v s = (w, .error .valueError)) := by
  have hg := good_run world0 cs good_world0
  refine ⟨fun h => ?_, fun h => ?_⟩
  · obtain ⟨a1, a2⟩ := step_refines _ (.add v s) hg
    simp only [toReg, regStep, h, if_true] at a1 a2
    refine ⟨a1, a2, ?_⟩
    rw [observed_eq] at h; simp [setVar, h]
  · obtain ⟨a1, a2⟩ := step_refines _ (.set v s) hg
    simp only [toReg, regStep, h, if_false] at a1 a2
    refine ⟨a1, a2, ?_⟩
    rw [observed_eq] at h
    obtain ⟨x, hx⟩ := Option.ne_none_iff_exists'.1 h
    simp [addVar, hx]

example : observed (run world0 [.add "nut" "NU_T", .set "P" "PRESSURE", .set "zz" "Z"]) "P" = some "PRESSURE" := by
  decide

/-- C37: whatever calls were made before, selecting a software gives exactly its built-in table:
user edits never reach the built-in dictionaries. -/
theorem C37_pristine_restart (cs : List Call) (s : String) :
    (lower s ∈ ofNames → keys (setDicoVar (run world0 cs) s).1 = ofDico.map Prod.fst ∧
      ∀ k, observed (setDicoVar (run world0 cs) s).1 k = ofDico.find k) ∧
    (lower s ∈ cxNames → keys (setDicoVar (run world0 cs) s).1 = cxDico.map Prod.fst ∧
      ∀ k, observed (setDicoVar (run world0 cs) s).1 k = cxDico.find k) := by
  have hg := good_run world0 cs good_world0
  obtain ⟨-, h2, -⟩ := init_spec (run world0 cs) s hg.cx hg.of
  refine ⟨fun h => ?_, fun h => ?_⟩
  · rw [if_pos h] at h2
    exact ⟨by unfold keys setDicoVar; rw [h2], fun k => by rw [observed_eq]; unfold setDicoVar; rw [h2]⟩
  · have hn : lower s ∉ ofNames := by
      intro h'
      have : ∀ x ∈ cxNames, x ∉ ofNames := by decide
      exact this _ h h'
    rw [if_neg hn, if_pos h] at h2
    exact ⟨by unfold keys setDicoVar; rw [h2], fun k => by rw [observed_eq]; unfold setDicoVar; rw [h2]⟩

/-- C37 (as an invariant): after any history the built-in dictionary objects are unchanged. -/
theorem C37_builtin_unchanged (cs : List Call) :
    (run world0 cs).deref 0 = cxDico ∧ (run world0 cs).deref 1 = ofDico := by
  have hg := good_run world0 cs good_world0
  simp [World.deref, List.getD, hg.cx, hg.of]

example : observed (run world0 [.set "P" "XXX", .software "ic3"]) "P" = some "P" := by decide

/-- C37, the names themselves: after any history, once IC3 (by any of its accepted spellings) is selected, the generic names
have the names of IC3, and the sixteen generic names are the only ones. -/
theorem C37_names_IC3 (cs : List Call) (s v : String) (h : lower s ∈ cxNames) :
    Dicovar.get (setDicoVar (run world0 cs) s).1 v =
      match v with
      | "P" | "p" | "Ps" => .ok "P"
      | "rho" => .ok "RHO"
      | "T" => .ok "T"
      | "V" => .ok "U"
      | "Vx" => .ok "U_X"
      | "Vy" => .ok "U_Y"
      | "Vz" => .ok "U_Z"
      | "u_avg" => .ok "U_AVG"
      | "rho_avg" => .ok "RHO_AVG"
      | "tauw_avg" => .ok "TauWallAvg"
      | "mulam_avg" => .ok "MU_LAM_AVG"
      | "t_avg" => .ok "T_AVG"
      | "u_rms" => .ok "U_RMS"
      | "u_rey" => .ok "U_REY"
      | _ => .error .valueError := by
  have h2 := ((C37_pristine_restart cs s).2 h).2 v
  have h3 := (C36_accessors (setDicoVar (run world0 cs) s).1 v).2.2
  rw [h2] at h3
  split
  all_goals first
    | exact (h3.2 _).2 (by decide)
    | (refine h3.1.2 ?_; simp_all [cxDico, Dict.find])

/-- C37, the names themselves, for OpenFOAM: only the mean velocity and density have a name; five generic names are answered
by the placeholder `???` without an error. -/
theorem C37_names_OpenFOAM (cs : List Call) (s v : String) (h : lower s ∈ ofNames) :
    Dicovar.get (setDicoVar (run world0 cs) s).1 v =
      match v with
      | "u_avg" => .ok "Uavg"
      | "rho_avg" => .ok "rhoAVG"
      | "tauw_avg" | "mulam_avg" | "t_avg" | "u_rms" | "u_rey" => .ok "???"
      | _ => .error .valueError := by
  have h2 := ((C37_pristine_restart cs s).1 h).2 v
  have h3 := (C36_accessors (setDicoVar (run world0 cs) s).1 v).2.2
  rw [h2] at h3
  split
  all_goals first
    | exact (h3.2 _).2 (by decide)
    | (refine h3.1.2 ?_; simp_all [ofDico, Dict.find])

/-- both databases can be selected -/
example : lower "OpenFoam" ∈ ofNames ∧ lower "IC3" ∈ cxNames := by decide

/-- C38 is false of the code: from every reachable state, a request for an unknown software raises
`ValueError` AND empties the current database: every name becomes undefined. -/
theorem C38_false (cs : List Call) (s : String) (h1 : lower s ∉ ofNames) (h2 : lower s ∉ cxNames) :
    (setDicoVar (run world0 cs) s).2 = .error .valueError ∧
    keys (setDicoVar (run world0 cs) s).1 = [] ∧
    ∀ v, Dicovar.get (setDicoVar (run world0 cs) s).1 v = .error .valueError := by
  have hg := good_run world0 cs good_world0
  obtain ⟨-, h3, h4⟩ := init_spec (run world0 cs) s hg.cx hg.of
  rw [if_neg h1, if_neg h2] at h3
  refine ⟨by unfold setDicoVar; rw [h4]; simp [h1, h2], by unfold keys setDicoVar; rw [h3]; rfl, ?_⟩
  intro v
  unfold Dicovar.get setDicoVar; rw [h3]; rfl

/-- C38, the part that holds: the failure is reported by `ValueError` and a later valid request
recovers the pristine table.  Missing: the current database does not survive. -/
theorem C38_recovers_partial (cs : List Call) (s s' : String) (h' : lower s' ∈ cxNames) :
    ∀ k, observed (setDicoVar (setDicoVar (run world0 cs) s).1 s').1 k = cxDico.find k := by
  have := (C37_pristine_restart (cs ++ [.software s]) s').2 h'
  have e : run world0 (cs ++ [.software s]) = (setDicoVar (run world0 cs) s).1 := by
    simp [run, List.foldl_append, step]
  rw [e] at this
  exact this.2

example : lower "Fluent" ∉ ofNames ∧ lower "Fluent" ∉ cxNames ∧ lower "CX" ∈ cxNames := by decide

/-- C39 (softwares): the effect of `setDicoVar` depends only on the lower-case form of the name. -/
theorem C39_software_case_insensitive (w : World) (s s' : String) (h : lower s = lower s') :
    setDicoVar w s = setDicoVar w s' := by
  unfold setDicoVar init initStep
  rw [h]

/-- C39 (variables) is false of the code: at import `dv['u_avg']` is defined and `dv['U_avg']`
raises `ValueError`. -/
theorem C39_variables_false :
    getitem world0 "u_avg" = .ok "U_AVG" ∧ getitem world0 "U_avg" = .error .valueError ∧
    lower "U_avg" = lower "u_avg" := by
  decide

/-- C39 (software names), the part that holds.  Missing: variable names (`C39_variables_false`). -/
theorem C39_software_partial (cs : List Call) (s s' : String) (h : lower s = lower s') :
    setDicoVar (run world0 cs) s = setDicoVar (run world0 cs) s' :=
  C39_software_case_insensitive _ _ _ h

end Aerokit.Props
