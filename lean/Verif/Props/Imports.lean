import Verif.Model.Imports
import Mathlib.Tactic.Linarith

/-! # Property C79 : every module can be imported (false for two of them) -/

namespace Aerokit.Props
open Imports

/-- whatever the state of `sys.modules` (containing at least `q`), `import m` succeeds -/
def OKrel (e : Env) (q : List Mod) (F : ℕ) (m : Mod) : Prop :=
  ∀ n, F ≤ n → ∀ S, q ⊆ S → ∃ S', load e n S m = (S', true) ∧ S ⊆ S' ∧ m ∈ S'

/-- the same for one import statement -/
def ImpOK (e : Env) (q : List Mod) (F : ℕ) : Imp → Prop
  | .own m => OKrel e q F m
  | .third t => e.installed t = true
  | .attr m name => OKrel e q F m ∧ name ∈ defines m
  | .elsewhere name => e.onPath name = true

theorem OKrel.mono {e : Env} {q q' : List Mod} {F F' : ℕ} {m : Mod} (h : OKrel e q F m) (hq : q ⊆ q')
    (hF : F ≤ F') : OKrel e q' F' m := fun n hn S hS => h n (hF.trans hn) S (List.Subset.trans hq hS)

theorem loadAll_ok {e : Env} {q : List Mod} {F : ℕ} : ∀ (is : List Imp) (n : ℕ) (S : List Mod),
    (∀ i ∈ is, ImpOK e q F i) → F + is.length + 1 ≤ n → q ⊆ S →
    ∃ S', loadAll e n S is = (S', true) ∧ S ⊆ S' := by
  intro is
  induction is with
  | nil =>
    intro n S _ hn _
    obtain ⟨n, rfl⟩ : ∃ k, n = k + 1 := ⟨n - 1, by omega⟩
    exact ⟨S, by simp [loadAll], fun _ h => h⟩
  | cons i is ih =>
    intro n S hi hn hS
    simp only [List.length_cons] at hn
    obtain ⟨n, rfl⟩ : ∃ k, n = k + 1 := ⟨n - 1, by omega⟩
    have h0 := hi i (by simp)
    have hrest : ∀ j ∈ is, ImpOK e q F j := fun j hj => hi j (by simp [hj])
    cases i with
    | own m =>
      obtain ⟨S1, h1, h2, -⟩ := h0 n (by omega) S hS
      obtain ⟨S2, h3, h4⟩ := ih n S1 hrest (by omega) (List.Subset.trans hS h2)
      exact ⟨S2, by simp [loadAll, h1, h3], List.Subset.trans h2 h4⟩
    | third t =>
      obtain ⟨S2, h3, h4⟩ := ih n S hrest (by omega) hS
      have h0' : e.installed t = true := h0
      exact ⟨S2, by simp [loadAll, h0', h3], h4⟩
    | attr m name =>
      obtain ⟨h0, hname⟩ := h0
      obtain ⟨S1, h1, h2, -⟩ := h0 n (by omega) S hS
      obtain ⟨S2, h3, h4⟩ := ih n S1 hrest (by omega) (List.Subset.trans hS h2)
      exact ⟨S2, by simp [loadAll, h1, h3, hname], List.Subset.trans h2 h4⟩
    | elsewhere name =>
      obtain ⟨S2, h3, h4⟩ := ih n S hrest (by omega) hS
      have h0' : e.onPath name = true := h0
      exact ⟨S2, by simp [loadAll, h0', h3], h4⟩

theorem load_mem {e : Env} {n : ℕ} {S : List Mod} {m : Mod} (h : m ∈ S) : load e (n + 1) S m = (S, true) := by
  simp [load, h]

theorem OKrel_mem {e : Env} {q : List Mod} {F : ℕ} {m : Mod} (h : m ∈ q) (hF : 1 ≤ F) : OKrel e q F m := by
  intro n hn S hS
  obtain ⟨n, rfl⟩ : ∃ k, n = k + 1 := ⟨n - 1, by omega⟩
  exact ⟨S, load_mem (hS h), fun _ h => h, hS h⟩

theorem load_step {e : Env} {q : List Mod} {F : ℕ} {m : Mod}
    (hp : ∀ p, parent m = some p → OKrel e q F p)
    (hi : ∀ i ∈ imports m, ImpOK e (m :: q) F i) (hl : (imports m).length ≤ 8) :
    OKrel e q (F + 10) m := by
  intro n hn S hS
  obtain ⟨n, rfl⟩ : ∃ k, n = k + 1 := ⟨n - 1, by omega⟩
  by_cases hm : m ∈ S
  · exact ⟨S, load_mem hm, fun _ h => h, hm⟩
  have hpi : ∀ i ∈ parentImp m, ImpOK e q F i := by
    intro i hi
    unfold parentImp at hi
    cases hpm : parent m with
    | none => rw [hpm] at hi; simp at hi
    | some p =>
      rw [hpm] at hi
      simp only [List.mem_cons, List.not_mem_nil, or_false] at hi
      subst hi
      exact hp p hpm
  have hpl : (parentImp m).length ≤ 1 := by unfold parentImp; split <;> simp
  obtain ⟨S1, h1, h2⟩ := loadAll_ok (parentImp m) n S hpi (by omega) hS
  by_cases hm1 : m ∈ S1
  · refine ⟨S1, ?_, h2, hm1⟩
    unfold load
    rw [if_neg hm, h1]
    simp [hm1]
  obtain ⟨S2, h3, h4⟩ := loadAll_ok (imports m) n (m :: S1) hi (by omega)
    (List.cons_subset_cons m (List.Subset.trans hS h2))
  refine ⟨S2, ?_, fun x hx => h4 (by simp [h2 hx]), h4 (by simp)⟩
  unfold load
  rw [if_neg hm, h1]
  simp [hm1, h3]

/-- depth of a module in the import graph -/
def rank : Mod → ℕ
  | .aerokit => 0
  | .aero | .common | .engine | .instancePkg => 1
  | .defaultgas | .dev | .ode | .dicovar | .degree | .IterativeSolve | .plot | .Fanno | .Rayleigh
  | .ThermoKerosen | .ThermoRealGas | .refstate | .propu_be => 2
  | .Isentropic | .MassFlow | .numspectral | .defaultstyle => 3
  | .ShockWave | .Supersonic | .gasgenerator | .Cycle_Turbofan | .propu_be_double_corps => 4
  | .model1D | .CompressibleFlow | .turbojet | .isentropicpolar | .shockpolar | .nozzle => 5
  | .unsteady1D | .turbofan | .aeroNozzle | .stability => 6
  | .riemann | .unsteady_inflow | .base => 7
  | .aeroRiemann | .OrrSommerfeld | .Euler => 8
  | .Propulsion | .extendvar => 9

/-- own modules needed directly by the imports of `m` -/
def needs (m : Mod) : List Mod :=
  (imports m).filterMap fun
    | .own m => some m
    | .attr m _ => some m
    | _ => none

/-- `m` is one of the two modules with an unresolvable import -/
def broken (m : Mod) : Bool := m == .Propulsion || m == .extendvar

theorem ImpOK_of {e : Env} {q : List Mod} {F : ℕ} (hall : ∀ t, e.installed t = true) {i : Imp}
    (h1 : ∀ m, i = .own m → OKrel e q F m) (h2 : ∀ m s, i = .attr m s → OKrel e q F m ∧ s ∈ defines m)
    (h3 : ∀ s, i ≠ .elsewhere s) : ImpOK e q F i := by
  cases i with
  | own m => exact h1 m rfl
  | third t => exact hall t
  | attr m s => exact h2 m s rfl
  | elsewhere s => exact absurd rfl (h3 s)

theorem import_ok (e : Env) (hall : ∀ t, e.installed t = true) : ∀ (r : ℕ) (m : Mod), rank m ≤ r →
    broken m = false → OKrel e [] (10 * (rank m + 1)) m := by
  intro r
  induction r with
  | zero =>
    intro m hm hb
    have : m = .aerokit := by cases m <;> simp [rank] at hm ⊢
    subst this
    exact load_step (F := 0) (fun p hp => by simp [parent] at hp) (fun i hi => by simp [imports] at hi)
      (by simp [imports])
  | succ r ih =>
    intro m hm hb
    have use : ∀ m', rank m' ≤ r → broken m' = false → rank m' < rank m → ∀ q, OKrel e q (10 * rank m) m' :=
      fun m' h1 h2 h3 q => (ih m' h1 h2).mono (List.nil_subset q) (by omega)
    by_cases hs : m = .stability
    · subst hs
      have hns : OKrel e [.base, .stability] 40 .numspectral :=
        (ih .numspectral (by simp [rank] at hm ⊢; omega) rfl).mono (List.nil_subset _) (by simp [rank])
      have hbase : OKrel e [.stability] 50 .base := by
        refine load_step (F := 40) (fun p hp => ?_) (fun i hi => ?_) (by simp [imports])
        · simp only [parent, Option.some.injEq] at hp; subst hp; exact OKrel_mem (by simp) (by omega)
        · simp only [imports, List.mem_cons, List.not_mem_nil, or_false] at hi
          rcases hi with rfl | rfl | rfl | rfl | rfl
          · exact hall _
          · exact hall _
          · exact hall _
          · exact hns
          · exact hall _
      refine load_step (F := 60) (fun p hp => ?_) (fun i hi => ?_) (by simp [imports])
      · simp only [parent, Option.some.injEq] at hp; subst hp
        exact use .aerokit (by simp [rank]) rfl (by simp [rank]) []
      · simp only [imports, List.mem_cons, List.not_mem_nil, or_false] at hi
        subst hi
        exact ⟨hbase.mono (fun _ h => h) (by omega), by simp [defines]⟩
    · have hF : 10 * (rank m + 1) = 10 * rank m + 10 := by ring
      rw [hF]
      refine load_step (F := 10 * rank m) (fun p hp => ?_) (fun i hi => ?_) ?_
      · have hr : rank p < rank m ∧ broken p = false := by
          revert hp hb hs; cases m <;> simp [parent, rank, broken] <;> rintro rfl <;> simp [rank]
        exact use p (by omega) hr.2 hr.1 []
      · have hr : ∀ p ∈ needs m, rank p < rank m ∧ broken p = false := by
          revert hb hs; cases m <;> simp [needs, imports, rank, broken]
        have hd : ∀ p s, Imp.attr p s ∈ imports m → s ∈ defines p := by
          intro p s; cases m <;> simp [imports] <;> (try rintro rfl rfl) <;>
            first
            | (simp [defines]; done)
            | (rintro (⟨rfl, rfl⟩ | ⟨rfl, rfl⟩) <;> simp [defines])
            | skip
        have he : ∀ s, Imp.elsewhere s ∉ imports m := by
          intro s; revert hb; cases m <;> simp [imports, broken]
        have hn : ∀ p, (i = .own p ∨ ∃ s, i = .attr p s) → p ∈ needs m := by
          intro p hp
          unfold needs
          rw [List.mem_filterMap]
          rcases hp with rfl | ⟨s, rfl⟩
          · exact ⟨_, hi, rfl⟩
          · exact ⟨_, hi, rfl⟩
        refine ImpOK_of hall (fun p hp => ?_) (fun p s hp => ⟨?_, hd p s (hp ▸ hi)⟩) (fun s h => he s (h ▸ hi))
        · have := hr p (hn p (.inl hp)); exact use p (by omega) this.2 this.1 _
        · have := hr p (hn p (.inr ⟨s, hp⟩)); exact use p (by omega) this.2 this.1 _
      · cases m <;> simp [imports]

/-- C79 (the part that holds): with the third-party packages installed, after any history (any
contents of `sys.modules`), importing any module other than `aero.Propulsion` and `common.extendvar`
succeeds, and leaves the module loaded. -/
theorem C79_importable_partial (e : Env) (hall : ∀ t, e.installed t = true) (m : Mod)
    (h1 : m ≠ .Propulsion) (h2 : m ≠ .extendvar) (S : List Mod) :
    ∃ S', load e 100 S m = (S', true) ∧ S ⊆ S' ∧ m ∈ S' := by
  have hb : broken m = false := by simp [broken, h1, h2]
  have hr : rank m ≤ 9 := by cases m <;> simp [rank]
  exact import_ok e hall 9 m hr hb 100 (by omega) S (List.nil_subset S)

theorem loadAll_elsewhere {e : Env} {s : String} (hs : e.onPath s = false) : ∀ (is : List Imp),
    Imp.elsewhere s ∈ is → ∀ n S, (loadAll e n S is).2 = false := by
  intro is
  induction is with
  | nil => intro h; simp at h
  | cons i is ih =>
    intro h n S
    cases n with
    | zero => simp [loadAll]
    | succ n =>
      rcases List.mem_cons.1 h with h | h
      · subst h; simp [loadAll, hs]
      · have := ih h n
        cases i <;>
        · simp only [loadAll]
          split_ifs
          · exact this _
          · rfl

/-- a module with an unresolvable import never stays in `sys.modules` -/
theorem load_keeps_out {e : Env} {x : Mod} {s : String} (hs : e.onPath s = false)
    (hx : Imp.elsewhere s ∈ imports x) : ∀ n,
    (∀ S m, x ∉ S → x ∉ (load e n S m).1) ∧ (∀ S is, x ∉ S → x ∉ (loadAll e n S is).1) := by
  intro n
  induction n with
  | zero =>
    refine ⟨fun S m h => by simpa [load] using h, fun S is h => ?_⟩
    cases is <;> simpa [loadAll] using h
  | succ n ih =>
    obtain ⟨ihl, iha⟩ := ih
    refine ⟨fun S m h => ?_, fun S is h => ?_⟩
    · unfold load
      by_cases hm : m ∈ S
      · rw [if_pos hm]; exact h
      rw [if_neg hm]
      obtain ⟨r, hr⟩ : ∃ r, r = loadAll e n S (parentImp m) := ⟨_, rfl⟩
      have hr1 : x ∉ r.1 := by rw [hr]; exact iha S _ h
      rw [← hr]
      obtain ⟨S1, b⟩ := r
      simp only at hr1 ⊢
      split_ifs with h1 h2 h3
      · exact hr1
      · exact hr1
      · by_cases hmx : m = x
        · subst hmx
          rw [loadAll_elsewhere hs _ hx] at h3; simp at h3
        · exact iha _ _ (by simp [hr1, Ne.symm hmx])
      · by_cases hmx : m = x
        · subst hmx; simp
        · intro hc
          exact iha (m :: S1) (imports m) (by simp [hr1, Ne.symm hmx]) (List.mem_of_mem_filter hc)
    · cases is with
      | nil => simpa [loadAll] using h
      | cons i is =>
        cases i with
        | own k =>
          simp only [loadAll]
          have := ihl S k h
          split_ifs
          · exact iha _ _ this
          · exact this
        | third k =>
          simp only [loadAll]
          split_ifs
          · exact iha _ _ h
          · exact h
        | attr k nm =>
          simp only [loadAll]
          have := ihl S k h
          split_ifs
          · exact iha _ _ this
          · exact this
        | elsewhere k =>
          simp only [loadAll]
          split_ifs
          · exact iha _ _ h
          · exact h

/-- `sys.modules` after a history of `import` statements in a fresh process -/
def sysAfter (e : Env) (h : List Mod) : List Mod := h.foldl (fun S m => (load e 100 S m).1) []

/-- C79 is false: in every environment that has no stray top-level `dicovar` (resp. no
`aerokit.IterativeSolve`), after any history of imports, importing `common.extendvar`
(resp. `aero.Propulsion`) fails. -/
theorem C79_false (e : Env) (h : List Mod) :
    (e.onPath "dicovar" = false → (load e 100 (sysAfter e h) .extendvar).2 = false) ∧
    (e.onPath "aerokit.IterativeSolve" = false → (load e 100 (sysAfter e h) .Propulsion).2 = false) := by
  have key : ∀ (x : Mod) (s : String), e.onPath s = false → Imp.elsewhere s ∈ imports x →
      (load e 100 (sysAfter e h) x).2 = false := by
    intro x s hs hx
    have hout : ∀ (l : List Mod) S, x ∉ S → x ∉ l.foldl (fun S m => (load e 100 S m).1) S := by
      intro l
      induction l with
      | nil => intro S hS; exact hS
      | cons m l ih => intro S hS; exact ih _ ((load_keeps_out hs hx 100).1 S m hS)
    have hx0 : x ∉ sysAfter e h := hout h [] (by simp)
    generalize sysAfter e h = S at hx0
    unfold load
    rw [if_neg hx0]
    obtain ⟨r, hr⟩ : ∃ r, r = loadAll e 99 S (parentImp x) := ⟨_, rfl⟩
    have hr1 : x ∉ r.1 := by rw [hr]; exact (load_keeps_out hs hx 99).2 S _ hx0
    rw [← hr]
    obtain ⟨S1, b⟩ := r
    simp only at hr1 ⊢
    rw [if_neg hr1, loadAll_elsewhere hs _ hx]
    split_ifs <;> simp_all
  exact ⟨fun hs => key _ _ hs (by simp [imports]), fun hs => key _ _ hs (by simp [imports])⟩

/-- an environment meeting the hypotheses -/
example : ∃ e : Env, (∀ t, e.installed t = true) ∧ e.onPath "dicovar" = false ∧
    e.onPath "aerokit.IterativeSolve" = false ∧ (load e 100 [] .Euler).2 = true ∧
    (load e 100 (sysAfter e [.riemann, .Propulsion, .base]) .extendvar).2 = false := by
  refine ⟨⟨fun _ => true, fun _ => false⟩, fun _ => rfl, rfl, rfl, ?_, ?_⟩
  · obtain ⟨S', h, -⟩ := C79_importable_partial ⟨fun _ => true, fun _ => false⟩ (fun _ => rfl) .Euler
      (by simp) (by simp) []
    rw [h]
  · exact (C79_false ⟨fun _ => true, fun _ => false⟩ _).1 rfl

end Aerokit.Props
