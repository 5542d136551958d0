import Verif.Props.Imports

/-! # Property C149 : the shipped scripts find what they import (false for four of them) -/

namespace Aerokit.Props
open Imports

/-- the scripts written for a package named `aero` -/
def oldScript (s : Script) : Bool := s == .rayleigh_diag || s == .rayleigh_heating || s == .shockwave_polar || s == .shockwave_polar_p

/-- C149 (the part that holds): with the third-party packages installed, in a new process or in any session, the imports of all the
shipped scripts but the four written for a package `aero` succeed (`remove_output.py` needs `nbformat` too). -/
theorem C149_scripts_partial (e : Env) (hall : ∀ t, e.installed t = true) (s : Script) (hs : oldScript s = false)
    (hn : s = .remove_output → e.onPath "nbformat.current" = true) (S : List Mod) : runImports e S s = true := by
  have key : ∃ S', loadAll e 200 S (scriptImports s) = (S', true) ∧ S ⊆ S' := by
    refine loadAll_ok (q := []) (F := 100) _ _ _ ?_ ?_ (List.nil_subset S)
    · have use : ∀ m, broken m = false → OKrel e [] 100 m := fun m hb =>
        (import_ok e hall 9 m (by cases m <;> simp [rank]) hb).mono (List.nil_subset _) (by cases m <;> simp [rank])
      intro i hi
      cases s <;> simp [oldScript] at hs <;> simp only [scriptImports, List.mem_cons, List.not_mem_nil, or_false] at hi <;>
        (repeat' (rcases hi with rfl | hi)) <;> (try subst hi) <;>
        first
        | exact hall _
        | exact use _ rfl
        | exact ⟨use _ rfl, by simp [defines]⟩
        | exact hn rfl
    · cases s <;> simp [scriptImports]
  obtain ⟨S', h, -⟩ := key
  unfold runImports
  rw [h]

/-- C149 is false: where no package `aero` is installed, `rayleigh-diag.py`, `rayleigh-heating.py`, `shockwave-polar.py` and
`shockwave-polar-p.py` stop at their imports, whatever has been imported before. -/
theorem C149_scripts_false (e : Env) (h1 : e.onPath "aero.Rayleigh" = false) (h2 : e.onPath "aero.degree" = false) (s : Script) (hs : oldScript s = true) (S : List Mod) :
    runImports e S s = false := by
  unfold runImports
  cases s <;> simp [oldScript] at hs
  · exact loadAll_elsewhere h1 _ (by simp [scriptImports]) _ _
  · exact loadAll_elsewhere h1 _ (by simp [scriptImports]) _ _
  · exact loadAll_elsewhere h2 _ (by simp [scriptImports]) _ _
  · exact loadAll_elsewhere h2 _ (by simp [scriptImports]) _ _

/-- an environment meeting the hypotheses, and what happens there -/
example : ∃ e : Env, (∀ t, e.installed t = true) ∧ e.onPath "aero.Rayleigh" = false ∧ e.onPath "aero.degree" = false ∧
    runImports e [] .euler1d = true ∧ runImports e [.numspectral] .riemann_guidevane = true ∧ runImports e [] .rayleigh_diag = false := by
  refine ⟨⟨fun _ => true, fun _ => false⟩, fun _ => rfl, rfl, rfl, ?_, ?_, ?_⟩
  · exact C149_scripts_partial _ (fun _ => rfl) _ rfl (by simp) _
  · exact C149_scripts_partial _ (fun _ => rfl) _ rfl (by simp) _
  · exact C149_scripts_false _ rfl rfl _ rfl _

end Aerokit.Props
