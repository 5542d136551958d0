import Verif.Model.NozzleShort
import Verif.Props.NozzleRegimes2

/-! # Property C164 : `notebooks/aero/Nozzle-regimes-short.ipynb` and `notebooks/aero/Nozzle-widget.ipynb` -/

namespace Aerokit.Props
open Isentropic MassFlow ShockWave Nozzle NozzleRegimes NozzleShort Spec ListPy Real
open DefaultGas (gamma0)

/-- C164 (cell 4) fails: `aerokit.aero.nozzle` is a star import of `aerokit.instance.nozzle`, which does not bind the private name `_NPR_Ms_list`
(the public ones are there): the cell raises `AttributeError`. -/
theorem C164_private_name_false (newton : RootFinder) (A : ℝ) : cell4 newton A = .error .attributeError ∧
    getattr nzNames "Ms_from_AsAc_NPR" = .ok () ∧ getattr nzNames "nozzle" = .ok () := by
  have h : nzNames = ["np", "defg", "Is", "mf", "sw", "NPR_choked_subsonic", "NPR_choked_supersonic", "NPR_shock_at_exit", "Ms_from_AsAc_NPR",
   "Madapt_from_AsAc_NPR", "nozzle"] := by decide
  unfold cell4 getattr
  rw [h]
  refine ⟨?_, ?_, ?_⟩
  · rw [if_neg (by decide)]; rfl
  · rw [if_pos (by decide)]
  · rw [if_pos (by decide)]

private theorem sub_guess_le {q g : ℝ} (h1 : 1 ≤ q) (h : MachSub_sigma_init q gamma0 = .ok g) : g ≤ 1.0 := by
  rw [MachSub_init_ok h1 one_lt_gamma0 g3] at h
  have := Except.ok.inj h
  have h2 := Real.sqrt_nonneg ((1 - 1 / q) * (4 * (gamma0 - 1) / (3 - gamma0)))
  rw [← this]
  norm_num

private theorem exists_subg {q : ℝ} (hq : 1 ≤ q) : ∃ m, 0 < m ∧ m ≤ 1 ∧ sig m gamma0 = q := by
  rcases hq.eq_or_lt with e | e
  · exact ⟨1, one_pos, le_rfl, by rw [sig_one one_lt_gamma0, e]⟩
  · obtain ⟨m, a, b, d⟩ := exists_sub one_lt_gamma0 e
    exact ⟨m, a, b.le, d⟩

/-- C164 (subsonic flow, cell 6): for every Mach number `0 < Ma_col ≤ 1` at the throat the cell runs; the flow is subsonic, `Sigma(M) = A/A* Sigma(Ma_col)`
at every section, the Mach number never exceeds `Ma_col`, and the total pressure is uniform. -/
theorem C164_subsonic (newton : RootFinder) (hb : BranchRootFinder newton) (hc : CompleteRF newton) (A : ℝ) (hA : 1 < A) (hA' : A ≤ 25)
    (n : ℕ) (hn : 2 ≤ n) (c : Contour) (h : contour newton A 8 n = .ok c) (Mc : ℝ) (m0 : 0 < Mc) (m1 : Mc ≤ 1) :
    ∃ o s, subsonic newton c Mc = .ok o ∧ Sigma_Mach Mc gamma0 = .ok s ∧ o.M.length = n + 2 ∧ (∀ q ∈ o.Pt, q = 1) ∧ StaticOf o ∧
      ∀ (i : ℕ) (a m : ℝ), i < n → c.AoAc[i]? = some a → o.M[i]? = some m → 0 < m ∧ m ≤ Mc ∧ Sigma_Mach m gamma0 = .ok (a * s) := by
  have hg := one_lt_gamma0
  obtain ⟨c', hc', hlx, hlm, hla, -, -, hlastA, -, -, -, hpt, -⟩ := C163_contour newton hb hc A hA hA' n hn
  obtain rfl : c = c' := Except.ok.inj (h.symm.trans hc')
  set s := sig Mc gamma0 with hs
  have hs1 : 1 ≤ s := one_le_sig hg m0
  have hge : ∀ a ∈ c.AoAc, 1 ≤ a := by
    intro a ha
    obtain ⟨i, hi⟩ := List.mem_iff_getElem?.1 ha
    have hin : i < n := by have := (List.getElem?_eq_some_iff.1 hi).1; omega
    exact (hpt i _ _ a (List.getElem?_eq_getElem (by omega)) (List.getElem?_eq_getElem (by omega)) hi).2.2.1
  have hone : ∀ a ∈ c.AoAc, 1 ≤ a * s := fun a ha => by nlinarith [hge a ha]
  choose! f hf0 hf1 hf2 using fun (q : ℝ) (hq : 1 ≤ q) => exists_subg hq
  have hM : MachSub_Sigma_array newton (c.AoAc.map fun a => a * s) gamma0 = .ok (c.AoAc.map fun a => f (a * s)) := by
    unfold MachSub_Sigma_array
    rw [mapM_of_forall (g := fun q => 1 - Real.sqrt ((1 - 1 / q) * (4 * (gamma0 - 1) / (3 - gamma0)))), Py.ok_bind]
    · unfold Mach_Sigma_array
      rw [List.map_map, List.zip_map', List.mapM_map]
      apply mapM_of_forall
      intro a ha
      have h1 := hone a ha
      simp only [Function.comp]
      rw [if_pos (sub_guess_le h1 (MachSub_init_ok h1 hg g3))]
      have := MachSub_total hb hc hg g3 (hf0 _ h1) (hf1 _ h1)
      rw [hf2 _ h1] at this
      unfold MachSub_Sigma Mach_Sigma at this
      exact this
    · intro q hq
      obtain ⟨a, ha, rfl⟩ := List.mem_map.1 hq
      exact MachSub_init_ok (hone a ha) hg g3
  have hlast : last (c.AoAc.map fun a => f (a * s)) = .ok (f (A * s)) := by
    unfold last
    rw [List.getLast?_map, hlastA, Option.map_some]
  refine ⟨⟨_, _, _⟩, s, ?_, Sigma_Mach_ok hg m0.ne', ?_, ?_, noz_staticOf_mk ((c.AoAc.map (fun a => f (a * s)) ++ [f (A * s), f (A * s)]).map fun _ => (1:ℝ))
    (c.AoAc.map (fun a => f (a * s)) ++ [f (A * s), f (A * s)]) (by simp), ?_⟩
  · unfold NozzleShort.subsonic
    rw [Sigma_Mach_ok hg m0.ne', Py.ok_bind, ← hs, hM, Py.ok_bind, hlast, Py.ok_bind]
    simp only []
    rw [staticP_ok, Py.ok_bind, Py.pure_eq]
  · simp [hla]
  · intro q hq
    obtain ⟨-, -, rfl⟩ := List.mem_map.1 hq
    rfl
  · intro i a m hin ha hm
    simp only [] at hm
    rw [List.getElem?_append_left (by simpa [hla] using hin), List.getElem?_map, ha, Option.map_some, Option.some.injEq] at hm
    have hmem := List.mem_of_getElem? ha
    have h1 := hone a hmem
    rw [← hm]
    refine ⟨hf0 _ h1, ?_, ?_⟩
    · by_contra hcon
      push Not at hcon
      have := sig_strictAnti hg ⟨m0, m1⟩ ⟨hf0 _ h1, hf1 _ h1⟩ hcon
      simp only [hf2 _ h1, ← hs] at this
      nlinarith [hge a hmem]
    · rw [Sigma_Mach_ok hg (hf0 _ h1).ne', hf2 _ h1]

/-- the hypotheses are satisfiable -/
example : ∃ newton c o, BranchRootFinder newton ∧ CompleteRF newton ∧ contour newton 6 8 200 = .ok c ∧ subsonic newton c 0.7 = .ok o := by
  obtain ⟨nf, -, hb, hc⟩ := exists_branchRootFinder
  obtain ⟨c, h, -⟩ := C163_contour nf hb hc 6 (by norm_num) (by norm_num) 200 (by norm_num)
  obtain ⟨o, s, ho, -⟩ := C164_subsonic nf hb hc 6 (by norm_num) (by norm_num) 200 (by norm_num) c h 0.7 (by norm_num) (by norm_num)
  exact ⟨nf, c, o, hb, hc, h, ho⟩

end Aerokit.Props
