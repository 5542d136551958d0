import Verif.Props.MassFlow
import Verif.Lemmas.ListPy

/-! # Property C94 : `MassFlow.Mach_Sigma` called with arrays -/

namespace Aerokit.Props
open Isentropic MassFlow ListPy

/-- C94: with arrays of the same length, every returned Mach number has the requested area ratio and
is on the side of the throat named by the corresponding entry of the argument `Mach`. -/
theorem C94_array_branches (newton : RootFinder) (hn : Spec.BranchRootFinder newton) (γ : ℝ)
    (hγ : 1 < γ) (h3 : γ < 3) (σs Ms xs : List ℝ) (hlen : σs.length = Ms.length)
    (hσ : ∀ σ ∈ σs, 1 < σ) (h : Mach_Sigma_array newton σs Ms γ = Except.ok xs) :
    xs.length = σs.length ∧ ∀ (i : ℕ) (σ m x : ℝ), σs[i]? = some σ → Ms[i]? = some m → xs[i]? = some x →
      Sigma_Mach x γ = Except.ok σ ∧ 0 < x ∧ (m ≤ 1 → x < 1) ∧ (1 < m → 1 < x) := by
  have hF := mapM_ok h
  have hL : xs.length = σs.length := by
    have := hF.length_eq; rw [List.length_zip, ← hlen, min_self] at this; exact this.symm
  refine ⟨hL, fun i σ m x h1 h2 h3' => ?_⟩
  have hz : (σs.zip Ms)[i]? = some (σ, m) := by
    rw [List.getElem?_zip_eq_some]; exact ⟨h1, h2⟩
  have hr := forall₂_get? hF hz h3'
  have hσ1 : 1 < σ := hσ σ (List.mem_of_getElem? h1)
  simp only at hr
  obtain ⟨⟨a, ha, ha1⟩, ⟨b, hb, hb1⟩⟩ := C08_guess_sides σ γ hσ1.le hγ h3
  have key : ∀ y, newton (sigma_residual σ γ) y = .ok x →
      Sigma_Mach x γ = Except.ok σ ∧ 0 < x ∧ (y ≤ 1 → x < 1) ∧ (1 ≤ y → 1 < x) := by
    intro y hy
    obtain ⟨g1, g2, g3⟩ := hn σ γ y x hy
    have hs := residual_zero g1
    obtain ⟨x0, hsx⟩ := pos_of_Sigma hγ hσ1.le hs
    have hne : x ≠ 1 := by rintro rfl; rw [sig_one hγ] at hsx; linarith
    exact ⟨hs, x0, fun hy => lt_of_le_of_ne (g2 hy) hne, fun hy => lt_of_le_of_ne (g3 hy) (Ne.symm hne)⟩
  by_cases hm : m ≤ 1
  · rw [if_pos (by lits; exact hm), ha, Py.ok_bind] at hr
    obtain ⟨k1, k2, k3, k4⟩ := key a hr
    exact ⟨k1, k2, fun _ => k3 ha1, fun h => absurd hm (not_le.2 h)⟩
  · rw [if_neg (by lits; exact hm), hb, Py.ok_bind] at hr
    obtain ⟨k1, k2, k3, k4⟩ := key b hr
    exact ⟨k1, k2, fun h => absurd h hm, fun _ => k4 hb1⟩

/-- C94: the argument `Mach` is only a selector: two arrays with the same subsonic/supersonic
pattern give the same answer, even with an arbitrary root finder. -/
theorem C94_selector (newton : RootFinder) (γ : ℝ) (σs Ms Ns : List ℝ)
    (hp : List.Forall₂ (fun m n : ℝ => m ≤ 1 ↔ n ≤ 1) Ms Ns) :
    Mach_Sigma_array newton σs Ms γ = Mach_Sigma_array newton σs Ns γ := by
  induction hp generalizing σs with
  | nil => rfl
  | @cons m n Ms Ns h _ ih =>
    cases σs with
    | nil => rfl
    | cons σ σs =>
      have ih' := ih σs
      unfold Mach_Sigma_array at ih' ⊢
      have h' : (m ≤ (1.0 : ℝ)) ↔ (n ≤ (1.0 : ℝ)) := by lits; exact h
      simp only [List.zip_cons_cons, List.mapM_cons, ih', h']

/-- C94: a call with arrays is the calls one would make entry by entry with `MachSub_Sigma` and
`MachSup_Sigma`. -/
theorem C94_entrywise (newton : RootFinder) (γ : ℝ) (σs Ms xs : List ℝ) (hlen : σs.length = Ms.length) :
    Mach_Sigma_array newton σs Ms γ = Except.ok xs ↔ xs.length = σs.length ∧
      ∀ (i : ℕ) (σ m x : ℝ), σs[i]? = some σ → Ms[i]? = some m → xs[i]? = some x →
        (m ≤ 1 → MachSub_Sigma newton σ γ = Except.ok x) ∧ (1 < m → MachSup_Sigma newton σ γ = Except.ok x) := by
  have e : ∀ p : ℝ × ℝ, (do
      let m0 ← if p.2 ≤ (1.0 : ℝ) then MachSub_sigma_init p.1 γ else MachSup_sigma_init p.1 γ
      newton (sigma_residual p.1 γ) m0) =
      if p.2 ≤ 1 then MachSub_Sigma newton p.1 γ else MachSup_Sigma newton p.1 γ := by
    rintro ⟨σ, m⟩
    lits
    by_cases hm : m ≤ 1
    · simp only [hm, if_true]; rfl
    · simp only [hm, if_false]; rfl
  have e' : Mach_Sigma_array newton σs Ms γ = (σs.zip Ms).mapM
      (fun p => if p.2 ≤ 1 then MachSub_Sigma newton p.1 γ else MachSup_Sigma newton p.1 γ) := by
    unfold Mach_Sigma_array
    congr 1
    funext p
    exact e p
  rw [e']
  constructor
  · intro h
    have hF := mapM_ok h
    refine ⟨?_, fun i σ m x h1 h2 h3 => ?_⟩
    · have := hF.length_eq; rw [List.length_zip, ← hlen, min_self] at this; exact this.symm
    · have hz : (σs.zip Ms)[i]? = some (σ, m) := by
        rw [List.getElem?_zip_eq_some]; exact ⟨h1, h2⟩
      have hr := forall₂_get? hF hz h3
      simp only at hr
      exact ⟨fun hm => by simpa [hm] using hr, fun hm => by simpa [not_le.2 hm] using hr⟩
  · rintro ⟨hl, h⟩
    clear e e'
    induction σs generalizing Ms xs with
    | nil => 
      have : xs = [] := List.length_eq_zero_iff.1 (by simpa using hl)
      subst this; rfl
    | cons σ σs ih =>
      cases Ms with
      | nil => simp at hlen
      | cons m Ms =>
        cases xs with
        | nil => simp at hl
        | cons x xs =>
          have h0 := h 0 σ m x (by simp) (by simp) (by simp)
          have ih' := ih Ms xs (by simpa using hlen) (by simpa using hl)
            (fun i σ m x h1 h2 h3 => h (i + 1) σ m x (by simpa using h1) (by simpa using h2) (by simpa using h3))
          rw [List.zip_cons_cons, List.mapM_cons, ih']
          by_cases hm : m ≤ 1
          · simp only [hm, if_true, h0.1 hm, Py.ok_bind, Py.pure_eq]
          · simp only [hm, if_false, h0.2 (not_le.1 hm), Py.ok_bind, Py.pure_eq]

/-- C94: `MachSub_Sigma` and `MachSup_Sigma` of an array are the arrays of the scalar results: the
second selection made inside `Mach_Sigma` does not change the branch (not even at the throat). -/
theorem C94_sub_sup_arrays (newton : RootFinder) (γ : ℝ) (hγ : 1 < γ) (h3 : γ < 3) (σs : List ℝ)
    (hσ : ∀ σ ∈ σs, 1 ≤ σ) :
    MachSub_Sigma_array newton σs γ = σs.mapM (fun σ => MachSub_Sigma newton σ γ) ∧
    MachSup_Sigma_array newton σs γ = σs.mapM (fun σ => MachSup_Sigma newton σ γ) := by
  have e1 : σs.mapM (fun s => MachSub_sigma_init s γ) = .ok (σs.map fun σ =>
      1 - Real.sqrt ((1 - 1 / σ) * (4 * (γ - 1) / (3 - γ)))) :=
    mapM_of_forall fun σ h => MachSub_init_ok (hσ σ h) hγ h3
  have e2 : σs.mapM (fun s => MachSup_sigma_init s γ) = .ok (σs.map fun σ =>
      1 + Real.sqrt ((σ - 1) * (4 * (γ - 1) / (3 - γ)))) :=
    mapM_of_forall fun σ h => MachSup_init_ok (hσ σ h) hγ h3
  unfold MachSub_Sigma_array MachSup_Sigma_array
  rw [e1, e2, Py.ok_bind, Py.ok_bind]
  clear e1 e2
  induction σs with
  | nil => exact ⟨rfl, rfl⟩
  | cons σ σs ih =>
    obtain ⟨i1, i2⟩ := ih (fun s hs => hσ s (List.mem_cons_of_mem _ hs))
    have h1 : 1 ≤ σ := hσ σ (by simp)
    have g1 := MachSub_init_ok h1 hγ h3
    have g2 := MachSup_init_ok h1 hγ h3
    constructor
    · have c : 1 - Real.sqrt ((1 - 1 / σ) * (4 * (γ - 1) / (3 - γ))) ≤ (1.0 : ℝ) := by
        lits; linarith [Real.sqrt_nonneg ((1 - 1 / σ) * (4 * (γ - 1) / (3 - γ)))]
      unfold Mach_Sigma_array at i1 ⊢
      rw [List.map_cons, List.zip_cons_cons, List.mapM_cons, i1, List.mapM_cons]
      simp only [if_pos c, g1, Py.ok_bind, MachSub_Sigma, Mach_Sigma]
    · unfold Mach_Sigma_array at i2 ⊢
      rw [List.map_cons, List.zip_cons_cons, List.mapM_cons, i2, List.mapM_cons]
      by_cases c : 1 + Real.sqrt ((σ - 1) * (4 * (γ - 1) / (3 - γ))) ≤ (1.0 : ℝ)
      · have hz : Real.sqrt ((σ - 1) * (4 * (γ - 1) / (3 - γ))) = 0 := by
          have : (1.0 : ℝ) = 1 := by norm_num
          rw [this] at c
          exact le_antisymm (by linarith) (Real.sqrt_nonneg _)
        have hσ1 : σ = 1 := by
          rw [Real.sqrt_eq_zero (mul_nonneg (by linarith) (div_nonneg (by linarith) (by linarith)))] at hz
          rcases mul_eq_zero.1 hz with h | h
          · linarith
          · have : 0 < 4 * (γ - 1) / (3 - γ) := div_pos (by linarith) (by linarith)
            linarith
        subst hσ1
        simp only [if_pos c, g1, g2, Py.ok_bind, MachSup_Sigma, Mach_Sigma]
        norm_num
      · simp only [if_neg c, g2, Py.ok_bind, MachSup_Sigma, Mach_Sigma]

example : (1:ℝ) < 1.4 ∧ (1.4:ℝ) < 3 ∧ ∀ σ ∈ [(1:ℝ), 2, 3.5], 1 ≤ σ := by
  refine ⟨by norm_num, by norm_num, ?_⟩
  intro σ h; simp at h; rcases h with rfl | rfl | rfl <;> norm_num

/-- a call that mixes both branches and succeeds -/
example : ∃ newton : RootFinder, Spec.BranchRootFinder newton ∧ ∃ x y : ℝ,
    Mach_Sigma_array newton [2, 3] [0.5, 1.7] 1.4 = Except.ok [x, y] ∧ x < 1 ∧ 1 < y := by
  obtain ⟨nf, _, hb, hc⟩ := Spec.exists_branchRootFinder
  obtain ⟨M, h0, h1, hs⟩ := exists_sub (σ := 2) (γ := 1.4) (by norm_num) (by norm_num)
  obtain ⟨N, k1, ks⟩ := exists_sup (σ := 3) (γ := 1.4) (by norm_num) (by norm_num)
  obtain ⟨⟨a, ha, ha1⟩, _⟩ := C08_guess_sides 2 1.4 (by norm_num) (by norm_num) (by norm_num)
  obtain ⟨_, ⟨b, hb', hb1⟩⟩ := C08_guess_sides 3 1.4 (by norm_num) (by norm_num) (by norm_num)
  have r1 : sigma_residual 2 1.4 M = Except.ok 0 := by
    unfold sigma_residual; rw [Sigma_Mach_ok (by norm_num) h0.ne', Py.ok_bind, hs]; simp
  have r2 : sigma_residual 3 1.4 N = Except.ok 0 := by
    unfold sigma_residual; rw [Sigma_Mach_ok (by norm_num) (by linarith), Py.ok_bind, ks]; simp
  have hbN : b ≤ 1 → N ≤ 1 := by
    intro hb2
    have := MachSup_init_ok (σ := 3) (γ := 1.4) (by norm_num) (by norm_num) (by norm_num)
    rw [this] at hb'
    have hbe := Except.ok.inj hb'
    have : 0 < Real.sqrt ((3 - 1) * (4 * (1.4 - 1) / (3 - 1.4)) : ℝ) := Real.sqrt_pos.2 (by norm_num)
    linarith
  have haM : 1 ≤ a → 1 ≤ M := by
    intro ha2
    have := MachSub_init_ok (σ := 2) (γ := 1.4) (by norm_num) (by norm_num) (by norm_num)
    rw [this] at ha
    have hae := Except.ok.inj ha
    have : 0 < Real.sqrt ((1 - 1 / 2) * (4 * (1.4 - 1) / (3 - 1.4)) : ℝ) := Real.sqrt_pos.2 (by norm_num)
    linarith
  obtain ⟨x, hx⟩ := hc (sigma_residual 2 1.4) a ⟨M, r1, fun _ => h1.le, haM⟩
  obtain ⟨y, hy⟩ := hc (sigma_residual 3 1.4) b ⟨N, r2, hbN, fun _ => k1.le⟩
  have hcall : Mach_Sigma_array nf [2, 3] [0.5, 1.7] 1.4 = Except.ok [x, y] := by
    unfold Mach_Sigma_array
    have c1 : (0.5 : ℝ) ≤ 1.0 := by norm_num
    have c2 : ¬ (1.7 : ℝ) ≤ 1.0 := by norm_num
    simp only [List.zip_cons_cons, List.zip_nil_left, List.mapM_cons, List.mapM_nil, c1, c2, if_true, if_false,
      ha, hb', Py.ok_bind, hx, hy, Py.pure_eq]
  obtain ⟨_, hall⟩ := C94_array_branches nf hb 1.4 (by norm_num) (by norm_num) [2, 3] [0.5, 1.7] [x, y] rfl
    (by intro σ h; simp at h; rcases h with rfl | rfl <;> norm_num) hcall
  exact ⟨nf, hb, x, y, hcall, (hall 0 2 0.5 x rfl rfl rfl).2.2.1 (by norm_num),
    (hall 1 3 1.7 y rfl rfl rfl).2.2.2 (by norm_num)⟩

end Aerokit.Props
