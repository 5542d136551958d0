import Verif.Model.SigmaApprox
import Verif.Props.NozzleShort

/-! # Property C165 : `notebooks/Sigma-approximation.ipynb` -/

namespace Aerokit.Props
open Isentropic MassFlow SigmaApprox Nozzle Spec ListPy Real
open DefaultGas (gamma0)

private theorem sa_rgam {γ : ℝ} (h : 1 < γ) : rgam γ = .ok ((γ + 1) / (γ - 1)) := by
  unfold rgam
  lits
  exact Py.div_ok (by linarith)

/-- C165 (small Mach numbers, cell 1): the first approximation is below the area function for every Mach number, and within the factor
`exp ((gamma + 1) / 4 M ^ 2)`, which tends to 1 with the Mach number. -/
theorem C165_low (γ M : ℝ) (h : 1 < γ) (hM : 0 < M) : ∃ s a, Sigma_Mach M γ = .ok s ∧ low γ M = .ok a ∧ 0 < a ∧ a < s ∧
    s ≤ a * exp ((γ + 1) / 4 * M ^ 2) := by
  have hg : 0 < γ - 1 := by linarith
  have hq : 0 < 2 / (γ + 1) := by apply div_pos <;> linarith
  have he : 0 < (γ + 1) / (2 * (γ - 1)) := by apply div_pos <;> linarith
  have ht : 1 < tt M γ := by unfold tt; have := mul_pos hg (pow_pos hM 2); nlinarith
  set e := (γ + 1) / (2 * (γ - 1)) with hedef
  have hlow : low γ M = .ok ((2 / (γ + 1)) ^ e / M) := by
    unfold low
    rw [sa_rgam h, Py.ok_bind]
    lits
    rw [Py.div_ok (by linarith), Py.ok_bind, Py.pow_ok _ hq, Py.ok_bind, Py.div_ok hM.ne']
    have : 1 / 2 * ((γ + 1) / (γ - 1)) = e := by rw [hedef]; field_simp
    rw [this]
  have ha : 0 < (2 / (γ + 1)) ^ e / M := div_pos (rpow_pos_of_pos hq _) hM
  have hs : sig M γ = (2 / (γ + 1)) ^ e / M * tt M γ ^ e := by
    unfold sig
    rw [← hedef, mul_rpow hq.le (by linarith)]
    ring
  refine ⟨_, _, Sigma_Mach_ok h hM.ne', hlow, ha, ?_, ?_⟩
  · rw [hs]
    exact lt_mul_of_one_lt_right ha (one_lt_rpow ht he)
  · rw [hs]
    apply mul_le_mul_of_nonneg_left _ ha.le
    have k : tt M γ ≤ exp ((γ - 1) / 2 * M ^ 2) := by
      have := add_one_le_exp ((γ - 1) / 2 * M ^ 2)
      unfold tt
      linarith
    calc tt M γ ^ e ≤ exp ((γ - 1) / 2 * M ^ 2) ^ e := rpow_le_rpow (by linarith) k he.le
      _ = exp ((γ + 1) / 4 * M ^ 2) := by
        rw [← exp_mul]
        congr 1
        rw [hedef]
        field_simp
        ring

/-- C165 (large Mach numbers, cell 1): the other approximation too is below the area function for every Mach number (weighted inequality of the means), and
`Sigma ^ 2 M ^ 2` is at most its square times `M ^ 2 + 2 / (gamma - 1)`: the ratio tends to 1 at infinity. -/
theorem C165_high (γ M : ℝ) (h : 1 < γ) (hM : 0 < M) : ∃ s b, Sigma_Mach M γ = .ok s ∧ high γ M = .ok b ∧ 0 < b ∧ b < s ∧
    s ^ 2 * M ^ 2 ≤ b ^ 2 * (M ^ 2 + 2 / (γ - 1)) := by
  have hg : 0 < γ - 1 := by linarith
  set r := (γ + 1) / (γ - 1) with hr
  have hr1 : r - 1 = 2 / (γ - 1) := by rw [hr]; field_simp; ring
  have hr1p : 0 < r - 1 := by rw [hr1]; positivity
  have hrp : 0 < r := by linarith
  have hy : 0 < M ^ 2 := by positivity
  set z := M ^ 2 + (r - 1) with hz
  have hzp : 0 < z := by linarith
  have hw : 0 < r + M ^ 2 := by linarith
  have hb : high γ M = .ok ((r + M ^ 2) ^ ((r - 1) / 2) / r ^ (r / 2)) := by
    unfold high
    rw [sa_rgam h, Py.ok_bind]
    lits
    rw [Py.pow_ok _ (by nlinarith), Py.ok_bind, Py.pow_ok _ hrp, Py.ok_bind, Py.div_ok (rpow_pos_of_pos hrp _).ne']
    have e1 : 1 / 2 * (r - 1) = (r - 1) / 2 := by ring
    have e2 : 1 / 2 * r = r / 2 := by ring
    rw [← hr, e1, e2, sq]
  set b := (r + M ^ 2) ^ ((r - 1) / 2) / r ^ (r / 2) with hbdef
  have hbp : 0 < b := div_pos (rpow_pos_of_pos hw _) (rpow_pos_of_pos hrp _)
  have hs : sig M γ = (z / r) ^ (r / 2) / M := by
    unfold sig
    have e1 : 2 / (γ + 1) * tt M γ = z / r := by rw [hz, hr]; unfold tt; field_simp; ring
    have e2 : (γ + 1) / (2 * (γ - 1)) = r / 2 := by rw [hr]; field_simp
    rw [e1, e2]
  have hsp := sig_pos h hM
  have ls : log (sig M γ) = r / 2 * (log z - log r) - log M := by
    rw [hs, log_div (rpow_pos_of_pos (div_pos hzp hrp) _).ne' hM.ne', log_rpow (div_pos hzp hrp), log_div hzp.ne' hrp.ne']
  have lb : log b = (r - 1) / 2 * log (r + M ^ 2) - r / 2 * log r := by
    rw [hbdef, log_div (rpow_pos_of_pos hw _).ne' (rpow_pos_of_pos hrp _).ne', log_rpow hw, log_rpow hrp]
  have ly : log (M ^ 2) = 2 * log M := by rw [log_pow]; norm_num
  refine ⟨_, _, Sigma_Mach_ok h hM.ne', hb, hbp, ?_, ?_⟩
  · rw [← log_lt_log_iff hbp hsp, ls, lb]
    have k1 := log_lt_sub_one_of_pos (div_pos hy hzp) (by rw [Ne, div_eq_one_iff_eq hzp.ne']; intro e; linarith)
    have k2 := log_le_sub_one_of_pos (div_pos hw hzp)
    rw [log_div hy.ne' hzp.ne', ly] at k1
    rw [log_div hw.ne' hzp.ne'] at k2
    have k3 := mul_le_mul_of_nonneg_left k2 hr1p.le
    have k4 : M ^ 2 / z - 1 + (r - 1) * ((r + M ^ 2) / z - 1) = 0 := by
      field_simp
      rw [hz]; ring
    nlinarith
  · rw [← hr1, ← hz, ← log_le_log_iff (by positivity) (by positivity), log_mul (by positivity) (by positivity), log_mul (by positivity) hzp.ne', log_pow, log_pow, log_pow, ls, lb]
    have k : log z ≤ log (r + M ^ 2) := log_le_log hzp (by linarith)
    have := mul_le_mul_of_nonneg_left k hr1p.le
    push_cast
    nlinarith

/-- a concrete case: the two approximations at Mach number 2 -/
example : ∃ s a b, Sigma_Mach 2 1.4 = .ok s ∧ low 1.4 2 = .ok a ∧ high 1.4 2 = .ok b ∧ a < s ∧ b < s := by
  obtain ⟨s, a, h1, h2, -, h3, -⟩ := C165_low 1.4 2 (by norm_num) (by norm_num)
  obtain ⟨s', b, k1, k2, -, k3, -⟩ := C165_high 1.4 2 (by norm_num) (by norm_num)
  obtain rfl := Except.ok.inj (h1.symm.trans k1)
  exact ⟨s, a, b, h1, h2, k2, h3, k3⟩

private theorem sa_sub {q : ℝ} (hq : 1 ≤ q) : ∃ m, 0 < m ∧ m ≤ 1 ∧ sig m gamma0 = q := by
  rcases hq.eq_or_lt with e | e
  · exact ⟨1, one_pos, le_rfl, by rw [sig_one one_lt_gamma0, e]⟩
  · obtain ⟨m, a, b, d⟩ := exists_sub one_lt_gamma0 e
    exact ⟨m, a, b.le, d⟩

private theorem sa_sup {q : ℝ} (hq : 1 ≤ q) : ∃ m, 1 ≤ m ∧ sig m gamma0 = q := by
  rcases hq.eq_or_lt with e | e
  · exact ⟨1, le_rfl, by rw [sig_one one_lt_gamma0, e]⟩
  · obtain ⟨m, a, b⟩ := exists_sup one_lt_gamma0 e
    exact ⟨m, a.le, b⟩

private theorem sa_subArray {nf : RootFinder} (hb : BranchRootFinder nf) (hc : CompleteRF nf) {f : ℝ → ℝ}
    (hf : ∀ q, 1 ≤ q → 0 < f q ∧ f q ≤ 1 ∧ sig (f q) gamma0 = q) {S : List ℝ} (hS : ∀ q ∈ S, 1 ≤ q) :
    MachSub_Sigma_array nf S gamma0 = .ok (S.map f) := by
  have hg := one_lt_gamma0
  unfold MachSub_Sigma_array
  rw [mapM_of_forall (g := fun q => 1 - Real.sqrt ((1 - 1 / q) * (4 * (gamma0 - 1) / (3 - gamma0)))) (fun q hq => MachSub_init_ok (hS q hq) hg g3), Py.ok_bind]
  unfold Mach_Sigma_array
  have hz : S.zip (S.map fun q => 1 - Real.sqrt ((1 - 1 / q) * (4 * (gamma0 - 1) / (3 - gamma0))))
      = S.map fun q => (q, 1 - Real.sqrt ((1 - 1 / q) * (4 * (gamma0 - 1) / (3 - gamma0)))) := by
    simpa using List.zip_map' (f := id) (g := fun q : ℝ => 1 - Real.sqrt ((1 - 1 / q) * (4 * (gamma0 - 1) / (3 - gamma0)))) (l := S)
  rw [hz, List.mapM_map]
  apply mapM_of_forall
  intro q hq
  obtain ⟨f0, f1, f2⟩ := hf q (hS q hq)
  have := Real.sqrt_nonneg ((1 - 1 / q) * (4 * (gamma0 - 1) / (3 - gamma0)))
  simp only [Function.comp]
  rw [if_pos (by norm_num)]
  have h := MachSub_total hb hc hg g3 f0 f1
  rw [f2] at h
  unfold MachSub_Sigma Mach_Sigma at h
  exact h

private theorem sa_supArray {nf : RootFinder} (hb : BranchRootFinder nf) (hc : CompleteRF nf) {f : ℝ → ℝ}
    (hf : ∀ q, 1 ≤ q → 1 ≤ f q ∧ sig (f q) gamma0 = q) {S : List ℝ} (hS : ∀ q ∈ S, 1 ≤ q) :
    MachSup_Sigma_array nf S gamma0 = .ok (S.map f) := by
  have hg := one_lt_gamma0
  unfold MachSup_Sigma_array
  rw [mapM_of_forall (g := fun q => 1 + Real.sqrt ((q - 1) * (4 * (gamma0 - 1) / (3 - gamma0)))) (fun q hq => MachSup_init_ok (hS q hq) hg g3), Py.ok_bind]
  unfold Mach_Sigma_array
  have hz : S.zip (S.map fun q => 1 + Real.sqrt ((q - 1) * (4 * (gamma0 - 1) / (3 - gamma0))))
      = S.map fun q => (q, 1 + Real.sqrt ((q - 1) * (4 * (gamma0 - 1) / (3 - gamma0)))) := by
    simpa using List.zip_map' (f := id) (g := fun q : ℝ => 1 + Real.sqrt ((q - 1) * (4 * (gamma0 - 1) / (3 - gamma0)))) (l := S)
  rw [hz, List.mapM_map]
  apply mapM_of_forall
  intro q hq
  obtain ⟨f1, f2⟩ := hf q (hS q hq)
  simp only [Function.comp]
  have h := MachSup_total hb hc hg g3 f1
  rw [f2] at h
  unfold MachSup_Sigma Mach_Sigma at h
  rw [MachSup_init_ok (hS q hq) hg g3, Py.ok_bind] at h ⊢
  by_cases hq1 : q = 1
  · subst hq1
    rw [MachSub_init_ok le_rfl hg g3, Py.ok_bind]
    simpa using h
  · have hlt : 1 < q := lt_of_le_of_ne (hS q hq) (Ne.symm hq1)
    have hp : 0 < (q - 1) * (4 * (gamma0 - 1) / (3 - gamma0)) :=
      mul_pos (by linarith) (div_pos (by linarith) (by linarith [g3]))
    rw [if_neg (by push Not; norm_num; exact hp)]
    exact h

/-- C165 (the inverses, cell 2): with a solver that finds the root on the branch of its guess, the cell runs for every array of positive Mach numbers; of each
area it draws the subsonic and the supersonic Mach number with that area, so one of the two curves gives the initial Mach number back. -/
theorem C165_inverses (newton : RootFinder) (hb : BranchRootFinder newton) (hc : CompleteRF newton) (Ms : List ℝ) (hM : ∀ m ∈ Ms, 0 < m) :
    ∃ S a b, inverses newton Ms = .ok (S, a, b) ∧ S.length = Ms.length ∧ a.length = Ms.length ∧ b.length = Ms.length ∧
      ∀ (i : ℕ) (m s x y : ℝ), Ms[i]? = some m → S[i]? = some s → a[i]? = some x → b[i]? = some y →
        Sigma_Mach m gamma0 = .ok s ∧ Sigma_Mach x gamma0 = .ok s ∧ Sigma_Mach y gamma0 = .ok s ∧ 0 < x ∧ x ≤ 1 ∧ 1 ≤ y ∧
          (m ≤ 1 → x = m) ∧ (1 ≤ m → y = m) := by
  have hg := one_lt_gamma0
  choose! f hf using fun (q : ℝ) (hq : 1 ≤ q) => sa_sub hq
  choose! g hk using fun (q : ℝ) (hq : 1 ≤ q) => sa_sup hq
  have hS : ∀ q ∈ Ms.map fun m => sig m gamma0, 1 ≤ q := by
    intro q hq
    obtain ⟨m, hm, rfl⟩ := List.mem_map.1 hq
    exact one_le_sig hg (hM m hm)
  refine ⟨Ms.map fun m => sig m gamma0, (Ms.map fun m => sig m gamma0).map f, (Ms.map fun m => sig m gamma0).map g, ?_, by simp, by simp, by simp, ?_⟩
  · unfold inverses
    rw [mapM_of_forall (g := fun m => sig m gamma0) (fun m hm => Sigma_Mach_ok hg (hM m hm).ne'), Py.ok_bind, sa_subArray hb hc hf hS, Py.ok_bind,
      sa_supArray hb hc hk hS, Py.ok_bind, Py.pure_eq]
  · intro i m s x y e1 e2 e3 e4
    simp only [List.getElem?_map, e1, Option.map_some, Option.some.injEq] at e2 e3 e4
    subst e2
    have hm := hM m (List.mem_of_getElem? e1)
    have h1 := one_le_sig hg hm
    obtain ⟨x0, x1, x2⟩ := hf _ h1
    obtain ⟨y1, y2⟩ := hk _ h1
    rw [e3] at x0 x1 x2
    rw [e4] at y1 y2
    refine ⟨Sigma_Mach_ok hg hm.ne', ?_, ?_, x0, x1, y1, ?_, ?_⟩
    · rw [Sigma_Mach_ok hg x0.ne', x2]
    · rw [Sigma_Mach_ok hg (by linarith), y2]
    · intro h
      exact (sig_strictAnti hg).injOn ⟨x0, x1⟩ ⟨hm, h⟩ x2
    · intro h
      exact (sig_strictMono hg).injOn (Set.mem_Ici.2 y1) (Set.mem_Ici.2 h) y2

/-- the hypotheses are satisfiable: Mach numbers .5 and 2 -/
example : ∃ (newton : RootFinder) (S a b : List ℝ), BranchRootFinder newton ∧ CompleteRF newton ∧ inverses newton [0.5, 2] = .ok (S, a, b) ∧ a[0]? = some (0.5 : ℝ) ∧ b[1]? = some (2 : ℝ) := by
  obtain ⟨nf, -, hb, hc⟩ := exists_branchRootFinder
  obtain ⟨S, a, b, h, h1, h2, h3, hp⟩ := C165_inverses nf hb hc [0.5, 2] (by intro m hm; simp at hm; rcases hm with rfl | rfl <;> norm_num)
  have q := fun i (hi : i < 2) => hp i _ _ _ _ (List.getElem?_eq_getElem (by simpa using hi)) (List.getElem?_eq_getElem (by simpa [h1] using hi))
    (List.getElem?_eq_getElem (by simpa [h2] using hi)) (List.getElem?_eq_getElem (by simpa [h3] using hi))
  refine ⟨nf, S, a, b, hb, hc, h, ?_, ?_⟩
  · have := (q 0 (by norm_num)).2.2.2.2.2.2.1 (by norm_num)
    exact (List.getElem?_eq_getElem (by simp [h2])).trans (congrArg some this)
  · have := (q 1 (by norm_num)).2.2.2.2.2.2.2 (by norm_num)
    exact (List.getElem?_eq_getElem (by simp [h3])).trans (congrArg some this)

end Aerokit.Props
