import Verif.Model.NozzleRegimes
import Verif.Lemmas.Engine
import Verif.Props.NozzleShock
import Mathlib.Analysis.SpecialFunctions.Trigonometric.Bounds
import Mathlib.Analysis.Real.Pi.Bounds

/-! # Property C163 : `notebooks/aero/Nozzle-regimes.ipynb` -/

namespace Aerokit.Props
open Isentropic MassFlow ShockWave Nozzle NozzleRegimes Spec ListPy Real
open DefaultGas (gamma0)

/-- the Mach number of the contour at abscissa `t` -/
noncomputable def cma (M t : ℝ) : ℝ := 1 + (M - 1) * sin (π * (t - 1) / 14)

theorem cma_one (M : ℝ) : cma M 1 = 1 := by simp [cma]
theorem cma_eight (M : ℝ) : cma M 8 = M := by
  have : π * (8 - 1) / 14 = π / 2 := by ring
  simp only [cma]
  rw [this, sin_pi_div_two]
  ring

theorem cma_lt {M s t : ℝ} (hM : 1 < M) (h0 : 0 ≤ s) (hst : s < t) (h8 : t ≤ 8) : cma M s < cma M t := by
  have hp := pi_pos
  have h : sin (π * (s - 1) / 14) < sin (π * (t - 1) / 14) := by
    apply sin_lt_sin_of_lt_of_le_pi_div_two
    · nlinarith
    · nlinarith
    · nlinarith
  unfold cma
  have := mul_lt_mul_of_pos_left h (sub_pos.2 hM)
  linarith

theorem cma_zero_pos {M : ℝ} (hM : 1 < M) (h5 : M ≤ 5) : 0 < cma M 0 := by
  have hp := pi_lt_d2
  have hp0 := pi_pos
  have h : sin (π / 14) < π / 14 := sin_lt (by positivity)
  have e : cma M 0 = 1 - (M - 1) * sin (π / 14) := by
    unfold cma
    have : π * (0 - 1) / 14 = -(π / 14) := by ring
    rw [this, sin_neg]
    ring
  rw [e]
  have h2 : sin (π / 14) < 0.225 := by linarith
  have h3 : (M - 1) * sin (π / 14) ≤ (M - 1) * 0.225 := mul_le_mul_of_nonneg_left h2.le (by linarith)
  linarith

theorem cma_pos {M t : ℝ} (hM : 1 < M) (h5 : M ≤ 5) (h0 : 0 ≤ t) (h8 : t ≤ 8) : 0 < cma M t := by
  rcases h0.eq_or_lt with e | e
  · rw [← e]; exact cma_zero_pos hM h5
  · exact (cma_zero_pos hM h5).trans (cma_lt hM le_rfl e h8)

theorem cma_le_one {M t : ℝ} (hM : 1 < M) (h0 : 0 ≤ t) (h1 : t ≤ 1) : cma M t ≤ 1 := by
  rcases h1.eq_or_lt with e | e
  · rw [e, cma_one]
  · have := cma_lt hM h0 e (by norm_num)
    rw [cma_one] at this; exact this.le

theorem one_le_cma {M t : ℝ} (hM : 1 < M) (h1 : 1 ≤ t) (h8 : t ≤ 8) : 1 ≤ cma M t := by
  rcases h1.eq_or_lt with e | e
  · rw [← e, cma_one]
  · have := cma_lt hM (by norm_num) e h8
    rw [cma_one] at this; exact this.le

theorem sig_five : sig 5 gamma0 = 25 := by
  have e : (gamma0 + 1) / (2 * (gamma0 - 1)) = ((3 : ℕ) : ℝ) := by rw [gamma0_eq]; norm_num
  unfold sig
  rw [e, rpow_natCast, gamma0_eq]
  unfold tt
  norm_num

theorem noz_bounds {n : ℕ} (hn : 2 ≤ n) {t : ℝ} (ht : t ∈ noz_x 8 n) : 0 ≤ t ∧ t ≤ 8 := by
  have hn' : (2:ℝ) ≤ n := by exact_mod_cast hn
  unfold noz_x at ht
  obtain ⟨i, hi, rfl⟩ := List.mem_map.1 ht
  have h1 : (i : ℝ) + 1 ≤ n := by exact_mod_cast List.mem_range.1 hi
  have h0 : (0:ℝ) < (n : ℝ) - 1 := by linarith
  constructor
  · positivity
  · rw [← mul_div_assoc, div_le_iff₀ h0]; linarith

theorem noz_get {n i : ℕ} {t : ℝ} (h : (noz_x 8 n)[i]? = some t) : i < n ∧ t = (i : ℝ) * (8 / ((n : ℝ) - 1)) := by
  unfold noz_x at h
  rw [List.getElem?_map, Option.map_eq_some_iff] at h
  obtain ⟨j, hj, rfl⟩ := h
  obtain ⟨hi, e⟩ := List.getElem?_eq_some_iff.1 hj
  rw [List.getElem_range] at e
  rw [List.length_range] at hi
  exact ⟨hi, by rw [e]⟩

private theorem noz_lt {n i j : ℕ} {s t : ℝ} (hn : 2 ≤ n) (hij : i < j) (h : (noz_x 8 n)[i]? = some s) (h' : (noz_x 8 n)[j]? = some t) :
    s < t := by
  obtain ⟨-, rfl⟩ := noz_get h
  obtain ⟨-, rfl⟩ := noz_get h'
  have hn' : (2:ℝ) ≤ n := by exact_mod_cast hn
  have : (i : ℝ) < j := by exact_mod_cast hij
  apply mul_lt_mul_of_pos_right this
  apply div_pos (by norm_num); linarith

theorem noz_last {n : ℕ} (hn : 2 ≤ n) : (noz_x 8 n).getLast? = some 8 := by
  have hn' : (2:ℝ) ≤ n := by exact_mod_cast hn
  have hne : (n : ℝ) - 1 ≠ 0 := by linarith
  rw [List.getLast?_eq_getElem?]
  unfold noz_x
  rw [List.getElem?_map, List.length_map, List.length_range, List.getElem?_range (by omega)]
  simp only [Option.map_some]
  rw [Nat.cast_sub (by omega), Nat.cast_one]
  congr 1
  field_simp

private theorem noz_head {n : ℕ} (hn : 2 ≤ n) : (noz_x 8 n)[0]? = some 0 := by
  unfold noz_x
  rw [List.getElem?_map, List.getElem?_range (by omega)]
  simp

/-- the contour, in closed form -/
theorem noz_contour_eq {newton : RootFinder} (hb : BranchRootFinder newton) (hc : CompleteRF newton) {A : ℝ} (hA : 1 < A) (hA' : A ≤ 25)
    {n : ℕ} (hn : 2 ≤ n) : ∃ M, 1 < M ∧ M ≤ 5 ∧ sig M gamma0 = A ∧ contour newton A 8 n =
      .ok ⟨M, noz_x 8 n, (noz_x 8 n).map (cma M), (noz_x 8 n).map fun t => sig (cma M t) gamma0⟩ := by
  have hg := one_lt_gamma0
  obtain ⟨M, hM, hs⟩ := exists_sup hg hA
  have h5 : M ≤ 5 := by
    by_contra hcon
    push Not at hcon
    have := sig_strictMono hg (Set.mem_Ici.2 (by norm_num : (1:ℝ) ≤ 5)) (Set.mem_Ici.2 hM.le) hcon
    simp only [sig_five, hs] at this
    linarith
  refine ⟨M, hM, h5, hs, ?_⟩
  have e1 : Mach_Sigma newton A 2.0 gamma0 = .ok M := by
    unfold Mach_Sigma
    obtain ⟨x, hx⟩ := hc (sigma_residual A gamma0) 2.0
      ⟨M, residual_of_sig hg (by linarith) hs, fun h => by norm_num at h, fun _ => hM.le⟩
    obtain ⟨hr, -, h1⟩ := hb _ _ _ _ hx
    have h1' : 1 ≤ x := h1 (by norm_num)
    obtain ⟨-, hsx⟩ := pos_of_Sigma hg hA.le (residual_zero hr)
    rw [hx, (sig_strictMono hg).injOn (Set.mem_Ici.2 h1') (Set.mem_Ici.2 hM.le) (hsx.trans hs.symm)]
  have e2 : ((noz_x 8 n).mapM fun t => do
      let q ← Py.div (0.5 * (t - 1.0) * Real.pi) (8 - 1.0)
      return 1.0 + (M - 1.0) * Real.sin q : Py (List ℝ)) = .ok ((noz_x 8 n).map (cma M)) := by
    apply mapM_of_forall
    intro t _
    lits
    rw [Py.div_ok (by norm_num), Py.ok_bind, Py.pure_eq]
    unfold cma
    congr 4
    ring
  have e3 : (((noz_x 8 n).map (cma M)).mapM fun m => Sigma_Mach m gamma0 : Py (List ℝ)) =
      .ok ((noz_x 8 n).map fun t => sig (cma M t) gamma0) := by
    rw [mapM_of_forall (g := fun m => sig m gamma0), List.map_map]
    · rfl
    · intro m hm
      obtain ⟨t, ht, rfl⟩ := List.mem_map.1 hm
      obtain ⟨h0, h8⟩ := noz_bounds hn ht
      exact Sigma_Mach_ok hg (cma_pos hM h5 h0 h8).ne'
  unfold contour
  rw [e1, Py.ok_bind]
  rw [e2, Py.ok_bind, e3, Py.ok_bind, Py.pure_eq]

/-- C163 (contour, cell 2): for a target ratio `1 < A ≤ 25` and `n ≥ 2` points on `[0, 8]` the cell runs.  The area ratios are those of the given
Mach numbers, they are at least 1, they strictly decrease up to the abscissa 1 and strictly increase from it, and the last one is the target; the Mach
number is at most 1 before the abscissa 1, at least 1 after it, and `ma_max` is the supersonic Mach number of the target. -/
theorem C163_contour (newton : RootFinder) (hb : BranchRootFinder newton) (hc : CompleteRF newton) (A : ℝ) (hA : 1 < A) (hA' : A ≤ 25)
    (n : ℕ) (hn : 2 ≤ n) : ∃ c, contour newton A 8 n = .ok c ∧ c.x.length = n ∧ c.ma.length = n ∧ c.AoAc.length = n ∧
      c.x[0]? = some 0 ∧ c.x.getLast? = some 8 ∧ c.AoAc.getLast? = some A ∧ c.ma.getLast? = some c.ma_max ∧
      1 < c.ma_max ∧ Sigma_Mach c.ma_max gamma0 = .ok A ∧
      (∀ (i : ℕ) (x m a : ℝ), c.x[i]? = some x → c.ma[i]? = some m → c.AoAc[i]? = some a →
        Sigma_Mach m gamma0 = .ok a ∧ 0 < m ∧ 1 ≤ a ∧ (x ≤ 1 → m ≤ 1) ∧ (1 ≤ x → 1 ≤ m)) ∧
      (∀ (i j : ℕ) (x y a b : ℝ), i < j → c.x[i]? = some x → c.x[j]? = some y → c.AoAc[i]? = some a → c.AoAc[j]? = some b →
        (y ≤ 1 → b < a) ∧ (1 ≤ x → a < b)) := by
  have hg := one_lt_gamma0
  obtain ⟨M, hM, h5, hs, he⟩ := noz_contour_eq hb hc hA hA' hn
  have hlen : (noz_x 8 n).length = n := by simp [noz_x]
  refine ⟨_, he, hlen, by simp [hlen], by simp [hlen], noz_head hn, noz_last hn, ?_, ?_, hM, ?_, ?_, ?_⟩
  · rw [List.getLast?_map, noz_last hn, Option.map_some, cma_eight, hs]
  · rw [List.getLast?_map, noz_last hn, Option.map_some, cma_eight]
  · rw [Sigma_Mach_ok hg (by linarith), hs]
  · intro i x m a hx hm ha
    simp only [] at hx hm ha
    rw [List.getElem?_map, hx, Option.map_some, Option.some.injEq] at hm ha
    obtain ⟨h0, h8⟩ := noz_bounds hn (List.mem_of_getElem? hx)
    have hp := cma_pos hM h5 h0 h8
    rw [← hm, ← ha]
    exact ⟨Sigma_Mach_ok hg hp.ne', hp, one_le_sig hg hp, fun h => cma_le_one hM h0 h, fun h => one_le_cma hM h h8⟩
  · intro i j x y a b hij hx hy ha hb'
    simp only [] at hx hy ha hb'
    rw [List.getElem?_map, hx, Option.map_some, Option.some.injEq] at ha
    rw [List.getElem?_map, hy, Option.map_some, Option.some.injEq] at hb'
    obtain ⟨h0, h8⟩ := noz_bounds hn (List.mem_of_getElem? hx)
    obtain ⟨k0, k8⟩ := noz_bounds hn (List.mem_of_getElem? hy)
    have hxy := noz_lt hn hij hx hy
    have hlt := cma_lt hM h0 hxy k8
    rw [← ha, ← hb']
    constructor
    · intro hy1
      exact sig_strictAnti hg ⟨cma_pos hM h5 h0 h8, cma_le_one hM h0 (by linarith)⟩ ⟨cma_pos hM h5 k0 k8, cma_le_one hM k0 hy1⟩ hlt
    · intro hx1
      exact sig_strictMono hg (Set.mem_Ici.2 (one_le_cma hM hx1 h8)) (Set.mem_Ici.2 (one_le_cma hM (by linarith) k8)) hlt

/-- the hypotheses are satisfiable -/
example : ∃ newton, BranchRootFinder newton ∧ CompleteRF newton ∧ ∃ c, contour newton 3 8 200 = .ok c := by
  obtain ⟨nf, -, hb, hc⟩ := exists_branchRootFinder
  obtain ⟨c, h, -⟩ := C163_contour nf hb hc 3 (by norm_num) (by norm_num) 200 (by norm_num)
  exact ⟨nf, hb, hc, c, h⟩

/-- C163 (limits, cell 4): the limit pressure ratios and Mach numbers computed in the notebook are those of `NPR_Ms_list`, for every area ratio and
every behaviour of the solver. -/
theorem C163_limits (newton : RootFinder) (A : ℝ) : NozzleRegimes.limits newton A = NPR_Ms_list newton A := by
  have hg := one_lt_gamma0
  unfold NozzleRegimes.limits NPR_Ms_list
  simp only [PtPs_ppt hg, Py.ok_bind]

/-- C163 (the throat, cell 9) fails: `Mach_Sigma` called with the scalar guess `.05` for the array of sections raises `ValueError`. -/
theorem C163_choked_false (newton : RootFinder) (A length : ℝ) (n : ℕ) (hn : 2 ≤ n) (c : Contour) (h : contour newton A length n = .ok c) :
    NozzleRegimes.choked_M newton c = .error .valueError := by
  have hl : c.AoAc.length = n := by
    unfold contour at h
    obtain ⟨M, -, h⟩ := Py.bind_inv h
    obtain ⟨ma, h1, h⟩ := Py.bind_inv h
    obtain ⟨a, h2, h⟩ := Py.bind_inv h
    have e := Except.ok.inj h
    have l1 := (mapM_ok h1).length_eq
    have l2 := (mapM_ok h2).length_eq
    rw [← e]
    simp only []
    rw [← l2, ← l1]
    simp [noz_x]
  unfold NozzleRegimes.choked_M
  match hc : c.AoAc with
  | [] => rfl
  | [s] => rw [hc] at hl; simp at hl; omega
  | _ :: _ :: _ => rfl

/-- the recovered Mach numbers -/
theorem noz_supersonic_M_eq {newton : RootFinder} (hb : BranchRootFinder newton) (hc : CompleteRF newton) {M : ℝ} (hM : 1 < M) (h5 : M ≤ 5)
    {n : ℕ} (hn : 2 ≤ n) : supersonic_M newton ⟨M, noz_x 8 n, (noz_x 8 n).map (cma M), (noz_x 8 n).map fun t => sig (cma M t) gamma0⟩ =
      .ok ((noz_x 8 n).map (cma M)) := by
  have hg := one_lt_gamma0
  unfold supersonic_M Mach_Sigma_array
  simp only []
  rw [List.zip_map', List.mapM_map]
  apply mapM_of_forall
  intro t ht
  obtain ⟨h0, h8⟩ := noz_bounds hn ht
  have hp := cma_pos hM h5 h0 h8
  simp only [Function.comp]
  by_cases h : t > 1.0
  · have h' : 1 < t := by norm_num at h; exact h
    have := MachSup_total hb hc hg g3 (one_le_cma hM h'.le h8)
    unfold MachSup_Sigma Mach_Sigma at this
    rw [if_pos h, if_neg (by norm_num)]
    exact this
  · have h' : t ≤ 1 := by norm_num at h; exact h
    have := MachSub_total hb hc hg g3 hp (cma_le_one hM h0 h')
    unfold MachSub_Sigma Mach_Sigma at this
    rw [if_neg h, if_pos (by norm_num)]
    exact this

theorem staticP_ok (Pt M : List ℝ) : staticP gamma0 Pt M = .ok ((Pt.zip M).map fun p => p.1 / ppt p.2 gamma0) := by
  unfold staticP
  apply mapM_of_forall
  intro p _
  rw [PtPs_ppt one_lt_gamma0, Py.ok_bind, Py.div_ok (ppt_pos one_lt_gamma0).ne']

private theorem noz_last_map {n : ℕ} (hn : 2 ≤ n) (M : ℝ) : last ((noz_x 8 n).map (cma M)) = .ok M := by
  unfold last
  rw [List.getLast?_map, noz_last hn, Option.map_some, cma_eight]

/-- the static pressures computed from total pressures and Mach numbers -/
def StaticOf (o : Curves) : Prop := o.Pt.length = o.M.length ∧ o.Ps.length = o.M.length ∧
  ∀ (i : ℕ) (m q p : ℝ), o.M[i]? = some m → o.Pt[i]? = some q → o.Ps[i]? = some p → ∃ r, PtPs_Mach m gamma0 = .ok r ∧ 0 < r ∧ p * r = q

theorem noz_staticOf_mk (Pt M : List ℝ) (h : Pt.length = M.length) :
    StaticOf ⟨M, Pt, (Pt.zip M).map fun p => p.1 / ppt p.2 gamma0⟩ := by
  refine ⟨h, by simp [h], fun i m q p hm hq hp => ?_⟩
  simp only [] at hm hq hp
  rw [List.getElem?_map, List.zip, List.getElem?_zipWith, hm, hq] at hp
  simp only [Option.map_some, Option.some.injEq] at hp
  refine ⟨_, PtPs_ppt one_lt_gamma0, ppt_pos one_lt_gamma0, ?_⟩
  rw [← hp, div_mul_cancel₀ _ (ppt_pos one_lt_gamma0).ne']

/-- C163 (supersonic regime, cells 12 and 13): the Mach numbers of the contour are recovered exactly from its sections (the jump of the initial guess at
the abscissa 1 selects the right branch at every point), the total pressure is uniform, the static pressures are those of these Mach numbers, they
strictly decrease along the nozzle, and the exit one is `1 / NPR1`. -/
theorem C163_supersonic (newton : RootFinder) (hb : BranchRootFinder newton) (hc : CompleteRF newton) (A : ℝ) (hA : 1 < A) (hA' : A ≤ 25)
    (n : ℕ) (hn : 2 ≤ n) (c : Contour) (h : contour newton A 8 n = .ok c) :
    ∃ o, NozzleRegimes.supersonic newton c = .ok o ∧ o.M = c.ma ++ [c.ma_max, c.ma_max] ∧ (∀ q ∈ o.Pt, q = 1) ∧ StaticOf o ∧
      (∀ (i j : ℕ) (p q : ℝ), i < j → j < n → o.Ps[i]? = some p → o.Ps[j]? = some q → q < p) ∧
      (∀ l, NPR_Ms_list newton A = .ok l → c.ma_max = l.Msup ∧ o.Ps.getLast? = some (1 / l.NPR1)) := by
  have hg := one_lt_gamma0
  obtain ⟨M, hM, h5, hs, he⟩ := noz_contour_eq hb hc hA hA' hn
  rw [he] at h
  obtain rfl := Except.ok.inj h
  have hlen : (noz_x 8 n).length = n := by simp [noz_x]
  refine ⟨⟨_, _, _⟩, ?_, rfl, ?_, noz_staticOf_mk (((noz_x 8 n).map (cma M) ++ [M, M]).map fun _ => (1:ℝ)) ((noz_x 8 n).map (cma M) ++ [M, M]) (by simp), ?_, ?_⟩
  · unfold NozzleRegimes.supersonic
    rw [noz_supersonic_M_eq hb hc hM h5 hn, Py.ok_bind, noz_last_map hn, Py.ok_bind]
    simp only []
    rw [staticP_ok, Py.ok_bind, Py.pure_eq]
  · intro q hq
    obtain ⟨-, -, rfl⟩ := List.mem_map.1 hq
    rfl
  · intro i j p q hij hj hp hq
    simp only [] at hp hq
    have key : ∀ k : ℕ, k < n → ∀ p : ℝ, (((((noz_x 8 n).map (cma M) ++ [M, M]).map fun _ => (1:ℝ)).zip ((noz_x 8 n).map (cma M) ++ [M, M])).map
        fun p => p.1 / ppt p.2 gamma0)[k]? = some p → ∃ t, (noz_x 8 n)[k]? = some t ∧ p = 1 / ppt (cma M t) gamma0 := by
      intro k hk p hp
      have hk' : k < (noz_x 8 n).length := by rw [hlen]; exact hk
      refine ⟨(noz_x 8 n)[k], List.getElem?_eq_getElem hk', ?_⟩
      have e1 : ((noz_x 8 n).map (cma M) ++ [M, M])[k]? = some (cma M (noz_x 8 n)[k]) := by
        rw [List.getElem?_append_left (by simpa using hk'), List.getElem?_map, List.getElem?_eq_getElem hk', Option.map_some]
      rw [List.getElem?_map, List.zip, List.getElem?_zipWith, List.getElem?_map, e1] at hp
      simp only [Option.map_some, Option.some.injEq] at hp
      exact hp.symm
    obtain ⟨s, hs1, rfl⟩ := key i (hij.trans hj) p hp
    obtain ⟨t, ht1, rfl⟩ := key j hj q hq
    obtain ⟨a0, a8⟩ := noz_bounds hn (List.mem_of_getElem? hs1)
    obtain ⟨-, b8⟩ := noz_bounds hn (List.mem_of_getElem? ht1)
    exact one_div_lt_one_div_of_lt (ppt_pos hg) (ppt_lt hg (cma_pos hM h5 a0 a8).le (cma_lt hM a0 (noz_lt hn hij hs1 ht1) b8))
  · intro l hl
    have H := limits_spec hb hA hl
    have e : M = l.Msup := (sig_strictMono hg).injOn (Set.mem_Ici.2 hM.le) (Set.mem_Ici.2 H.sup1.le) (hs.trans H.hsup.symm)
    refine ⟨e, ?_⟩
    rw [H.h1, ← e]
    simp only []
    rw [List.map_append, List.zip_append (by simp), List.map_append]
    simp

/-- C163 (shock at the exit, cells 15 and 16): the flow is the supersonic one up to the exit, where Mach number and total pressure jump to the values
downstream of a normal shock; total pressure is lost; the static pressure beyond is `1 / NPRsw`. -/
theorem C163_exit_shock (newton : RootFinder) (hb : BranchRootFinder newton) (hc : CompleteRF newton) (A : ℝ) (hA : 1 < A) (hA' : A ≤ 25)
    (n : ℕ) (hn : 2 ≤ n) (c : Contour) (h : contour newton A 8 n = .ok c) (l : Limits) (hl : NPR_Ms_list newton A = .ok l) :
    ∃ o r, exitShock newton c = .ok o ∧ Pi_ratio l.Msup gamma0 = .ok r ∧ 0 < r ∧ r < 1 ∧ l.Msh < 1 ∧
      o.M = c.ma ++ [l.Msh, l.Msh] ∧ o.Pt = List.replicate n 1 ++ [r, r] ∧ StaticOf o ∧ o.Ps.getLast? = some (1 / l.NPRsw) := by
  have hg := one_lt_gamma0
  obtain ⟨M, hM, h5, hs, he⟩ := noz_contour_eq hb hc hA hA' hn
  rw [he] at h
  obtain rfl := Except.ok.inj h
  have hlen : (noz_x 8 n).length = n := by simp [noz_x]
  have H := limits_spec hb hA hl
  have e : M = l.Msup := (sig_strictMono hg).injOn (Set.mem_Ici.2 hM.le) (Set.mem_Ici.2 H.sup1.le) (hs.trans H.hsup.symm)
  have hd := dom_of_one_le hg H.sup1.le
  have hrp := ptr_pos hg hd
  refine ⟨⟨_, _, _⟩, ptr l.Msup gamma0, ?_, Pt_ratio_ok_default H.sup1.le, hrp, H.ptr_lt hg, H.sh_lt hg, rfl, ?_, noz_staticOf_mk
    ((noz_x 8 n).map (fun _ => (1 : ℝ)) ++ [ptr l.Msup gamma0, ptr l.Msup gamma0]) ((noz_x 8 n).map (cma M) ++ [l.Msh, l.Msh]) (by simp), ?_⟩
  · unfold exitShock
    rw [noz_supersonic_M_eq hb hc hM h5 hn, Py.ok_bind, noz_last_map hn, Py.ok_bind, e, downstream_Mn_ok hg hd, Py.ok_bind]
    unfold Pi_ratio
    rw [Pt_ratio_ok_default H.sup1.le, Py.ok_bind]
    simp only []
    rw [staticP_ok, Py.ok_bind, Py.pure_eq, H.hsh]
  · rw [List.map_const', hlen]
  · have hsw := H.hsw
    have hpp := ppt_pos (M := l.Msh) hg
    have : 1 / l.NPRsw = ptr l.Msup gamma0 / ppt l.Msh gamma0 := by rw [hsw, one_div_div]
    rw [this]
    simp only []
    rw [List.zip_append (by simp), List.map_append]
    simp

end Aerokit.Props
