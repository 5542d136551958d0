import Verif.Lemmas.PtSecant

/-! # Property C96 (continued): the shock Mach number from the total pressure ratio, every shock beyond Mach 1.4985 -/

namespace Aerokit.Props
open Isentropic Supersonic ShockWave IterativeSolve Real

/-- second point of the search -/
local notation "ptB" => (2997/2000 : ℝ)

/-- values of the total pressure ratio and of its slope used below -/
theorem ptH_B : 31606/100000 < ptH ptB := lt_ptH (by norm_num) rfl (by norm_num)
theorem ptH_B' : ptH (3/2) < 317/1000 := ptH_lt (by norm_num) rfl (by norm_num) (by norm_num)
theorem ptH_3 : 2824/10000 < ptH 3 := lt_ptH (by norm_num) rfl (by norm_num)
theorem ptH_25 : 4003/10000 < ptH (5/2) := lt_ptH (by norm_num) rfl (by norm_num)
theorem ptH_25' : ptH (5/2) < 4005/10000 := ptH_lt (by norm_num) rfl (by norm_num) (by norm_num)

/-- the first two function values of the search -/
theorem pt_run {r : ℝ} (hr : ptB ≤ r) :
    ∃ c, (∃ x ∈ Set.uIcc ptB r, ∃ w, 31606/100000 < ptH w ∧ ptH w < 317/1000 ∧ 3/2 ≥ w ∧ ptB ≤ w ∧
        ptExp ptB - ptExp r = ptH x * (r - ptB) ∧ c - r = (ptB - r) * (1 - ptH x / ptH w)) ∧
      secant_run (fun m => Pt_ratio m DefaultGas.gamma0) (ptExp r) 1.5 defaultTol =
      secantLoop (fun m => Pt_ratio m DefaultGas.gamma0) (ptExp r) defaultTol 18 ptB (ptExp ptB) c := by
  have hgt : |ptB - 3/2| > max defaultTol (defaultTol * |ptB|) := by
    rw [defaultTol_eq]; norm_num [abs_of_pos, abs_of_neg]
  obtain ⟨c, ⟨x, hx, w, hw, px, pw, e1, -, e2⟩, hs⟩ := pt_next (a := 3/2) (b := ptB) 18 (by norm_num) le_rfl hr hgt
  have hw' : ptB ≤ w ∧ w ≤ 3/2 := by
    rw [Set.uIcc_of_ge (by norm_num)] at hw; exact hw
  refine ⟨c, ⟨x, hx, w, ?_, ?_, hw'.2, hw'.1, e1, e2⟩, ?_⟩
  · exact lt_of_lt_of_le ptH_B (ptH_mono ⟨by norm_num, by norm_num⟩ ⟨ptB_one hw'.1, by linarith [hw'.2]⟩ hw'.1)
  · exact lt_of_le_of_lt (ptH_mono ⟨ptB_one hw'.1, by linarith [hw'.2]⟩ ⟨by norm_num, by norm_num⟩ hw'.2) ptH_B'
  · rw [← hs]
    unfold secant_run
    simp only []
    rw [show (1.5:ℝ) = 3/2 by norm_num, Pt_ratio_ptExp (by norm_num : (1:ℝ) ≤ 3/2), Py.ok_bind]
    rw [show (3/2 * 0.999 : ℝ) = ptB by norm_num]
    rfl

/-! ### Mach 1.4985 to 2.5 -/

theorem PtConv.mid {r A B C : ℝ} {n : ℕ} (h : PtConv r (17/25) n B C) (hr : ptB ≤ r) (hr2 : r ≤ 5/2)
    (hA : A ≤ 494/1000 * (r - ptB)) (hB : B ≤ 494/1000 * (r - ptB)) (hC : 672/1000 * B ≤ C) :
    PtConv r (17/25) (n + 1) A B := by
  intro a b ha hb hba
  have hA' := abs_le.1 ha
  have hB' := abs_le.1 hb
  have hB0 : 0 ≤ B := (abs_nonneg _).trans hb
  have p : ∀ z, r - 494/1000 * (r - ptB) ≤ z → z ≤ r + 494/1000 * (r - ptB) → ptB ≤ z ∧ z ≤ 3 := by
    intro z h1 h2
    constructor
    · linarith
    · linarith
  have hmem : ∀ z, ptB ≤ z ∧ z ≤ 3 → 2824/10000 ≤ ptH z ∧ ptH z ≤ 59/125 := fun z hz =>
    ⟨ptH_ge (lo := ptB) (hi := 3) (by norm_num) (by norm_num) (by norm_num) hz.1 hz.2 (by linarith [ptH_B]) (by norm_num) ptH_3.le,
      ptH_le (ptB_one hz.1)⟩
  have pa := p a (by linarith) (by linarith)
  have pb := p b (by linarith) (by linarith)
  have pr := p r (by linarith) (by linarith)
  refine pt_conv_next (q := 2824/4720) (by norm_num) hr pa.1 pb.1 h (by norm_num) (by norm_num) (by linarith) hb hba ?_
  intro x hx w hw
  obtain ⟨x1, x2⟩ := hmem x ⟨(le_inf pb.1 pr.1).trans hx.1, hx.2.trans (sup_le pb.2 pr.2)⟩
  obtain ⟨w1, w2⟩ := hmem w ⟨(le_inf pa.1 pb.1).trans hw.1, hw.2.trans (sup_le pa.2 pb.2)⟩
  constructor <;> linarith

theorem pt_zoneA {r : ℝ} (hr : ptB ≤ r) (hr2 : r ≤ 5/2) :
    ∃ res, secant_run (fun m => Pt_ratio m DefaultGas.gamma0) (ptExp r) 1.5 defaultTol = .ok res ∧
      res.warned = false ∧ (1 - 17/25) * |res.x - r| ≤ 17/25 * (defaultTol * max 1 |res.x|) := by
  obtain ⟨c, ⟨x, hx, w, hw1, hw2, -, -, -, e⟩, hs⟩ := pt_run hr
  rw [hs]
  obtain ⟨D, hD⟩ : ∃ D, D = r - ptB := ⟨_, rfl⟩
  have hD0 : 0 ≤ D := by rw [hD]; linarith
  have hD1 : D ≤ 10015/10000 := by rw [hD]; norm_num; linarith
  have hrD : ∀ k : ℝ, k ≤ 1 → ptB ≤ r - k * D := fun k hk => by
    rw [hD]; nlinarith
  have s13 : PtConv r (17/25) 7 (5/1000000 * D) (1/100000000 * D) := .base 6 (by norm_num) (by linarith)
  have s12 : PtConv r (17/25) 8 (4/10000 * D) (5/1000000 * D) :=
    s13.near (41/100000) (by linarith) (by linarith) (by norm_num) (by linarith) (by norm_num) (by norm_num) (by linarith)
  have s11 : PtConv r (17/25) 9 (52/10000 * D) (4/10000 * D) :=
    s12.near (57/10000) (by linarith) (by linarith) (by norm_num) (by linarith) (by norm_num) (by norm_num) (by linarith)
  have s10 : PtConv r (17/25) 10 (308/10000 * D) (52/10000 * D) :=
    s11.near (361/10000) (by linarith) (by linarith) (by norm_num) (by linarith) (by norm_num) (by norm_num) (by linarith)
  have s9 : PtConv r (17/25) 11 (457/10000 * D) (308/10000 * D) :=
    s10.near (767/10000) (by linarith) (by linarith) (by norm_num) (by linarith) (by norm_num) (by norm_num) (by linarith)
  have s8 : PtConv r (17/25) 12 (679/10000 * D) (457/10000 * D) := s9.mid hr hr2 (by rw [← hD]; linarith) (by rw [← hD]; linarith) (by linarith)
  have s7 : PtConv r (17/25) 13 (1009/10000 * D) (679/10000 * D) := s8.mid hr hr2 (by rw [← hD]; linarith) (by rw [← hD]; linarith) (by linarith)
  have s6 : PtConv r (17/25) 14 (1501/10000 * D) (1009/10000 * D) := s7.mid hr hr2 (by rw [← hD]; linarith) (by rw [← hD]; linarith) (by linarith)
  have s5 : PtConv r (17/25) 15 (2232/10000 * D) (1501/10000 * D) := s6.mid hr hr2 (by rw [← hD]; linarith) (by rw [← hD]; linarith) (by linarith)
  have s4 : PtConv r (17/25) 16 (332/1000 * D) (2232/10000 * D) := s5.mid hr hr2 (by rw [← hD]; linarith) (by rw [← hD]; linarith) (by linarith)
  have s3 : PtConv r (17/25) 17 (494/1000 * D) (332/1000 * D) := s4.mid hr hr2 (by rw [← hD]) (by rw [← hD]; linarith) (by linarith)
  have hxm : ptB ≤ x ∧ x ≤ 5/2 := by
    rw [Set.uIcc_of_le hr] at hx; exact ⟨hx.1, hx.2.trans hr2⟩
  have hx1 : 31606/100000 ≤ ptH x := ptH_ge (lo := ptB) (hi := 5/2) (by norm_num) (by norm_num) (by norm_num) hxm.1 hxm.2 ptH_B.le
    (by norm_num) (by linarith [ptH_25])
  have hx2 := ptH_le (ptB_one hxm.1)
  have habs : |ptB - r| = D := by rw [abs_sub_comm, abs_of_nonneg (by linarith), hD]
  have hc : |c - r| ≤ 494/1000 * D := by
    rw [e]
    refine ratio_contract (q := 31606/47200) (by norm_num) (by linarith) (by linarith) (by linarith) (by linarith) (B := D) habs.le ?_
    linarith
  have hc' := abs_le.1 hc
  have hcB : ptB ≤ c := by have := hrD (494/1000) (by norm_num); linarith
  have hc3 : c ≤ 3 := by linarith
  have hmem : ∀ z, ptB ≤ z ∧ z ≤ 3 → 2824/10000 ≤ ptH z ∧ ptH z ≤ 59/125 := fun z hz =>
    ⟨ptH_ge (lo := ptB) (hi := 3) (by norm_num) (by norm_num) (by norm_num) hz.1 hz.2 (by linarith [ptH_B]) (by norm_num) ptH_3.le,
      ptH_le (ptB_one hz.1)⟩
  refine pt_conv_next (q := 2824/4720) (by norm_num) hr le_rfl hcB s3 (by norm_num) (by norm_num) (by linarith) hc
    (by rw [habs]; linarith) ?_
  intro x hx w hw
  obtain ⟨x1, x2⟩ := hmem x ⟨(le_inf hcB hr).trans hx.1, hx.2.trans (sup_le hc3 (by linarith))⟩
  obtain ⟨w1, w2⟩ := hmem w ⟨(le_inf le_rfl hcB).trans hw.1, hw.2.trans (sup_le (by norm_num) hc3)⟩
  constructor <;> linarith

/-! ### beyond Mach 2.5: the first two iterates -/

theorem ptExp_B : 93026/100000 < ptExp ptB := lt_ptExp (by norm_num) (by norm_num)
theorem ptExp_B' : ptExp ptB < 93027/100000 := ptExp_lt (by norm_num) (by norm_num) (by norm_num)
theorem ptExp_25 : ptExp (5/2) < 49902/100000 := ptExp_lt (by norm_num) (by norm_num) (by norm_num)

/-- a chord from the second point is steeper than the slope at its end -/
theorem pt_chord {z : ℝ} (hz : 5/2 ≤ z) : ptH z * (z - ptB) ≤ ptExp ptB - ptExp z := by
  obtain ⟨x, hx, e⟩ := ptExp_mean (a := 5/2) (b := z) (by norm_num) (by linarith)
  rw [Set.uIcc_of_le hz] at hx
  have h1 : ptH z ≤ ptH x := ptH_anti (Set.mem_Ici.2 (by linarith [hx.1])) (Set.mem_Ici.2 (by linarith)) hx.2
  have h2 : ptH z ≤ ptH (5/2) := ptH_anti (Set.mem_Ici.2 (by norm_num)) (Set.mem_Ici.2 (by linarith)) hz
  have h3 := mul_le_mul_of_nonneg_right h1 (by linarith : 0 ≤ z - 5/2)
  have := ptH_25'
  have := ptExp_B
  have := ptExp_25
  linarith

/-- the third point `c` and the fourth one `d`, which is between the third one and the root -/
theorem pt_two {r : ℝ} (hr : 5/2 ≤ r) : ∃ c d m t, 31606/100000 < m ∧ m < 317/1000 ∧ (c - ptB) * m = ptExp ptB - ptExp r ∧
    5/2 ≤ c ∧ c < 445/100 ∧ 0 < t ∧ t ≤ 1 ∧ d - r = (c - r) * (1 - t) ∧
    (∃ x ∈ Set.uIcc c r, ∃ w ∈ Set.uIcc ptB c, t = ptH x / ptH w ∧ 0 < ptH w ∧ ptExp c - ptExp r = ptH x * (r - c) ∧
      ptExp ptB - ptExp c = ptH w * (c - ptB)) ∧
    secant_run (fun m => Pt_ratio m DefaultGas.gamma0) (ptExp r) 1.5 defaultTol =
      secantLoop (fun m => Pt_ratio m DefaultGas.gamma0) (ptExp r) defaultTol 17 c (ptExp c) d := by
  have hrB : ptB ≤ r := by linarith
  obtain ⟨c, ⟨x, hx, w, hw1, hw2, -, -, e1, e⟩, hs⟩ := pt_run hrB
  have pw : 0 < ptH w := by linarith
  have hcm : (c - ptB) * ptH w = ptExp ptB - ptExp r := by
    have : c = r + (ptB - r) * (1 - ptH x / ptH w) := by linarith
    rw [e1, this]; field_simp; ring
  have f1 := ptExp_B
  have f2 := ptExp_B'
  have f3 : ptExp r ≤ ptExp (5/2) := ptExp_anti.antitoneOn (Set.mem_Ici.2 (by norm_num)) (Set.mem_Ici.2 (by linarith)) hr
  have f4 := ptExp_25
  have f5 := ptExp_pos r
  have hc1 : 5/2 ≤ c := by
    by_contra hh
    push Not at hh
    nlinarith
  have hc2 : c < 445/100 := by
    by_contra hh
    push Not at hh
    nlinarith
  have hgt : |c - ptB| > max defaultTol (defaultTol * |c|) := by
    rw [defaultTol_eq, abs_of_pos (by linarith : 0 < c - ptB), abs_of_pos (by linarith : 0 < c)]
    apply max_lt <;> linarith
  obtain ⟨d, ⟨x', hx', w', hw', px', pw', e1', e2', e'⟩, hs'⟩ := pt_next 17 (le_refl ptB) (by linarith : ptB ≤ c) hrB hgt
  have hle : ptH x' ≤ ptH w' := by
    rcases le_total r c with h | h
    · rw [Set.uIcc_of_ge h] at hx'
      have h1 : ptH x' ≤ ptH r := ptH_anti (Set.mem_Ici.2 (by linarith)) (Set.mem_Ici.2 (by linarith [hx'.1])) hx'.1
      have h2 := pt_chord hr
      have h3 := mul_le_mul_of_nonneg_right h1 (by linarith : 0 ≤ r - ptB)
      have : ptH x' * (c - ptB) ≤ ptH w' * (c - ptB) := by linarith
      exact le_of_mul_le_mul_right this (by linarith)
    · rw [Set.uIcc_of_le h] at hx'
      have h1 : ptH x' ≤ ptH c := ptH_anti (Set.mem_Ici.2 (by linarith)) (Set.mem_Ici.2 (by linarith [hx'.1])) hx'.1
      have h2 := pt_chord hc1
      rw [e2'] at h2
      exact h1.trans (le_of_mul_le_mul_right h2 (by linarith))
  exact ⟨c, d, ptH w, ptH x' / ptH w', hw1, hw2, hcm, hc1, hc2, div_pos px' pw', (div_le_one pw').2 hle, e',
    ⟨x', hx', w', hw', rfl, pw', e1', e2'⟩, hs.trans hs'⟩

/-! ### Mach 2.5 to 4.5 -/

theorem mem_between {c d r t : ℝ} (h0 : 0 ≤ t) (h1 : t ≤ 1) (hd : d - r = (c - r) * (1 - t)) : d ∈ Set.uIcc c r := by
  have : d = r + (c - r) * (1 - t) := by linarith
  rw [Set.mem_uIcc, this]
  rcases le_total c r with h | h
  · left; constructor <;> nlinarith
  · right; constructor <;> nlinarith

theorem pt_chainB {r : ℝ} (hr : 5/2 ≤ r) : PtConv r (87/100) 16 (42/100) (213/1000) := by
  have s11 : PtConv r (87/100) 9 (4/10000000) (1/10000000000) := .base 8 (by norm_num) (by norm_num)
  have s10 : PtConv r (87/100) 10 (11/100000) (4/10000000) :=
    s11.far (1105/10000000) (by linarith) (by linarith) (by norm_num) (by norm_num) (by norm_num) (by norm_num) (by norm_num)
  have s9 : PtConv r (87/100) 11 (34/10000) (11/100000) :=
    s10.far (352/100000) (by linarith) (by linarith) (by norm_num) (by norm_num) (by norm_num) (by norm_num) (by norm_num)
  have s8 : PtConv r (87/100) 12 (28/1000) (34/10000) :=
    s9.far (314/10000) (by linarith) (by linarith) (by norm_num) (by norm_num) (by norm_num) (by norm_num) (by norm_num)
  have s7 : PtConv r (87/100) 13 (89/1000) (28/1000) :=
    s8.far (117/1000) (by linarith) (by linarith) (by norm_num) (by norm_num) (by norm_num) (by norm_num) (by norm_num)
  have s6 : PtConv r (87/100) 14 (186/1000) (89/1000) :=
    s7.far (275/1000) (by linarith) (by linarith) (by norm_num) (by norm_num) (by norm_num) (by norm_num) (by norm_num)
  have s5 : PtConv r (87/100) 15 (213/1000) (186/1000) :=
    s6.far (399/1000) (by linarith) (by linarith) (by norm_num) (by norm_num) (by norm_num) (by norm_num) (by norm_num)
  have s4 : PtConv r (87/100) 16 (42/100) (213/1000) :=
    s5.far (633/1000) (by linarith) (by linarith) (by norm_num) (by norm_num) (by norm_num) (by norm_num) (by norm_num)
  exact s4

theorem pt_zoneB {r : ℝ} (hr : 5/2 ≤ r) (hr2 : r ≤ 9/2) :
    ∃ res, secant_run (fun m => Pt_ratio m DefaultGas.gamma0) (ptExp r) 1.5 defaultTol = .ok res ∧
      res.warned = false ∧ (1 - 87/100) * |res.x - r| ≤ 87/100 * (defaultTol * max 1 |res.x|) := by
  obtain ⟨c, d, m, t, hm1, hm2, hcm, hc1, hc2, ht0, ht1, hd, ⟨x, hx, w, hw, htd, pw, -, -⟩, hs⟩ := pt_two hr
  rw [hs]
  have f1 := ptExp_B
  have f2 := ptExp_B'
  have f285 : 3730/10000 < ptExp (285/100) := lt_ptExp (by norm_num) (by norm_num)
  have h285 : ptH (285/100) < 3175/10000 := ptH_lt (by norm_num) rfl (by norm_num) (by norm_num)
  have f45 : ptExp (9/2) < 921/10000 := ptExp_lt (by norm_num) (by norm_num) (by norm_num)
  have f25 := ptExp_25
  have hone : ∀ {z : ℝ}, 5/2 ≤ z → z ∈ Set.Ici (203/100 : ℝ) := fun h => Set.mem_Ici.2 (by linarith)
  -- from above
  have hup : c - r ≤ 42/100 := by
    obtain ⟨z, hz, e⟩ := ptExp_mean (a := 285/100) (b := r) (by norm_num) (by linarith)
    have hz2 : 5/2 ≤ z := (le_inf (by norm_num) hr).trans hz.1
    have : ptH z * (r - 285/100) ≤ ptH (285/100) * (r - 285/100) := by
      rcases le_total r (285/100) with h | h
      · rw [Set.uIcc_of_ge h] at hz
        have := ptH_anti (hone hz2) (hone (by norm_num)) hz.2
        exact mul_le_mul_of_nonpos_right this (by linarith)
      · rw [Set.uIcc_of_le h] at hz
        have := ptH_anti (hone (by norm_num)) (hone hz2) hz.1
        exact mul_le_mul_of_nonneg_right this (by linarith)
    have h285' : 317/1000 < ptH (285/100) := lt_ptH (by norm_num) rfl (by norm_num)
    have h5 : ptH (285/100) * (r - 285/100) ≤ 31606/100000 * (r - 285/100) + (3175/10000 - 31606/100000) * (165/100) := by
      nlinarith
    by_contra hh
    push Not at hh
    nlinarith
  -- from below
  have hdown : -(42/100) ≤ c - r := by
    have h45 : ptH (284/100) < 3200/10000 := ptH_lt (by norm_num) rfl (by norm_num) (by norm_num)
    have h284 : 317/1000 < ptH (284/100) := lt_ptH (by norm_num) rfl (by norm_num)
    have key : 317/1000 * (r - ptB - 42/100) ≤ ptExp ptB - ptExp r := by
      rcases le_total r (284/100) with h | h
      · obtain ⟨z, hz, e⟩ := ptExp_mean (a := 5/2) (b := r) (by norm_num) (by linarith)
        rw [Set.uIcc_of_le hr] at hz
        have := ptH_anti (hone hz.1) (hone (by norm_num)) (hz.2.trans h)
        have := mul_le_mul_of_nonneg_right (h284.le.trans this) (by linarith : 0 ≤ r - 5/2)
        linarith
      · obtain ⟨z, hz, e⟩ := ptExp_mean (a := r) (b := 9/2) (by linarith) (by norm_num)
        rw [Set.uIcc_of_le hr2] at hz
        have := ptH_anti (hone (by norm_num)) (hone (hr.trans hz.1)) (h.trans hz.1)
        have := mul_le_mul_of_nonneg_right (this.trans h45.le) (by linarith : 0 ≤ 9/2 - r)
        linarith
    by_contra hh
    push Not at hh
    nlinarith
  have hc : |c - r| ≤ 42/100 := abs_le.2 ⟨hdown, hup⟩
  have e1 : |1 - t| = 1 - t := abs_of_nonneg (by linarith)
  have hdr : |d - r| ≤ 42/100 := by
    rw [hd, abs_mul, e1]
    nlinarith [abs_nonneg (c - r)]
  have ht : 13/100 ≤ t := by
    have h1 : 744/10000 - 10/10000 < ptH (9/2) := lt_ptH (by norm_num) rfl (by norm_num)
    have hx1 : 5/2 ≤ x := (le_inf hc1 hr).trans hx.1
    have hx2 : x ≤ 9/2 := hx.2.trans (sup_le (by linarith) hr2)
    have := ptH_anti (hone hx1) (hone (by norm_num)) hx2
    have hw2 := ptH_le (M := w) (ptB_one ((le_inf le_rfl (by linarith)).trans hw.1))
    rw [htd, le_div_iff₀ pw]
    linarith
  have hkd : |d - r| ≤ 87/100 * |c - r| := by
    rw [hd, abs_mul, e1]
    nlinarith [abs_nonneg (c - r)]
  have hd2 : 203/100 ≤ d := by have := abs_le.1 hdr; linarith
  -- the fourth point is between the third one and the root
  have hbet : ∀ z, z ∈ Set.uIcc d r ∨ z ∈ Set.uIcc c d → z ∈ Set.uIcc c r := by
    have hdm := mem_between (r := r) ht0.le ht1 hd
    rintro z (h | h)
    · exact Set.uIcc_subset_uIcc hdm Set.right_mem_uIcc h
    · exact Set.uIcc_subset_uIcc Set.left_mem_uIcc hdm h
  have hmem : ∀ z, z ∈ Set.uIcc c r → 5/2 ≤ z := fun z hz => (le_inf hc1 hr).trans hz.1
  have hdist : ∀ z ∈ Set.uIcc c r, ∀ v ∈ Set.uIcc c r, |z - v| ≤ 42/100 := fun z hz v hv =>
    (Set.abs_sub_le_of_uIcc_subset_uIcc (Set.uIcc_subset_uIcc hv hz)).trans (by rw [abs_sub_comm]; exact hc)
  have key : ∀ z ∈ Set.uIcc c r, ∀ v ∈ Set.uIcc c r, ptH z * (1 - 19/20 * (42/100) / 8) ^ 8 ≤ ptH v := by
    intro z hz v hv
    have hz' := hmem z hz
    have hv' := hmem v hv
    refine le_trans (mul_le_mul_of_nonneg_left ?_ (ptH_pos (by linarith)).le) (ptH_ratio_far (by linarith) (by linarith))
    refine (exp_lower (by norm_num)).trans (Real.exp_le_exp.2 ?_)
    linarith [hdist z hz v hv]
  refine pt_conv_next (q := (1 - 19/20 * (42/100) / 8) ^ 8) (by norm_num) (by linarith) (by linarith) (by linarith) (pt_chainB hr)
    (by norm_num) (by norm_num) (by norm_num) hdr hkd fun x hx w hw => ?_
  exact ⟨key w (hbet w (Or.inr hw)) x (hbet x (Or.inl hx)), key x (hbet x (Or.inl hx)) w (hbet w (Or.inr hw))⟩

end Aerokit.Props
