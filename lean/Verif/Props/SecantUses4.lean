import Verif.Props.SecantUses3

/-! # Property C96 (end): strong shocks, and the statement for every shock of the default gas -/

namespace Aerokit.Props
open Isentropic Supersonic ShockWave IterativeSolve Real

/-- second point of the search -/
local notation "ptB" => (2997/2000 : ℝ)

/-- `1 / |d log f / dM| ≤ 0.3 M` -/
theorem pt_growth {b : ℝ} (hb : 4 ≤ b) : ptExp b ≤ ptH b * (3/10 * b) := by
  rw [ptH_eq, mul_assoc]
  have hD := ptDen_pos (M := b) (by linarith)
  have h16 : 16 ≤ b ^ 2 := by nlinarith
  have : 1 ≤ 35 * (b ^ 2 - 1) ^ 2 / (7 * b ^ 5 + 34 * b ^ 3 - 5 * b) * (3/10 * b) := by
    rw [div_mul_eq_mul_div, le_div_iff₀ hD]
    have e : 35 * (b ^ 2 - 1) ^ 2 * (3/10 * b) - 1 * (7 * b ^ 5 + 34 * b ^ 3 - 5 * b) =
      b * (7/2 * (b ^ 2) ^ 2 - 55 * b ^ 2 + 31/2) := by ring
    have : 0 ≤ b * (7/2 * (b ^ 2) ^ 2 - 55 * b ^ 2 + 31/2) := by
      apply mul_nonneg (by linarith)
      nlinarith
    linarith
  exact le_mul_of_one_le_right (ptExp_pos b).le this

theorem ptH_414 : ptH (414/100) < 104/1000 := ptH_lt (by norm_num) rfl (by norm_num) (by norm_num)

/-- a continued iteration from two points on the left of the root, beyond the inflection -/
theorem pt_side_step {a b r : ℝ} (n : ℕ) (ha : 414/100 ≤ a) (hab : a ≤ b) (hbr : b ≤ r)
    (hgt : |b - a| > max defaultTol (defaultTol * |b|)) :
    ∃ c, b ≤ c ∧ c ≤ r ∧ ptExp b - ptExp r ≤ 104/1000 * (c - b) ∧ c ≤ 13/10 * b ∧
      (∀ S, r - a ≤ S → 19/20 * S < 8 → r - c ≤ (1 - (1 - 19/20 * S / 8) ^ 8) * (r - b)) ∧
      secantLoop (fun m => Pt_ratio m DefaultGas.gamma0) (ptExp r) defaultTol (n + 1) a (ptExp a) b =
      secantLoop (fun m => Pt_ratio m DefaultGas.gamma0) (ptExp r) defaultTol n b (ptExp b) c := by
  obtain ⟨c, ⟨x, hx, w, hw, px, pw, e1, -, e⟩, hs⟩ := pt_next (a := a) (b := b) (r := r) n (by linarith) (by linarith) (by linarith) hgt
  rw [Set.uIcc_of_le hbr] at hx
  rw [Set.uIcc_of_le hab] at hw
  have hi : ∀ {z : ℝ}, a ≤ z → z ∈ Set.Ici (203/100 : ℝ) := fun h => Set.mem_Ici.2 (by linarith)
  have hxw : ptH x ≤ ptH w := ptH_anti (hi hw.1) (hi (by linarith [hx.1])) (by linarith [hx.1, hw.2])
  have hwb : ptH b ≤ ptH w := ptH_anti (hi hw.1) (hi hab) hw.2
  have hw1 : ptH w ≤ 104/1000 := (ptH_anti (Set.mem_Ici.2 (by norm_num)) (hi hw.1) (by linarith [hw.1])).trans ptH_414.le
  obtain ⟨t, ht⟩ : ∃ t, t = ptH x / ptH w := ⟨_, rfl⟩
  rw [← ht] at e
  have htw : ptH x = t * ptH w := by rw [ht]; field_simp
  have ht0 : 0 < t := by rw [ht]; exact div_pos px pw
  have ht1 : t ≤ 1 := by rw [ht]; exact (div_le_one pw).2 hxw
  have hcb : c - b = t * (r - b) := by linarith
  have hbc : b ≤ c := by have := mul_nonneg ht0.le (by linarith : 0 ≤ r - b); linarith
  have hres : ptExp b - ptExp r = ptH w * (c - b) := by rw [e1, htw, hcb]; ring
  refine ⟨c, hbc, by nlinarith, ?_, ?_, ?_, hs⟩
  · rw [hres]; exact mul_le_mul_of_nonneg_right hw1 (by linarith)
  · have h1 := pt_growth (b := b) (by linarith)
    have h2 := mul_le_mul_of_nonneg_right hwb (by linarith : 0 ≤ c - b)
    have h3 := ptExp_pos r
    have h4 : ptH b * (c - b) ≤ ptH b * (3/10 * b) := by linarith
    have := le_of_mul_le_mul_left h4 (ptH_pos (by linarith))
    linarith
  · intro S hS hS8
    have hq : (1 - 19/20 * S / 8) ^ 8 ≤ t := by
      rw [ht, le_div_iff₀ pw, mul_comm]
      refine le_trans (mul_le_mul_of_nonneg_left ?_ pw.le) (ptH_ratio_far (x := w) (y := x) (by linarith [hw.1]) (by linarith [hx.1]))
      refine (exp_lower hS8.le).trans (Real.exp_le_exp.2 ?_)
      have : |w - x| ≤ r - a := by rw [abs_le]; constructor <;> linarith [hw.1, hw.2, hx.1, hx.2]
      linarith
    have := mul_le_mul_of_nonneg_right hq (by linarith : 0 ≤ r - b)
    linarith

/-- the rest of the search, on the left of the root -/
theorem pt_side_loop {r : ℝ} : ∀ (n : ℕ) (a b : ℝ), 414/100 ≤ a → a ≤ b → b ≤ r → ptExp a - ptExp r ≤ 104/1000 * (b - a) →
    ∃ res, secantLoop (fun m => Pt_ratio m DefaultGas.gamma0) (ptExp r) defaultTol n a (ptExp a) b = .ok res ∧
      b ≤ res.x ∧ res.x ≤ r ∧ res.x ≤ b * (13/10) ^ n ∧
      (res.warned = false → ptExp res.x - ptExp r ≤ 104/1000 * (1/100000 * res.x)) := by
  intro n
  induction n with
  | zero =>
    intro a b _ _ hbr _
    exact ⟨⟨b, true⟩, rfl, le_rfl, hbr, by simp, by simp⟩
  | succ n ih =>
    intro a b ha hab hbr hres
    by_cases h : |b - a| > max defaultTol (defaultTol * |b|)
    · obtain ⟨c, h1, h2, h3, h4, -, h6⟩ := pt_side_step n ha hab hbr h
      obtain ⟨res, g1, g2, g3, g4, g5⟩ := ih b c (ha.trans hab) h1 h2 h3
      refine ⟨res, h6.trans g1, h1.trans g2, g3, g4.trans ?_, g5⟩
      calc c * (13/10) ^ n ≤ 13/10 * b * (13/10) ^ n := mul_le_mul_of_nonneg_right h4 (by positivity)
        _ = b * (13/10) ^ (n + 1) := by ring
    · refine ⟨⟨b, false⟩, by rw [secantLoop, if_neg h], le_rfl, hbr, ?_, fun _ => ?_⟩
      · exact le_mul_of_one_le_right (by linarith) (one_le_pow₀ (by norm_num))
      · rw [not_lt, max_tol _ _ (by rw [defaultTol_eq]; norm_num), abs_of_nonneg (by linarith), defaultTol_eq,
          abs_of_pos (by linarith : 0 < b), max_eq_right (by linarith)] at h
        have : ptExp b ≤ ptExp a := ptExp_anti.antitoneOn (Set.mem_Ici.2 (by linarith)) (Set.mem_Ici.2 (by linarith)) hab
        show ptExp b - ptExp r ≤ 104/1000 * (1/100000 * b)
        linarith

/-- the search converges, without the warning, from any two points on the left of the root -/
def PtSide (r k : ℝ) (n : ℕ) (A B : ℝ) : Prop :=
  ∀ a b, 414/100 ≤ a → a ≤ b → b ≤ r → r - a ≤ A → r - b ≤ B → r - b ≤ k * (r - a) →
    ∃ res, secantLoop (fun m => Pt_ratio m DefaultGas.gamma0) (ptExp r) defaultTol n a (ptExp a) b = .ok res ∧
      res.warned = false ∧ (1 - k) * |res.x - r| ≤ k * (defaultTol * max 1 |res.x|)

theorem PtSide.base {r k A B : ℝ} (n : ℕ) (hk : 0 ≤ k) (h : A + B ≤ 1/100000) : PtSide r k (n + 1) A B := by
  intro a b ha hab hbr hA hB hkb
  refine PtConv.base n hk h a b ?_ ?_ ?_
  · rw [abs_sub_comm, abs_of_nonneg (by linarith)]; exact hA
  · rw [abs_sub_comm, abs_of_nonneg (by linarith)]; exact hB
  · rw [abs_sub_comm, abs_of_nonneg (by linarith), abs_sub_comm, abs_of_nonneg (by linarith)]; exact hkb

theorem PtSide.step {r k A B C : ℝ} {n : ℕ} (h : PtSide r k n B C) (hk : 0 ≤ k) (h8 : 19/20 * A < 8)
    (hqk : 1 - (1 - 19/20 * A / 8) ^ 8 ≤ k) (hC : (1 - (1 - 19/20 * A / 8) ^ 8) * B ≤ C)
    (hq1 : (1 - 19/20 * A / 8) ^ 8 ≤ 1) : PtSide r k (n + 1) A B := by
  intro a b ha hab hbr hA hB hkb
  by_cases hgt : |b - a| > max defaultTol (defaultTol * |b|)
  · obtain ⟨c, h1, h2, -, -, h5, h6⟩ := pt_side_step n ha hab hbr hgt
    rw [h6]
    have h7 := h5 A hA h8
    refine h b c (ha.trans hab) h1 h2 hB ?_ ?_
    · exact h7.trans ((mul_le_mul_of_nonneg_left hB (by linarith)).trans hC)
    · exact h7.trans (mul_le_mul_of_nonneg_right hqk (by linarith))
  · refine pt_stop n hk hgt ?_
    rw [abs_sub_comm, abs_of_nonneg (by linarith), abs_sub_comm, abs_of_nonneg (by linarith)]; exact hkb

/-- the first iterates for a strong shock -/
theorem pt_entry {r : ℝ} (hr : 9/2 ≤ r) : ∃ b d, 414/100 ≤ b ∧ b ≤ 495/100 ∧ b ≤ d ∧ d ≤ r ∧ d ≤ 13/10 * b ∧
    ptExp b - ptExp r ≤ 104/1000 * (d - b) ∧
    (r ≤ 6 → r - b ≤ 167/100 ∧ r - d ≤ 83/100 * (r - b)) ∧
    secant_run (fun m => Pt_ratio m DefaultGas.gamma0) (ptExp r) 1.5 defaultTol =
      secantLoop (fun m => Pt_ratio m DefaultGas.gamma0) (ptExp r) defaultTol 16 b (ptExp b) d := by
  obtain ⟨c, b, m, t, hm1, hm2, hcm, hc1, hc2, ht0, ht1, hb, ⟨x, hx, w, hw, htd, pw, e1, e2⟩, hs⟩ := pt_two (r := r) (by linarith)
  have f1 := ptExp_B
  have f2 := ptExp_B'
  have f45 : ptExp (9/2) < 921/10000 := ptExp_lt (by norm_num) (by norm_num) (by norm_num)
  have f45' : 910/10000 < ptExp (9/2) := lt_ptExp (by norm_num) (by norm_num)
  have h45 : ptH (9/2) < 745/10000 := ptH_lt (by norm_num) rfl (by norm_num) (by norm_num)
  have hi : ∀ {z : ℝ}, 4 ≤ z → z ∈ Set.Ici (203/100 : ℝ) := fun h => Set.mem_Ici.2 (by linarith)
  have hone : ∀ {z : ℝ}, 4 ≤ z → z ∈ Set.Ici (1 : ℝ) := fun h => Set.mem_Ici.2 (by linarith)
  have fr : ptExp r ≤ ptExp (9/2) := ptExp_anti.antitoneOn (hone (by norm_num)) (hone (by linarith)) hr
  have hm0 : 0 < m := by linarith
  have hc4 : 414/100 ≤ c := by
    have := mul_le_mul_of_nonneg_left hm2.le (by linarith : 0 ≤ c - ptB)
    linarith
  have hcr : c ≤ r - 34/100 := by
    obtain ⟨z, hz, e⟩ := ptExp_mean (a := 9/2) (b := r) (by norm_num) (by linarith)
    rw [Set.uIcc_of_le hr] at hz
    have h1 := ptH_anti (hi (by norm_num)) (hi (by linarith [hz.1])) hz.1
    have h2 := mul_le_mul_of_nonneg_right (h1.trans h45.le) (by linarith : 0 ≤ r - 9/2)
    have := mul_le_mul_of_nonneg_left hm1.le (by linarith : 0 ≤ c - ptB)
    linarith
  have hxm : x ∈ Set.Icc c r := by rw [Set.uIcc_of_le (by linarith)] at hx; exact hx
  have hwm : w ∈ Set.Icc ptB c := by rw [Set.uIcc_of_le (by linarith)] at hw; exact hw
  have hbc : b - c = t * (r - c) := by linarith
  have hbw : ptH w * (b - c) = ptExp c - ptExp r := by
    rw [hbc, e1, htd]; field_simp
  have hw2 : ptH w ≤ 59/125 := ptH_le (ptB_one hwm.1)
  -- the step is not small
  have hstep : 4/100 ≤ b - c := by
    obtain ⟨z, hz, e⟩ := ptExp_mean (a := c) (b := c + 34/100) (by linarith) (by linarith)
    rw [Set.uIcc_of_le (by linarith)] at hz
    have h48 : 56/1000 < ptH (48/10) := lt_ptH (by norm_num) rfl (by norm_num)
    have h1 := ptH_anti (hi (by linarith [hz.1])) (hi (by norm_num)) (by linarith [hz.2] : z ≤ 48/10)
    have h2 : ptExp r ≤ ptExp (c + 34/100) := ptExp_anti.antitoneOn (hone (by linarith)) (hone (by linarith)) (by linarith)
    have h3 : 0 ≤ b - c := by rw [hbc]; exact mul_nonneg ht0.le (by linarith)
    have := mul_le_mul_of_nonneg_right hw2 h3
    linarith
  have hbr : b ≤ r := by
    have := mul_le_mul_of_nonneg_right ht1 (by linarith : 0 ≤ r - c)
    linarith
  have hgt : |b - c| > max defaultTol (defaultTol * |b|) := by
    rw [defaultTol_eq, abs_of_pos (by linarith : 0 < b - c), abs_of_pos (by linarith : 0 < b)]
    apply max_lt <;> linarith
  obtain ⟨d, d1, d2, d3, d4, d5, d6⟩ := pt_side_step 16 hc4 (by linarith) hbr hgt
  refine ⟨b, d, by linarith, ?_, d1, d2, d4, d3, fun h6 => ?_, hs.trans d6⟩
  · have f4 : ptExp (414/100) < 1245/10000 := ptExp_lt (by norm_num) (by norm_num) (by norm_num)
    have f5 : ptExp c ≤ ptExp (414/100) := ptExp_anti.antitoneOn (hone (by norm_num)) (hone (by linarith)) hc4
    have f6 := ptExp_pos r
    have hwl : 272/1000 ≤ ptH w := by
      by_contra hh
      push Not at hh
      have := mul_le_mul hh.le (by linarith : c - ptB ≤ 29515/10000) (by linarith) (by norm_num)
      linarith
    have := mul_le_mul_of_nonneg_right hwl (by linarith : 0 ≤ b - c)
    linarith
  · have f6 : ptExp 6 < 2966/100000 := ptExp_lt (by norm_num) (by norm_num) (by norm_num)
    have hrc : r - c ≤ 167/100 := by
      obtain ⟨z, hz, e⟩ := ptExp_mean (a := r) (b := 6) (by linarith) (by norm_num)
      rw [Set.uIcc_of_le h6] at hz
      have h1 := ptH_anti (hi (by norm_num)) (hi (by linarith [hz.1])) (by linarith [hz.1] : 9/2 ≤ z)
      have h2 := mul_le_mul_of_nonneg_right (h1.trans h45.le) (by linarith : 0 ≤ 6 - r)
      have := mul_le_mul_of_nonneg_left hm2.le (by linarith : 0 ≤ c - ptB)
      linarith
    refine ⟨by linarith, (d5 (167/100) hrc (by norm_num)).trans (mul_le_mul_of_nonneg_right (by norm_num) (by linarith))⟩

theorem pt_chainC {r : ℝ} : PtSide r (83/100) 16 (167/100) (1387/1000) := by
  have s6 : PtSide r (83/100) 6 (23/12500000) (5087/10000000000000) := .base 5 (by norm_num) (by norm_num)
  have s7 : PtSide r (83/100) 7 (291/1000000) (23/12500000) := s6.step (by norm_num) (by norm_num) (by norm_num) (by norm_num) (by norm_num)
  have s8 : PtSide r (83/100) 8 (417/62500) (291/1000000) := s7.step (by norm_num) (by norm_num) (by norm_num) (by norm_num) (by norm_num)
  have s9 : PtSide r (83/100) 9 (4681/100000) (417/62500) := s8.step (by norm_num) (by norm_num) (by norm_num) (by norm_num) (by norm_num)
  have s10 : PtSide r (83/100) 10 (1603/10000) (4681/100000) := s9.step (by norm_num) (by norm_num) (by norm_num) (by norm_num) (by norm_num)
  have s11 : PtSide r (83/100) 11 (3557/10000) (1603/10000) := s10.step (by norm_num) (by norm_num) (by norm_num) (by norm_num) (by norm_num)
  have s12 : PtSide r (83/100) 12 (6073/10000) (3557/10000) := s11.step (by norm_num) (by norm_num) (by norm_num) (by norm_num) (by norm_num)
  have s13 : PtSide r (83/100) 13 (8783/10000) (6073/10000) := s12.step (by norm_num) (by norm_num) (by norm_num) (by norm_num) (by norm_num)
  have s14 : PtSide r (83/100) 14 (1151/1000) (8783/10000) := s13.step (by norm_num) (by norm_num) (by norm_num) (by norm_num) (by norm_num)
  have s15 : PtSide r (83/100) 15 (1387/1000) (1151/1000) := s14.step (by norm_num) (by norm_num) (by norm_num) (by norm_num) (by norm_num)
  exact s15.step (by norm_num) (by norm_num) (by norm_num) (by norm_num) (by norm_num)

theorem pt_zoneC {r : ℝ} (hr : 9/2 ≤ r) (hr2 : r ≤ 6) :
    ∃ res, secant_run (fun m => Pt_ratio m DefaultGas.gamma0) (ptExp r) 1.5 defaultTol = .ok res ∧
      res.warned = false ∧ (1 - 83/100) * |res.x - r| ≤ 83/100 * (defaultTol * max 1 |res.x|) := by
  obtain ⟨b, d, h1, h2, h3, h4, h5, h6, h7, hs⟩ := pt_entry hr
  obtain ⟨h8, h9⟩ := h7 hr2
  rw [hs]
  exact pt_chainC b d h1 h3 h4 h8 (by linarith) h9

/-! ### statements -/

/-- relative accuracy from the stopping test -/
theorem pt_accuracy {k x M : ℝ} (hk : k ≤ 87/100) (hM : ptB ≤ M)
    (h : (1 - k) * |x - M| ≤ k * (defaultTol * max 1 |x|)) : 1 ≤ x ∧ |x - M| ≤ 7/100000 * x := by
  have h0 : 0 ≤ |x - M| := abs_nonneg _
  have hm : (1:ℝ) ≤ max 1 |x| := le_max_left _ _
  have h1 : |x - M| ≤ 7/100000 * max 1 |x| := by
    rw [defaultTol_eq] at h
    have a1 := mul_le_mul_of_nonneg_right (by linarith : 13/100 ≤ 1 - k) h0
    have a2 := mul_le_mul_of_nonneg_right hk (by linarith : 0 ≤ 1/100000 * max 1 |x|)
    linarith
  have h2 := abs_le.1 h1
  have hx1 : 1 ≤ |x| := by
    by_contra hh
    push Not at hh
    rw [max_eq_left hh.le] at h2
    have := le_abs_self x
    linarith [h2.1]
  rw [max_eq_right hx1] at h1 h2
  have hx0 : 0 ≤ x := by
    by_contra hh
    push Not at hh
    rw [abs_of_neg hh] at h2
    linarith [h2.1]
  rw [abs_of_nonneg hx0] at hx1 h1
  exact ⟨hx1, h1⟩

theorem Mn_Pt_ratio_eq {M : ℝ} {res : SecantResult} (hM : 1 ≤ M)
    (h : secant_run (fun m => Pt_ratio m DefaultGas.gamma0) (ptExp M) 1.5 defaultTol = .ok res) :
    Mn_Pt_ratio (ptExp M) DefaultGas.gamma0 = .ok res.x := by
  unfold Mn_Pt_ratio secant_solve
  rw [if_neg (not_lt.2 (ptExp_one_le hM)), h]; rfl

/-- C96 (`Mn_Pt_ratio`): default gas, every shock from Mach 1.4985 to Mach 6.  The search converges: it ends without the
warning, and the Mach number returned has a relative error of at most `7·10⁻⁵`. -/
theorem C96_totalPressure_converges (M r : ℝ) (h1 : 1.4985 ≤ M) (h2 : M ≤ 6) (hr : Pt_ratio M 1.4 = Except.ok r) :
    ∃ res, secant_run (fun m => Pt_ratio m 1.4) r 1.5 defaultTol = Except.ok res ∧ res.warned = false ∧
      Mn_Pt_ratio r 1.4 = Except.ok res.x ∧ |res.x - M| ≤ 0.00007 * res.x := by
  have e : (1.4:ℝ) = DefaultGas.gamma0 := by rw [gamma0_eq]; norm_num
  rw [e] at hr ⊢
  have hB : ptB ≤ M := by norm_num at h1 ⊢; exact h1
  rw [Pt_ratio_ptExp (ptB_one hB)] at hr
  rw [← Except.ok.inj hr]
  suffices h : ∃ k ≤ (87/100 : ℝ), ∃ res, secant_run (fun m => Pt_ratio m DefaultGas.gamma0) (ptExp M) 1.5 defaultTol = .ok res ∧
      res.warned = false ∧ (1 - k) * |res.x - M| ≤ k * (defaultTol * max 1 |res.x|) by
    obtain ⟨k, hk, res, g1, g2, g3⟩ := h
    refine ⟨res, g1, g2, Mn_Pt_ratio_eq (ptB_one hB) g1, ?_⟩
    have := (pt_accuracy hk hB g3).2
    norm_num at this ⊢; exact this
  rcases le_total M (5/2) with h | h
  · exact ⟨17/25, by norm_num, pt_zoneA hB h⟩
  · rcases le_total M (9/2) with h' | h'
    · exact ⟨87/100, le_rfl, pt_zoneB h h'⟩
    · exact ⟨83/100, by norm_num, pt_zoneC h' h2⟩

/-- the hypotheses of `C96_totalPressure_converges` -/
example : ∃ r, Pt_ratio 3 1.4 = Except.ok r := by
  have e : (1.4:ℝ) = DefaultGas.gamma0 := by rw [gamma0_eq]; norm_num
  rw [e]; exact ⟨_, Pt_ratio_ptExp (by norm_num)⟩

/-- C96 (`Mn_Pt_ratio`): default gas, every shock beyond Mach 4.5.  The search always returns, never beyond the exact Mach
number (and at least 4.14); without the warning the total pressure ratio of the result exceeds the request by at most
`1.04·10⁻⁶` times the result.  Whatever the shock, the Mach number returned is at most 430. -/
theorem C96_totalPressure_strong (M r : ℝ) (h1 : 4.5 ≤ M) (hr : Pt_ratio M 1.4 = Except.ok r) :
    ∃ res r', secant_run (fun m => Pt_ratio m 1.4) r 1.5 defaultTol = Except.ok res ∧
      Mn_Pt_ratio r 1.4 = Except.ok res.x ∧ 4.14 ≤ res.x ∧ res.x ≤ M ∧ res.x ≤ 430 ∧
      Pt_ratio res.x 1.4 = Except.ok r' ∧ r ≤ r' ∧ (res.warned = false → r' - r ≤ 0.00000104 * res.x) := by
  have e : (1.4:ℝ) = DefaultGas.gamma0 := by rw [gamma0_eq]; norm_num
  rw [e] at hr ⊢
  have hM : 9/2 ≤ M := by norm_num at h1 ⊢; exact h1
  have hM1 : 1 ≤ M := by linarith
  rw [Pt_ratio_ptExp hM1] at hr
  rw [← Except.ok.inj hr]
  obtain ⟨b, d, g1, g2, g3, g4, g5, g6, -, hs⟩ := pt_entry hM
  obtain ⟨res, k1, k2, k3, k4, k5⟩ := pt_side_loop 16 b d g1 g3 g4 g6
  have hx : 414/100 ≤ res.x := by linarith
  refine ⟨res, ptExp res.x, hs.trans k1, Mn_Pt_ratio_eq hM1 (hs.trans k1), by norm_num at hx ⊢; exact hx, k3, ?_,
    Pt_ratio_ptExp (by linarith), ptExp_anti.antitoneOn (Set.mem_Ici.2 (by linarith)) (Set.mem_Ici.2 hM1) k3, fun hw => ?_⟩
  · have : d * (13/10) ^ 16 ≤ 13/10 * (495/100) * (13/10) ^ 16 :=
      mul_le_mul_of_nonneg_right (by linarith) (by positivity)
    norm_num at this k4
    linarith
  · have := k5 hw
    norm_num at this ⊢
    linarith

/-- C96 is false for very strong shocks: from Mach 1000 on, the Mach number returned is less than half of the exact one. -/
theorem C96_hypersonic_false (M : ℝ) (h1 : 1000 ≤ M) : ∃ r x, Pt_ratio M 1.4 = Except.ok r ∧
    Mn_Pt_ratio r 1.4 = Except.ok x ∧ x < M / 2 := by
  have e : (1.4:ℝ) = DefaultGas.gamma0 := by rw [gamma0_eq]; norm_num
  have hok : Pt_ratio M 1.4 = Except.ok (ptExp M) := by rw [e]; exact Pt_ratio_ptExp (by linarith)
  obtain ⟨res, r', -, h2, -, -, h5, -⟩ := C96_totalPressure_strong M _ (le_trans (by norm_num) h1) hok
  exact ⟨_, _, hok, h2, by linarith⟩

/-- C96 (`Mn_Pt_ratio`): default gas, every shock.  The call always succeeds and gives a Mach number at least 1. -/
theorem C96_totalPressure_returns (M r : ℝ) (h1 : 1 ≤ M) (hr : Pt_ratio M 1.4 = Except.ok r) :
    ∃ x, Mn_Pt_ratio r 1.4 = Except.ok x ∧ 1 ≤ x ∧ x ≤ 1.0001 * max M 1.5 := by
  suffices h : ∃ x, Mn_Pt_ratio r 1.4 = Except.ok x ∧ 1 ≤ x ∧ x ≤ 10001/10000 * max M (3/2) by
    obtain ⟨x, g1, g2, g3⟩ := h
    refine ⟨x, g1, g2, ?_⟩
    norm_num at g3 ⊢; exact g3
  have m1 := le_max_left M (3/2 : ℝ)
  have m2 := le_max_right M (3/2 : ℝ)
  rcases le_total M 1.4985 with h | h
  · obtain ⟨res, r', -, h2, h3, h4, -⟩ := C96_totalPressure_partial M r h1 h hr
    refine ⟨res.x, h2, h1.trans h3, h4.trans ?_⟩
    norm_num; linarith
  · rcases le_total M 6 with h' | h'
    · obtain ⟨res, -, -, h3, h4⟩ := C96_totalPressure_converges M r h h' hr
      have h5 := abs_le.1 h4
      refine ⟨res.x, h3, ?_, ?_⟩ <;> norm_num at h h5 <;> linarith [h5.1, h5.2]
    · obtain ⟨res, r', -, h2, h3, h4, -⟩ := C96_totalPressure_strong M r (le_trans (by norm_num) h') hr
      refine ⟨res.x, h2, ?_, ?_⟩ <;> norm_num at h3 <;> linarith

end Aerokit.Props
