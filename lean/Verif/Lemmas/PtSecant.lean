import Verif.Lemmas.PtSlope

/-! # Secant iterations on the total pressure ratio of a normal shock (default gas) -/

namespace Aerokit.Props
open Isentropic Supersonic ShockWave IterativeSolve Real

/-- second point of the search of `Mn_Pt_ratio` -/
local notation "ptB" => (2997/2000 : ℝ)

theorem ptB_one {x : ℝ} (h : ptB ≤ x) : 1 ≤ x := le_trans (by norm_num) h
theorem ptB_one' {x : ℝ} (h : ptB ≤ x) : 1 < x := lt_of_lt_of_le (by norm_num) h

theorem Pt_ratio_ptExp {z : ℝ} (hz : 1 ≤ z) : Pt_ratio z DefaultGas.gamma0 = .ok (ptExp z) := by
  rw [Pt_ratio_ok_default hz, ptr_eq_exp hz]; rfl

theorem ptExp_anti : StrictAntiOn ptExp (Set.Ici 1) := fun a ha b hb hab => by
  have := ptr_strictAnti one_lt_gamma0 ha hb hab
  simp only [ptr_eq_exp (Set.mem_Ici.1 ha), ptr_eq_exp (Set.mem_Ici.1 hb)] at this
  exact this

theorem ptExp_one_le {z : ℝ} (hz : 1 ≤ z) : ptExp z ≤ 1 := by
  rw [← ptr_one one_lt_gamma0, ptr_eq_exp le_rfl]
  exact ptExp_anti.antitoneOn (Set.mem_Ici.2 le_rfl) (Set.mem_Ici.2 hz) hz

/-- mean value theorem, in any order -/
theorem ptExp_mean {a b : ℝ} (ha : 1 ≤ a) (hb : 1 ≤ b) :
    ∃ x ∈ Set.uIcc a b, ptExp b - ptExp a = -(ptH x * (b - a)) := by
  rcases lt_trichotomy a b with h | h | h
  · obtain ⟨x, hx, e⟩ := ptExp_mvt ha h
    refine ⟨x, Set.Icc_subset_uIcc ⟨hx.1.le, hx.2.le⟩, ?_⟩
    rw [e]; unfold ptH; ring
  · exact ⟨a, Set.left_mem_uIcc, by rw [h]; ring⟩
  · obtain ⟨x, hx, e⟩ := ptExp_mvt hb h
    refine ⟨x, Set.Icc_subset_uIcc' ⟨hx.1.le, hx.2.le⟩, ?_⟩
    rw [← neg_sub (ptExp a), e]; unfold ptH; ring

/-- one secant step: the new error is the old one times `1 - h(ξ)/h(η)` -/
theorem pt_step {a b r : ℝ} (ha : ptB ≤ a) (hb : ptB ≤ b) (hr : ptB ≤ r) (hne : a ≠ b) :
    ptExp b - ptExp a ≠ 0 ∧ ∃ x ∈ Set.uIcc b r, ∃ w ∈ Set.uIcc a b, 0 < ptH x ∧ 0 < ptH w ∧
      ptExp b - ptExp r = ptH x * (r - b) ∧ ptExp a - ptExp b = ptH w * (b - a) ∧
      b + (b - a) / (ptExp b - ptExp a) * (ptExp r - ptExp b) - r = (b - r) * (1 - ptH x / ptH w) := by
  obtain ⟨x, hx, ex⟩ := ptExp_mean (ptB_one hb) (ptB_one hr)
  obtain ⟨w, hw, ew⟩ := ptExp_mean (ptB_one ha) (ptB_one hb)
  have hxB : ptB ≤ x := (le_inf hb hr).trans hx.1
  have hwB : ptB ≤ w := (le_inf ha hb).trans hw.1
  have px := ptH_pos (ptB_one' hxB)
  have pw := ptH_pos (ptB_one' hwB)
  have hd : b - a ≠ 0 := sub_ne_zero.2 hne.symm
  refine ⟨?_, x, hx, w, hw, px, pw, by linarith, by linarith, ?_⟩
  · rw [ew]; exact neg_ne_zero.2 (mul_ne_zero pw.ne' hd)
  · rw [ex, ew]
    have := pw.ne'
    field_simp
    ring

/-- a continued iteration of the search -/
theorem pt_next {a b r : ℝ} (n : ℕ) (ha : ptB ≤ a) (hb : ptB ≤ b) (hr : ptB ≤ r)
    (h : |b - a| > max defaultTol (defaultTol * |b|)) :
    ∃ c, (∃ x ∈ Set.uIcc b r, ∃ w ∈ Set.uIcc a b, 0 < ptH x ∧ 0 < ptH w ∧
      ptExp b - ptExp r = ptH x * (r - b) ∧ ptExp a - ptExp b = ptH w * (b - a) ∧ c - r = (b - r) * (1 - ptH x / ptH w)) ∧
      secantLoop (fun m => Pt_ratio m DefaultGas.gamma0) (ptExp r) defaultTol (n + 1) a (ptExp a) b =
      secantLoop (fun m => Pt_ratio m DefaultGas.gamma0) (ptExp r) defaultTol n b (ptExp b) c := by
  have hne : a ≠ b := by
    rintro rfl
    rw [sub_self, abs_zero] at h
    exact absurd h (not_lt.2 (le_max_of_le_left (by rw [defaultTol_eq]; norm_num)))
  obtain ⟨h1, h2⟩ := pt_step ha hb hr hne
  refine ⟨_, h2, ?_⟩
  rw [secantLoop, if_pos h, Pt_ratio_ptExp (ptB_one hb)]
  simp only [Py.ok_bind]
  rw [Py.div_ok h1, Py.ok_bind]

/-- the search converges, without the warning, from any two points at distances at most `A`, `B` of the root -/
def PtConv (r k : ℝ) (n : ℕ) (A B : ℝ) : Prop :=
  ∀ a b, |a - r| ≤ A → |b - r| ≤ B → |b - r| ≤ k * |a - r| →
    ∃ res, secantLoop (fun m => Pt_ratio m DefaultGas.gamma0) (ptExp r) defaultTol n a (ptExp a) b = .ok res ∧
      res.warned = false ∧ (1 - k) * |res.x - r| ≤ k * (defaultTol * max 1 |res.x|)

/-- a stop with a small last step -/
theorem pt_stop {r k a b : ℝ} (n : ℕ) (hk : 0 ≤ k) (h : ¬ |b - a| > max defaultTol (defaultTol * |b|))
    (hkb : |b - r| ≤ k * |a - r|) :
    ∃ res, secantLoop (fun m => Pt_ratio m DefaultGas.gamma0) (ptExp r) defaultTol (n + 1) a (ptExp a) b = .ok res ∧
      res.warned = false ∧ (1 - k) * |res.x - r| ≤ k * (defaultTol * max 1 |res.x|) := by
  refine ⟨⟨b, false⟩, by rw [secantLoop, if_neg h], rfl, ?_⟩
  rw [not_lt, max_tol _ _ (by rw [defaultTol_eq]; norm_num)] at h
  have h1 : |a - r| ≤ |b - a| + |b - r| := by
    rw [abs_sub_comm b a]; exact abs_sub_le a b r
  have h2 : k * |a - r| ≤ k * (|b - a| + |b - r|) := mul_le_mul_of_nonneg_left h1 hk
  have h3 : k * |b - a| ≤ k * (defaultTol * max 1 |b|) := mul_le_mul_of_nonneg_left h hk
  show (1 - k) * |b - r| ≤ k * (defaultTol * max 1 |b|)
  linarith

theorem PtConv.base {r k A B : ℝ} (n : ℕ) (hk : 0 ≤ k) (h : A + B ≤ 1/100000) : PtConv r k (n + 1) A B := by
  intro a b ha hb hkb
  refine pt_stop n hk ?_ hkb
  rw [not_lt]
  refine le_max_of_le_left ?_
  rw [defaultTol_eq]
  have : |b - a| ≤ |b - r| + |a - r| := by rw [abs_sub_comm a r]; exact abs_sub_le b r a
  linarith

theorem PtConv.mono {r k A B A' B' : ℝ} {n : ℕ} (h : PtConv r k n A' B') (hA : A ≤ A') (hB : B ≤ B') :
    PtConv r k n A B := fun a b ha hb hk => h a b (ha.trans hA) (hb.trans hB) hk

/-- contraction factor from a bound of the ratio of slopes -/
theorem ratio_contract {q x w B C e : ℝ} (hq : 0 < q) (hx : 0 < x) (hw : 0 < w) (h1 : w * q ≤ x) (h2 : x * q ≤ w)
    (he : |e| ≤ B) (hC : (1 - q) * B ≤ C * q) : |e * (1 - x / w)| ≤ C := by
  have hB : 0 ≤ B := (abs_nonneg _).trans he
  have hq1 : q ≤ 1 := by
    by_contra hh
    push Not at hh
    nlinarith
  have ht : |1 - x / w| ≤ (1 - q) / q := by
    rw [abs_le]
    constructor
    · have : x / w ≤ 1 / q := by rw [div_le_div_iff₀ hw hq]; linarith
      have e : (1 - q) / q = 1 / q - 1 := by field_simp
      rw [e]; linarith
    · have : q ≤ x / w := by rw [le_div_iff₀ hw]; linarith
      have h3 : 1 - q ≤ (1 - q) / q := by
        rw [le_div_iff₀ hq]; nlinarith
      linarith
  rw [abs_mul]
  have h0 : 0 ≤ (1 - q) / q := div_nonneg (by linarith) hq.le
  calc |e| * |1 - x / w| ≤ B * ((1 - q) / q) := mul_le_mul he ht (abs_nonneg _) hB
    _ = (1 - q) * B / q := by ring
    _ ≤ C := by rw [div_le_iff₀ hq]; exact hC

/-- one more step, from a bound of the ratios of slopes -/
theorem pt_conv_next {r k q a b B C : ℝ} {n : ℕ} (hk : 0 ≤ k) (hr : ptB ≤ r) (ha : ptB ≤ a) (hb : ptB ≤ b)
    (hc : PtConv r k n B C) (hq : 0 < q) (hqk : 1 - q ≤ k * q) (hC : (1 - q) * B ≤ C * q)
    (hbr : |b - r| ≤ B) (hba : |b - r| ≤ k * |a - r|)
    (hrat : ∀ x ∈ Set.uIcc b r, ∀ w ∈ Set.uIcc a b, ptH w * q ≤ ptH x ∧ ptH x * q ≤ ptH w) :
    ∃ res, secantLoop (fun m => Pt_ratio m DefaultGas.gamma0) (ptExp r) defaultTol (n + 1) a (ptExp a) b = .ok res ∧
      res.warned = false ∧ (1 - k) * |res.x - r| ≤ k * (defaultTol * max 1 |res.x|) := by
  by_cases h : |b - a| > max defaultTol (defaultTol * |b|)
  · obtain ⟨c, ⟨x, hx, w, hw, px, pw, -, -, e⟩, hs⟩ := pt_next n ha hb hr h
    obtain ⟨r1, r2⟩ := hrat x hx w hw
    rw [hs]
    refine hc b c hbr ?_ ?_
    · rw [e]; exact ratio_contract hq px pw r1 r2 hbr hC
    · rw [e]
      refine ratio_contract hq px pw r1 r2 le_rfl ?_
      have := mul_le_mul_of_nonneg_right hqk (abs_nonneg (b - r))
      linarith
  · exact pt_stop n hk h hba

/-- distance of two points of the hull of `a`, `b`, `r` -/
theorem hull_dist {a b r x w A B : ℝ} (ha : |a - r| ≤ A) (hb : |b - r| ≤ B) (hx : x ∈ Set.uIcc b r) (hw : w ∈ Set.uIcc a b) :
    |x - w| ≤ A + B := by
  rw [abs_le] at ha hb
  rw [Set.mem_uIcc] at hx hw
  rw [abs_le]
  rcases hx with hx | hx <;> rcases hw with hw | hw <;> constructor <;> linarith [hx.1, hx.2, hw.1, hw.2]

/-- step far from the inflection -/
theorem PtConv.far {r k A B C : ℝ} (S : ℝ) {n : ℕ} (h : PtConv r k n B C) (hA : 2 ≤ r - A) (hB : 2 ≤ r - B) (hk : 0 ≤ k)
    (hS : A + B ≤ S)     (h8 : 19/20 * S < 8)
    (hqk : 1 - (1 - 19/20 * S / 8) ^ 8 ≤ k * (1 - 19/20 * S / 8) ^ 8)
    (hC : (1 - (1 - 19/20 * S / 8) ^ 8) * B ≤ C * (1 - 19/20 * S / 8) ^ 8) : PtConv r k (n + 1) A B := by
  intro a b ha hb hba
  have hA' := abs_le.1 ha
  have hB' := abs_le.1 hb
  have ha2 : 2 ≤ a := by linarith
  have hb2 : 2 ≤ b := by linarith
  have hr2 : 2 ≤ r := by linarith [(abs_nonneg _).trans ha]
  have t2 : ∀ {z : ℝ}, 2 ≤ z → ptB ≤ z := fun h => le_trans (by norm_num) h
  have hq : 0 < (1 - 19/20 * S / 8) ^ 8 := by
    have : 0 < 1 - 19/20 * S / 8 := by linarith
    positivity
  have key : ∀ x w, 2 ≤ x → 2 ≤ w → |x - w| ≤ S → ptH x * (1 - 19/20 * S / 8) ^ 8 ≤ ptH w := by
    intro x w hx hw hd
    refine le_trans (mul_le_mul_of_nonneg_left ?_ (ptH_pos (by linarith)).le) (ptH_ratio_far hx hw)
    refine (exp_lower h8.le).trans (Real.exp_le_exp.2 ?_)
    linarith
  refine pt_conv_next hk (t2 hr2) (t2 ha2) (t2 hb2) h hq hqk hC hb hba fun x hx w hw => ?_
  have hd := (hull_dist ha hb hx hw).trans hS
  have hx2 : 2 ≤ x := (le_inf hb2 hr2).trans hx.1
  have hw2 : 2 ≤ w := (le_inf ha2 hb2).trans hw.1
  exact ⟨key w x hw2 hx2 (by rw [abs_sub_comm]; exact hd), key x w hx2 hw2 hd⟩

/-- step close to the root -/
theorem PtConv.near {r k A B C : ℝ} (S : ℝ) {n : ℕ} (h : PtConv r k n B C) (hA : ptB ≤ r - A) (hB : ptB ≤ r - B) (hk : 0 ≤ k)
    (hS : A + B ≤ S)     (h8 : 2 * S < 8)
    (hqk : 1 - (1 - 2 * S / 8) ^ 8 ≤ k * (1 - 2 * S / 8) ^ 8)
    (hC : (1 - (1 - 2 * S / 8) ^ 8) * B ≤ C * (1 - 2 * S / 8) ^ 8) : PtConv r k (n + 1) A B := by
  intro a b ha hb hba
  have hA' := abs_le.1 ha
  have hB' := abs_le.1 hb
  have ha2 : ptB ≤ a := by linarith
  have hb2 : ptB ≤ b := by linarith
  have hr2 : ptB ≤ r := by linarith [(abs_nonneg _).trans ha]
  have hq : 0 < (1 - 2 * S / 8) ^ 8 := by
    have : 0 < 1 - 2 * S / 8 := by linarith
    positivity
  have key : ∀ x w, ptB ≤ x → ptB ≤ w → |x - w| ≤ S → ptH x * (1 - 2 * S / 8) ^ 8 ≤ ptH w := by
    intro x w hx hw hd
    refine le_trans (mul_le_mul_of_nonneg_left ?_ (ptH_pos (ptB_one' hx)).le) (ptH_ratio_near hx hw)
    refine (exp_lower h8.le).trans (Real.exp_le_exp.2 ?_)
    linarith
  refine pt_conv_next hk hr2 ha2 hb2 h hq hqk hC hb hba fun x hx w hw => ?_
  have hd := (hull_dist ha hb hx hw).trans hS
  have hx2 : ptB ≤ x := (le_inf hb2 hr2).trans hx.1
  have hw2 : ptB ≤ w := (le_inf ha2 hb2).trans hw.1
  exact ⟨key w x hw2 hx2 (by rw [abs_sub_comm]; exact hd), key x w hx2 hw2 hd⟩

end Aerokit.Props
