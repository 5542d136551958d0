import Verif.Lemmas.Rounding

/-! # Binary floating point numbers and rounding to nearest -/

namespace Aerokit.Rounded
open Real

/-- the numbers with `p` significant binary digits (unbounded exponent) -/
def Flt (p : ℕ) (x : ℝ) : Prop := ∃ m e : ℤ, |m| ≤ 2 ^ p ∧ x = m * 2 ^ e

/-- the arithmetic rounds to a nearest number with `p` binary digits (any rule for ties) -/
structure Nearest (p : ℕ) (F : Arith) : Prop where
  mem : ∀ x, Flt p (F.rnd x)
  near : ∀ x s, Flt p s → |F.rnd x - x| ≤ |s - x|

variable {p : ℕ} {F : Arith}

theorem Flt.neg {x : ℝ} (h : Flt p x) : Flt p (-x) := by
  obtain ⟨m, e, hm, hx⟩ := h
  exact ⟨-m, e, by rwa [abs_neg], by rw [hx]; push_cast; ring⟩

theorem Flt.zero : Flt p 0 := ⟨0, 0, by simp, by simp⟩

theorem Nearest.fix (N : Nearest p F) {x : ℝ} (h : Flt p x) : F.rnd x = x := by
  have := N.near x x h
  rw [sub_self, abs_zero] at this
  exact sub_eq_zero.1 (abs_nonpos_iff.1 this)

theorem Nearest.mono (N : Nearest p F) {x y : ℝ} (h : x ≤ y) : F.rnd x ≤ F.rnd y := by
  rcases h.eq_or_lt with h | h
  · rw [h]
  by_contra hc
  push Not at hc
  have h1 := N.near x _ (N.mem y)
  have h2 := N.near y _ (N.mem x)
  rw [← sq_le_sq] at h1 h2
  nlinarith

/-- a difference which is a multiple of the last digits of both terms, and not larger than either -/
theorem flt_common {x y z : ℝ} (hx : Flt p x) (hy : Flt p y) (hz : ∀ e : ℤ, (∃ a b : ℤ, x = a * 2 ^ e ∧ y = b * 2 ^ e) → ∃ c : ℤ, z = c * 2 ^ e)
    (hzx : |z| ≤ |x|) (hzy : |z| ≤ |y|) : Flt p z := by
  have key : ∀ x y : ℝ, (∃ m e : ℤ, |m| ≤ 2 ^ p ∧ x = m * 2 ^ e ∧ ∃ n : ℤ, y = n * 2 ^ e) →
      (∀ e : ℤ, (∃ a b : ℤ, x = a * 2 ^ e ∧ y = b * 2 ^ e) → ∃ c : ℤ, z = c * 2 ^ e) → |z| ≤ |x| → Flt p z := by
    rintro x y ⟨m, e, hm, hx, n, hy⟩ hz hzx
    obtain ⟨c, hc⟩ := hz _ ⟨m, n, hx, hy⟩
    refine ⟨c, e, ?_, hc⟩
    have q : (0 : ℝ) < 2 ^ e := by positivity
    rw [hc, hx, abs_mul, abs_mul] at hzx
    have := (mul_le_mul_iff_left₀ (abs_pos.2 q.ne')).1 hzx
    have h2 : |c| ≤ |m| := by exact_mod_cast this
    exact h2.trans hm
  obtain ⟨m, e, hm, hx'⟩ := hx
  obtain ⟨n, f, hn, hy'⟩ := hy
  have shift : ∀ (n f e : ℤ), e ≤ f → ∃ k : ℤ, (n : ℝ) * 2 ^ f = k * 2 ^ e := fun n f e h => by
    obtain ⟨j, hj⟩ := Int.eq_ofNat_of_zero_le (sub_nonneg.2 h)
    refine ⟨n * 2 ^ j, ?_⟩
    have : f = e + j := by omega
    rw [this, zpow_add₀ (by norm_num), zpow_natCast]
    push_cast; ring
  rcases le_total e f with h | h
  · obtain ⟨k, hk⟩ := shift n f e h
    exact key x y ⟨m, e, hm, hx', k, by rw [hy', hk]⟩ hz hzx
  · obtain ⟨k, hk⟩ := shift m e f h
    exact key y x ⟨n, f, hn, hy', k, by rw [hx', hk]⟩ (fun q ⟨a, b, h1, h2⟩ => hz q ⟨b, a, h2, h1⟩) hzy

/-- Sterbenz: the difference of two numbers within a factor two is exact -/
theorem sterbenz {x y : ℝ} (hx : Flt p x) (hy : Flt p y) (h1 : |y - x| ≤ |x|) (h2 : |y - x| ≤ |y|) : Flt p (y - x) :=
  flt_common hx hy (fun q ⟨a, b, ha, hb⟩ => ⟨b - a, by rw [ha, hb]; push_cast; ring⟩) h1 h2

/-- rounding keeps multiples of a power of two -/
theorem Nearest.mult (N : Nearest p F) {d : ℝ} {a e : ℤ} (hd : d = a * 2 ^ e) (h0 : 0 < d) : ∃ c : ℤ, F.rnd d = c * 2 ^ e := by
  have q : (0 : ℝ) < 2 ^ e := by positivity
  rcases le_or_gt a (2 ^ p) with h | h
  · have ha : 0 < a := by
      have : (0 : ℝ) < a := by rw [hd] at h0; exact (mul_pos_iff_of_pos_right q).1 h0
      exact_mod_cast this
    exact ⟨a, by rw [N.fix ⟨a, e, by rwa [abs_of_pos ha], hd⟩, hd]⟩
  · have h1 : Flt p ((2 : ℝ) ^ p * 2 ^ e) := ⟨2 ^ p, e, by simp, by push_cast; rfl⟩
    have h2 : (2 : ℝ) ^ p * 2 ^ e ≤ F.rnd d := by
      rw [← N.fix h1]
      apply N.mono
      rw [hd]
      refine mul_le_mul_of_nonneg_right ?_ q.le
      exact_mod_cast h.le
    obtain ⟨m, f, hm, hr⟩ := N.mem d
    have hm' : (m : ℝ) ≤ 2 ^ p := by
      have := (le_abs_self m).trans hm
      exact_mod_cast this
    have hef : e ≤ f := by
      by_contra hc
      push Not at hc
      have a1 : (2 : ℝ) ^ f < 2 ^ e := zpow_lt_zpow_right₀ (by norm_num) hc
      have a2 : (m : ℝ) * 2 ^ f ≤ 2 ^ p * 2 ^ f := mul_le_mul_of_nonneg_right hm' (by positivity)
      have a3 : (2 : ℝ) ^ p * 2 ^ f < 2 ^ p * 2 ^ e := mul_lt_mul_of_pos_left a1 (by positivity)
      rw [hr] at h2
      linarith
    obtain ⟨j, hj⟩ := Int.eq_ofNat_of_zero_le (sub_nonneg.2 hef)
    refine ⟨m * 2 ^ j, ?_⟩
    rw [hr, show f = e + j by omega, zpow_add₀ (by norm_num), zpow_natCast]; push_cast; ring

/-- a float strictly between 1 and 2 is at least `1 + 2¹⁻ᵖ` -/
theorem flt_gt_one {r : ℝ} (hp : 1 ≤ p) (h : Flt p r) (h1 : 1 < r) : 1 + 2 * (2 : ℝ)⁻¹ ^ p ≤ r := by
  obtain ⟨m, e, hm, hr⟩ := h
  have hm' : (m : ℝ) ≤ 2 ^ p := by
    have := (le_abs_self m).trans hm
    exact_mod_cast this
  have hq : (0 : ℝ) < 2 ^ e := by positivity
  have he : -(p : ℤ) < e := by
    by_contra hc
    push Not at hc
    have : (2 : ℝ) ^ e ≤ 2 ^ (-(p : ℤ)) := zpow_le_zpow_right₀ (by norm_num) hc
    have h3 : r ≤ 2 ^ p * 2 ^ (-(p : ℤ)) := by
      rw [hr]
      calc (m : ℝ) * 2 ^ e ≤ 2 ^ p * 2 ^ e := mul_le_mul_of_nonneg_right hm' hq.le
        _ ≤ _ := mul_le_mul_of_nonneg_left this (by positivity)
    rw [zpow_neg, zpow_natCast, mul_inv_cancel₀ (by positivity)] at h3
    linarith
  obtain ⟨j, hj⟩ := Int.eq_ofNat_of_zero_le (show 0 ≤ e - (1 - p) by omega)
  have e1 : e = (1 - p) + j := by omega
  have e2 : (2 : ℝ) ^ (1 - (p : ℤ)) = 2 * (2 : ℝ)⁻¹ ^ p := by
    rw [zpow_sub₀ (by norm_num), zpow_one, zpow_natCast, inv_pow]; ring
  have e3 : r = ((m * 2 ^ j : ℤ) : ℝ) * (2 * (2 : ℝ)⁻¹ ^ p) := by
    rw [hr, e1, zpow_add₀ (by norm_num), e2, zpow_natCast]; push_cast; ring
  obtain ⟨k, hk⟩ : ∃ k : ℤ, k = m * 2 ^ j := ⟨_, rfl⟩
  rw [← hk] at e3
  obtain ⟨p, rfl⟩ : ∃ k, p = k + 1 := ⟨p - 1, by omega⟩
  · have one : (1 : ℝ) = ((2 ^ p : ℤ) : ℝ) * (2 * (2 : ℝ)⁻¹ ^ (p + 1)) := by
      rw [pow_succ, inv_pow]; push_cast; field_simp
    have q : (0 : ℝ) < 2 * (2 : ℝ)⁻¹ ^ (p + 1) := by positivity
    rw [e3, one] at h1
    have h4 := (mul_lt_mul_iff_left₀ q).1 h1
    have h5 : (2 : ℤ) ^ p + 1 ≤ k := by exact_mod_cast h4
    have h6 : (((2 : ℤ) ^ p + 1 : ℤ) : ℝ) ≤ k := by exact_mod_cast h5
    rw [e3]
    calc 1 + 2 * (2 : ℝ)⁻¹ ^ (p + 1) = (((2 : ℤ) ^ p + 1 : ℤ) : ℝ) * (2 * (2 : ℝ)⁻¹ ^ (p + 1)) := by
          push_cast at one ⊢; rw [add_mul, ← one]; ring
      _ ≤ _ := mul_le_mul_of_nonneg_right h6 q.le

/-- `binary p` rounds to nearest -/
theorem binary_nearest (hp : 1 ≤ p) : Nearest p (binary p) := by
  have main : ∀ x : ℝ, Flt p (fl p x) ∧ ∀ s, Flt p s → |fl p x - x| ≤ |s - x| := by
    intro x
    unfold fl
    split_ifs with h
    · exact ⟨Flt.zero, fun s _ => by rw [h]; simp⟩
    have hx : 0 < |x| := abs_pos.2 h
    have h1 : (2 : ℝ) ^ Int.log 2 |x| ≤ |x| := by
      have := Int.zpow_log_le_self (R := ℝ) (b := 2) (by norm_num) hx
      exact_mod_cast this
    have h2 : |x| < (2 : ℝ) ^ (Int.log 2 |x| + 1) := by
      have := Int.lt_zpow_succ_log_self (R := ℝ) (b := 2) (by norm_num) |x|
      exact_mod_cast this
    obtain ⟨e, he⟩ : ∃ e, e = Int.log 2 |x| - p + 1 := ⟨_, rfl⟩
    rw [show Int.log 2 |x| = e + ((p : ℤ) - 1) by omega] at h1
    rw [show Int.log 2 |x| + 1 = e + p by omega] at h2
    rw [← he]
    have q : (0 : ℝ) < 2 ^ e := by positivity
    rw [zpow_add₀ (by norm_num), zpow_natCast] at h2
    obtain ⟨k, rfl⟩ : ∃ k, p = k + 1 := ⟨p - 1, by omega⟩
    rw [zpow_add₀ (by norm_num), show (((k + 1 : ℕ) : ℤ) - 1) = (k : ℤ) by push_cast; ring, zpow_natCast] at h1
    have near : ∀ n : ℤ, |(round (x / 2 ^ e) : ℝ) * 2 ^ e - x| ≤ |(n : ℝ) * 2 ^ e - x| := fun n => by
      have e1 : ∀ n : ℤ, (n : ℝ) * 2 ^ e - x = -(x / 2 ^ e - n) * 2 ^ e := fun n => by field_simp; ring
      rw [e1, e1, abs_mul, abs_mul, abs_neg, abs_neg]
      exact mul_le_mul_of_nonneg_right (round_le _ _) (abs_nonneg _)
    have rmono : ∀ {a b : ℝ}, a ≤ b → round a ≤ round b := fun {a b} h => by
      rw [round_eq, round_eq]; exact Int.floor_mono (by linarith)
    have hxe : |x / 2 ^ e| < 2 ^ (k + 1) := by
      rw [abs_div, abs_of_pos q, div_lt_iff₀ q]; linarith
    constructor
    · refine ⟨round (x / 2 ^ e), e, ?_, rfl⟩
      rw [abs_le]
      have h3 := abs_lt.1 hxe
      constructor
      · have : ((-(2 ^ (k + 1)) : ℤ) : ℝ) ≤ x / 2 ^ e := by push_cast; linarith
        have := rmono this
        rwa [round_intCast] at this
      · have : x / 2 ^ e ≤ (((2 ^ (k + 1)) : ℤ) : ℝ) := by push_cast; linarith
        have := rmono this
        rwa [round_intCast] at this
    · rintro s ⟨m, f, hm, hs⟩
      rcases le_or_gt e f with hf | hf
      · obtain ⟨j, hj⟩ := Int.eq_ofNat_of_zero_le (sub_nonneg.2 hf)
        have : s = ((m * 2 ^ j : ℤ) : ℝ) * 2 ^ e := by
          rw [hs, show f = e + j by omega, zpow_add₀ (by norm_num), zpow_natCast]; push_cast; ring
        rw [this]; exact near _
      · have hs' : |s| ≤ 2 ^ e * 2 ^ k := by
          rw [hs, abs_mul, abs_of_pos (show (0 : ℝ) < 2 ^ f by positivity)]
          have a1 : |(m : ℝ)| ≤ 2 ^ (k + 1) := by exact_mod_cast hm
          have a2 : (2 : ℝ) ^ f ≤ 2 ^ (e - 1) := zpow_le_zpow_right₀ (by norm_num) (by omega)
          rw [zpow_sub₀ (by norm_num), zpow_one] at a2
          calc |(m : ℝ)| * 2 ^ f ≤ 2 ^ (k + 1) * (2 ^ e / 2) := mul_le_mul a1 a2 (by positivity) (by positivity)
            _ = _ := by rw [pow_succ]; ring
        rcases lt_or_gt_of_ne h with hn | hp
        · refine (near (-(2 ^ k))).trans ?_
          push_cast
          rw [abs_of_neg hn] at h1
          have := neg_abs_le s
          rw [abs_of_nonneg (by linarith), abs_of_nonneg (by linarith)]
          linarith
        · refine (near (2 ^ k)).trans ?_
          push_cast
          rw [abs_of_pos hp] at h1
          have := le_abs_self s
          rw [abs_of_nonpos (by linarith), abs_of_nonpos (by linarith)]
          linarith
  exact ⟨fun x => (main x).1, fun x s hs => (main x).2 s hs⟩

end Aerokit.Rounded
