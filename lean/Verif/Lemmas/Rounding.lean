import Verif.Model.Rounded
import Mathlib.Analysis.Convex.SpecificFunctions.Basic
import Mathlib.Data.Int.Log
import Mathlib.Algebra.Order.Round

/-! # Calculus of relative errors -/

namespace Aerokit.Rounded
open Real

variable {F : Arith}

/-- size of one rounding in the logarithmic metric -/
noncomputable def Arith.L (F : Arith) : ℝ := -log (1 - F.u)

/-- `y` is `x` up to `d` roundings -/
def Close (F : Arith) (d x y : ℝ) : Prop := 0 < x ∧ 0 < y ∧ |log y - log x| ≤ d * F.L

theorem L_ge (hu : F.u ≤ 1 / 64) : F.u ≤ F.L := by
  have := log_le_sub_one_of_pos (show 0 < 1 - F.u by linarith)
  unfold Arith.L; linarith

theorem L_nonneg (hu : F.u ≤ 1 / 64) : 0 ≤ F.L := F.u_nonneg.trans (L_ge hu)

theorem L_le (hu : F.u ≤ 1 / 64) : F.L ≤ 64 / 63 * F.u := by
  have h1 : 0 < 1 - F.u := by linarith
  have := log_le_sub_one_of_pos (inv_pos.2 h1)
  rw [log_inv] at this
  have h2 : (1 - F.u)⁻¹ - 1 ≤ 64 / 63 * F.u := by
    rw [sub_le_iff_le_add, inv_le_iff_one_le_mul₀ h1]
    have := F.u_nonneg
    nlinarith
  unfold Arith.L; linarith

theorem L_le' (hu : F.u ≤ 1 / 64) : F.L ≤ 1 / 63 := by
  have := L_le hu
  linarith

theorem Close.refl {x : ℝ} (h : 0 < x) : Close F 0 x x := ⟨h, h, by simp⟩

theorem Close.mono {d e x y : ℝ} (hu : F.u ≤ 1 / 64) (h : Close F d x y) (hde : d ≤ e) : Close F e x y :=
  ⟨h.1, h.2.1, h.2.2.trans (mul_le_mul_of_nonneg_right hde (L_nonneg hu))⟩

/-- a relative error of `u` is one unit -/
theorem log_of_rel {x y : ℝ} (hu : F.u ≤ 1 / 64) (hx : 0 < x) (h : |y - x| ≤ F.u * x) : 0 < y ∧ |log y - log x| ≤ F.L := by
  have h0 := F.u_nonneg
  obtain ⟨h1, h2⟩ := abs_le.1 h
  have hy : x * (1 - F.u) ≤ y := by linarith
  have h3 : 0 < 1 - F.u := by linarith
  have hy0 : 0 < y := lt_of_lt_of_le (by positivity) hy
  refine ⟨hy0, abs_le.2 ⟨?_, ?_⟩⟩
  · have := log_le_log (by positivity) hy
    rw [log_mul hx.ne' h3.ne'] at this
    unfold Arith.L; linarith
  · have h4 : y * (1 - F.u) ≤ x := by
      have : y ≤ x * (1 + F.u) := by linarith
      calc y * (1 - F.u) ≤ x * (1 + F.u) * (1 - F.u) := mul_le_mul_of_nonneg_right this h3.le
        _ = x * (1 - F.u ^ 2) := by ring
        _ ≤ x := by nlinarith [sq_nonneg F.u]
    have := log_le_log (by positivity) h4
    rw [log_mul hy0.ne' h3.ne'] at this
    unfold Arith.L; linarith

theorem Close.rnd {d x y : ℝ} (hu : F.u ≤ 1 / 64) (h : Close F d x y) : Close F (d + 1) x (F.rnd y) := by
  obtain ⟨h0, h1⟩ := log_of_rel hu h.2.1 (by have := F.rnd_rel y; rwa [abs_of_pos h.2.1] at this)
  refine ⟨h.1, h0, ?_⟩
  have := h.2.2
  calc |log (F.rnd y) - log x| = |(log (F.rnd y) - log y) + (log y - log x)| := by ring_nf
    _ ≤ _ := abs_add_le _ _
    _ ≤ (d + 1) * F.L := by linarith

theorem Close.mul {d e x y z w : ℝ} (hu : F.u ≤ 1 / 64) (h : Close F d x y) (k : Close F e z w) :
    Close F (d + e + 1) (x * z) (F.mul y w) := by
  refine Close.rnd hu ⟨mul_pos h.1 k.1, mul_pos h.2.1 k.2.1, ?_⟩
  rw [log_mul h.1.ne' k.1.ne', log_mul h.2.1.ne' k.2.1.ne']
  calc _ = |(log y - log x) + (log w - log z)| := by ring_nf
    _ ≤ _ := abs_add_le _ _
    _ ≤ (d + e) * F.L := by linarith [h.2.2, k.2.2]

theorem Close.div {d e x y z w : ℝ} (hu : F.u ≤ 1 / 64) (h : Close F d x y) (k : Close F e z w) :
    ∃ v, F.div y w = .ok v ∧ Close F (d + e + 1) (x / z) v := by
  refine ⟨_, by unfold Arith.div; rw [if_neg k.2.1.ne'], Close.rnd hu ⟨div_pos h.1 k.1, div_pos h.2.1 k.2.1, ?_⟩⟩
  rw [log_div h.1.ne' k.1.ne', log_div h.2.1.ne' k.2.1.ne']
  calc _ = |(log y - log x) - (log w - log z)| := by ring_nf
    _ ≤ _ := abs_sub _ _
    _ ≤ (d + e) * F.L := by linarith [h.2.2, k.2.2]

theorem Close.bounds {d x y : ℝ} (h : Close F d x y) : y ≤ x * exp (d * F.L) ∧ x ≤ y * exp (d * F.L) := by
  obtain ⟨h0, h1, h2⟩ := h
  obtain ⟨h3, h4⟩ := abs_le.1 h2
  constructor
  · rw [← exp_log h1, ← exp_log h0, ← exp_add, exp_le_exp]; linarith
  · rw [← exp_log h1, ← exp_log h0, ← exp_add, exp_le_exp]; linarith

theorem Close.of_bounds {d x y : ℝ} (h0 : 0 < x) (h1 : 0 < y) (h2 : y ≤ x * exp (d * F.L)) (h3 : x ≤ y * exp (d * F.L)) : Close F d x y := by
  refine ⟨h0, h1, abs_le.2 ⟨?_, ?_⟩⟩
  · have := log_le_log h0 h3
    rw [log_mul h1.ne' (exp_pos _).ne', log_exp] at this
    linarith
  · have := log_le_log h1 h2
    rw [log_mul h0.ne' (exp_pos _).ne', log_exp] at this
    linarith

theorem Close.add {d x y z w : ℝ} (hu : F.u ≤ 1 / 64) (h : Close F d x y) (k : Close F d z w) :
    Close F (d + 1) (x + z) (F.add y w) := by
  obtain ⟨a, b⟩ := h.bounds
  obtain ⟨a', b'⟩ := k.bounds
  exact Close.rnd hu (Close.of_bounds (add_pos h.1 k.1) (add_pos h.2.1 k.2.1) (by linarith) (by linarith))

theorem Close.sq {d x y : ℝ} (hu : F.u ≤ 1 / 64) (h : Close F d x y) : Close F (2 * d + 1) (x ^ 2) (F.sq y) := by
  refine Close.rnd hu ⟨pow_pos h.1 2, pow_pos h.2.1 2, ?_⟩
  rw [log_pow, log_pow]
  push_cast
  rw [← mul_sub, abs_mul, abs_of_pos (by norm_num : (0 : ℝ) < 2)]
  linarith [h.2.2]

theorem Close.sqrt {d x y : ℝ} (hu : F.u ≤ 1 / 64) (h : Close F d x y) :
    ∃ v, F.sqrt y = .ok v ∧ Close F (d / 2 + 1) (√x) v := by
  refine ⟨_, by unfold Arith.sqrt; rw [if_neg (not_lt.2 h.2.1.le)], Close.rnd hu ⟨sqrt_pos.2 h.1, sqrt_pos.2 h.2.1, ?_⟩⟩
  rw [log_sqrt h.1.le, log_sqrt h.2.1.le, ← sub_div, abs_div, abs_of_pos (by norm_num : (0 : ℝ) < 2)]
  linarith [h.2.2]

/-- subtraction of arguments (floating point numbers) -/
theorem Close.sub_exact {x z : ℝ} (hu : F.u ≤ 1 / 64) (h : z < x) : Close F 1 (x - z) (F.sub x z) := by
  have := Close.rnd hu (Close.refl (F := F) (sub_pos.2 h))
  rwa [zero_add] at this

theorem exp_small {t : ℝ} (h0 : 0 ≤ t) (h1 : t ≤ 1 / 12) : exp t ≤ 1 + 13 / 12 * t ∧ exp t ≤ 12 / 11 := by
  have h2 : exp t ≤ 1 / (1 - t) := by
    rw [le_div_iff₀ (by linarith)]
    have := add_one_le_exp (-t)
    calc exp t * (1 - t) ≤ exp t * exp (-t) := by
          apply mul_le_mul_of_nonneg_left _ (exp_pos _).le; linarith
      _ = 1 := by rw [← exp_add]; simp
  constructor
  · have h4 := Real.abs_exp_sub_one_sub_id_le (x := t) (by rw [abs_of_nonneg h0]; linarith)
    have h5 := (abs_le.1 h4).2
    nlinarith
  · refine h2.trans ?_
    rw [div_le_div_iff₀ (by linarith) (by norm_num)]; linarith

/-- negative numbers -/
theorem Close.rnd_neg {d x y : ℝ} (hu : F.u ≤ 1 / 64) (h : Close F d x y) : Close F (d + 1) x (-(F.rnd (-y))) := by
  have h1 := F.rnd_rel (-y)
  rw [abs_neg, abs_of_pos h.2.1] at h1
  obtain ⟨h0, h1⟩ := log_of_rel (y := -(F.rnd (-y))) hu h.2.1 (by rwa [abs_sub_comm, sub_neg_eq_add, add_comm, ← sub_neg_eq_add])
  refine ⟨h.1, h0, ?_⟩
  have := h.2.2
  calc |log (-(F.rnd (-y))) - log x| = |(log (-(F.rnd (-y))) - log y) + (log y - log x)| := by ring_nf
    _ ≤ _ := abs_add_le _ _
    _ ≤ (d + 1) * F.L := by linarith

/-- relative error of a quantity known up to at most five roundings -/
theorem Close.rel {j x y : ℝ} (hu : F.u ≤ 1 / 64) (hj : 0 ≤ j) (hj5 : j ≤ 5) (h : Close F j x y) : |y - x| ≤ 13 / 12 * (j * F.L) * x := by
  have hL := L_nonneg hu
  have hL' := L_le' hu
  obtain ⟨a, b⟩ := h.bounds
  have t0 : 0 ≤ j * F.L := by positivity
  have t1 : j * F.L ≤ 1 / 12 := by nlinarith
  obtain ⟨e1, -⟩ := exp_small t0 t1
  have e0 : 1 ≤ exp (j * F.L) := one_le_exp t0
  have hx := h.1
  have hy := h.2.1
  refine abs_le.2 ⟨?_, ?_⟩
  · by_cases hyx : y ≤ x
    · nlinarith
    · have : 0 ≤ 13 / 12 * (j * F.L) * x := by positivity
      linarith
  · nlinarith

/-- powers: relative error of the base multiplied by the exponent, relative error of the exponent
multiplied by the logarithm of the power -/
theorem Close.pow {d j b b' e e' : ℝ} (hu : F.u ≤ 1 / 64) (hd : 0 ≤ d) (hj : 0 ≤ j) (hj5 : j ≤ 5) (hb : Close F d b b')
    (he : |e' - e| ≤ 13 / 12 * (j * F.L) * |e|) :
    ∃ v, F.pow b' e' = .ok v ∧ Close F (12 / 11 * (|e| * d) + 13 / 12 * (j * (|e| * |log b|)) + 1) (b ^ e) v := by
  have hL := L_nonneg hu
  have hL' := L_le' hu
  refine ⟨F.pw b' e', by unfold Arith.pow; rw [if_pos (Or.inl hb.2.1)], ?_⟩
  have p0 : 0 < b' ^ e' := rpow_pos_of_pos hb.2.1 _
  have p1 : 0 < b ^ e := rpow_pos_of_pos hb.1 _
  obtain ⟨h0, h1⟩ := log_of_rel hu p0 (F.pw_rel b' e' hb.2.1)
  refine ⟨p1, h0, ?_⟩
  rw [log_rpow hb.2.1] at h1
  rw [log_rpow hb.1]
  have t1 : j * F.L ≤ 5 / 63 := by nlinarith
  have e1 : |e'| ≤ 12 / 11 * |e| := by
    have : |e'| ≤ |e| + |e' - e| := by
      calc |e'| = |e + (e' - e)| := by ring_nf
        _ ≤ _ := abs_add_le _ _
    have : 0 ≤ |e| := abs_nonneg _
    nlinarith
  have h2 : |e' * log b' - e * log b| ≤ (12 / 11 * (|e| * d) + 13 / 12 * (j * (|e| * |log b|))) * F.L := by
    calc |e' * log b' - e * log b| = |e' * (log b' - log b) + (e' - e) * log b| := by ring_nf
      _ ≤ _ := abs_add_le _ _
      _ = |e'| * |log b' - log b| + |e' - e| * |log b| := by rw [abs_mul, abs_mul]
      _ ≤ (12 / 11 * |e|) * (d * F.L) + (13 / 12 * (j * F.L) * |e|) * |log b| := by
          have := hb.2.2
          gcongr
      _ = _ := by ring
  calc |log (F.pw b' e') - e * log b| = |(log (F.pw b' e') - e' * log b') + (e' * log b' - e * log b)| := by ring_nf
    _ ≤ _ := abs_add_le _ _
    _ ≤ _ := by linarith

/-- subtraction with condition number `κ = (x + z) / (x - z)` -/
theorem Close.sub {d x y z w κ : ℝ} (hu : F.u ≤ 1 / 64) (hd : 0 ≤ d) (hxz : z < x) (hκ1 : 1 ≤ κ) (hκ : x + z ≤ κ * (x - z))
    (hs : κ * (d * F.L) ≤ 1 / 3) (hd12 : d * F.L ≤ 1 / 12) (h : Close F d x y) (k : Close F d z w) : Close F (2 * κ * d + 1) (x - z) (F.sub y w) := by
  have hL := L_nonneg hu
  have hL' := L_le' hu
  obtain ⟨a, b⟩ := h.bounds
  obtain ⟨a', b'⟩ := k.bounds
  obtain ⟨D, hD⟩ : ∃ D, D = d * F.L := ⟨_, rfl⟩
  rw [← hD] at a b a' b' hs
  have t0 : 0 ≤ D := by rw [hD]; positivity
  have t1 : D ≤ 1 / 12 := by rw [hD]; exact hd12
  obtain ⟨e1, -⟩ := exp_small t0 t1
  have e2 : exp D * (1 - D) ≤ 1 := by
    have := add_one_le_exp (-D)
    calc exp D * (1 - D) ≤ exp D * exp (-D) := by
          apply mul_le_mul_of_nonneg_left _ (exp_pos _).le; linarith
      _ = 1 := by rw [← exp_add]; simp
  obtain ⟨hx, hy, -⟩ := h
  obtain ⟨hz, hw, -⟩ := k
  have y1 : x * (1 - D) ≤ y := by
    calc x * (1 - D) ≤ y * exp D * (1 - D) := mul_le_mul_of_nonneg_right b (by linarith)
      _ = y * (exp D * (1 - D)) := by ring
      _ ≤ y := by nlinarith
  have w1 : z * (1 - D) ≤ w := by
    calc z * (1 - D) ≤ w * exp D * (1 - D) := mul_le_mul_of_nonneg_right b' (by linarith)
      _ = w * (exp D * (1 - D)) := by ring
      _ ≤ w := by nlinarith
  have y2 : y ≤ x * (1 + 13 / 12 * D) := a.trans (mul_le_mul_of_nonneg_left e1 hx.le)
  have w2 : w ≤ z * (1 + 13 / 12 * D) := a'.trans (mul_le_mul_of_nonneg_left e1 hz.le)
  have hp : 0 < x - z := sub_pos.2 hxz
  have m1 : D * (x + z) ≤ D * (κ * (x - z)) := mul_le_mul_of_nonneg_left hκ t0
  have hDz : 0 ≤ D * z := mul_nonneg t0 hz.le
  have hDx : 0 ≤ D * x := mul_nonneg t0 hx.le
  have lo : (x - z) * (1 - 13 / 12 * (κ * D)) ≤ y - w := by nlinarith only [m1, hDx, y1, w2]
  have up : y - w ≤ (x - z) * (1 + 13 / 12 * (κ * D)) := by nlinarith only [m1, hDz, y2, w1]
  have s0 : 0 ≤ κ * D := by positivity
  have hE := add_one_le_exp (2 * κ * d * F.L)
  have hE' : 2 * κ * d * F.L = 2 * (κ * D) := by rw [hD]; ring
  rw [hE'] at hE
  have pos : 0 < y - w := lt_of_lt_of_le (mul_pos hp (by linarith)) lo
  refine Close.rnd hu (Close.of_bounds hp pos ?_ ?_)
  · rw [hE']
    exact up.trans (mul_le_mul_of_nonneg_left (by linarith) hp.le)
  · rw [hE']
    calc x - z ≤ (x - z) * ((1 - 13 / 12 * (κ * D)) * (2 * (κ * D) + 1)) := by
          have : 1 ≤ (1 - 13 / 12 * (κ * D)) * (2 * (κ * D) + 1) := by nlinarith only [s0, hs]
          nlinarith only [hp, this]
      _ ≤ (x - z) * ((1 - 13 / 12 * (κ * D)) * exp (2 * (κ * D))) := by
          apply mul_le_mul_of_nonneg_left _ hp.le
          apply mul_le_mul_of_nonneg_left hE (by linarith)
      _ = (x - z) * (1 - 13 / 12 * (κ * D)) * exp (2 * (κ * D)) := by ring
      _ ≤ (y - w) * exp (2 * (κ * D)) := mul_le_mul_of_nonneg_right lo (exp_pos _).le

/-- closeness from an absolute error -/
theorem Close.of_abs {c x y : ℝ} (hu : F.u ≤ 1 / 64) (hc : 0 ≤ c) (hcu : c * F.u ≤ 12 / 64) (hx : 0 < x) (h : |y - x| ≤ c * F.u * x) : Close F (5 / 4 * c) x y := by
  have h0 := F.u_nonneg
  have hL := L_ge hu
  obtain ⟨h1, h2⟩ := abs_le.1 h
  have hcu0 : 0 ≤ c * F.u := by positivity
  have lo : x * (1 - c * F.u) ≤ y := by linarith
  have hy : 0 < y := lt_of_lt_of_le (by apply mul_pos hx; linarith) lo
  have hE := add_one_le_exp (5 / 4 * c * F.L)
  have hE' : 1 + 5 / 4 * (c * F.u) ≤ exp (5 / 4 * c * F.L) := by nlinarith
  refine Close.of_bounds hx hy ?_ ?_
  · nlinarith
  · calc x ≤ x * ((1 - c * F.u) * (1 + 5 / 4 * (c * F.u))) := by
          have : 1 ≤ (1 - c * F.u) * (1 + 5 / 4 * (c * F.u)) := by nlinarith
          nlinarith
      _ ≤ x * ((1 - c * F.u) * exp (5 / 4 * c * F.L)) := by
          apply mul_le_mul_of_nonneg_left _ hx.le
          apply mul_le_mul_of_nonneg_left hE' (by linarith)
      _ = x * (1 - c * F.u) * exp (5 / 4 * c * F.L) := by ring
      _ ≤ _ := mul_le_mul_of_nonneg_right lo (exp_pos _).le

/-! ### rounding to `p` binary digits -/

/-- nearest number with `p` significant binary digits (unbounded exponent) -/
noncomputable def fl (p : ℕ) (x : ℝ) : ℝ :=
  if x = 0 then 0 else (round (x / 2 ^ (Int.log 2 |x| - p + 1)) : ℝ) * 2 ^ (Int.log 2 |x| - p + 1)

theorem fl_rel (p : ℕ) (x : ℝ) : |fl p x - x| ≤ (2 : ℝ)⁻¹ ^ p * |x| := by
  unfold fl
  split_ifs with h
  · simp [h]
  · have hx : 0 < |x| := abs_pos.2 h
    have q : (0 : ℝ) < 2 ^ (Int.log 2 |x| - p + 1) := by positivity
    obtain ⟨e, he⟩ : ∃ e, e = Int.log 2 |x| := ⟨_, rfl⟩
    have h1 : (2 : ℝ) ^ e ≤ |x| := by
      have := Int.zpow_log_le_self (R := ℝ) (b := 2) (by norm_num) hx
      rw [he]; exact_mod_cast this
    rw [← he] at q ⊢
    have h2 := abs_sub_round (x / 2 ^ (e - p + 1))
    have e1 : (round (x / 2 ^ (e - p + 1)) : ℝ) * 2 ^ (e - p + 1) - x = -(x / 2 ^ (e - p + 1) - round (x / 2 ^ (e - p + 1))) * 2 ^ (e - p + 1) := by
      field_simp
      ring
    rw [e1, abs_mul, abs_neg, abs_of_pos q]
    calc _ ≤ 1 / 2 * (2 : ℝ) ^ (e - p + 1) := mul_le_mul_of_nonneg_right h2 q.le
      _ = (2 : ℝ)⁻¹ ^ p * 2 ^ e := by
          rw [zpow_add₀ (by norm_num), zpow_sub₀ (by norm_num), zpow_one, zpow_natCast, inv_pow]
          field_simp
      _ ≤ _ := mul_le_mul_of_nonneg_left h1 (by positivity)

/-- binary floating point numbers with `p` digits, correctly rounded, with a correctly rounded `pow` -/
noncomputable def binary (p : ℕ) : Arith where
  u := (2 : ℝ)⁻¹ ^ p
  rnd := fl p
  pw := fun b e => fl p (b ^ e)
  u_nonneg := by positivity
  rnd_rel := fl_rel p
  pw_rel := fun b e hb => by
    have := fl_rel p (b ^ e)
    rwa [abs_of_pos (rpow_pos_of_pos hb e)] at this

end Aerokit.Rounded
