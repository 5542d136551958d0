import Verif.Lemmas.SecantSigma
import Verif.Lemmas.SecantPoly

/-! # Where the area ratio searches of scipy converge -/

namespace Aerokit.ScipyNewton
open MassFlow

theorem P_le {x sn sd : ℝ} (hx : 0 < x) (hd : 0 < sd) (h : (5 + x ^ 2) ^ 3 * sd ≤ 216 * x * sn) : P x ≤ sn / sd := by
  unfold P; rw [div_le_div_iff₀ (by positivity) hd]; linarith

theorem le_P {x sn sd : ℝ} (hx : 0 < x) (hd : 0 < sd) (h : 216 * x * sn ≤ (5 + x ^ 2) ^ 3 * sd) : sn / sd ≤ P x := by
  unfold P; rw [div_le_div_iff₀ hd (by positivity)]; linarith

theorem H_le {c d a b : ℝ} (ha : 0 < a) (hb : 0 < b) (h : c * ((5 + a ^ 2) ^ 2 * (1 - a ^ 2)) * b ^ 2 ≤ d * ((5 + b ^ 2) ^ 2 * (1 - b ^ 2)) * a ^ 2) :
    c * H a ≤ d * H b := by
  unfold H; rw [mul_div_assoc', mul_div_assoc', div_le_div_iff₀ (by positivity) (by positivity)]; linarith

/-- the intervals of the supersonic search -/
theorem sup_cases {s : ℝ} {Q : Prop} (h0 : 1e-3 ≤ s) (h1 : s ≤ 7)
    (L : ∀ lo xu hi, 1 < lo → lo ≤ xu → xu ≤ hi → P lo ≤ 1 + s ^ 2 → 1 + s ^ 2 ≤ P xu → (hi - lo) * H lo ≤ (xu - lo) * H xu → 11 / 5 * H lo ≤ H hi →
      1 + s ∈ Set.Icc lo hi → second (1 + s) ∈ Set.Icc lo hi → hi - lo ≤ 1 → Q)
    (R : ∀ xl hi, 1 < xl → xl ≤ 1 + s → P xl ≤ 1 + s ^ 2 → 1 + s ^ 2 ≤ P (1 + s) → 31 / 10 * H xl ≤ H hi → 1 + s ≤ hi → second (1 + s) ≤ hi → hi - xl ≤ 28 / 10 → Q) :
    Q := by
  have h0' : (1 / 1000 : ℝ) ≤ s := by norm_num at h0 ⊢; exact h0
  have hsec : second (1 + s) = (1 + s) * (1 + 1 / 10000) + 1 / 10000 := by rw [second_pos (by linarith)]; norm_num
  have left : s ≤ 277 / 100 → P (1 + s) ≤ 1 + s ^ 2 → Q := by
    intro h2 hP
    have a1 := sup_hi (s := s) (by linarith)
    have a2 := sup_room (s := s) (by linarith) h2
    have a3 := sup_kap (s := s) (by linarith) h2
    rw [pow_zero, mul_one, mul_one, one_mul] at a2 a3
    have b1 : 1 + s ^ 2 ≤ P (1 + 61 / 50 * s) := by
      have := le_P (x := 1 + 61 / 50 * s) (sn := 1 + s ^ 2) (sd := 1) (by linarith) one_pos (by linarith)
      rwa [div_one] at this
    have b2 := H_le (by linarith) (by linarith) a2
    have b3 := H_le (by linarith) (by linarith) a3
    exact L (1 + s) (1 + 61 / 50 * s) (1 + 34 / 25 * s)
      (by linarith) (by linarith) (by linarith) hP b1 (by have := mul_le_mul_of_nonneg_left b2 (show 0 ≤ s by linarith); linarith) (by linarith) ⟨le_rfl, by linarith⟩
      (by rw [hsec]; constructor <;> linarith) (by linarith)
  have right : 11 / 4 ≤ s → 1 + s ^ 2 ≤ P (1 + s) → Q := by
    intro h2 hP
    have a1 := mid_lo h2 h1
    have a3 := mid_kap h2 h1
    rw [pow_zero, mul_one, mul_one] at a3
    have b1 : P (927 / 400 + 51 / 100 * s) ≤ 1 + s ^ 2 := by
      have := P_le (x := 927 / 400 + 51 / 100 * s) (sn := 1 + s ^ 2) (sd := 1) (by linarith) one_pos (by linarith)
      rwa [div_one] at this
    have b3 := H_le (by linarith) (by linarith) a3
    exact R (927 / 400 + 51 / 100 * s) (5001 / 5000 + 10001 / 10000 * s)
      (by linarith) (by linarith) b1 hP (by linarith) (by linarith) (by rw [hsec]; linarith) (by linarith)
  rcases le_total s (11 / 4) with c | c
  · refine left (by linarith) ?_
    have a := sup_lo (s := s) (by linarith) c
    have := P_le (x := 1 + s) (sn := 1 + s ^ 2) (sd := 1) (by linarith) one_pos (by linarith)
    rwa [div_one] at this
  · rcases le_total s (277 / 100) with c' | c'
    · rcases le_total (P (1 + s)) (1 + s ^ 2) with d | d
      · exact left c' d
      · exact right c d
    · refine right c ?_
      have a := mid_hi c' h1
      have := le_P (x := 1 + s) (sn := 1 + s ^ 2) (sd := 1) (by linarith) one_pos (by linarith)
      rwa [div_one] at this

/-- the supersonic search -/
theorem sup_all {s : ℝ} (h0 : 1e-3 ≤ s) (h1 : s ≤ 7) :
    ∃ m r, scipy (sigma_residual (1 + s ^ 2) DefaultGas.gamma0) (1 + s) = .ok m ∧ 1 < r ∧ P r = 1 + s ^ 2 ∧ |m - r| ≤ 3.2e-8 ∧ 1 < m := by
  refine sup_cases h0 h1 ?_ ?_
  · intro lo xu hi a1 a2 a3 a4 a5 a6 a7 a8 a9 a10
    obtain ⟨m, r, e1, e2, e3, e4, e5, e6⟩ := supRun a1 a2 a3 a4 a5 a6 a7 a8 a9 a10
    exact ⟨m, r, e1, by linarith, e4, e5.trans (by norm_num), by linarith [e6.1]⟩
  · intro xl hi a1 a2 a3 a4 a5 a6 a7 a8
    obtain ⟨m, r, e1, e2, e3, e4, e5, e6⟩ := supRun_right a1 a2 a3 a4 a5 a6 a7 a8
    exact ⟨m, r, e1, by linarith, e4, e5, by linarith⟩

set_option maxHeartbeats 1000000 in
/-- the intervals of the subsonic search from the guess `y` -/
theorem sub_cases {y : ℝ} {Q : Prop} (h0 : 2.5e-4 ≤ y) (h1 : y ≤ 0.999)
    (L : ∀ lo xl hi, 0 < lo → lo ≤ xl → xl ≤ hi → hi < 1 → P hi ≤ 1 / (y * (2 - y)) → 1 / (y * (2 - y)) ≤ P xl → (hi - xl) * H xl ≤ (hi - lo) * H hi →
      H lo ≤ 11 / 5 * H hi → y ∈ Set.Icc lo hi → second y ∈ Set.Icc lo hi → Q) : Q := by
  have h0' : (1 / 4000 : ℝ) ≤ y := by norm_num at h0 ⊢; exact h0
  have h1' : y ≤ (999 / 1000 : ℝ) := by norm_num at h1 ⊢; exact h1
  have hsec : second y = y * (1 + 1 / 10000) + 1 / 10000 := by rw [second_pos (by linarith)]; norm_num
  have hd : 0 < y * (2 - y) := mul_pos (by linarith) (by linarith)
  rcases le_total y (1 / 100) with c | c
  · have a1 := subIIb_hi (y := y) (by linarith) c
    have a2 := subIIb_lo (y := y) (by linarith) c
    have a3 := subIIb_room (y := y) (by linarith) c
    have a4 := subIIb_kap (y := y) (by linarith) c
    rw [pow_zero, mul_one, mul_one] at a3 a4
    have b1 := P_le (by linarith) hd a1
    have b2 := le_P (by linarith) hd a2
    have b3 := H_le (by linarith) (by linarith) a3
    have b4 := H_le (by linarith) (by linarith) a4
    rw [one_mul] at b4
    exact L (1 * y) (23 / 20 * y) (141 / 100 * y)
      (by linarith) (by linarith) (by linarith) (by linarith) b1 b2 (by have := mul_le_mul_of_nonneg_left b3 (show 0 ≤ y by linarith); linarith) b4 ⟨by linarith, by linarith⟩
      (by rw [hsec]; constructor <;> linarith)
  rcases le_total y (1 / 2) with c2 | c2
  · have a1 := subIIa_hi (y := y) (by linarith) c2
    have a2 := subIIa_lo (y := y) (by linarith) c2
    have a3 := subIIa_room (y := y) (by linarith) c2
    have a4 := subIIa_kap (y := y) (by linarith) c2
    rw [pow_zero, mul_one, mul_one] at a3 a4
    have b1 := P_le (by linarith) hd a1
    have b2 := le_P (by linarith) hd a2
    have b3 := H_le (by linarith) (by linarith) a3
    have b4 := H_le (by linarith) (by linarith) a4
    rw [one_mul] at b4
    exact L (9 / 10 * y) (1 * y) (29 / 25 * y)
      (by linarith) (by linarith) (by linarith) (by linarith) b1 b2 (by have := mul_le_mul_of_nonneg_left b3 (show 0 ≤ y by linarith); linarith) b4 ⟨by linarith, by linarith⟩
      (by rw [hsec]; constructor <;> linarith)
  obtain ⟨z, hz⟩ : ∃ z, z = 1 - y := ⟨_, rfl⟩
  have hy : y = 1 - z := by linarith
  have hdz : y * (2 - y) = 1 - z ^ 2 := by rw [hy]; ring
  rw [hdz] at hd L
  rcases le_total z (1 / 10) with c3 | c3
  · have a1 := subIa_hi (z := z) (by linarith) c3
    have a2 := subIa_lo (z := z) (by linarith) c3
    have a3 := subIa_room (z := z) (by linarith) c3
    have a4 := subIa_kap (z := z) (by linarith) c3
    rw [pow_zero, mul_one, mul_one] at a3 a4
    have b1 := P_le (by linarith) hd a1
    have b2 := le_P (by linarith) hd a2
    have b3 := H_le (by linarith) (by linarith) a3
    have b4 := H_le (by linarith) (by linarith) a4
    rw [one_mul] at b4
    exact L (1 + -7 / 5 * z) (1 + -11 / 10 * z) (1 + -4 / 5 * z)
      (by linarith) (by linarith) (by linarith) (by linarith) b1 b2 (by have := mul_le_mul_of_nonneg_left b3 (show 0 ≤ z by linarith); linarith) b4 ⟨by linarith, by linarith⟩
      (by rw [hsec]; constructor <;> linarith)
  · have hz2 : z ≤ 1 / 2 := by linarith
    have a1 := subIb_hi (z := z) c3 hz2
    have a2 := subIb_lo (z := z) c3 hz2
    have a3 := subIb_room (z := z) c3 hz2
    have a4 := subIb_kap (z := z) c3 hz2
    rw [pow_zero, mul_one, mul_one] at a3 a4
    have b1 := P_le (by linarith) hd a1
    have b2 := le_P (by linarith) hd a2
    have b3 := H_le (by linarith) (by linarith) a3
    have b4 := H_le (by linarith) (by linarith) a4
    rw [one_mul] at b4
    exact L (1 + -6 / 5 * z) (1 + -11 / 10 * z) (1 + -19 / 20 * z)
      (by linarith) (by linarith) (by linarith) (by linarith) b1 b2 (by have := mul_le_mul_of_nonneg_left b3 (show 0 ≤ z by linarith); linarith) b4 ⟨by linarith, by linarith⟩
      (by rw [hsec]; constructor <;> linarith)

/-- the subsonic search from the guess `y` -/
theorem sub_all {y : ℝ} (h0 : 2.5e-4 ≤ y) (h1 : y ≤ 0.999) :
    ∃ m r, scipy (sigma_residual (1 / (y * (2 - y))) DefaultGas.gamma0) y = .ok m ∧ 0 < r ∧ r < 1 ∧ P r = 1 / (y * (2 - y)) ∧ |m - r| ≤ 1.8e-8 ∧ 0 < m ∧ m < 1 := by
  refine sub_cases h0 h1 ?_
  intro lo xl hi a1 a2 a3 a4 a5 a6 a7 a8 a9 a10
  obtain ⟨m, r, e1, e2, e3, e4, e5, e6⟩ := subRun a1 a2 a3 a4 a5 a6 a7 a8 a9 a10
  exact ⟨m, r, e1, by linarith, by linarith, e4, e5, by linarith [e6.1], by linarith [e6.2]⟩

end Aerokit.ScipyNewton
