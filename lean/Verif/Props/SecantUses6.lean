import Verif.Lemmas.OldPM2
import Verif.Lemmas.ArrayPM
import Verif.Lemmas.MinAngle
import Verif.Props.SecantUses5
import Verif.Props.SecantBounds

/-!
# C96: convergence of the search of `old_Mach_PrandtlMeyer` below Mach 2

`secant_solve` started at 2 with 19 iterations, default gas.
-/

namespace Aerokit.Props
open Real Supersonic IterativeSolve
open ScipyNewton (chord chord_slope Slopes)

/-! ## values of the Prandtl–Meyer angle -/

theorem pra_two_eq : pra 2 = 2 * √6 * arctan (√3 - √2) - π / 3 := by
  have s2 : √2 ^ 2 = (2:ℝ) := Real.sq_sqrt (by norm_num)
  have s3 : √3 ^ 2 = (3:ℝ) := Real.sq_sqrt (by norm_num)
  have p2 : 0 < √2 := by positivity
  have p3 : 0 < √3 := by positivity
  have e6 : √6 = √2 * √3 := by rw [← Real.sqrt_mul (by norm_num)]; norm_num
  have hK : pmC (7/5) = √6 := by unfold pmC; norm_num
  have hat : arctan (√3) = π / 3 := by
    rw [← Real.tan_pi_div_three]
    exact Real.arctan_tan (by linarith [Real.pi_pos]) (by linarith [Real.pi_pos])
  have h23 : √2 < √3 := Real.sqrt_lt_sqrt (by norm_num) (by norm_num)
  have hx : √3 - √2 < 1 := by
    have : √3 < √2 + 1 := by nlinarith
    linarith
  have h2 := Real.two_mul_arctan (x := √3 - √2) (by linarith) hx
  have e : 2 * (√3 - √2) / (1 - (√3 - √2) ^ 2) = √3 / √6 := by
    have h1 : 1 - (√3 - √2) ^ 2 = 2 * √2 * (√3 - √2) := by nlinarith
    have h0 : √3 - √2 ≠ 0 := by linarith
    rw [h1, e6]; field_simp
  rw [e] at h2
  unfold pra pmr pmRad
  rw [hK, show √((2:ℝ) ^ 2 - 1) = √3 by norm_num, hat, ← h2]
  ring

theorem root_bounds : (31783/100000 : ℝ) ≤ √3 - √2 ∧ √3 - √2 ≤ 31784/100000 ∧ (244948/100000 : ℝ) ≤ √6 ∧ √6 ≤ 244950/100000 := by
  have a1 : (173205080/100000000 : ℝ) ≤ √3 := Real.le_sqrt_of_sq_le (by norm_num)
  have a2 : √3 ≤ (173205081/100000000 : ℝ) := (Real.sqrt_le_left (by norm_num)).2 (by norm_num)
  have b1 : (141421356/100000000 : ℝ) ≤ √2 := Real.le_sqrt_of_sq_le (by norm_num)
  have b2 : √2 ≤ (141421357/100000000 : ℝ) := (Real.sqrt_le_left (by norm_num)).2 (by norm_num)
  refine ⟨by linarith, by linarith, Real.le_sqrt_of_sq_le (by norm_num), (Real.sqrt_le_left (by norm_num)).2 (by norm_num)⟩

theorem pra_two : 4572/10000 ≤ pra 2 ∧ pra 2 ≤ 4608/10000 := by
  obtain ⟨x1, x2, k1, k2⟩ := root_bounds
  rw [pra_two_eq]
  obtain ⟨x, hx⟩ : ∃ x, x = √3 - √2 := ⟨_, rfl⟩
  rw [← hx] at x1 x2 ⊢
  have x0 : 0 ≤ x := by linarith
  have hp := Real.pi_gt_d4
  have hp' := Real.pi_lt_d4
  have hup : arctan x ≤ 3078/10000 := by
    refine (arctan_le_poly x0).trans ?_
    have h3 : (31783/100000 : ℝ) ^ 3 ≤ x ^ 3 := pow_le_pow_left₀ (by norm_num) x1 3
    have h5 : x ^ 5 ≤ (31784/100000) ^ 5 := pow_le_pow_left₀ x0 x2 5
    norm_num at h3 h5; linarith
  have hlo : 3076/10000 ≤ arctan x := by
    refine le_trans ?_ (arctan_ge_poly x0)
    have h3 : x ^ 3 ≤ (31784/100000) ^ 3 := pow_le_pow_left₀ x0 x2 3
    have h5 : (31783/100000 : ℝ) ^ 5 ≤ x ^ 5 := pow_le_pow_left₀ (by norm_num) x1 5
    have h7 : x ^ 7 ≤ (31784/100000) ^ 7 := pow_le_pow_left₀ x0 x2 7
    norm_num at h3 h5 h7; linarith
  norm_num at hp hp'
  constructor
  · have : 244948/100000 * (3076/10000) ≤ √6 * arctan x := mul_le_mul k1 hlo (by norm_num) (Real.sqrt_nonneg _)
    linarith
  · have : √6 * arctan x ≤ 244950/100000 * (3078/10000) := mul_le_mul k2 hup (by linarith) (by norm_num)
    linarith

theorem pra_one : pra 1 = 0 := by
  unfold pra pmr; norm_num [pmRad_zero]

/-- lower bound of an increment from the slope at its beginning -/
theorem pra_inc {a b lo : ℝ} (ha : 1 ≤ a) (hab : a ≤ b) (hb : b ^ 2 ≤ 5/2) (h0 : 0 ≤ lo) (h : lo ^ 2 * (a ^ 2 * (5 + a ^ 2) ^ 2) ≤ 25 * (a ^ 2 - 1)) : lo * (b - a) ≤ pra b - pra a :=
  (mul_le_mul_of_nonneg_right (le_sl ha h0 h) (by linarith)).trans (pra_near ha hab hb).1

theorem pra_lows : 93/10000 ≤ pra (106/100) ∧ 134/10000 ≤ pra (1075/1000) ∧ 206/10000 ≤ pra (11/10) ∧ 335/10000 ≤ pra (114/100) ∧ 567/10000 ≤ pra (12/10) := by
  have i0 := pra_le (a := 1) (b := 101/100) le_rfl (by norm_num)
  rw [pra_one] at i0
  have i1 := pra_inc (a := 101/100) (b := 102/100) (lo := 1165/10000) (by norm_num) (by norm_num) (by norm_num) (by norm_num) (by norm_num)
  have i2 := pra_inc (a := 102/100) (b := 103/100) (lo := 163/1000) (by norm_num) (by norm_num) (by norm_num) (by norm_num) (by norm_num)
  have i3 := pra_inc (a := 103/100) (b := 104/100) (lo := 1975/10000) (by norm_num) (by norm_num) (by norm_num) (by norm_num) (by norm_num)
  have i4 := pra_inc (a := 104/100) (b := 105/100) (lo := 2255/10000) (by norm_num) (by norm_num) (by norm_num) (by norm_num) (by norm_num)
  have i5 := pra_inc (a := 105/100) (b := 106/100) (lo := 2495/10000) (by norm_num) (by norm_num) (by norm_num) (by norm_num) (by norm_num)
  have i6 := pra_inc (a := 106/100) (b := 1075/1000) (lo := 2705/10000) (by norm_num) (by norm_num) (by norm_num) (by norm_num) (by norm_num)
  have i7 := pra_inc (a := 1075/1000) (b := 11/10) (lo := 298/1000) (by norm_num) (by norm_num) (by norm_num) (by norm_num) (by norm_num)
  have i8 := pra_inc (a := 11/10) (b := 114/100) (lo := 335/1000) (by norm_num) (by norm_num) (by norm_num) (by norm_num) (by norm_num)
  have i9 := pra_inc (a := 114/100) (b := 12/10) (lo := 381/1000) (by norm_num) (by norm_num) (by norm_num) (by norm_num) (by norm_num)
  norm_num at i0 i1 i2 i3 i4 i5 i6 i7 i8 i9 ⊢
  refine ⟨?_, ?_, ?_, ?_, ?_⟩ <;> linarith

/-! ## the first chord -/

theorem old_chord {r : ℝ} : ∃ c s, 481/1000 ≤ s ∧ s ≤ 4815/10000 ∧ (2 - c) * s = pra 2 - pra r ∧
    chord (999/500) 2 (pra (999/500) - pra r) (pra 2 - pra r) = c := by
  obtain ⟨s1, s2⟩ := pra_int (a := 999/500) (b := 2) (lo := 481/1000) (hi := 4815/10000) (by norm_num) (by norm_num) (by
    intro M h1 h2
    refine ⟨sl_low (A := 999/500) (B := 2) (by norm_num) h1.le h2.le (by norm_num) (by norm_num) (by norm_num), ?_⟩
    have : sl M ≤ sl (999/500) := pmSlope_antitone (by norm_num) (by norm_num) h1.le
    exact this.trans (sl_le (by norm_num) (by norm_num) (by norm_num)))
  have hd : (0:ℝ) < 2 - 999/500 := by norm_num
  obtain ⟨s, hs⟩ : ∃ s, s = (pra 2 - pra (999/500)) / (2 - 999/500) := ⟨_, rfl⟩
  have hs' : pra 2 - pra (999/500) = s * (2 - 999/500) := by rw [hs, div_mul_cancel₀ _ hd.ne']
  have hs1 : 481/1000 ≤ s := by rw [hs, le_div_iff₀ hd]; exact s1
  have hs2 : s ≤ 4815/10000 := by rw [hs, div_le_iff₀ hd]; exact s2
  have s0 : 0 < s := lt_of_lt_of_le (by norm_num) hs1
  have hc' := (chord_slope (x := 999/500) (y := 2) (Fx := pra (999/500) - pra r) (Fy := pra 2 - pra r) (by rw [sub_sub_sub_cancel_right]; exact hs') s0.ne' (by norm_num)).1
  refine ⟨_, s, hs1, hs2, ?_, hc'⟩
  field_simp; ring

/-- the slope is below that of the first chord up to Mach 1.2 -/
theorem pra_flat {a b : ℝ} (ha : 1 ≤ a) (hab : a ≤ b) (hb : b ≤ 12/10) : pra b - pra a ≤ 436/1000 * (b - a) :=
  (pra_near ha hab (by nlinarith)).2.trans (mul_le_mul_of_nonneg_right ((sl_mono (by linarith) hb (by norm_num)).trans (sl_le (by norm_num) (by norm_num) (by norm_num))) (by linarith))

/-! ## the search -/

/-- the function searched -/
local notation "pmf" => fun m => PrandtlMeyer_Mach m (7/5)

theorem old_K : (180 / π : ℝ) ≠ 0 := by have := Real.pi_pos; positivity

theorem old_tol : (0:ℝ) < defaultTol := by unfold defaultTol; norm_num

theorem old_f {r x : ℝ} (hx : 1 ≤ x) : pmf x = .ok (180 / π * (pra x - pra r) + pmDeg (7/5) r) := old_pm_fun (by norm_num) hx

/-- from Mach 1.2 to 2 -/
theorem old_mid {r c : ℝ} (h1 : 12/10 ≤ r) (h2 : r ≤ 2) {s : ℝ} (s1 : 481/1000 ≤ s) (s2 : s ≤ 4815/10000) (hc : (2 - c) * s = pra 2 - pra r) :
    ∃ m, secantLoop pmf (pmDeg (7/5) r) defaultTol 18 (999/500) (180 / π * (pra (999/500) - pra r) + pmDeg (7/5) r) c = .ok ⟨m, false⟩ ∧ 1 ≤ m := by
  have b : 429/1000 * (2 - r) ≤ pra 2 - pra r ∧ pra 2 - pra r ≤ 5165/10000 * (2 - r) := by
    rcases h2.eq_or_lt with e | e
    · rw [e]; simp
    · exact pra_int (by linarith) e (fun M m1 m2 => ⟨sl_low (A := 12/10) (B := 2) (by norm_num) (h1.trans m1.le) m2.le (by norm_num) (by norm_num) (by norm_num), (sl_top (by linarith)).trans (by norm_num)⟩)
  have lo : r - 3/40 * (2 - r) ≤ c := by nlinarith
  have hi : c ≤ r + 11/100 * (2 - r) := by nlinarith
  have S := pra_slopes_mid (pra r)
  obtain ⟨m, e1, e2⟩ := is_slopes2 (κ := 4/10) (d := 88/1000) (tol := defaultTol) (r := r) (K := 180 / π) (w := pmDeg (7/5) r) (f := pmf) S (by norm_num) ⟨by norm_num; linarith, by norm_num; linarith⟩ (sub_self _) old_K
    (fun x hx => old_f (by have := hx.1; norm_num at this; linarith)) (by norm_num) (by norm_num) (by norm_num) old_tol (by norm_num; linarith) (by norm_num; linarith) 16 (999/500) c
    ⟨by norm_num, by norm_num⟩ ⟨by norm_num; linarith, by norm_num; linarith⟩ (by rw [abs_le]; constructor <;> linarith) (by unfold defaultTol; norm_num)
  exact ⟨m, e1, by have := e2.1; norm_num at this; linarith⟩

theorem old_slopes {A B μ ν : ℝ} (c : ℝ) (hA : 1 < A) (hB : B ^ 2 ≤ 5/2) (μ0 : 0 ≤ μ) (ν0 : 0 ≤ ν) (hAB : A ≤ B) (h1 : μ ^ 2 * (A ^ 2 * (5 + A ^ 2) ^ 2) ≤ 25 * (A ^ 2 - 1)) (h2 : 25 * (B ^ 2 - 1) ≤ ν ^ 2 * (B ^ 2 * (5 + B ^ 2) ^ 2)) :
    Slopes (fun x => pra x - c) A B μ ν :=
  pra_slopes hA fun M hM => ⟨(le_sl hA.le μ0 h1).trans (sl_mono hA.le hM.1 (by nlinarith [hM.1, hM.2])), (sl_mono (by linarith [hM.1]) hM.2 hB).trans (sl_le (by linarith) ν0 h2)⟩

/-- the first chord ends at the left of the root -/
theorem old_left {r c A B μ ν d κ : ℝ} (hcr : c ≤ r) (hr2 : r ≤ 12/10) (hd : r - c ≤ d) (hA : 105/100 ≤ A) (hAc : A ≤ c) (S : Slopes (fun x => pra x - pra r) A B μ ν) (hμ : 0 < μ)
    (hκ : ν / μ - 1 ≤ κ) (κ0 : 0 ≤ κ) (κ1 : κ < 1) (dA : A ≤ r - 108/100 * d) (dB : r + 108/100 * d ≤ B) (hk : κ ^ 15 * (108/100 * d) * (1 + κ) ≤ defaultTol) :
    ∃ m, secantLoop pmf (pmDeg (7/5) r) defaultTol 18 (999/500) (180 / π * (pra (999/500) - pra r) + pmDeg (7/5) r) c = .ok ⟨m, false⟩ ∧ 1 ≤ m := by
  have d0 : 0 ≤ d := by linarith
  have S1 : Slopes (fun x => pra x - pra r) (105/100) 2 (2495/10000) (5165/10000) := pra_slopes (by norm_num)
    (fun M hM => ⟨sl_low (A := 105/100) (B := 2) (by norm_num) hM.1 hM.2 (by norm_num) (by norm_num) (by norm_num), (sl_top (by linarith [hM.1])).trans (by norm_num)⟩)
  obtain ⟨t1, t2, -⟩ := S1.step (by norm_num) (r := r) ⟨by linarith, by linarith⟩ (sub_self _) (x := 999/500) (y := c) ⟨by norm_num, by norm_num⟩ ⟨by linarith, by linarith⟩ (by linarith)
  rw [show (18 : ℕ) = 17 + 1 from rfl, is_turn (f := pmf) (F := fun x => pra x - pra r) old_K (old_f (by linarith)) t1 (by
    rw [abs_sub_comm, abs_of_pos (by linarith), abs_of_pos (by linarith), max_lt_iff]
    unfold defaultTol
    constructor <;> norm_num <;> linarith)]
  obtain ⟨c2, hc2⟩ : ∃ c2, c2 = chord (999/500) c (pra (999/500) - pra r) (pra c - pra r) := ⟨_, rfl⟩
  rw [← hc2] at t2 ⊢
  have t3 : |c2 - r| ≤ 108/100 * d := by
    refine t2.trans ?_
    rw [abs_sub_comm, abs_of_nonneg (by linarith : 0 ≤ r - c)]
    refine mul_le_mul (by norm_num) hd (by linarith) (by norm_num)
  obtain ⟨u1, u2⟩ := abs_le.1 t3
  have hκd : κ * (108/100 * d) ≤ 108/100 * d := by nlinarith
  obtain ⟨m, e1, e2⟩ := is_slopes2 (κ := κ) (d := 108/100 * d) (tol := defaultTol) (r := r) (K := 180 / π) (w := pmDeg (7/5) r) (f := pmf) S hμ ⟨by linarith, by linarith⟩ (sub_self _) old_K
    (fun x hx => old_f (by linarith [hx.1])) hκ κ0 κ1 old_tol (by linarith) (by linarith) 15 c c2
    ⟨hAc, by linarith⟩ ⟨by linarith, by linarith⟩ t3 hk
  exact ⟨m, e1, by linarith [e2.1]⟩

/-- from Mach 1 to 1.2 -/
theorem old_low {r c : ℝ} (h1 : 1 ≤ r) (h2 : r ≤ 12/10) {s : ℝ} (s1 : 481/1000 ≤ s) (s2 : s ≤ 4815/10000) (hc : (2 - c) * s = pra 2 - pra r) :
    ∃ m, secantLoop pmf (pmDeg (7/5) r) defaultTol 18 (999/500) (180 / π * (pra (999/500) - pra r) + pmDeg (7/5) r) c = .ok ⟨m, false⟩ ∧ 1 ≤ m := by
  obtain ⟨p1, p2⟩ := pra_two
  obtain ⟨l1, l2, l3, l4, l5⟩ := pra_lows
  rcases le_or_gt r c with h | h
  · have f1 := pra_flat le_rfl h1 h2
    rw [pra_one] at f1
    have hcr : c - r ≤ 505/10000 - 9/100 * (r - 1) := by nlinarith
    obtain ⟨m, e1, e2, -⟩ := is_right (r := r) (tol := defaultTol) (w := pmDeg (7/5) r) (K := 180 / π) (f := pmf) h1 old_K old_tol (fun x hx => old_f hx) 17 1 (196/10) c (999/500) h (by linarith) (by linarith) le_rfl
      (by norm_num) (by norm_num) (by push_cast; linarith) (by push_cast; linarith) (by unfold defaultTol; norm_num [invDist])
    exact ⟨m, e1, by linarith⟩
  -- `r - c` from the angle at the end of the zone
  have up : ∀ b D : ℝ, r ≤ b → b ≤ 12/10 → pra 2 - pra b - 481/1000 * (2 - b) ≤ 481/1000 * D → 0 ≤ D → r - c ≤ D := by
    intro b D hrb hb hD D0
    have f1 := pra_flat h1 hrb hb
    have : (r - c) * s ≤ D * s := by nlinarith
    exact le_of_mul_le_mul_right this (by linarith)
  rcases le_total r (106/100) with h3 | h3
  · exfalso
    have := up (106/100) 0 h3 (by norm_num) (by linarith) le_rfl
    linarith
  rcases le_total r (1075/1000) with h4 | h4
  · have hd := up (1075/1000) (6/1000) h4 (by norm_num) (by linarith) (by norm_num)
    exact old_left (A := 105/100) (B := 1085/1000) (μ := 2495/10000) (ν := 3145/10000) (κ := 27/100) h.le h2 hd (by norm_num) (by linarith) (old_slopes _ (by norm_num) (by norm_num) (by norm_num) (by norm_num) (by norm_num) (by norm_num) (by norm_num))
      (by norm_num) (by norm_num) (by norm_num) (by norm_num) (by linarith) (by linarith) (by unfold defaultTol; norm_num)
  rcases le_total r (11/10) with h5 | h5
  · have hd := up (11/10) (16/1000) h5 (by norm_num) (by linarith) (by norm_num)
    exact old_left (A := 105/100) (B := 112/100) (μ := 2495/10000) (ν := 3605/10000) (κ := 45/100) h.le h2 hd (by norm_num) (by linarith) (old_slopes _ (by norm_num) (by norm_num) (by norm_num) (by norm_num) (by norm_num) (by norm_num) (by norm_num))
      (by norm_num) (by norm_num) (by norm_num) (by norm_num) (by linarith) (by linarith) (by unfold defaultTol; norm_num)
  rcases le_total r (114/100) with h6 | h6
  · have hd := up (114/100) (29/1000) h6 (by norm_num) (by linarith) (by norm_num)
    exact old_left (A := 106/100) (B := 1175/1000) (μ := 2705/10000) (ν := 4118/10000) (κ := 53/100) h.le h2 hd (by norm_num) (by linarith) (old_slopes _ (by norm_num) (by norm_num) (by norm_num) (by norm_num) (by norm_num) (by norm_num) (by norm_num))
      (by norm_num) (by norm_num) (by norm_num) (by norm_num) (by linarith) (by linarith) (by unfold defaultTol; norm_num)
  · have hd := up (12/10) (41/1000) h2 (by norm_num) (by linarith) (by norm_num)
    exact old_left (A := 109/100) (B := 125/100) (μ := 321/1000) (ν := 4575/10000) (κ := 43/100) h.le h2 hd (by norm_num) (by linarith) (old_slopes _ (by norm_num) (by norm_num) (by norm_num) (by norm_num) (by norm_num) (by norm_num) (by norm_num))
      (by norm_num) (by norm_num) (by norm_num) (by norm_num) (by linarith) (by linarith) (by unfold defaultTol; norm_num)

/-! ## the theorem -/

/-- a Prandtl–Meyer angle exists only from Mach 1, and is that of `|m|` -/
theorem old_pm_inv {m v : ℝ} (h : PrandtlMeyer_Mach m (7/5) = .ok v) : 1 ≤ |m| ∧ v = 180 / π * pra |m| := by
  have h1 : 1 ≤ m ^ 2 := by
    by_contra hn
    push Not at hn
    rw [PM_err hn] at h; cases h
  have h2 : 1 ≤ |m| := by rw [← one_le_sq_iff₀ (abs_nonneg m), sq_abs]; exact h1
  refine ⟨h2, ?_⟩
  rw [PM_ok (by norm_num) h1, show Py.degrees (pmRad (pmC (7/5)) √(m ^ 2 - 1)) = pmDeg (7/5) m from rfl, pmDeg_eq_pmr] at h
  rw [← Except.ok.inj h, pra, pmr, pmr, sq_abs]

theorem old_pm_lip (a b fa fb : ℝ) (ha : PrandtlMeyer_Mach a (7/5) = .ok fa) (hb : PrandtlMeyer_Mach b (7/5) = .ok fb) : |fb - fa| ≤ 29.6 * |b - a| := by
  obtain ⟨a1, rfl⟩ := old_pm_inv ha
  obtain ⟨b1, rfl⟩ := old_pm_inv hb
  have hπ := Real.pi_gt_d4
  have hp : 0 < π := Real.pi_pos
  have hK : 180 / π ≤ 57.3 := by rw [div_le_iff₀ hp]; norm_num at hπ ⊢; linarith
  have hK0 : 0 ≤ 180 / π := by positivity
  rw [← mul_sub, abs_mul, abs_of_nonneg hK0]
  have h1 := (ArrayNewton.pra_lip b1 a1).trans (mul_le_mul_of_nonneg_left (abs_abs_sub_abs_le_abs_sub b a) (by norm_num))
  refine (mul_le_mul hK h1 (abs_nonneg _) (by norm_num)).trans ?_
  rw [← mul_assoc]
  exact mul_le_mul_of_nonneg_right (by norm_num) (abs_nonneg _)

/-- C96 (`old_Mach_PrandtlMeyer`), air, the whole range of Mach numbers up to 450: the search stops by itself (no warning)
at a Mach number of at least 1 whose Prandtl–Meyer angle is the requested one within `0.0006` degree times this Mach number. -/
theorem C96_prandtlMeyer_air (M w : ℝ) (h1 : 1 ≤ M) (h2 : M ≤ 450) (hw : PrandtlMeyer_Mach M 1.4 = Except.ok w) :
    ∃ res w', secant_run (fun m => PrandtlMeyer_Mach m 1.4) w 2.0 defaultTol = Except.ok res ∧ res.warned = false ∧
      old_Mach_PrandtlMeyer w 1.4 = Except.ok res.x ∧ 1 ≤ res.x ∧ PrandtlMeyer_Mach res.x 1.4 = Except.ok w' ∧ |w' - w| ≤ 0.0006 * res.x := by
  have hg : (1.4 : ℝ) = 7/5 := by norm_num
  rw [hg] at hw ⊢
  have key : ∃ res, secant_run (fun m => PrandtlMeyer_Mach m (7/5)) w 2.0 defaultTol = Except.ok res ∧ res.warned = false ∧ 1 ≤ res.x := by
    rcases le_total 2 M with h | h
    · obtain ⟨res, k1, k2, k3, k4, -⟩ := C96_prandtlMeyer_converges M (7/5) w (by norm_num) h h2 hw
      exact ⟨res, k1, k2, by linarith⟩
    · obtain rfl := old_pm_value (by norm_num) h1 hw
      have hrun := old_pm_first (γ := 7/5) (r := M) (by norm_num)
      change _ = secantLoop _ _ _ _ _ (180 / π * (pra (999/500) - pra M) + _) (chord _ _ (pra _ - pra M) (pra _ - pra M)) at hrun
      obtain ⟨c, s, s1, s2, hc, ec⟩ := old_chord (r := M)
      rw [ec] at hrun
      have : ∃ m, secantLoop (fun m => PrandtlMeyer_Mach m (7/5)) (pmDeg (7/5) M) defaultTol 18 (999/500) (180 / π * (pra (999/500) - pra M) + pmDeg (7/5) M) c = .ok ⟨m, false⟩ ∧ 1 ≤ m := by
        rcases le_total (12/10) M with h' | h'
        · exact old_mid h' h s1 s2 hc
        · exact old_low h1 h' s1 s2 hc
      obtain ⟨m, e1, e2⟩ := this
      exact ⟨⟨m, false⟩, hrun.trans e1, rfl, e2⟩
  obtain ⟨res, k1, k2, k3⟩ := key
  have hv := PM_ok (M := res.x) (γ := 7/5) (by norm_num) (by nlinarith)
  refine ⟨res, _, k1, k2, old_pm_eq k1, k3, hv, ?_⟩
  refine (C95_residual _ w 2.0 29.6 _ res (by norm_num [abs_of_pos]) old_pm_lip k1 k2 hv).trans ?_
  rw [abs_of_pos (by linarith), max_eq_right k3]
  refine mul_le_mul_of_nonneg_right (by norm_num) (by linarith)

example : ∃ w, PrandtlMeyer_Mach 1.1 1.4 = Except.ok w := ⟨_, PM_ok (M := 1.1) (γ := 1.4) (by norm_num) (by norm_num)⟩

end Aerokit.Props
