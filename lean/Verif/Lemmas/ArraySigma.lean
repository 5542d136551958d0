import Verif.Lemmas.ArrayNewton

/-! # The area ratio searches on arrays -/

namespace Aerokit.ArrayNewton
open ScipyNewton MassFlow

theorem dx_eq : dx = (1 / 2 : ℝ) ^ (17.16 : ℝ) := by
  unfold dx
  rw [← Real.rpow_natCast, ← Real.rpow_mul (by norm_num)]
  congr 1; norm_num

theorem dx_le : dx ≤ 1 / 100000 := by
  rw [dx_eq]
  refine (Real.rpow_le_rpow_of_exponent_ge (by norm_num) (by norm_num) (show ((17 : ℕ) : ℝ) ≤ 17.16 by norm_num)).trans ?_
  rw [Real.rpow_natCast]; norm_num

theorem le_dx : 1 / 1000000 ≤ dx := by
  rw [dx_eq]
  refine le_trans ?_ (Real.rpow_le_rpow_of_exponent_ge (by norm_num) (by norm_num) (show (17.16 : ℝ) ≤ ((18 : ℕ) : ℝ) by norm_num))
  rw [Real.rpow_natCast]; norm_num

theorem second_between {x : ℝ} (h : 0 < x) : x < second x ∧ second x ≤ ScipyNewton.second x := by
  have h1 := dx_le
  have h2 := le_dx
  rw [second_pos h]
  unfold second
  rw [if_pos (show x ≥ 0 from h.le)]
  constructor
  · nlinarith
  · have : x * (1 + dx) ≤ x * (1 + 1e-4) := by
      apply mul_le_mul_of_nonneg_left _ h.le
      norm_num; linarith
    norm_num at this ⊢; linarith

/-- an entry that may be started at `x0` for the area ratio `σ`: it finds `r`, and stays where `Q` holds -/
def Starts (σ x0 r : ℝ) (Q : ℝ → Prop) : Prop :=
  ∃ R D K, Entry (fun x => P x - σ) 1.48e-8 (fun m => |m - r| ≤ K) r R D ∧ R 50 x0 (second x0) ∧ D x0 ∧ (∀ x, D x → 0 < x) ∧ K ≤ 3.2e-8 ∧ ∀ m, |m - r| ≤ K → D m → Q m

theorem subStarts {σ x0 lo xl hi : ℝ} (h0 : 0 < lo) (h1 : lo ≤ xl) (h2 : xl ≤ hi) (h3 : hi < 1) (hP : P hi ≤ σ) (hP' : σ ≤ P xl)
    (room : (hi - xl) * H xl ≤ (hi - lo) * H hi) (kap : H lo ≤ 11 / 5 * H hi) (i0 : x0 ∈ Set.Icc lo hi) (i1 : ScipyNewton.second x0 ∈ Set.Icc lo hi) :
    ∃ r, 0 < r ∧ r < 1 ∧ P r = σ ∧ Starts σ x0 r (fun m => 0 < m ∧ m < 1) := by
  obtain ⟨r, hr, er⟩ : σ ∈ P '' Set.Icc xl hi := by
    apply intermediate_value_Icc' h2 _ ⟨hP, hP'⟩
    exact P_cont.mono fun x hx => ne_of_gt (by linarith [hx.1])
  have hxl : 0 < xl := by linarith
  have hhi : 0 < hi := by linarith
  have r0 : 0 < r := by linarith [hr.1]
  have r1 : r < 1 := by linarith [hr.2]
  have hHhi := H_pos hhi h3
  have hHlo := H_pos h0 (by linarith)
  have hHr := H_pos r0 r1
  have hDD : ∀ x : ℝ, 0 < x → -D (-(-x)) (-(-x)) = 5 / 216 * H x := by
    intro x hx; rw [neg_neg, D_self hx.ne']; ring
  have mem : ∀ x, x ∈ Set.Icc (-hi) (-lo) → 0 < -x := fun x hx => by linarith [hx.2]
  have C : Conv (fun x => P (-x) - σ) (-hi) (-lo) (-r) (-D (-(-hi)) (-(-hi))) (-D (-(-lo)) (-(-lo))) (-D (-(-r)) (-(-r))) := by
    refine Conv.of_slope (F := fun x => P (-x) - σ) (fun x y => -D (-x) (-y)) ?_ ?_ ?_ ?_ ?_ ?_ ?_ ?_
    · intro x hx y hy
      have := P_sub (mem x hx).ne' (mem y hy).ne'
      linear_combination this
    · intro x y; show -D (-x) (-y) = -D (-y) (-x); rw [D_symm]
    · intro x hx x' hx' y hy h
      exact neg_le_neg (D_mono (mem x' hx') (mem y hy) (by linarith))
    · simp only [neg_neg]; rw [er, sub_self]
    · linarith [hr.2]
    · linarith [hr.1]
    · show 0 < -D (-(-hi)) (-(-hi)); rw [hDD hi hhi]; positivity
    · show -hi + (-r - -hi) * (-D (-(-r)) (-(-r)) / -D (-(-hi)) (-(-hi))) ≤ -lo
      rw [hDD hi hhi, hDD r r0]
      have e1 : 5 / 216 * H r / (5 / 216 * H hi) = H r / H hi := by field_simp
      rw [e1]
      have m1 : H r ≤ H xl := H_anti hxl hr.1
      have m2 : (hi - r) * (H r / H hi) ≤ hi - lo := by
        rw [mul_div_assoc', div_le_iff₀ hHhi]
        calc (hi - r) * H r ≤ (hi - xl) * H xl := by
              apply mul_le_mul (by linarith [hr.1]) m1 hHr.le (by linarith)
          _ ≤ _ := room
      linarith
  rw [hDD hi hhi, hDD lo h0, hDD r r0] at C
  have p0 : 0 < x0 := by linarith [i0.1]
  obtain ⟨b1, b2⟩ := second_between p0
  have hratio : 5 / 216 * H lo / (5 / 216 * H hi) ≤ 11 / 5 := by
    rw [div_le_iff₀ (by positivity)]; linarith
  have hratio1 : 1 ≤ 5 / 216 * H lo / (5 / 216 * H hi) := by
    rw [one_le_div (by positivity)]; exact C.mn
  have hrho : 1 - 5 / 216 * H hi / (5 / 216 * H lo) ≤ 6 / 11 := by
    have : 5 / 11 ≤ 5 / 216 * H hi / (5 / 216 * H lo) := by
      rw [le_div_iff₀ (by positivity)]; linarith
    linarith
  have hrho0 : 0 ≤ 1 - 5 / 216 * H hi / (5 / 216 * H lo) := by
    have : 5 / 216 * H hi / (5 / 216 * H lo) ≤ 1 := by
      rw [div_le_one (by positivity)]; exact C.mn
    linarith
  have hK : max 1 (5 / 216 * H lo / (5 / 216 * H hi) - 1) * 1.48e-8 ≤ (1.8e-8 : ℝ) := by
    have : max 1 (5 / 216 * H lo / (5 / 216 * H hi) - 1) ≤ 6 / 5 := max_le (by norm_num) (by linarith)
    calc _ ≤ 6 / 5 * (1.48e-8 : ℝ) := by gcongr
      _ ≤ _ := by norm_num
  have i2 : second x0 ∈ Set.Icc lo hi := ⟨by linarith [i0.1], b2.trans i1.2⟩
  have E := convEntry C (tol := 1.48e-8) (by norm_num) hK
  have E' := Entry.neg (G := fun x => P x - σ) E
  have eQ : (fun m => |(-m) - (-r)| ≤ (1.8e-8 : ℝ)) = fun m => |m - r| ≤ (1.8e-8 : ℝ) := by
    funext m; rw [← abs_neg, show -(-m - -r) = m - r by ring]
  rw [eQ] at E'
  refine ⟨r, r0, r1, er, _, _, _, E', ⟨⟨by linarith [i0.2], by linarith [i0.1]⟩, ⟨by linarith [i2.2], by linarith [i2.1]⟩,
    fun h => b1.ne (neg_injective h), ?_⟩, ⟨by linarith [i0.2], by linarith [i0.1]⟩, fun x hx => by linarith [hx.2], by norm_num,
    fun m _ hm => ⟨by linarith [hm.2], by linarith [hm.1]⟩⟩
  refine Ready'.start hrho0 hrho hratio1 hratio rfl zero_le_one le_rfl ?_ ?_
  · rw [abs_le]; constructor <;> linarith [i0.1, i0.2]
  · rw [abs_le]; constructor <;> linarith [i2.1, i2.2]

theorem supStarts {σ x0 lo xu hi : ℝ} (h0 : 1 < lo) (h1 : lo ≤ xu) (h2 : xu ≤ hi) (hP : P lo ≤ σ) (hP' : σ ≤ P xu)
    (room : (hi - lo) * H lo ≤ (xu - lo) * H xu) (kap : 11 / 5 * H lo ≤ H hi) (i0 : x0 ∈ Set.Icc lo hi) (i1 : ScipyNewton.second x0 ∈ Set.Icc lo hi) (hE : hi - lo ≤ 1) :
    ∃ r, 1 < r ∧ P r = σ ∧ Starts σ x0 r (fun m => 1 < m) := by
  obtain ⟨r, hr, er⟩ : σ ∈ P '' Set.Icc lo xu := by
    apply intermediate_value_Icc h1 _ ⟨hP, hP'⟩
    exact P_cont.mono fun x hx => ne_of_gt (by linarith [hx.1])
  have hl := H_neg h0
  have hh := H_neg (by linarith : 1 < hi)
  have hx := H_neg (by linarith : 1 < xu)
  have hrr := H_neg (by linarith [hr.1] : 1 < r)
  have C : Conv (fun x => P x - σ) lo hi r (-(5 / 216) * H lo) (-(5 / 216) * H hi) (-(5 / 216) * H r) := by
    refine supConv h0 hr.1 (hr.2.trans h2) er ?_
    have m1 : H xu ≤ H r := H_anti (by linarith [hr.1]) hr.2
    have m2 : (r - lo) * (H r / H lo) ≤ hi - lo := by
      rw [mul_div_assoc', div_le_iff_of_neg hl]
      refine room.trans ?_
      have a1 : r - lo ≤ xu - lo := by linarith [hr.2]
      have a2 : 0 ≤ r - lo := by linarith [hr.1]
      nlinarith
    linarith
  have p0 : 0 < x0 := by linarith [i0.1]
  obtain ⟨b1, b2⟩ := second_between p0
  have n0 : 0 < -(5 / 216) * H hi := by linarith
  have hratio : -(5 / 216) * H hi / (-(5 / 216) * H lo) ≤ 11 / 5 := by
    rw [div_le_iff₀ C.mu]; linarith
  have hratio1 : 1 ≤ -(5 / 216) * H hi / (-(5 / 216) * H lo) := by
    rw [one_le_div C.mu]; exact C.mn
  have hrho : 1 - -(5 / 216) * H lo / (-(5 / 216) * H hi) ≤ 6 / 11 := by
    have : 5 / 11 ≤ -(5 / 216) * H lo / (-(5 / 216) * H hi) := by
      rw [le_div_iff₀ n0]; linarith
    linarith
  have hrho0 : 0 ≤ 1 - -(5 / 216) * H lo / (-(5 / 216) * H hi) := by
    have : -(5 / 216) * H lo / (-(5 / 216) * H hi) ≤ 1 := by
      rw [div_le_one n0]; exact C.mn
    linarith
  have hK : max 1 (-(5 / 216) * H hi / (-(5 / 216) * H lo) - 1) * 1.48e-8 ≤ (1.8e-8 : ℝ) := by
    have : max 1 (-(5 / 216) * H hi / (-(5 / 216) * H lo) - 1) ≤ 6 / 5 := max_le (by norm_num) (by linarith)
    calc _ ≤ 6 / 5 * (1.48e-8 : ℝ) := by gcongr
      _ ≤ _ := by norm_num
  have i2 : second x0 ∈ Set.Icc lo hi := ⟨by linarith [i0.1], b2.trans i1.2⟩
  have E := convEntry C (tol := 1.48e-8) (by norm_num) hK
  refine ⟨r, by linarith [hr.1], er, _, _, _, E, ⟨i0, i2, b1.ne, ?_⟩, i0, fun x hx => by linarith [hx.1], by norm_num, fun m _ hm => by linarith [hm.1]⟩
  refine Ready'.start hrho0 hrho hratio1 hratio rfl zero_le_one le_rfl ?_ ?_
  · rw [abs_le]; constructor <;> linarith [i0.1, i0.2, hr.1, hr.2]
  · rw [abs_le]; constructor <;> linarith [i2.1, i2.2, hr.1, hr.2]

theorem supStarts_right {σ x0 xl hi : ℝ} (h0 : 1 < xl) (h1 : xl ≤ x0) (hP : P xl ≤ σ) (hP' : σ ≤ P x0)
    (kap : 31 / 10 * H xl ≤ H hi) (h2 : x0 ≤ hi) (i1 : ScipyNewton.second x0 ≤ hi) (hE : hi - xl ≤ 28 / 10) :
    ∃ r, 1 < r ∧ P r = σ ∧ Starts σ x0 r (fun m => 1 < m) := by
  obtain ⟨r, hr, er⟩ : σ ∈ P '' Set.Icc xl x0 := by
    apply intermediate_value_Icc h1 _ ⟨hP, hP'⟩
    exact P_cont.mono fun x hx => ne_of_gt (by linarith [hx.1])
  have r1 : 1 < r := by linarith [hr.1]
  have hh := H_neg (by linarith : 1 < hi)
  have hrr := H_neg r1
  have hrh : r ≤ hi := hr.2.trans h2
  have C : Conv (fun x => P x - σ) r hi r (-(5 / 216) * H r) (-(5 / 216) * H hi) (-(5 / 216) * H r) :=
    supConv r1 le_rfl hrh er (by linarith)
  obtain ⟨b1, b2⟩ := second_between (by linarith : 0 < x0)
  have i0 : x0 ∈ Set.Icc r hi := ⟨hr.2, h2⟩
  have i2 : second x0 ∈ Set.Icc r hi := ⟨by linarith [hr.2], b2.trans i1⟩
  have kap' : 31 / 10 * H r ≤ H hi := by
    have := H_anti (by linarith) hr.1
    linarith
  have hratio : -(5 / 216) * H hi / (-(5 / 216) * H r) ≤ 31 / 10 := by
    rw [div_le_iff₀ C.mu]; linarith
  have n0 : 0 < -(5 / 216) * H hi := by linarith
  have hrho : 1 - -(5 / 216) * H r / (-(5 / 216) * H hi) ≤ 21 / 31 := by
    have : 10 / 31 ≤ -(5 / 216) * H r / (-(5 / 216) * H hi) := by
      rw [le_div_iff₀ n0]; linarith
    linarith
  have hrho0 : 0 ≤ 1 - -(5 / 216) * H r / (-(5 / 216) * H hi) := by
    have : -(5 / 216) * H r / (-(5 / 216) * H hi) ≤ 1 := by
      rw [div_le_one n0]; exact C.mn
    linarith
  have hK : max 1 (-(5 / 216) * H hi / (-(5 / 216) * H r) - 1) * 1.48e-8 ≤ (3.2e-8 : ℝ) := by
    have : max 1 (-(5 / 216) * H hi / (-(5 / 216) * H r) - 1) ≤ 21 / 10 := max_le (by norm_num) (by linarith)
    calc _ ≤ 21 / 10 * (1.48e-8 : ℝ) := by gcongr
      _ ≤ _ := by norm_num
  have E := convEntry C (tol := 1.48e-8) (by norm_num) hK
  refine ⟨r, r1, er, _, _, _, E, ⟨i0, i2, b1.ne, ?_⟩, i0, fun x hx => by linarith [hx.1], le_rfl, fun m _ hm => by linarith [hm.1]⟩
  refine .rr 49 i0.1 i2.1 ?_ (by norm_num)
  have hp := pow_le_pow_left₀ hrho0 hrho 49
  have hz := pow_nonneg hrho0 49
  calc _ ≤ 28 / 10 * (1 - -(5 / 216) * H r / (-(5 / 216) * H hi)) ^ 49 := by
        apply mul_le_mul_of_nonneg_right _ hz; linarith [i2.2, hr.1]
    _ ≤ 28 / 10 * (21 / 31 : ℝ) ^ 49 := by apply mul_le_mul_of_nonneg_left hp; norm_num
    _ < _ := by norm_num

/-- at the throat -/
theorem throatStarts : Starts 1 1 1 (fun m => m = 1) := by
  have P1 : P 1 - 1 = 0 := by unfold P; norm_num
  have s1 : second 1 = 1 + 2 * dx := by unfold second; rw [if_pos (by norm_num)]; ring
  have hd := le_dx
  have P2 : 0 < P (second 1) - 1 := by
    have h : 1 < second 1 := by rw [s1]; linarith
    have := P_sub (x := 1) (y := second 1) one_ne_zero (by linarith)
    have d : D 1 1 ≤ D 1 (second 1) := by rw [D_symm 1 (second 1)]; exact D_mono one_pos one_pos h.le
    have d2 : D 1 1 < D 1 (second 1) := by
      unfold D
      obtain ⟨y, hy⟩ : ∃ y, y = second 1 := ⟨_, rfl⟩
      rw [← hy] at h ⊢
      have a : 125 / (1 * y) < 125 / (1 * 1) := by gcongr
      have b : 1 < y ^ 2 := by nlinarith
      have c : 1 < y ^ 3 := by nlinarith
      have e : 1 < y ^ 4 := by nlinarith
      norm_num at a ⊢; linarith
    have d1 : D 1 1 = 0 := by unfold D; norm_num
    have e : 0 < D 1 (second 1) * (second 1 - 1) := mul_pos (by linarith) (by linarith)
    linarith
  obtain ⟨y, hy⟩ : ∃ y, y = second 1 := ⟨_, rfl⟩
  rw [← hy] at s1 P2
  have c1 : chord 1 y (P 1 - 1) (P y - 1) = 1 := by
    unfold chord; rw [P1, sub_zero, mul_div_cancel₀ _ P2.ne']; ring
  have c2 : chord y 1 (P y - 1) (P 1 - 1) = 1 := by
    unfold chord; rw [P1]; ring
  refine ⟨fun k p p1 => (p = 1 ∧ p1 = y ∧ 2 ≤ k) ∨ (p = y ∧ p1 = 1), fun x => x = 1 ∨ x = y, 0, ?_, Or.inl ⟨rfl, hy.symm, by norm_num⟩, Or.inl rfl, ?_, by norm_num, ?_⟩
  · refine ⟨?_, ?_, ?_, ?_, ?_, ?_, ?_, P1, Or.inl rfl, by norm_num, by norm_num⟩
    · rintro k p p1 (⟨rfl, rfl, -⟩ | ⟨rfl, rfl⟩)
      · exact Or.inr rfl
      · exact Or.inl rfl
    · rintro k p p1 (⟨rfl, rfl, -⟩ | ⟨rfl, rfl⟩)
      · show P p1 - 1 ≠ P 1 - 1
        rw [P1]; exact P2.ne'
      · show P 1 - 1 ≠ P p - 1
        rw [P1]; exact P2.ne
    · rintro k p p1 (⟨rfl, rfl, -⟩ | ⟨rfl, rfl⟩) h
      · rw [c1]; norm_num
      · rw [c2]; norm_num
    · rintro p p1 (⟨rfl, rfl, h⟩ | ⟨rfl, rfl⟩)
      · omega
      · rw [c2]; norm_num
    · rintro k p p1 (⟨rfl, rfl, h⟩ | ⟨rfl, rfl⟩)
      · rw [c1]; exact Or.inr (by simp)
      · rw [c2]; exact Or.inl rfl
    · rintro k p p1 (⟨rfl, rfl, h⟩ | ⟨rfl, rfl⟩)
      · rw [c1]; exact Or.inl rfl
      · rw [c2]; exact Or.inl rfl
    · rintro k p p1 (⟨rfl, rfl, h⟩ | ⟨rfl, rfl⟩) hc
      · rw [c1] at hc; exact hc.symm
      · rfl
  · rintro x (rfl | rfl)
    · norm_num
    · linarith
  · intro m hm _
    exact sub_eq_zero.1 (abs_nonpos_iff.1 hm)

end Aerokit.ArrayNewton
