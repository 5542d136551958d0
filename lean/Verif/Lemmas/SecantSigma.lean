import Verif.Lemmas.SecantConvex
import Verif.Lemmas.MassFlow
import Verif.Model.DefaultGas
import Verif.Lemmas.Engine
import Verif.Lemmas.Lits
import Mathlib.Topology.Order.IntermediateValue

/-! # scipy's secant search on the area ratio of air -/

namespace Aerokit.ScipyNewton
open MassFlow

/-! ## a constructor from divided differences -/

/-- a function whose divided differences `D` are symmetric and increasing -/
theorem Conv.of_slope {F : ℝ → ℝ} {A B r : ℝ} (D : ℝ → ℝ → ℝ) (hD : ∀ x ∈ Set.Icc A B, ∀ y ∈ Set.Icc A B, F y - F x = D x y * (y - x))
    (hs : ∀ x y, D x y = D y x) (hm : ∀ x ∈ Set.Icc A B, ∀ x' ∈ Set.Icc A B, ∀ y ∈ Set.Icc A B, x ≤ x' → D x y ≤ D x' y)
    (hr : F r = 0) (hAr : A ≤ r) (hrB : r ≤ B) (hA : 0 < D A A) (hroom : A + (r - A) * (D r r / D A A) ≤ B) :
    Conv F A B r (D A A) (D B B) (D r r) := by
  have hAB : A ≤ B := hAr.trans hrB
  have iA : A ∈ Set.Icc A B := ⟨le_rfl, hAB⟩
  have iB : B ∈ Set.Icc A B := ⟨hAB, le_rfl⟩
  have ir : r ∈ Set.Icc A B := ⟨hAr, hrB⟩
  have hm2 : ∀ x ∈ Set.Icc A B, ∀ x' ∈ Set.Icc A B, ∀ y ∈ Set.Icc A B, ∀ y' ∈ Set.Icc A B, x ≤ x' → y ≤ y' → D x y ≤ D x' y' := by
    intro x hx x' hx' y hy y' hy' h h'
    refine (hm x hx x' hx' y hy h).trans ?_
    rw [hs x' y, hs x' y']
    exact hm y hy y' hy' x' hx' h'
  refine ⟨hA, hr, hAr, hrB, ?_, ?_, ?_, ?_, hroom, hm2 _ iA _ ir _ iA _ ir hAr hAr, hm2 _ iA _ iB _ iA _ iB hAB hAB⟩
  · intro x hx y hy h
    rw [hD x hx y hy]
    exact mul_le_mul_of_nonneg_right (hm2 _ iA _ hx _ iA _ hy hx.1 hy.1) (by linarith)
  · intro x hx y hy h
    rw [hD x hx y hy]
    exact mul_le_mul_of_nonneg_right (hm2 _ hx _ iB _ hy _ iB hx.2 hy.2) (by linarith)
  · intro x hx
    have ix : x ∈ Set.Icc A B := ⟨hx.1, hx.2.trans hrB⟩
    have := hD x ix r ir
    rw [hr, zero_sub] at this
    rw [this]
    exact mul_le_mul_of_nonneg_right (hm2 _ ix _ ir _ ir _ ir hx.2 le_rfl) (by linarith [hx.2])
  · intro x hx y hy z hz h h'
    rw [hD x hx y hy, hD y hy z hz]
    have h1 : D x y ≤ D y z := by
      rw [hs y z]
      exact hm _ hx _ hz _ hy (by linarith)
    have h2 : 0 ≤ (y - x) * (z - y) := mul_nonneg (by linarith) (by linarith)
    nlinarith [mul_le_mul_of_nonneg_right h1 h2]

/-! ## reflection -/

theorem newPoint_neg (p0 p1 q0 q1 : ℝ) : newPoint (-p0) (-p1) q0 q1 = (newPoint p0 p1 q0 q1) >>= fun x => .ok (-x) := by
  by_cases h : q1 = q0
  · subst h
    unfold newPoint
    rw [if_neg (lt_irrefl _), if_neg (lt_irrefl _)]
    by_cases h0 : q1 = 0
    · subst h0; rw [Py.div_err]; rfl
    · rw [Py.div_ok h0, Py.div_ok h0, Py.ok_bind, Py.ok_bind, Py.ok_bind, Py.ok_bind, div_self h0, sub_self, Py.div_err, Py.div_err]; rfl
  · rw [newPoint_eq h, newPoint_eq h, Py.ok_bind]
    congr 1
    unfold chord
    have : q1 - q0 ≠ 0 := sub_ne_zero.2 h
    field_simp; ring

theorem loop_neg {tol rtol : ℝ} {f : ℝ → Py ℝ} : ∀ (k : ℕ) (p0 p1 q0 q1 : ℝ),
    secantLoop tol rtol (fun x => f (-x)) k (-p0) (-p1) q0 q1 = (secantLoop tol rtol f k p0 p1 q0 q1) >>= fun x => .ok (-x) := by
  intro k
  induction k with
  | zero => intros; rfl
  | succ k ih =>
    intro p0 p1 q0 q1
    rw [secantLoop, secantLoop]
    by_cases h : q1 = q0
    · rw [if_pos h, if_pos h]
      by_cases hp : p1 = p0
      · rw [if_neg (by rw [hp]; simp), if_neg (by rw [hp]; simp), Py.ok_bind]; congr 1; rw [← neg_add, neg_div]
      · rw [if_pos (fun e => hp (neg_injective e)), if_pos hp]; rfl
    · rw [if_neg h, if_neg h, newPoint_neg, newPoint_eq h, Py.ok_bind, Py.ok_bind, Py.ok_bind]
      have e : |(-chord p0 p1 q0 q1) - (-p1)| = |chord p0 p1 q0 q1 - p1| := by
        rw [← abs_neg]; congr 1; ring
      rw [e, abs_neg]
      split_ifs with hc
      · rfl
      · rw [neg_neg, bind_assoc]
        refine bind_congr fun q => ?_
        exact ih _ _ _ _

theorem second_neg {x : ℝ} (h : 0 < x) : second (-x) = -second x := by
  unfold second
  simp only []
  rw [if_neg (by nlinarith), if_pos (by nlinarith)]; ring

theorem newton_neg {tol rtol x0 : ℝ} (h : 0 < x0) {f : ℝ → Py ℝ} {n : ℕ} : newton tol rtol n (fun x => f (-x)) (-x0) = (newton tol rtol n f x0) >>= fun x => .ok (-x) := by
  unfold newton
  simp only []
  rw [second_neg h, neg_neg, neg_neg, bind_assoc]
  refine bind_congr fun q0 => ?_
  rw [bind_assoc]
  refine bind_congr fun q1 => ?_
  split_ifs with hc
  · exact loop_neg _ _ _ _ _
  · exact loop_neg _ _ _ _ _

/-! ## the area ratio of air -/

/-- `Sigma_Mach` of air -/
noncomputable def P (x : ℝ) : ℝ := (5 + x ^ 2) ^ 3 / (216 * x)
/-- its divided differences -/
noncomputable def D (x y : ℝ) : ℝ := (75 + 15 * (x ^ 2 + x * y + y ^ 2) + (x ^ 4 + x ^ 3 * y + x ^ 2 * y ^ 2 + x * y ^ 3 + y ^ 4) - 125 / (x * y)) / 216
/-- up to a factor, the modulus of the slope on the subsonic side -/
noncomputable def H (x : ℝ) : ℝ := (5 + x ^ 2) ^ 2 * (1 - x ^ 2) / x ^ 2

theorem sig_P (M : ℝ) : sig M DefaultGas.gamma0 = P M := by
  unfold sig P Isentropic.tt
  rw [Isentropic.gamma0_eq, show ((7 : ℝ) / 5 + 1) / (2 * (7 / 5 - 1)) = ((3 : ℕ) : ℝ) by norm_num, Real.rpow_natCast]
  rcases eq_or_ne M 0 with h | h
  · subst h; simp
  · field_simp; ring

theorem P_sub {x y : ℝ} (hx : x ≠ 0) (hy : y ≠ 0) : P y - P x = D x y * (y - x) := by
  unfold P D; field_simp; ring

theorem D_symm (x y : ℝ) : D x y = D y x := by
  unfold D; rw [mul_comm x y]; ring

theorem D_mono {x x' y : ℝ} (hx : 0 < x) (hy : 0 < y) (h : x ≤ x') : D x y ≤ D x' y := by
  unfold D
  have h1 : 125 / (x' * y) ≤ 125 / (x * y) := by gcongr
  have h2 : x ^ 2 ≤ x' ^ 2 := by gcongr
  have h3 : x ^ 3 ≤ x' ^ 3 := by gcongr
  have h4 : x ^ 4 ≤ x' ^ 4 := by gcongr
  have h5 : x * y ≤ x' * y := by gcongr
  have h6 : x ^ 3 * y ≤ x' ^ 3 * y := by gcongr
  have h7 : x ^ 2 * y ^ 2 ≤ x' ^ 2 * y ^ 2 := by gcongr
  have h8 : x * y ^ 3 ≤ x' * y ^ 3 := by gcongr
  linarith

theorem D_self {x : ℝ} (hx : x ≠ 0) : D x x = -(5 / 216) * H x := by
  unfold D H; field_simp; ring

theorem P_cont : ContinuousOn P {x | x ≠ 0} := by
  unfold P
  refine ContinuousOn.div (by fun_prop) (by fun_prop) ?_
  intro x hx; exact mul_ne_zero (by norm_num) hx

theorem H_pos {x : ℝ} (h0 : 0 < x) (h1 : x < 1) : 0 < H x := by
  unfold H
  have : 0 < 1 - x ^ 2 := by nlinarith
  positivity

theorem residual_P {σ x : ℝ} (hx : x ≠ 0) : sigma_residual σ DefaultGas.gamma0 x = .ok (P x - σ) := by
  unfold sigma_residual
  rw [Sigma_Mach_ok Isentropic.one_lt_gamma0 hx, Py.ok_bind, sig_P]; rfl

/-! ## the subsonic search -/

theorem pow_bound : (6 / 11 : ℝ) ^ 30 ≤ 1.48e-8 := by norm_num

/-- the search on an interval of the subsonic branch -/
theorem subRun {σ x0 lo xl hi : ℝ} (h0 : 0 < lo) (h1 : lo ≤ xl) (h2 : xl ≤ hi) (h3 : hi < 1) (hP : P hi ≤ σ) (hP' : σ ≤ P xl)
    (room : (hi - xl) * H xl ≤ (hi - lo) * H hi) (kap : H lo ≤ 11 / 5 * H hi) (i0 : x0 ∈ Set.Icc lo hi) (i1 : second x0 ∈ Set.Icc lo hi) :
    ∃ m r, scipy (sigma_residual σ DefaultGas.gamma0) x0 = .ok m ∧ xl ≤ r ∧ r ≤ hi ∧ P r = σ ∧ |m - r| ≤ 1.8e-8 ∧ m ∈ Set.Icc lo hi := by
  obtain ⟨r, hr, er⟩ : σ ∈ P '' Set.Icc xl hi := by
    apply intermediate_value_Icc' h2 _ ⟨hP, hP'⟩
    exact P_cont.mono fun x hx => ne_of_gt (by linarith [hx.1])
  have hxl : 0 < xl := by linarith
  have hhi : 0 < hi := by linarith
  have r0 : 0 < r := by linarith [hr.1]
  have r1 : r < 1 := by linarith [hr.2]
  have hHhi := H_pos hhi h3
  have hHlo := H_pos h0 (by linarith)
  have hHr := H_pos r0 r1
  have hDD : ∀ x : ℝ, 0 < x → -D (-(-x)) (-(-x)) = 5 / 216 * H x := by
    intro x hx; rw [neg_neg, D_self hx.ne']; ring
  have mem : ∀ x, x ∈ Set.Icc (-hi) (-lo) → 0 < -x := fun x hx => by linarith [hx.2]
  have C : Conv (fun x => P (-x) - σ) (-hi) (-lo) (-r) (-D (-(-hi)) (-(-hi))) (-D (-(-lo)) (-(-lo))) (-D (-(-r)) (-(-r))) := by
    refine Conv.of_slope (F := fun x => P (-x) - σ) (fun x y => -D (-x) (-y)) ?_ ?_ ?_ ?_ ?_ ?_ ?_ ?_
    · intro x hx y hy
      have := P_sub (mem x hx).ne' (mem y hy).ne'
      linear_combination this
    · intro x y; show -D (-x) (-y) = -D (-y) (-x); rw [D_symm]
    · intro x hx x' hx' y hy h
      exact neg_le_neg (D_mono (mem x' hx') (mem y hy) (by linarith))
    · simp only [neg_neg]; rw [er, sub_self]
    · linarith [hr.2]
    · linarith [hr.1]
    · show 0 < -D (-(-hi)) (-(-hi)); rw [hDD hi hhi]; positivity
    · show -hi + (-r - -hi) * (-D (-(-r)) (-(-r)) / -D (-(-hi)) (-(-hi))) ≤ -lo
      rw [hDD hi hhi, hDD r r0]
      have e1 : 5 / 216 * H r / (5 / 216 * H hi) = H r / H hi := by field_simp
      rw [e1]
      -- slope at the root is at most that at `xl`
      have m1 : H r ≤ H xl := by
        have a := D_mono hxl hxl hr.1
        have b := D_mono hxl r0 hr.1
        rw [D_symm xl r] at b
        have := a.trans (by linarith : D r xl ≤ D r r)
        rw [D_self hxl.ne', D_self r0.ne'] at this
        linarith
      have m2 : (hi - r) * (H r / H hi) ≤ hi - lo := by
        rw [mul_div_assoc', div_le_iff₀ hHhi]
        calc (hi - r) * H r ≤ (hi - xl) * H xl := by
              apply mul_le_mul (by linarith [hr.1]) m1 hHr.le (by linarith)
          _ ≤ _ := room
      linarith
  rw [hDD hi hhi, hDD lo h0, hDD r r0] at C
  have hf : ∀ x ∈ Set.Icc (-hi) (-lo), (fun x => sigma_residual σ DefaultGas.gamma0 (-x)) x = .ok ((fun x => P (-x) - σ) x) := by
    intro x hx; exact residual_P (mem x hx).ne'
  have p0 : 0 < x0 := by linarith [i0.1]
  have j0 : -x0 ∈ Set.Icc (-hi) (-lo) := ⟨by linarith [i0.2], by linarith [i0.1]⟩
  have j1 : second (-x0) ∈ Set.Icc (-hi) (-lo) := by rw [second_neg p0]; exact ⟨by linarith [i1.2], by linarith [i1.1]⟩
  have hne : -x0 ≠ second (-x0) := by
    rw [second_neg p0]
    intro e
    have : second x0 = x0 * (1 + 1e-4) + 1e-4 := by
      unfold second; simp only []; rw [if_pos (by nlinarith)]
    nlinarith
  have hratio : 5 / 216 * H lo / (5 / 216 * H hi) ≤ 11 / 5 := by
    rw [div_le_iff₀ (by positivity)]; linarith
  have hrho : 1 - 5 / 216 * H hi / (5 / 216 * H lo) ≤ 6 / 11 := by
    have : 5 / 11 ≤ 5 / 216 * H hi / (5 / 216 * H lo) := by
      rw [le_div_iff₀ (by positivity)]; linarith
    linarith
  have hrho0 : 0 ≤ 1 - 5 / 216 * H hi / (5 / 216 * H lo) := by
    have : 5 / 216 * H hi / (5 / 216 * H lo) ≤ 1 := by
      rw [div_le_one (by positivity)]; exact C.mn
    linarith
  obtain ⟨m, hm⟩ := C.newton_ok (tol := 1.48e-8) (rtol := 0) hf (by norm_num) le_rfl j0 j1 hne (E := 1) (by linarith)
    (by rintro x (rfl | rfl)
        · linarith [j0.2]
        · linarith [j1.2]) 15 50
    (by rw [one_mul]; exact (pow_le_pow_left₀ hrho0 hrho _).trans pow_bound) (by norm_num)
  obtain ⟨b1, b2⟩ := C.newton_acc (tol := 1.48e-8) (rtol := 0) (T := 1.48e-8) hf (by norm_num) le_rfl (by intro x _; simp) j0 j1 hne 50 hm
  rw [newton_neg p0] at hm
  obtain ⟨m', hm', e⟩ := Py.bind_inv hm
  have e := Except.ok.inj e
  subst e
  refine ⟨m', r, hm', hr.1, hr.2, er, ?_, ⟨by linarith [b1.2], by linarith [b1.1]⟩⟩
  have : |m' - r| = |-m' - -r| := by rw [← abs_neg]; congr 1; ring
  rw [this]
  refine b2.trans ?_
  have : max 1 (5 / 216 * H lo / (5 / 216 * H hi) - 1) ≤ 6 / 5 := max_le (by norm_num) (by linarith)
  calc _ ≤ 6 / 5 * (1.48e-8 : ℝ) := by gcongr
    _ ≤ _ := by norm_num

theorem second_pos {x : ℝ} (h : 0 < x) : second x = x * (1 + 1e-4) + 1e-4 := by
  unfold second; simp only []; rw [if_pos (by nlinarith)]

/-! ## the supersonic search -/

theorem H_neg {x : ℝ} (h1 : 1 < x) : H x < 0 := by
  unfold H
  have : 1 - x ^ 2 < 0 := by nlinarith
  have h0 : 0 < x := by linarith
  exact div_neg_of_neg_of_pos (mul_neg_of_pos_of_neg (by positivity) this) (by positivity)

theorem H_anti {x y : ℝ} (h0 : 0 < x) (h : x ≤ y) : H y ≤ H x := by
  have a := D_mono h0 h0 h
  have b := D_mono h0 (h0.trans_le h) h
  rw [D_symm x y] at b
  have := a.trans (by linarith : D y x ≤ D y y)
  rw [D_self h0.ne', D_self (h0.trans_le h).ne'] at this
  linarith

/-- the interval of the supersonic branch -/
theorem supConv {σ lo r hi : ℝ} (h0 : 1 < lo) (h1 : lo ≤ r) (h2 : r ≤ hi) (er : P r = σ) (room : lo + (r - lo) * (H r / H lo) ≤ hi) :
    Conv (fun x => P x - σ) lo hi r (-(5 / 216) * H lo) (-(5 / 216) * H hi) (-(5 / 216) * H r) := by
  have mem : ∀ x, x ∈ Set.Icc lo hi → 0 < x := fun x hx => by linarith [hx.1]
  have hl := H_neg h0
  rw [← D_self (by linarith : lo ≠ 0), ← D_self (by linarith : hi ≠ 0), ← D_self (by linarith : r ≠ 0)]
  refine Conv.of_slope (F := fun x => P x - σ) D ?_ D_symm ?_ ?_ h1 h2 ?_ ?_
  · intro x hx y hy
    have := P_sub (mem x hx).ne' (mem y hy).ne'
    linear_combination this
  · intro x hx x' hx' y hy h
    exact D_mono (mem x hx) (mem y hy) h
  · show P r - σ = 0
    rw [er, sub_self]
  · rw [D_self (by linarith)]; linarith
  · rw [D_self (by linarith), D_self (by linarith)]
    rwa [show -(5 / 216) * H r / (-(5 / 216) * H lo) = H r / H lo by
      have := hl.ne
      field_simp]

theorem supRun {σ x0 lo xu hi : ℝ} (h0 : 1 < lo) (h1 : lo ≤ xu) (h2 : xu ≤ hi) (hP : P lo ≤ σ) (hP' : σ ≤ P xu)
    (room : (hi - lo) * H lo ≤ (xu - lo) * H xu) (kap : 11 / 5 * H lo ≤ H hi) (i0 : x0 ∈ Set.Icc lo hi) (i1 : second x0 ∈ Set.Icc lo hi) (hE : hi - lo ≤ 1) :
    ∃ m r, scipy (sigma_residual σ DefaultGas.gamma0) x0 = .ok m ∧ lo ≤ r ∧ r ≤ xu ∧ P r = σ ∧ |m - r| ≤ 1.8e-8 ∧ m ∈ Set.Icc lo hi := by
  obtain ⟨r, hr, er⟩ : σ ∈ P '' Set.Icc lo xu := by
    apply intermediate_value_Icc h1 _ ⟨hP, hP'⟩
    exact P_cont.mono fun x hx => ne_of_gt (by linarith [hx.1])
  have hl := H_neg h0
  have hh := H_neg (by linarith : 1 < hi)
  have hx := H_neg (by linarith : 1 < xu)
  have hrr := H_neg (by linarith [hr.1] : 1 < r)
  have C : Conv (fun x => P x - σ) lo hi r (-(5 / 216) * H lo) (-(5 / 216) * H hi) (-(5 / 216) * H r) := by
    refine supConv h0 hr.1 (hr.2.trans h2) er ?_
    have m1 : H xu ≤ H r := H_anti (by linarith [hr.1]) hr.2
    have m2 : (r - lo) * (H r / H lo) ≤ hi - lo := by
      rw [mul_div_assoc', div_le_iff_of_neg hl]
      refine room.trans ?_
      have a1 : r - lo ≤ xu - lo := by linarith [hr.2]
      have a2 : 0 ≤ r - lo := by linarith [hr.1]
      nlinarith
    linarith
  have hf : ∀ x ∈ Set.Icc lo hi, sigma_residual σ DefaultGas.gamma0 x = .ok ((fun x => P x - σ) x) := by
    intro x hx; exact residual_P (by linarith [hx.1])
  have hne : x0 ≠ second x0 := by
    rw [second_pos (by linarith [i0.1])]
    intro e
    nlinarith [i0.1]
  have hratio : -(5 / 216) * H hi / (-(5 / 216) * H lo) ≤ 11 / 5 := by
    rw [div_le_iff₀ C.mu]; linarith
  have n0 : 0 < -(5 / 216) * H hi := by linarith
  have hrho : 1 - -(5 / 216) * H lo / (-(5 / 216) * H hi) ≤ 6 / 11 := by
    have : 5 / 11 ≤ -(5 / 216) * H lo / (-(5 / 216) * H hi) := by
      rw [le_div_iff₀ n0]; linarith
    linarith
  have hrho0 : 0 ≤ 1 - -(5 / 216) * H lo / (-(5 / 216) * H hi) := by
    have : -(5 / 216) * H lo / (-(5 / 216) * H hi) ≤ 1 := by
      rw [div_le_one n0]; exact C.mn
    linarith
  obtain ⟨m, hm⟩ := C.newton_ok (tol := 1.48e-8) (rtol := 0) hf (by norm_num) le_rfl i0 i1 hne (E := 1) (by linarith [hr.2])
    (by rintro x (rfl | rfl)
        · linarith [i0.2, hr.1]
        · linarith [i1.2, hr.1]) 15 50
    (by rw [one_mul]; exact (pow_le_pow_left₀ hrho0 hrho _).trans pow_bound) (by norm_num)
  obtain ⟨b1, b2⟩ := C.newton_acc (tol := 1.48e-8) (rtol := 0) (T := 1.48e-8) hf (by norm_num) le_rfl (by intro x _; simp) i0 i1 hne 50 hm
  refine ⟨m, r, hm, hr.1, hr.2, er, b2.trans ?_, b1⟩
  have : max 1 (-(5 / 216) * H hi / (-(5 / 216) * H lo) - 1) ≤ 6 / 5 := max_le (by norm_num) (by linarith)
  calc _ ≤ 6 / 5 * (1.48e-8 : ℝ) := by gcongr
    _ ≤ _ := by norm_num

/-- the guess is above the root -/
theorem supRun_right {σ x0 xl hi : ℝ} (h0 : 1 < xl) (h1 : xl ≤ x0) (hP : P xl ≤ σ) (hP' : σ ≤ P x0)
    (kap : 31 / 10 * H xl ≤ H hi) (h2 : x0 ≤ hi) (i1 : second x0 ≤ hi) (hE : hi - xl ≤ 28 / 10) :
    ∃ m r, scipy (sigma_residual σ DefaultGas.gamma0) x0 = .ok m ∧ xl ≤ r ∧ r ≤ x0 ∧ P r = σ ∧ |m - r| ≤ 3.2e-8 ∧ r ≤ m := by
  obtain ⟨r, hr, er⟩ : σ ∈ P '' Set.Icc xl x0 := by
    apply intermediate_value_Icc h1 _ ⟨hP, hP'⟩
    exact P_cont.mono fun x hx => ne_of_gt (by linarith [hx.1])
  have r1 : 1 < r := by linarith [hr.1]
  have hh := H_neg (by linarith : 1 < hi)
  have hrr := H_neg r1
  have hrh : r ≤ hi := hr.2.trans h2
  have C : Conv (fun x => P x - σ) r hi r (-(5 / 216) * H r) (-(5 / 216) * H hi) (-(5 / 216) * H r) :=
    supConv r1 le_rfl hrh er (by linarith)
  have hsec : x0 < second x0 := by
    rw [second_pos (by linarith)]; nlinarith
  have i0 : x0 ∈ Set.Icc r hi := ⟨hr.2, h2⟩
  have i1' : second x0 ∈ Set.Icc r hi := ⟨by linarith [hr.2], i1⟩
  have hf : ∀ x ∈ Set.Icc r hi, sigma_residual σ DefaultGas.gamma0 x = .ok ((fun x => P x - σ) x) := by
    intro x hx; exact residual_P (by linarith [hx.1])
  have kap' : 31 / 10 * H r ≤ H hi := by
    have := H_anti (by linarith) hr.1
    linarith
  have hratio : -(5 / 216) * H hi / (-(5 / 216) * H r) ≤ 31 / 10 := by
    rw [div_le_iff₀ C.mu]; linarith
  have n0 : 0 < -(5 / 216) * H hi := by linarith
  have hrho : 1 - -(5 / 216) * H r / (-(5 / 216) * H hi) ≤ 21 / 31 := by
    have : 10 / 31 ≤ -(5 / 216) * H r / (-(5 / 216) * H hi) := by
      rw [le_div_iff₀ n0]; linarith
    linarith
  have hrho0 : 0 ≤ 1 - -(5 / 216) * H r / (-(5 / 216) * H hi) := by
    have : -(5 / 216) * H r / (-(5 / 216) * H hi) ≤ 1 := by
      rw [div_le_one n0]; exact C.mn
    linarith
  obtain ⟨m, hm⟩ := C.newton_ok_right (tol := 1.48e-8) (rtol := 0) hf (by norm_num) le_rfl i0 i1' hsec.ne i0.1 i1'.1 (E := 28 / 10)
    (by rintro x (rfl | rfl)
        · linarith [hr.1]
        · linarith [hr.1]) 49 50
    (by refine (mul_le_mul_of_nonneg_left (pow_le_pow_left₀ hrho0 hrho _) (by norm_num)).trans ?_
        norm_num) (by norm_num)
  obtain ⟨b1, b2⟩ := C.newton_acc (tol := 1.48e-8) (rtol := 0) (T := 1.48e-8) hf (by norm_num) le_rfl (by intro x _; simp) i0 i1' hsec.ne 50 hm
  refine ⟨m, r, hm, hr.1, hr.2, er, b2.trans ?_, b1.1⟩
  have : max 1 (-(5 / 216) * H hi / (-(5 / 216) * H r) - 1) ≤ 21 / 10 := max_le (by norm_num) (by linarith)
  calc _ ≤ 21 / 10 * (1.48e-8 : ℝ) := by gcongr
    _ ≤ _ := by norm_num

end Aerokit.ScipyNewton
