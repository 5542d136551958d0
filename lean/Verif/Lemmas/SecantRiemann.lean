import Verif.Lemmas.SecantSigma
import Verif.Lemmas.Riemann
import Mathlib.Analysis.Calculus.Deriv.MeanValue
import Mathlib.Analysis.SpecialFunctions.Pow.Deriv
import Mathlib.Analysis.SpecialFunctions.Sqrt

/-! # scipy's secant search on the velocity jump of the Riemann problem -/

namespace Aerokit.ScipyNewton
open Model1D Unsteady1D Riemann

/-! ## slope of the velocity jump of one side -/

variable {q : UState}

/-- slope of the shock branch -/
noncomputable def gs (q : UState) (p : ℝ) : ℝ := (q.rho / SS q p + q.gamma * q.p / SS q p ^ 3) / (2 * q.rho ^ 2)
/-- slope of the expansion branch -/
noncomputable def ge (q : UState) (p : ℝ) : ℝ := q.cs / (q.gamma * q.p) * (p / q.p) ^ ((q.gamma - 1) / (2 * q.gamma) - 1)
/-- slope -/
noncomputable def gg (q : UState) (p : ℝ) : ℝ := if p > q.p then gs q p else ge q p

theorem SS_self (h : q.Valid) : SS q q.p = q.cs := by
  have e := SS_sq h h.p
  have h1 := h.rho; have h2 := h.p; have h3 := h.g0
  have : SS q q.p ^ 2 = q.cs ^ 2 := by
    rw [e, h.cs_sq]; unfold KK; field_simp; ring
  exact (pow_left_inj₀ (SS_pos h h.p).le h.cs_pos.le two_ne_zero).1 this

theorem SS_mono (h : q.Valid) {a b : ℝ} (ha : 0 < a) (hab : a ≤ b) : SS q a ≤ SS q b :=
  (SS_strictMono h).monotoneOn ha (ha.trans_le hab) hab

theorem dus_deriv (h : q.Valid) {p : ℝ} (hp : 0 < p) : HasDerivAt (dus q) (gs q p) p := by
  have h1 := h.rho; have h2 := h.p; have h3 := h.g0
  have hS := SS_pos h hp
  have hS2 := SS_sq h hp
  have hK := KK_pos h hp
  have d1 : HasDerivAt (fun x => KK q x / (2 * q.rho)) ((q.gamma + 1) / (2 * q.rho)) p := by
    unfold KK
    have := (((hasDerivAt_id p).const_mul (q.gamma + 1)).add_const ((q.gamma - 1) * q.p)).div_const (2 * q.rho)
    refine this.congr_deriv ?_
    ring
  have d2 : HasDerivAt (SS q) ((q.gamma + 1) / (2 * q.rho) / (2 * SS q p)) p := by
    have := d1.sqrt (by positivity)
    exact this
  have d3 : HasDerivAt (dus q) _ p := ((hasDerivAt_id p).sub_const q.p).fun_div (d2.const_mul q.rho) (by positivity)
  refine d3.congr_deriv ?_
  unfold gs
  obtain ⟨w, hw⟩ : ∃ w, w = SS q p := ⟨_, rfl⟩
  rw [← hw] at hS hS2 ⊢
  have e : (q.gamma + 1) * p = 2 * q.rho * w ^ 2 - (q.gamma - 1) * q.p := by
    rw [hS2]; unfold KK; field_simp; ring
  simp only [id]
  have e' : p = (2 * q.rho * w ^ 2 - (q.gamma - 1) * q.p) / (q.gamma + 1) := by
    rw [← e]; field_simp
  rw [e']
  field_simp
  ring

theorem due_deriv (h : q.Valid) {p : ℝ} (hp : 0 < p) : HasDerivAt (due q) (ge q p) p := by
  have h2 := h.p; have h3 := h.g0
  have hg : 0 < q.gamma - 1 := by linarith [h.gamma]
  have d1 : HasDerivAt (fun x => x / q.p) (1 / q.p) p := (hasDerivAt_id p).div_const q.p
  have d2 := ((d1.rpow_const (p := (q.gamma - 1) / (2 * q.gamma)) (Or.inl (by positivity))).sub_const 1).const_mul (2 * q.cs / (q.gamma - 1))
  refine HasDerivAt.congr_deriv (f := due q) d2 ?_
  unfold ge
  field_simp

theorem gs_self (h : q.Valid) : gs q q.p = 1 / (q.rho * q.cs) := by
  have h1 := h.rho; have hc := h.cs_pos; have hcs := h.cs_sq
  unfold gs
  rw [SS_self h]
  have : q.gamma * q.p = q.rho * q.cs ^ 2 := by rw [hcs]; field_simp
  rw [this]; field_simp; norm_num

theorem ge_self (h : q.Valid) : ge q q.p = 1 / (q.rho * q.cs) := by
  have h1 := h.rho; have hc := h.cs_pos; have hcs := h.cs_sq; have h2 := h.p
  unfold ge
  rw [div_self h2.ne', Real.one_rpow]
  have : q.gamma * q.p = q.rho * q.cs ^ 2 := by rw [hcs]; field_simp
  rw [this]; field_simp

theorem df_deriv (h : q.Valid) {p : ℝ} (hp : 0 < p) : HasDerivAt (df q) (gg q p) p := by
  rcases lt_trichotomy p q.p with c | c | c
  · have e : df q =ᶠ[nhds p] due q := by
      filter_upwards [Iio_mem_nhds c] with x hx
      unfold df; rw [if_neg (not_lt.2 (le_of_lt hx))]
    have : gg q p = ge q p := by unfold gg; rw [if_neg (not_lt.2 c.le)]
    rw [this]
    exact (due_deriv h hp).congr_of_eventuallyEq e
  · subst c
    have e1 : gg q q.p = ge q q.p := by unfold gg; rw [if_neg (lt_irrefl _)]
    have a : HasDerivWithinAt (df q) (gg q q.p) (Set.Iic q.p) q.p := by
      rw [e1]
      refine (due_deriv h hp).hasDerivWithinAt.congr (fun x hx => ?_) ?_
      · unfold df; rw [if_neg (not_lt.2 hx)]
      · unfold df; rw [if_neg (lt_irrefl _)]
    have b : HasDerivWithinAt (df q) (gg q q.p) (Set.Ici q.p) q.p := by
      rw [e1, ge_self h, ← gs_self h]
      refine (dus_deriv h hp).hasDerivWithinAt.congr (fun x hx => ?_) ?_
      · unfold df
        rcases (Set.mem_Ici.1 hx).eq_or_lt with d | d
        · rw [← d, if_neg (lt_irrefl _), due_self h, dus_self]
        · rw [if_pos d]
      · unfold df; rw [if_neg (lt_irrefl _), due_self h, dus_self]
    have := a.union b
    rwa [Set.Iic_union_Ici, hasDerivWithinAt_univ] at this
  · have e : df q =ᶠ[nhds p] dus q := by
      filter_upwards [Ioi_mem_nhds c] with x hx
      unfold df; rw [if_pos (Set.mem_Ioi.1 hx)]
    have : gg q p = gs q p := by unfold gg; rw [if_pos c]
    rw [this]
    exact (dus_deriv h hp).congr_of_eventuallyEq e

theorem gs_anti (h : q.Valid) {a b : ℝ} (ha : 0 < a) (hab : a ≤ b) : gs q b ≤ gs q a := by
  have h1 := h.rho; have h2 := h.p; have h3 := h.g0
  have := SS_mono h ha hab
  have := SS_pos h ha
  unfold gs
  gcongr

theorem ge_anti (h : q.Valid) {a b : ℝ} (ha : 0 < a) (hab : a ≤ b) : ge q b ≤ ge q a := by
  have h2 := h.p; have h3 := h.g0; have hc := h.cs_pos; have hg := h.gamma
  unfold ge
  refine mul_le_mul_of_nonneg_left ?_ (by positivity)
  refine Real.rpow_le_rpow_of_nonpos (by positivity) (by gcongr) ?_
  rw [sub_nonpos, div_le_one (by positivity)]; linarith

theorem gg_anti (h : q.Valid) {a b : ℝ} (ha : 0 < a) (hab : a ≤ b) : gg q b ≤ gg q a := by
  unfold gg
  split_ifs with c d d
  · exact gs_anti h ha hab
  · refine (gs_anti h h.p c.le).trans ?_
    rw [gs_self h, ← ge_self h]
    exact ge_anti h ha (not_lt.1 d)
  · exact absurd (lt_of_lt_of_le d hab) c
  · exact ge_anti h ha hab

theorem gs_el (h : q.Valid) {a b : ℝ} (ha : q.p ≤ a) (hab : a ≤ b) : a * gs q a ≤ b * gs q b := by
  have h1 := h.rho; have h2 := h.p; have h3 := h.g0; have hg := h.gamma
  have ha0 : 0 < a := by linarith
  have key : ∀ x, 0 < x → x * gs q x = (2 * q.rho ^ 2 * SS q x + (q.gamma + 1) * q.p * q.rho / SS q x - q.gamma * (q.gamma - 1) * q.p ^ 2 / SS q x ^ 3) / (2 * q.rho ^ 2 * (q.gamma + 1)) := by
    intro x hx
    have hS := SS_pos h hx
    have e : (q.gamma + 1) * x = 2 * q.rho * SS q x ^ 2 - (q.gamma - 1) * q.p := by
      rw [SS_sq h hx]; unfold KK; field_simp; ring
    have e' : x = (2 * q.rho * SS q x ^ 2 - (q.gamma - 1) * q.p) / (q.gamma + 1) := by
      rw [← e]; field_simp
    unfold gs
    obtain ⟨w, hw⟩ : ∃ w, w = SS q x := ⟨_, rfl⟩
    rw [← hw] at hS e' ⊢
    rw [e']
    field_simp; ring
  rw [key a ha0, key b (by linarith)]
  have m := SS_mono h ha0 hab
  have c := SS_mono h h.p ha
  rw [SS_self h] at c
  have hc := h.cs_pos
  have hcs := h.cs_sq
  obtain ⟨w, hw⟩ : ∃ w, w = SS q a := ⟨_, rfl⟩
  obtain ⟨v, hv⟩ : ∃ v, v = SS q b := ⟨_, rfl⟩
  rw [← hw] at m c
  rw [← hv] at m
  rw [← hw, ← hv]
  have w0 : 0 < w := by linarith
  have v0 : 0 < v := by linarith
  refine div_le_div_of_nonneg_right ?_ (by positivity)
  have t1 : q.gamma * (q.gamma - 1) * q.p ^ 2 / v ^ 3 ≤ q.gamma * (q.gamma - 1) * q.p ^ 2 / w ^ 3 := by
    have : 0 ≤ q.gamma * (q.gamma - 1) * q.p ^ 2 := mul_nonneg (mul_nonneg h3.le (by linarith)) (by positivity)
    gcongr
  have t2 : (q.gamma + 1) * q.p * q.rho / w - (q.gamma + 1) * q.p * q.rho / v ≤ 2 * q.rho ^ 2 * (v - w) := by
    have e : (q.gamma + 1) * q.p * q.rho / w - (q.gamma + 1) * q.p * q.rho / v = (q.gamma + 1) * q.p * q.rho * (v - w) / (w * v) := by
      field_simp
    rw [e, div_le_iff₀ (by positivity)]
    have k1 : q.cs ^ 2 ≤ w * v := by nlinarith
    have k2 : q.gamma * q.p = q.rho * q.cs ^ 2 := by rw [hcs]; field_simp
    have k3 : (q.gamma + 1) * q.p ≤ 2 * (q.gamma * q.p) := by nlinarith
    have k4 : (q.gamma + 1) * q.p ≤ 2 * q.rho * (w * v) := by
      rw [k2] at k3
      nlinarith
    have k5 : 0 ≤ q.rho * (v - w) := mul_nonneg h1.le (by linarith)
    nlinarith [mul_le_mul_of_nonneg_right k4 k5]
  linarith

theorem ge_el (h : q.Valid) {a b : ℝ} (ha : 0 < a) (hab : a ≤ b) : a * ge q a ≤ b * ge q b := by
  have h2 := h.p; have h3 := h.g0; have hc := h.cs_pos
  have key : ∀ x, 0 < x → x * ge q x = q.cs / q.gamma * (x / q.p) ^ ((q.gamma - 1) / (2 * q.gamma)) := by
    intro x hx
    unfold ge
    rw [Real.rpow_sub (by positivity), Real.rpow_one]
    field_simp
  rw [key a ha, key b (by linarith)]
  refine mul_le_mul_of_nonneg_left ?_ (by positivity)
  exact Real.rpow_le_rpow (by positivity) (by gcongr) (ez_pos h).le

/-- the impedance-like product increases -/
theorem gg_el (h : q.Valid) {a b : ℝ} (ha : 0 < a) (hab : a ≤ b) : a * gg q a ≤ b * gg q b := by
  unfold gg
  split_ifs with c d d
  · exact gs_el h (le_of_lt c) hab
  · exact absurd (lt_of_lt_of_le c hab) d
  · refine (ge_el h ha (not_lt.1 c)).trans ?_
    rw [ge_self h, ← gs_self h]
    exact gs_el h le_rfl d.le
  · exact ge_el h ha hab

theorem gg_pos (h : q.Valid) {p : ℝ} (hp : 0 < p) : 0 < gg q p := by
  have h1 := h.rho; have h2 := h.p; have h3 := h.g0; have hc := h.cs_pos
  have := SS_pos h hp
  unfold gg
  split_ifs
  · unfold gs; positivity
  · unfold ge; positivity

/-! ## constructor from a derivative, and the two symmetries -/

theorem Conv.of_deriv {F g : ℝ → ℝ} {A B r : ℝ} (hd : ∀ x ∈ Set.Icc A B, HasDerivAt F (g x) x) (hm : ∀ x ∈ Set.Icc A B, ∀ y ∈ Set.Icc A B, x ≤ y → g x ≤ g y)
    (hr : F r = 0) (hAr : A ≤ r) (hrB : r ≤ B) (hA : 0 < g A) (hroom : A + (r - A) * (g r / g A) ≤ B) :
    Conv F A B r (g A) (g B) (g r) := by
  have hAB : A ≤ B := hAr.trans hrB
  have iA : A ∈ Set.Icc A B := ⟨le_rfl, hAB⟩
  have iB : B ∈ Set.Icc A B := ⟨hAB, le_rfl⟩
  have ir : r ∈ Set.Icc A B := ⟨hAr, hrB⟩
  have mvt : ∀ x ∈ Set.Icc A B, ∀ y ∈ Set.Icc A B, x < y → ∃ c ∈ Set.Ioo x y, c ∈ Set.Icc A B ∧ F y - F x = g c * (y - x) := by
    intro x hx y hy h
    obtain ⟨c, hc, e⟩ := exists_hasDerivAt_eq_slope F g h
      (fun z hz => (hd z ⟨hx.1.trans hz.1, hz.2.trans hy.2⟩).continuousAt.continuousWithinAt)
      (fun z hz => hd z ⟨hx.1.trans hz.1.le, hz.2.le.trans hy.2⟩)
    refine ⟨c, hc, ⟨hx.1.trans hc.1.le, hc.2.le.trans hy.2⟩, ?_⟩
    have : y - x ≠ 0 := by linarith
    rw [e]; field_simp
  refine ⟨hA, hr, hAr, hrB, ?_, ?_, ?_, ?_, hroom, hm _ iA _ ir hAr, hm _ iA _ iB hAB⟩
  · intro x hx y hy h
    obtain ⟨c, -, hc, e⟩ := mvt x hx y hy h
    rw [e]
    exact mul_le_mul_of_nonneg_right (hm _ iA _ hc hc.1) (by linarith)
  · intro x hx y hy h
    obtain ⟨c, -, hc, e⟩ := mvt x hx y hy h
    rw [e]
    exact mul_le_mul_of_nonneg_right (hm _ hc _ iB hc.2) (by linarith)
  · intro x hx
    rcases hx.2.eq_or_lt with e | e
    · rw [e, hr]; simp
    · obtain ⟨c, hc', hc, e⟩ := mvt x ⟨hx.1, hx.2.trans hrB⟩ r ir e
      rw [hr, zero_sub] at e
      rw [e]
      exact mul_le_mul_of_nonneg_right (hm _ hc _ ir hc'.2.le) (by linarith [hx.2])
  · intro x hx y hy z hz h h'
    obtain ⟨c, hc', hc, e⟩ := mvt x hx y hy h
    obtain ⟨d, hd', hd, e'⟩ := mvt y hy z hz h'
    rw [e, e']
    have h1 : g c ≤ g d := hm _ hc _ hd (by linarith [hc'.2, hd'.1])
    have h2 : 0 ≤ (y - x) * (z - y) := mul_nonneg (by linarith) (by linarith)
    nlinarith [mul_le_mul_of_nonneg_right h1 h2]

theorem newPoint_negq (p0 p1 q0 q1 : ℝ) : newPoint p0 p1 (-q0) (-q1) = newPoint p0 p1 q0 q1 := by
  by_cases h : q1 = q0
  · subst h
    unfold newPoint
    rw [if_neg (lt_irrefl _), if_neg (lt_irrefl _)]
    by_cases h0 : q1 = 0
    · subst h0; simp
    · rw [Py.div_ok (neg_ne_zero.2 h0), Py.div_ok (neg_ne_zero.2 h0), Py.ok_bind, Py.ok_bind, Py.div_ok h0, Py.div_ok h0, Py.ok_bind, Py.ok_bind,
        div_self h0, div_self (neg_ne_zero.2 h0), sub_self, Py.div_err, Py.div_err]
  · rw [newPoint_eq h, newPoint_eq (fun e => h (neg_injective e))]
    congr 1
    unfold chord
    have : q1 - q0 ≠ 0 := sub_ne_zero.2 h
    have : -q1 - -q0 ≠ 0 := by intro e; apply this; linarith
    rw [show -q1 - -q0 = -(q1 - q0) by ring] at this ⊢
    field_simp

/-- the opposite function -/
theorem loop_negq {tol rtol : ℝ} {f : ℝ → Py ℝ} : ∀ (k : ℕ) (p0 p1 q0 q1 : ℝ),
    secantLoop tol rtol (fun x => f x >>= fun q => .ok (-q)) k p0 p1 (-q0) (-q1) = secantLoop tol rtol f k p0 p1 q0 q1 := by
  intro k
  induction k with
  | zero => intros; rfl
  | succ k ih =>
    intro p0 p1 q0 q1
    rw [secantLoop, secantLoop]
    by_cases h : q1 = q0
    · rw [if_pos h, if_pos (by rw [h])]
    · rw [if_neg h, if_neg (fun e => h (neg_injective e)), newPoint_negq, newPoint_eq h, Py.ok_bind, Py.ok_bind]
      split_ifs with hc
      · rfl
      · rw [bind_assoc]
        refine bind_congr fun q => ?_
        rw [Py.ok_bind]
        exact ih _ _ _ _

theorem newton_negq {tol rtol x0 : ℝ} {f : ℝ → Py ℝ} {n : ℕ} : newton tol rtol n (fun x => f x >>= fun q => .ok (-q)) x0 = newton tol rtol n f x0 := by
  unfold newton
  simp only []
  rw [bind_assoc]
  refine bind_congr fun q0 => ?_
  rw [Py.ok_bind, bind_assoc]
  refine bind_congr fun q1 => ?_
  rw [Py.ok_bind, abs_neg, abs_neg]
  split_ifs with hc
  · exact loop_negq _ _ _ _ _
  · exact loop_negq _ _ _ _ _

/-! ## the search -/

variable {qL qR : UState}

theorem duf_deriv (hL : qL.Valid) (hR : qR.Valid) {p : ℝ} (hp : 0 < p) : HasDerivAt (duf qL qR) (gg qL p + gg qR p) p :=
  (((df_deriv hL hp).add (df_deriv hR hp)).add_const qR.u).sub_const qL.u

/-- the search from a guess near the root -/
theorem riemann_run (hL : qL.Valid) (hR : qR.Valid) {r x0 : ℝ} (r0 : 0 < r) (hr : duf qL qR r = 0) (h0 : 319 / 400 * r ≤ x0) (h1 : second x0 ≤ 29 / 20 * r) :
    ∃ m, newton 1.48e-8 1e-10 50 (du qL qR) x0 = .ok m ∧ 319 / 400 * r ≤ m ∧ |m - r| ≤ 1.48e-8 + 1.45e-10 * r := by
  have x00 : 0 < x0 := by nlinarith
  have hsec := second_pos x00
  have hlt : x0 < second x0 := by rw [hsec]; nlinarith
  obtain ⟨g, hg⟩ : ∃ g : ℝ → ℝ, g = fun p => gg qL p + gg qR p := ⟨_, rfl⟩
  have gpos : ∀ p, 0 < p → 0 < g p := fun p hp => by rw [hg]; exact add_pos (gg_pos hL hp) (gg_pos hR hp)
  have gel : ∀ a b, 0 < a → a ≤ b → a * g a ≤ b * g b := fun a b ha hab => by
    rw [hg]
    have := gg_el hL ha hab
    have := gg_el hR ha hab
    simp only []; linarith
  have ganti : ∀ a b, 0 < a → a ≤ b → g b ≤ g a := fun a b ha hab => by
    rw [hg]; exact add_le_add (gg_anti hL ha hab) (gg_anti hR ha hab)
  have mem : ∀ x, x ∈ Set.Icc (-(29 / 20 * r)) (-(319 / 400 * r)) → 0 < -x := fun x hx => by nlinarith [hx.2]
  have C : Conv (fun x => -duf qL qR (-x)) (-(29 / 20 * r)) (-(319 / 400 * r)) (-r) (g (-(-(29 / 20 * r)))) (g (-(-(319 / 400 * r)))) (g (-(-r))) := by
    refine Conv.of_deriv (F := fun x => -duf qL qR (-x)) (g := fun x => g (-x)) ?_ ?_ ?_ (by linarith) (by linarith) ?_ ?_
    · intro x hx
      have := (HasDerivAt.scomp x (duf_deriv hL hR (mem x hx)) (hasDerivAt_neg x)).neg
      refine this.congr_deriv ?_
      rw [hg]; simp
    · intro x hx y hy h
      exact ganti _ _ (mem y hy) (by linarith)
    · show -duf qL qR (-(-r)) = 0
      rw [neg_neg, hr, neg_zero]
    · show 0 < g (-(-(29 / 20 * r)))
      rw [neg_neg]; exact gpos _ (by positivity)
    · show -(29 / 20 * r) + (-r - -(29 / 20 * r)) * (g (-(-r)) / g (-(-(29 / 20 * r)))) ≤ -(319 / 400 * r)
      rw [neg_neg, neg_neg]
      have e := gel r (29 / 20 * r) r0 (by linarith)
      have : g r / g (29 / 20 * r) ≤ 29 / 20 := by
        rw [div_le_iff₀ (gpos _ (by positivity))]
        have : r * g r ≤ r * (29 / 20 * g (29 / 20 * r)) := by linarith
        exact le_of_mul_le_mul_left this r0
      have h9 : 0 ≤ 9 / 20 * r := by positivity
      have := mul_le_mul_of_nonneg_left this h9
      have e2 : -r - -(29 / 20 * r) = 9 / 20 * r := by ring
      rw [e2]; linarith
  simp only [neg_neg] at C
  have gl := gpos (319 / 400 * r) (by positivity)
  have gh := gpos (29 / 20 * r) (by positivity)
  have kap : g (319 / 400 * r) ≤ 20 / 11 * g (29 / 20 * r) := by
    have e := gel (319 / 400 * r) (29 / 20 * r) (by positivity) (by linarith)
    have : r * g (319 / 400 * r) ≤ r * (20 / 11 * g (29 / 20 * r)) := by linarith
    exact le_of_mul_le_mul_left this r0
  have hf : ∀ x ∈ Set.Icc (-(29 / 20 * r)) (-(319 / 400 * r)), (fun x => (fun y => du qL qR y >>= fun q => .ok (-q)) (-x)) x = .ok ((fun x => -duf qL qR (-x)) x) := by
    intro x hx
    show (du qL qR (-x) >>= fun q => .ok (-q)) = _
    rw [du_ok hL hR (mem x hx).le, Py.ok_bind]
  have j0 : -x0 ∈ Set.Icc (-(29 / 20 * r)) (-(319 / 400 * r)) := ⟨by linarith, by linarith⟩
  have j1 : second (-x0) ∈ Set.Icc (-(29 / 20 * r)) (-(319 / 400 * r)) := by rw [second_neg x00]; exact ⟨by linarith, by linarith⟩
  have hne : -x0 ≠ second (-x0) := by rw [second_neg x00]; intro e; linarith
  have hratio : g (319 / 400 * r) / g (29 / 20 * r) ≤ 20 / 11 := by rw [div_le_iff₀ gh]; exact kap
  have hrho : 1 - g (29 / 20 * r) / g (319 / 400 * r) ≤ 9 / 20 := by
    have : 11 / 20 ≤ g (29 / 20 * r) / g (319 / 400 * r) := by rw [le_div_iff₀ gl]; linarith
    linarith
  have hrho0 : 0 ≤ 1 - g (29 / 20 * r) / g (319 / 400 * r) := by
    have : g (29 / 20 * r) / g (319 / 400 * r) ≤ 1 := by rw [div_le_one gl]; exact C.mn
    linarith
  have habs : ∀ x ∈ Set.Icc (-(29 / 20 * r)) (-(319 / 400 * r)), 319 / 400 * r ≤ |x| ∧ |x| ≤ 29 / 20 * r := by
    intro x hx
    have := mem x hx
    rw [abs_of_neg (by linarith)]
    exact ⟨by linarith [hx.2], by linarith [hx.1]⟩
  have hex : ∃ m, newton 1.48e-8 1e-10 50 (fun x => (fun y => du qL qR y >>= fun q => .ok (-q)) (-x)) (-x0) = .ok m := by
    have key : ∀ a b, a ∈ Set.Icc (-(29 / 20 * r)) (-(319 / 400 * r)) → b ∈ Set.Icc (-(29 / 20 * r)) (-(319 / 400 * r)) →
        Ready (-r) (1e-10 * (319 / 400 * r)) (1 - g (29 / 20 * r) / g (319 / 400 * r)) 50 a b := by
      intro a b ha hb
      have m0 : ∀ n, 30 ≤ n → (1 - g (29 / 20 * r) / g (319 / 400 * r)) ^ n ≤ (9 / 20 : ℝ) ^ 30 := fun n hn =>
        (pow_le_pow_left₀ hrho0 hrho n).trans (pow_le_pow_of_le_one (by norm_num) (by norm_num) hn)
      have m1 : ∀ n, 30 ≤ n → ∀ x, 0 ≤ x → x ≤ 9 / 20 * r → x * (1 - g (29 / 20 * r) / g (319 / 400 * r)) ^ n ≤ 1e-10 * (319 / 400 * r) := by
        intro n hn x hx hx'
        calc x * (1 - g (29 / 20 * r) / g (319 / 400 * r)) ^ n ≤ (9 / 20 * r) * (9 / 20 : ℝ) ^ 30 := by
              apply mul_le_mul hx' (m0 n hn) (pow_nonneg hrho0 _) (by positivity)
          _ ≤ _ := by
              have : (9 / 20 : ℝ) * (9 / 20 : ℝ) ^ 30 ≤ 1e-10 * (319 / 400) := by norm_num
              nlinarith
      rcases le_total (-r) a with g0 | g0 <;> rcases le_total (-r) b with g1 | g1
      · exact .rr 30 g0 g1 (m1 _ le_rfl _ (by linarith) (by linarith [hb.2])) (by norm_num)
      · exact .rl 15 g0 g1 (m1 _ (by norm_num) _ (by linarith) (by linarith [hb.1])) (by norm_num)
      · exact .lr 15 g0 g1 (m1 _ (by norm_num) _ (by linarith) (by linarith [ha.1])) (by norm_num)
      · exact .ll 15 g0 g1 (m1 _ (by norm_num) _ (by linarith) (by linarith [hb.1])) (by norm_num)
    have ht : ∀ x ∈ Set.Icc (-(29 / 20 * r)) (-(319 / 400 * r)), (1e-10 : ℝ) * (319 / 400 * r) ≤ 1.48e-8 + 1e-10 * |x| := by
      intro x hx
      have := (habs x hx).1
      norm_num; linarith
    have h0t : ∀ x ∈ Set.Icc (-(29 / 20 * r)) (-(319 / 400 * r)), (0 : ℝ) ≤ 1.48e-8 + 1e-10 * |x| := by
      intro x hx; positivity
    unfold newton
    simp only []
    have f0 := hf _ j0
    have f1 := hf _ j1
    simp only [] at f0 f1
    rw [f0, Py.ok_bind, f1, Py.ok_bind]
    split_ifs with hc
    · exact C.loop_ok_rel hf ht h0t _ _ _ j1 j0 hne.symm (key _ _ j1 j0)
    · exact C.loop_ok_rel hf ht h0t _ _ _ j0 j1 hne (key _ _ j0 j1)
  obtain ⟨m, hm⟩ := hex
  obtain ⟨b1, b2⟩ := C.newton_acc (tol := 1.48e-8) (rtol := 1e-10) (T := 1.48e-8 + 1e-10 * (29 / 20 * r)) hf (by norm_num) (by norm_num)
    (by intro x hx; have := (habs x hx).2; norm_num; linarith) j0 j1 hne 50 hm
  rw [newton_neg (f := fun y => du qL qR y >>= fun q => .ok (-q)) x00, newton_negq] at hm
  obtain ⟨m', hm', e⟩ := Py.bind_inv hm
  have e := Except.ok.inj e
  subst e
  refine ⟨m', hm', by linarith [b1.2], ?_⟩
  have : |m' - r| = |-m' - -r| := by rw [← abs_neg]; congr 1; ring
  rw [this]
  refine b2.trans ?_
  have : max 1 (g (319 / 400 * r) / g (29 / 20 * r) - 1) ≤ 1 := max_le le_rfl (by linarith)
  calc _ ≤ 1 * ((1.48e-8 : ℝ) + 1e-10 * (29 / 20 * r)) := by gcongr
    _ ≤ _ := by norm_num; linarith

end Aerokit.ScipyNewton
