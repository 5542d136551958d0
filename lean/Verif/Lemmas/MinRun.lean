import Verif.Lemmas.MinMesh
import Mathlib.Analysis.SpecialFunctions.Trigonometric.Bounds

/-! # Success of the construction of `Minimum_length_nozzle.py` -/

namespace Aerokit.Props
open Real MinNozzle

/-- the angles of the mesh allow every intersection -/
def Ang (fuel : ℕ) (dth dl : ℝ) (n : ℕ) : Prop :=
  ∀ i ≤ n, ∀ j ≤ i + 1, ∃ m, mu fuel (nuv dth dl i j) = .ok m ∧ thv dth dl i j < m ∧ thv dth dl i j + m < π / 2 ∧
    (dth + dl) / 2 < m

section
variable {fuel : ℕ} {y0 dth dl : ℝ}

theorem thv_nonneg (hd : 0 < dth) (hl : 0 < dl) {i j : ℕ} (h : j ≤ i + 1) : 0 ≤ thv dth dl i j := by
  unfold thv
  split_ifs
  · positivity
  · have : ((j : ℝ) - 1) ≤ i := by
      have : (j : ℝ) ≤ (i + 1 : ℕ) := by exact_mod_cast h
      push_cast at this; linarith
    exact mul_nonneg (by linarith) hl.le

theorem thv_le (hd : 0 < dth) (hl : 0 < dl) {n i j : ℕ} (hi : i ≤ n) : thv dth dl i j ≤ dth + n * dl := by
  have hin : (i : ℝ) * dl ≤ n * dl := mul_le_mul_of_nonneg_right (by exact_mod_cast hi) hl.le
  unfold thv
  split_ifs with h
  · linarith
  · have : (1 : ℝ) ≤ j := by exact_mod_cast (by omega : 1 ≤ j)
    nlinarith

theorem thv_le_nuv (hd : 0 < dth) (hl : 0 < dl) {i j : ℕ} : thv dth dl i j ≤ nuv dth dl i j := by
  unfold thv nuv
  split_ifs with h
  · exact le_rfl
  · have : (1 : ℝ) ≤ j := by exact_mod_cast (by omega : 1 ≤ j)
    nlinarith

theorem nuv_pos (hd : 0 < dth) (hl : 0 < dl) {i j : ℕ} : 0 < nuv dth dl i j := by
  unfold nuv
  split_ifs with h
  · positivity
  · have : (1 : ℝ) ≤ j := by exact_mod_cast (by omega : 1 ≤ j)
    have : 0 ≤ (i + (j - 1) : ℝ) * dl := mul_nonneg (by have : (0:ℝ) ≤ i := Nat.cast_nonneg i; linarith) hl.le
    linarith

theorem nuv_le (hd : 0 < dth) (hl : 0 < dl) {n i j : ℕ} (hi : i ≤ n) (hj : j ≤ i + 1) :
    nuv dth dl i j ≤ 2 * (dth + n * dl) := by
  have hin : (i : ℝ) * dl ≤ n * dl := mul_le_mul_of_nonneg_right (by exact_mod_cast hi) hl.le
  have : (0:ℝ) ≤ n * dl := by positivity
  unfold nuv
  split_ifs with h
  · linarith
  · have : (j : ℝ) ≤ (i + 1 : ℕ) := by exact_mod_cast hj
    push_cast at this
    nlinarith

theorem row0_ok {area : ℝ} (ha : 0 ≤ area) (hd : 0 < dth) (hl : 0 < dl) {n : ℕ} (hA : Ang fuel dth dl n) :
    ∃ tab, row0 fuel area dth = .ok tab := by
  obtain ⟨m, hm, h1, h2, -⟩ := hA 0 (Nat.zero_le _) 0 (Nat.zero_le _)
  have e0 : nuv dth dl 0 0 = dth := by simp [nuv]
  have e1 : thv dth dl 0 0 = dth := by simp [thv]
  rw [e0] at hm
  rw [e1] at h1 h2
  unfold row0
  rw [Py.sqrt_ok (by positivity), Py.ok_bind]
  simp only []
  have c : Real.cos (dth - m) ≠ 0 := (Real.cos_pos_of_mem_Ioo ⟨by linarith, by linarith⟩).ne'
  have t : Real.tan (dth - m) < 0 := Real.tan_neg_of_neg_of_pi_div_two_lt (by linarith) (by linarith)
  rw [hm, Py.ok_bind, Py.tan_ok c, Py.ok_bind, Py.div_ok t.ne, Py.ok_bind]
  exact ⟨_, rfl⟩

theorem new_ok (hd : 0 < dth) (hl : 0 < dl) {n : ℕ} (hA : Ang fuel dth dl n) {tab : List (List Point)} {a b : ℕ}
    (hs : St fuel y0 dth dl tab a b) (hb : 1 ≤ b) (hba : b ≤ a) (han : a ≤ n) : ∃ q, new_point fuel tab a b = .ok q := by
  obtain ⟨pm, hpm, e1, e2⟩ := st_values hs a (b - 1) (by omega)
  obtain ⟨pp, hpp, e3, e4⟩ := st_values hs (a - 1) b (by omega)
  obtain ⟨mm, hmm, m1, m2, -⟩ := hA a han (b - 1) (by omega)
  obtain ⟨mp, hmp, m3, m4, -⟩ := hA (a - 1) (by omega) b (by omega)
  obtain ⟨mq, hmq, m5, m6, -⟩ := hA a han b (by omega)
  have t1 := thv_nonneg hd hl (show b - 1 ≤ a + 1 by omega)
  have t2 := thv_nonneg hd hl (show b ≤ a - 1 + 1 by omega)
  have t3 := thv_nonneg hd hl (show b ≤ a + 1 by omega)
  have t4 := thv_le hd hl (j := b - 1) han
  have t5 := thv_le hd hl (j := b) han
  have ek : (pm.k_moins + pp.k_plus) / 2 = thv dth dl a b ∧ (pm.k_moins - pp.k_plus) / 2 = nuv dth dl a b := by
    unfold Point.k_moins Point.k_plus
    rw [e1, e2, e3, e4]
    obtain ⟨a, rfl⟩ : ∃ a', a = a' + 1 := ⟨a - 1, by omega⟩
    obtain ⟨b, rfl⟩ : ∃ b', b = b' + 1 := ⟨b - 1, by omega⟩
    rw [Nat.add_sub_cancel, Nat.add_sub_cancel]
    rcases Nat.eq_zero_or_pos b with h0 | h0
    · subst h0
      simp [thv, nuv]
    · rcases Nat.eq_or_lt_of_le (show 1 ≤ b from h0) with h9 | h9
      · subst h9
        simp [thv, nuv]
        constructor <;> ring
      · simp only [thv, nuv, if_neg (show ¬ b ≤ 1 by omega), if_neg (show ¬ b + 1 ≤ 1 by omega)]
        push_cast
        constructor <;> ring
  refine new_point_ok hpm hpp (by rw [e2]; exact hmm) (by rw [e4]; exact hmp) (by rw [ek.2]; exact hmq) ?_ ?_ ?_ ?_
  · rw [e3, ek.1]; linarith
  · rw [e3, ek.1]; linarith
  · rw [e1, ek.1]; linarith
  · rw [e1, ek.1]; linarith

theorem fill_ok (hd : 0 < dth) (hl : 0 < dl) {n : ℕ} (hA : Ang fuel dth dl n) {a : ℕ} (han : a ≤ n) {k b : ℕ}
    {tab : List (List Point)} (hs : St fuel y0 dth dl tab a b) (hb : 1 ≤ b) (hk : b + k = a + 1) :
    ∃ tab', fill fuel a k b tab = .ok tab' := by
  induction k generalizing b tab with
  | zero => exact ⟨tab, rfl⟩
  | succ k ih =>
    obtain ⟨q, hq⟩ := new_ok hd hl hA hs hb (by omega) han
    obtain ⟨tab', h⟩ := ih (st_new hs hb (by omega) hq) (by omega) (by omega)
    unfold fill
    rw [hq, Py.ok_bind]
    exact ⟨tab', h⟩

theorem row_ok {area : ℝ} (ha : 0 ≤ area) (hd : 0 < dth) (hl : 0 < dl) {n : ℕ} (hA : Ang fuel dth dl n) {a : ℕ}
    (han : a + 1 ≤ n) {tab : List (List Point)} (hs : St fuel (√(area / π)) dth dl tab a (a + 2)) :
    ∃ tab', row fuel area dl tab (a + 1) = .ok tab' := by
  unfold row
  obtain ⟨q0, hq0, hc⟩ := hs.rel a 0 (Or.inr ⟨rfl, by omega⟩)
  have hprev : q0 = ⟨0, √(area / π), dth + a * dl, dth + a * dl⟩ := by
    rcases hc with hc | hc | hc
    · exact hc.2
    · omega
    · omega
  subst hprev
  rw [Py.sqrt_ok (by positivity), Py.ok_bind, Nat.add_sub_cancel, hq0, Py.ok_bind]
  simp only []
  obtain ⟨tab1, h1⟩ := fill_ok hd hl hA han (st_start hs) le_rfl (show 1 + (a + 1) = a + 1 + 1 by omega)
  have hs1 := st_fill (st_start hs) le_rfl (by omega) h1
  obtain ⟨p, hp, e1, e2⟩ := st_values hs1 (a + 1) (a + 1) (by omega)
  obtain ⟨m, hm, m1, m2, -⟩ := hA (a + 1) han (a + 1) (by omega)
  have t1 := thv_nonneg hd hl (show a + 1 ≤ a + 1 + 1 by omega)
  have t2 := thv_le hd hl (j := a + 1) han
  rw [h1, Py.ok_bind, hp, Py.ok_bind, e2, hm, Py.ok_bind, e1]
  have c : Real.cos (thv dth dl (a + 1) (a + 1) - m) ≠ 0 :=
    (Real.cos_pos_of_mem_Ioo ⟨by linarith, by linarith [Real.pi_pos]⟩).ne'
  have t : Real.tan (thv dth dl (a + 1) (a + 1) - m) < 0 :=
    Real.tan_neg_of_neg_of_pi_div_two_lt (by linarith) (by linarith)
  rw [Py.tan_ok c, Py.ok_bind, Py.div_ok t.ne, Py.ok_bind]
  exact ⟨_, rfl⟩

theorem rows_ok {area : ℝ} (ha : 0 ≤ area) (hd : 0 < dth) (hl : 0 < dl) {n : ℕ} (hA : Ang fuel dth dl n) {k a : ℕ}
    (han : a + k ≤ n) {tab : List (List Point)} (hs : St fuel (√(area / π)) dth dl tab a (a + 2)) :
    ∃ tab', rows fuel area dl k (a + 1) tab = .ok tab' := by
  induction k generalizing a tab with
  | zero => exact ⟨tab, rfl⟩
  | succ k ih =>
    obtain ⟨tab1, h1⟩ := row_ok ha hd hl hA (by omega) hs
    obtain ⟨tab', h⟩ := ih (by omega) (st_row hs h1)
    unfold rows
    rw [h1, Py.ok_bind]
    exact ⟨tab', h⟩

/-- angle of the wall at its `k`-th point -/
theorem wt_theta {n : ℕ} {tab0 : List (List Point)} {s : List (List Point) × List (ℝ × ℝ) × Point} {k : ℕ}
    (hs : Wt fuel n tab0 s k) (h0 : St fuel y0 dth dl tab0 n (n + 2)) (hk : k ≤ n + 1) :
    ∃ p, getPt s.1 (n + k) 0 = .ok p ∧ p.theta = thv dth dl n k ∧ p.nu_pmeyer = nuv dth dl n k := by
  rcases Nat.eq_zero_or_pos k with h | h
  · subst h
    obtain ⟨q, hq, e1, e2⟩ := st_values h0 n 0 (by omega)
    exact ⟨q, hs.ext _ _ _ hq, e1, e2⟩
  · obtain ⟨mur, e, w, h1, h2, h3, h4⟩ := hs.wall k h le_rfl
    obtain ⟨q, hq, e1, e2⟩ := st_values h0 n k (by omega)
    rw [h2] at hq
    have := Except.ok.inj hq
    subst this
    exact ⟨w, h3, by rw [h4.theta, e1], by rw [h4.nu, e2]⟩

theorem wall_angles (hd : 0 < dth) (hl : 0 < dl) {n : ℕ} (hn : 1 ≤ n) {k : ℕ} (hk : k + 1 ≤ n + 1) :
    0 < (thv dth dl n (k + 1) + thv dth dl n k) / 2 := by
  have h1 := thv_nonneg hd hl (show k + 1 ≤ n + 1 by omega)
  have h2 : 0 < thv dth dl n k := by
    unfold thv
    split_ifs with h
    · positivity
    · have : (k : ℝ) ≤ n := by exact_mod_cast (by omega : k ≤ n)
      exact mul_pos (by linarith) hl
  linarith

/-- the flow angle decreases by at most `dth + dl` from a node of a row to the next -/
theorem thv_drop (hd : 0 < dth) (hl : 0 < dl) {n k : ℕ} : thv dth dl n k - thv dth dl n (k + 1) ≤ dth + dl := by
  unfold thv
  push_cast
  split_ifs with h1 h2 h2
  · linarith
  · have : k = 1 := by omega
    subst this
    push_cast; linarith
  · omega
  · linarith

theorem walls_ok (hd : 0 < dth) (hl : 0 < dl) {n : ℕ} (hn : 1 ≤ n) (hA : Ang fuel dth dl n) {tab0 : List (List Point)}
    (h0 : St fuel y0 dth dl tab0 n (n + 2)) {s : List (List Point) × List (ℝ × ℝ) × Point} {i k : ℕ}
    (hs : Wt fuel n tab0 s k) (hk : k + i ≤ n + 1) : ∃ s', walls fuel n i (k + 1) s = .ok s' := by
  induction i generalizing k s with
  | zero => exact ⟨s, rfl⟩
  | succ i ih =>
    obtain ⟨mur, hmur, f1, -⟩ := wt_theta hs h0 (by omega)
    obtain ⟨e, he, e1, e2⟩ := st_values h0 n (k + 1) (by omega)
    obtain ⟨m, hm, m1, m2, m3⟩ := hA n le_rfl (k + 1) (by omega)
    have hpos := wall_angles hd hl hn (show k + 1 ≤ n + 1 by omega)
    have t0 := thv_nonneg hd hl (show k + 1 ≤ n + 1 by omega)
    have t1 := thv_drop hd hl (k := k) (n := n)
    obtain ⟨w, hw⟩ := (wall_ok_aux (fuel := fuel) (n := n) (k := k + 1) (tab := s.1) (mur := mur) (e := e) (m := m)
      (by rw [hs.len, show n + 1 + k - 1 = n + k by omega]; exact hmur) (hs.ext _ _ _ he) (by rw [e2]; exact hm)
      (by rw [e1, f1]; exact hpos) (by rw [e1, f1]; linarith) (by rw [e1]; exact m2)).2
    obtain ⟨s', h'⟩ := ih (wt_next hs h0 (by omega) hw) (by omega)
    obtain ⟨tab, pr, pt⟩ := s
    unfold walls
    rw [hw, Py.ok_bind]
    exact ⟨s', h'⟩

theorem wall_first_ok (hd : 0 < dth) (hl : 0 < dl) {n : ℕ} (hn : 1 ≤ n) (hA : Ang fuel dth dl n) {tab0 : List (List Point)}
    (h0 : St fuel y0 dth dl tab0 n (n + 2)) : ∃ w, wall_first fuel n tab0 = .ok w := by
  obtain ⟨mur, hmur, f1, -⟩ := st_values h0 n 0 (by omega)
  obtain ⟨e, he, e1, e2⟩ := st_values h0 n 1 (by omega)
  obtain ⟨m, hm, m1, m2, m3⟩ := hA n le_rfl 1 (by omega)
  have hpos := wall_angles hd hl hn (show 0 + 1 ≤ n + 1 by omega)
  have t0 := thv_nonneg hd hl (show 1 ≤ n + 1 by omega)
  have t1 := thv_drop hd hl (k := 0) (n := n)
  rw [Nat.zero_add] at hpos t1
  exact (wall_ok_aux (fuel := fuel) (n := n) (k := 1) (tab := tab0) (mur := mur) (e := e) (m := m)
    (by rw [h0.len, Nat.add_sub_cancel]; exact hmur) he (by rw [e2]; exact hm)
    (by rw [e1, f1]; exact hpos) (by rw [e1, f1]; linarith) (by rw [e1]; exact m2)).1 rfl

end

/-! ### bounds of the angles -/

theorem shafer {x : ℝ} (hx : 1 ≤ x) : 3 * √(x ^ 2 - 1) / (1 + 2 * x) ≤ arctan (√(x ^ 2 - 1)) := by
  have hd : ∀ y : ℝ, 1 < y → HasDerivAt (fun y => arctan (√(y ^ 2 - 1)) - 3 * √(y ^ 2 - 1) / (1 + 2 * y))
      ((y - 1) ^ 2 / (y * √(y ^ 2 - 1) * (1 + 2 * y) ^ 2)) y := by
    intro y hy
    have hB : 0 < y ^ 2 - 1 := by nlinarith
    have d1 : HasDerivAt (fun M : ℝ => M ^ 2 - 1) (2 * y) y := by
      simpa using (hasDerivAt_pow 2 y).sub_const 1
    have d2 := d1.sqrt hB.ne'
    have d3 : HasDerivAt (fun M : ℝ => 1 + 2 * M) 2 y := by
      simpa using ((hasDerivAt_id y).const_mul 2).const_add 1
    refine (d2.arctan.fun_sub ((d2.const_mul 3).fun_div d3 (by linarith))).congr_deriv ?_
    have hs2 : √(y ^ 2 - 1) ^ 2 = y ^ 2 - 1 := Real.sq_sqrt hB.le
    have hs0 : 0 < √(y ^ 2 - 1) := Real.sqrt_pos.2 hB
    obtain ⟨s, hs⟩ : ∃ s, s = √(y ^ 2 - 1) := ⟨_, rfl⟩
    rw [← hs] at hs2 hs0 ⊢
    rw [hs2, show 1 + (y ^ 2 - 1) = y ^ 2 by ring]
    have : 0 < 1 + 2 * y := by linarith
    field_simp
    rw [hs2]; ring
  have hc : ContinuousOn (fun y => arctan (√(y ^ 2 - 1)) - 3 * √(y ^ 2 - 1) / (1 + 2 * y)) (Set.Ici 1) := by
    apply ContinuousOn.sub (by fun_prop)
    apply ContinuousOn.div (by fun_prop) (by fun_prop)
    intro y hy
    have : (1:ℝ) ≤ y := hy
    linarith
  have hm : MonotoneOn (fun y => arctan (√(y ^ 2 - 1)) - 3 * √(y ^ 2 - 1) / (1 + 2 * y)) (Set.Ici 1) := by
    refine monotoneOn_of_deriv_nonneg (convex_Ici 1) hc ?_ ?_
    · intro y hy
      rw [interior_Ici] at hy
      exact (hd y hy).differentiableAt.differentiableWithinAt
    · intro y hy
      rw [interior_Ici] at hy
      have hy' : (1:ℝ) < y := hy
      rw [(hd y hy').deriv]
      positivity
  have := hm (Set.mem_Ici.2 le_rfl) (Set.mem_Ici.2 hx) hx
  norm_num at this
  exact this

theorem mach_angle_eq {x : ℝ} (hx : 1 < x) : MinNozzle.mach_angle x = .ok (arcsin (1 / x)) ∧
    arcsin (1 / x) = π / 2 - arctan (√(x ^ 2 - 1)) ∧ 1 / x ≤ arcsin (1 / x) := by
  have h0 : 0 < x := by linarith
  have h1 : 1 / x < 1 := (div_lt_one h0).2 hx
  have h2 : 0 < 1 / x := by positivity
  refine ⟨?_, ?_, ?_⟩
  · unfold MinNozzle.mach_angle
    rw [Py.div_ok h0.ne', Py.ok_bind, Py.arcsin_ok (by linarith) h1.le]
  · rw [Real.arcsin_eq_pi_div_two_sub_arccos, Real.arccos_eq_arctan h2]
    congr 2
    have e : x ^ 2 - 1 = (1 - (1 / x) ^ 2) * x ^ 2 := by field_simp
    rw [e, Real.sqrt_mul' _ (sq_nonneg x), Real.sqrt_sq h0.le]
    field_simp
  · rw [Real.le_arcsin_iff_sin_le ⟨by linarith [Real.pi_pos], by linarith [Real.pi_gt_d2, show (3.14:ℝ) > 3 by norm_num]⟩ ⟨by linarith, h1.le⟩]
    exact (Real.sin_lt h2).le

theorem npm_le_sub {x : ℝ} : npm x ≤ √(x ^ 2 - 1) - arctan (√(x ^ 2 - 1)) := by
  unfold npm pmRad
  obtain ⟨K, hK⟩ : ∃ K, K = pmC gamma := ⟨_, rfl⟩
  have hK1 : 1 < K := by rw [hK]; exact one_lt_pmC mn_gamma_one_lt
  rw [← hK]
  have h0 : 0 ≤ √(x ^ 2 - 1) := Real.sqrt_nonneg _
  have : arctan (√(x ^ 2 - 1) / K) ≤ √(x ^ 2 - 1) / K := by
    have := arctan_le_poly (x := √(x ^ 2 - 1) / K) (by positivity)
    rcases (div_nonneg h0 (by linarith : (0:ℝ) ≤ K)).eq_or_lt with h | h
    · rw [← h]; simp
    · have := Real.le_tan (x := arctan (√(x ^ 2 - 1) / K)) (Real.arctan_pos.2 h).le (Real.arctan_lt_pi_div_two _)
      rwa [Real.tan_arctan] at this
  have : K * arctan (√(x ^ 2 - 1) / K) ≤ √(x ^ 2 - 1) := by
    calc _ ≤ K * (√(x ^ 2 - 1) / K) := mul_le_mul_of_nonneg_left this (by linarith)
      _ = _ := by field_simp
  linarith

/-- a common amount of fuel for finitely many searches -/
theorem common_fuel {Q : ℕ → ℕ → ℕ → Prop} (N : ℕ) (h : ∀ i j, ∃ F, ∀ m, F ≤ m → Q i j m ∨ ¬ (i ≤ N ∧ j ≤ N)) :
    ∃ F, ∀ m, F ≤ m → ∀ i ≤ N, ∀ j ≤ N, Q i j m := by
  choose F hF using h
  refine ⟨(Finset.range (N + 1)).sup fun i => (Finset.range (N + 1)).sup fun j => F i j, fun m hm i hi j hj => ?_⟩
  have h1 : F i j ≤ (Finset.range (N + 1)).sup fun j => F i j :=
    Finset.le_sup (f := fun j => F i j) (Finset.mem_range.2 (by omega))
  have h2 : ((Finset.range (N + 1)).sup fun j => F i j) ≤ (Finset.range (N + 1)).sup fun i => (Finset.range (N + 1)).sup fun j => F i j :=
    Finset.le_sup (f := fun i => (Finset.range (N + 1)).sup fun j => F i j) (Finset.mem_range.2 (by omega))
  rcases hF i j m (h1.trans (h2.trans hm)) with h | h
  · exact h
  · exact absurd ⟨hi, hj⟩ h

end Aerokit.Props
