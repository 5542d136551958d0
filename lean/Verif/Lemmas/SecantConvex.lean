import Verif.Model.ScipyNewton
import Mathlib.Analysis.Convex.Slope
import Mathlib.Tactic

/-! # The secant method of scipy on a convex increasing function -/

namespace Aerokit.ScipyNewton

/-- the root of the chord -/
noncomputable def chord (p0 p1 q0 q1 : ℝ) : ℝ := p1 - q1 * ((p1 - p0) / (q1 - q0))

theorem newPoint_eq {p0 p1 q0 q1 : ℝ} (h : q1 ≠ q0) : newPoint p0 p1 q0 q1 = .ok (chord p0 p1 q0 q1) := by
  unfold newPoint chord
  have hd : q1 - q0 ≠ 0 := sub_ne_zero.2 h
  split_ifs with hc
  · have h1 : q1 ≠ 0 := by rintro rfl; simp at hc; exact absurd hc (not_lt.2 (abs_nonneg _))
    have h2 : 1 - q0 / q1 ≠ 0 := by
      intro e; apply h; field_simp at e; linarith
    rw [Py.div_ok h1, Py.ok_bind, Py.div_ok h1, Py.ok_bind, Py.div_ok h2]
    congr 1
    have : 1 - q0 / q1 = (q1 - q0) / q1 := by field_simp
    rw [this]; field_simp; ring
  · have h1 : q0 ≠ 0 := by rintro rfl; apply h; push Not at hc; simpa using hc
    have h2 : 1 - q1 / q0 ≠ 0 := by
      intro e; apply h; field_simp at e; linarith
    rw [Py.div_ok h1, Py.ok_bind, Py.div_ok h1, Py.ok_bind, Py.div_ok h2]
    congr 1
    have : 1 - q1 / q0 = -(q1 - q0) / q0 := by field_simp; ring
    rw [this]; field_simp; ring

/-- one turn of the loop -/
theorem loop_succ {tol rtol : ℝ} {f : ℝ → Py ℝ} {k : ℕ} {p0 p1 q0 q1 : ℝ} (h : q1 ≠ q0) :
    secantLoop tol rtol f (k + 1) p0 p1 q0 q1 =
      if |chord p0 p1 q0 q1 - p1| ≤ tol + rtol * |p1| then .ok (chord p0 p1 q0 q1)
      else f (chord p0 p1 q0 q1) >>= fun q => secantLoop tol rtol f k p1 (chord p0 p1 q0 q1) q1 q := by
  rw [secantLoop, if_neg h, newPoint_eq h, Py.ok_bind]
  rfl

/-- the function, convex and increasing on `[A, B]`, with slopes in `[μ, ν]`, and at most `ν0` before its root `r` -/
structure Conv (F : ℝ → ℝ) (A B r μ ν ν0 : ℝ) : Prop where
  mu : 0 < μ
  root : F r = 0
  Ar : A ≤ r
  rB : r ≤ B
  lo : ∀ x ∈ Set.Icc A B, ∀ y ∈ Set.Icc A B, x < y → μ * (y - x) ≤ F y - F x
  hi : ∀ x ∈ Set.Icc A B, ∀ y ∈ Set.Icc A B, x < y → F y - F x ≤ ν * (y - x)
  hi0 : ∀ x ∈ Set.Icc A r, -F x ≤ ν0 * (r - x)
  conv : ∀ x ∈ Set.Icc A B, ∀ y ∈ Set.Icc A B, ∀ z ∈ Set.Icc A B, x < y → y < z → (F y - F x) * (z - y) ≤ (F z - F y) * (y - x)
  room : A + (r - A) * (ν0 / μ) ≤ B
  mn0 : μ ≤ ν0
  mn : μ ≤ ν

variable {F : ℝ → ℝ} {A B r μ ν ν0 : ℝ}

/-- slope between two points -/
theorem Conv.slope (C : Conv F A B r μ ν ν0) {x y : ℝ} (hx : x ∈ Set.Icc A B) (hy : y ∈ Set.Icc A B) (h : x ≠ y) :
    ∃ s, μ ≤ s ∧ s ≤ ν ∧ F y - F x = s * (y - x) ∧ F y ≠ F x ∧ chord x y (F x) (F y) = y - F y / s ∧ chord x y (F x) (F y) = x - F x / s := by
  have hmu := C.mu
  have key : ∀ x ∈ Set.Icc A B, ∀ y ∈ Set.Icc A B, x < y → μ ≤ (F y - F x) / (y - x) ∧ (F y - F x) / (y - x) ≤ ν := by
    intro x hx y hy h
    have hd : 0 < y - x := by linarith
    exact ⟨by rw [le_div_iff₀ hd]; exact C.lo x hx y hy h, by rw [div_le_iff₀ hd]; exact C.hi x hx y hy h⟩
  have hs : μ ≤ (F y - F x) / (y - x) ∧ (F y - F x) / (y - x) ≤ ν := by
    rcases lt_or_gt_of_ne h with c | c
    · exact key x hx y hy c
    · have := key y hy x hx c
      rwa [show (F x - F y) / (x - y) = (F y - F x) / (y - x) by rw [← neg_div_neg_eq]; congr 1 <;> ring] at this
  obtain ⟨s, es⟩ : ∃ s, s = (F y - F x) / (y - x) := ⟨_, rfl⟩
  rw [← es] at hs
  have hd : y - x ≠ 0 := sub_ne_zero.2 (Ne.symm h)
  have e : F y - F x = s * (y - x) := by rw [es]; field_simp
  have s0 : 0 < s := by linarith
  have hF : F y - F x ≠ 0 := by rw [e]; exact mul_ne_zero s0.ne' hd
  have e1 : chord x y (F x) (F y) = y - F y / s := by
    unfold chord; rw [e]; field_simp
  refine ⟨s, hs.1, hs.2, e, fun h => hF (by rw [h, sub_self]), e1, ?_⟩
  rw [e1]
  have : F y = F x + s * (y - x) := by linarith
  rw [this]; field_simp; ring

/-- the four positions of the two points, with the error that decreases -/
inductive Pos (r E : ℝ) (p0 p1 : ℝ) : Prop
  | rr (h0 : r ≤ p0) (h1 : r ≤ p1) (e : p1 - r ≤ E)
  | rl (h0 : r ≤ p0) (h1 : p1 ≤ r) (e : r - p1 ≤ E)
  | ll (h0 : p0 ≤ r) (h1 : p1 ≤ r) (e : r - p1 ≤ E)
  | lr (h0 : p0 ≤ r) (h1 : r ≤ p1) (e : r - p0 ≤ E)

theorem Conv.F_nonneg (C : Conv F A B r μ ν ν0) {x : ℝ} (hx : x ∈ Set.Icc A B) (h : r ≤ x) : μ * (x - r) ≤ F x ∧ F x ≤ ν * (x - r) := by
  rcases h.eq_or_lt with e | e
  · subst e; simp [C.root]
  · have h1 := C.lo r ⟨C.Ar, C.rB⟩ x hx e
    have h2 := C.hi r ⟨C.Ar, C.rB⟩ x hx e
    rw [C.root, sub_zero] at h1 h2
    exact ⟨h1, h2⟩

theorem Conv.F_nonpos (C : Conv F A B r μ ν ν0) {x : ℝ} (hx : x ∈ Set.Icc A B) (h : x ≤ r) : μ * (r - x) ≤ -F x ∧ -F x ≤ ν * (r - x) := by
  rcases h.eq_or_lt with e | e
  · subst e; simp [C.root]
  · have h1 := C.lo x hx r ⟨C.Ar, C.rB⟩ e
    have h2 := C.hi x hx r ⟨C.Ar, C.rB⟩ e
    rw [C.root, zero_sub] at h1 h2
    exact ⟨h1, h2⟩

/-- both points at the right of the root -/
theorem Conv.step_rr (C : Conv F A B r μ ν ν0) {p0 p1 : ℝ} (h0 : p0 ∈ Set.Icc A B) (h1 : p1 ∈ Set.Icc A B) (hne : p0 ≠ p1) (g0 : r ≤ p0) (g1 : r ≤ p1) :
    r ≤ chord p0 p1 (F p0) (F p1) ∧ chord p0 p1 (F p0) (F p1) ≤ p1 ∧ chord p0 p1 (F p0) (F p1) - r ≤ (1 - μ / ν) * (p1 - r) ∧
      μ * (p1 - r) ≤ ν * (p1 - chord p0 p1 (F p0) (F p1)) := by
  obtain ⟨s, s1, s2, e, -, ec, -⟩ := C.slope h0 h1 hne
  have hmu := C.mu
  have s0 : 0 < s := by linarith
  have n0 : 0 < ν := by linarith
  obtain ⟨a1, a2⟩ := C.F_nonneg h1 g1
  have hFle : F p1 ≤ s * (p1 - r) := by
    rcases g1.eq_or_lt with c | c
    · rw [← c, C.root]; simp
    · rcases lt_or_gt_of_ne hne with d | d
      · rcases g0.eq_or_lt with c0 | c0
        · rw [← c0, C.root] at e; linarith
        · have := C.conv r ⟨C.Ar, C.rB⟩ p0 h0 p1 h1 c0 d
          rw [C.root, sub_zero] at this
          -- F p0 (p1-p0) ≤ (F p1 - F p0)(p0 - r)
          rw [e] at this
          have hd : 0 < p1 - p0 := by linarith
          have h3 : F p0 ≤ s * (p0 - r) := by
            have : F p0 * (p1 - p0) ≤ s * (p0 - r) * (p1 - p0) := by linarith
            exact le_of_mul_le_mul_right this hd
          have : F p1 = F p0 + s * (p1 - p0) := by linarith
          rw [this]; linarith
      · have := C.conv r ⟨C.Ar, C.rB⟩ p1 h1 p0 h0 c d
        rw [C.root, sub_zero] at this
        have e' : F p0 - F p1 = s * (p0 - p1) := by linarith
        rw [e'] at this
        have hd : 0 < p0 - p1 := by linarith
        have : F p1 * (p0 - p1) ≤ s * (p1 - r) * (p0 - p1) := by linarith
        exact le_of_mul_le_mul_right this hd
  have hP : 0 ≤ p1 - r := by linarith
  have hF0 : 0 ≤ F p1 := le_trans (by positivity) a1
  rw [ec]
  have hq : F p1 / s ≤ p1 - r := by rw [div_le_iff₀ s0]; linarith
  have hq0 : 0 ≤ F p1 / s := by positivity
  have hq1 : μ / ν * (p1 - r) ≤ F p1 / s := by
    rw [le_div_iff₀ s0]
    calc μ / ν * (p1 - r) * s ≤ μ / ν * (p1 - r) * ν := by gcongr
      _ = μ * (p1 - r) := by field_simp
      _ ≤ _ := a1
  refine ⟨by linarith, by linarith, by linarith, ?_⟩
  have := mul_le_mul_of_nonneg_left hq1 n0.le
  rw [show ν * (μ / ν * (p1 - r)) = μ * (p1 - r) by field_simp] at this
  linarith

/-- the points `a ≤ r ≤ b`, in any order -/
theorem Conv.step_straddle (C : Conv F A B r μ ν ν0) {a b : ℝ} (ha : a ∈ Set.Icc A B) (hb : b ∈ Set.Icc A B) (hne : a ≠ b) (ga : a ≤ r) (gb : r ≤ b) {s : ℝ}
    (hs1 : μ ≤ s) (hs2 : s ≤ ν) (e : F b - F a = s * (b - a)) :
    a ≤ a - F a / s ∧ a - F a / s ≤ r ∧ r - (a - F a / s) ≤ (1 - μ / ν) * (r - a) ∧ μ * (r - a) ≤ ν * ((a - F a / s) - a) := by
  have hmu := C.mu
  have s0 : 0 < s := by linarith
  have n0 : 0 < ν := by linarith
  obtain ⟨a1, a2⟩ := C.F_nonpos ha ga
  have hd : 0 < b - a := by
    rcases lt_or_gt_of_ne hne with c | c <;> linarith
  have hle : -F a ≤ s * (r - a) := by
    rcases ga.eq_or_lt with c | c
    · rw [c, C.root]; simp
    · rcases gb.eq_or_lt with d | d
      · rw [← d, C.root] at e; linarith
      · have := C.conv a ha r ⟨C.Ar, C.rB⟩ b hb c d
        rw [C.root] at this
        -- (-F a)(b - r) ≤ F b (r - a)
        have h3 : F b = F a + s * (b - a) := by linarith
        rw [h3] at this
        have : -F a * (b - a) ≤ s * (r - a) * (b - a) := by nlinarith
        exact le_of_mul_le_mul_right this hd
  have hP : 0 ≤ r - a := by linarith
  have hF0 : 0 ≤ -F a := le_trans (by positivity) a1
  have hq : -F a / s ≤ r - a := by rw [div_le_iff₀ s0]; linarith
  have hq0 : 0 ≤ -F a / s := by positivity
  have hq1 : μ / ν * (r - a) ≤ -F a / s := by
    rw [le_div_iff₀ s0]
    calc μ / ν * (r - a) * s ≤ μ / ν * (r - a) * ν := by gcongr
      _ = μ * (r - a) := by field_simp
      _ ≤ _ := a1
  have hneg : a - F a / s = a + -F a / s := by ring
  rw [hneg]
  refine ⟨by linarith, by linarith, by linarith, ?_⟩
  have := mul_le_mul_of_nonneg_left hq1 n0.le
  rw [show ν * (μ / ν * (r - a)) = μ * (r - a) by field_simp] at this
  linarith

/-- both points at the left -/
theorem Conv.step_ll (C : Conv F A B r μ ν ν0) {p0 p1 : ℝ} (h0 : p0 ∈ Set.Icc A B) (h1 : p1 ∈ Set.Icc A B) (hne : p0 ≠ p1) (g0 : p0 ≤ r) (g1 : p1 ≤ r) :
    r ≤ chord p0 p1 (F p0) (F p1) ∧ chord p0 p1 (F p0) (F p1) ≤ B := by
  obtain ⟨s, s1, s2, e, -, ec, -⟩ := C.slope h0 h1 hne
  have hmu := C.mu
  have s0 : 0 < s := by linarith
  obtain ⟨a1, a2⟩ := C.F_nonpos h1 g1
  have hge : s * (r - p1) ≤ -F p1 := by
    rcases g1.eq_or_lt with c | c
    · rw [c, C.root]; simp
    · rcases lt_or_gt_of_ne hne with d | d
      · have := C.conv p0 h0 p1 h1 r ⟨C.Ar, C.rB⟩ d c
        rw [C.root, e] at this
        have hd : 0 < p1 - p0 := by linarith
        have : s * (r - p1) * (p1 - p0) ≤ -F p1 * (p1 - p0) := by linarith
        exact le_of_mul_le_mul_right this hd
      · rcases g0.eq_or_lt with c0 | c0
        · have e' := e
          rw [c0, C.root] at e'; linarith
        · have := C.conv p1 h1 p0 h0 r ⟨C.Ar, C.rB⟩ d c0
          rw [C.root] at this
          have e' : F p0 - F p1 = s * (p0 - p1) := by linarith
          rw [e'] at this
          have hd : 0 < p0 - p1 := by linarith
          have : s * (r - p0) * (p0 - p1) ≤ -F p0 * (p0 - p1) := by linarith
          have := le_of_mul_le_mul_right this hd
          linarith
  have h3 : -F p1 ≤ ν0 * (r - p1) := C.hi0 p1 ⟨h1.1, g1⟩
  have hneg : p1 - F p1 / s = p1 + -F p1 / s := by ring
  rw [ec, hneg]
  refine ⟨?_, ?_⟩
  · have : r - p1 ≤ -F p1 / s := by rw [le_div_iff₀ s0]; linarith
    linarith
  · refine le_trans ?_ C.room
    have hP : 0 ≤ r - p1 := by linarith
    have hF0 : 0 ≤ -F p1 := le_trans (by positivity) a1
    have h4 : -F p1 / s ≤ ν0 / μ * (r - p1) := by
      rw [div_le_iff₀ s0]
      have hn0 : 0 ≤ ν0 / μ * (r - p1) := mul_nonneg (div_nonneg (by linarith [C.mn0]) hmu.le) hP
      calc -F p1 ≤ ν0 * (r - p1) := h3
        _ = ν0 / μ * (r - p1) * μ := by field_simp
        _ ≤ _ := by gcongr
    have h5 : 1 ≤ ν0 / μ := by rw [one_le_div hmu]; exact C.mn0
    have h6 := h1.1
    nlinarith

/-- what remains to be done, with `k` iterations left: four positions of the two points -/
inductive Ready (r tol ρ : ℝ) (k : ℕ) (p0 p1 : ℝ) : Prop
  | rr (n : ℕ) (h0 : r ≤ p0) (h1 : r ≤ p1) (e : (p1 - r) * ρ ^ n ≤ tol) (hk : n + 1 ≤ k)
  | rl (n : ℕ) (h0 : r ≤ p0) (h1 : p1 ≤ r) (e : (r - p1) * ρ ^ (2 * n) ≤ tol) (hk : 3 * n + 1 ≤ k)
  | lr (n : ℕ) (h0 : p0 ≤ r) (h1 : r ≤ p1) (e : (r - p0) * ρ ^ (2 * n + 1) ≤ tol) (hk : 3 * n + 2 ≤ k)
  | ll (n : ℕ) (h0 : p0 ≤ r) (h1 : p1 ≤ r) (e : (r - p1) * ρ ^ (2 * n + 1) ≤ tol) (hk : 3 * n + 3 ≤ k)

/-- the new point: it stays in the interval; if it is close to the last one it is close to the root -/
theorem Conv.step (C : Conv F A B r μ ν ν0) {p0 p1 : ℝ} (h0 : p0 ∈ Set.Icc A B) (h1 : p1 ∈ Set.Icc A B) (hne : p0 ≠ p1) :
    chord p0 p1 (F p0) (F p1) ∈ Set.Icc A B ∧
    (∀ T, |chord p0 p1 (F p0) (F p1) - p1| ≤ T → |chord p0 p1 (F p0) (F p1) - r| ≤ max 1 (ν / μ - 1) * T) ∧
    (∀ tol k, Ready r tol (1 - μ / ν) (k + 1) p0 p1 → |chord p0 p1 (F p0) (F p1) - p1| ≤ tol ∨
      Ready r tol (1 - μ / ν) k p1 (chord p0 p1 (F p0) (F p1))) := by
  have hmu := C.mu
  have n0 : 0 < ν := by linarith [C.mn]
  have rA := C.Ar
  have rB := C.rB
  obtain ⟨s, s1, s2, es, -, ec1, ec0⟩ := C.slope h0 h1 hne
  have hρ : 0 ≤ 1 - μ / ν := by rw [sub_nonneg, div_le_one n0]; exact C.mn
  have hfar : ∀ {x y T : ℝ}, 0 ≤ T → x ≤ (1 - μ / ν) * y → μ * y ≤ ν * T → x ≤ max 1 (ν / μ - 1) * T := by
    intro x y T hT0 hx hy
    have hT : (ν / μ - 1) * T = (1 - μ / ν) * (ν / μ * T) := by field_simp
    have hy' : y ≤ ν / μ * T := by rw [div_mul_eq_mul_div, le_div_iff₀ hmu]; linarith
    refine (hx.trans (mul_le_mul_of_nonneg_left hy' hρ)).trans ?_
    rw [← hT]; exact mul_le_mul_of_nonneg_right (le_max_right _ _) hT0
  have hnear : ∀ {x T : ℝ}, 0 ≤ T → x ≤ T → x ≤ max 1 (ν / μ - 1) * T := fun hT0 h =>
    h.trans (le_mul_of_one_le_left hT0 (le_max_left _ _))
  have hsucc : ∀ {x y tol : ℝ} {n : ℕ}, x ≤ (1 - μ / ν) * y → y * (1 - μ / ν) ^ (n + 1) ≤ tol → x * (1 - μ / ν) ^ n ≤ tol := by
    intro x y tol n h h'
    refine (mul_le_mul_of_nonneg_right h (pow_nonneg hρ n)).trans ?_
    calc (1 - μ / ν) * y * (1 - μ / ν) ^ n = y * (1 - μ / ν) ^ (n + 1) := by ring
      _ ≤ _ := h'
  have es' : F p0 - F p1 = s * (p0 - p1) := by linarith
  obtain ⟨c, hc⟩ : ∃ c, c = chord p0 p1 (F p0) (F p1) := ⟨_, rfl⟩
  have RR := fun g0 g1 => C.step_rr h0 h1 hne g0 g1
  have LL := fun g0 g1 => C.step_ll h0 h1 hne g0 g1
  have LR := fun g0 g1 => C.step_straddle h0 h1 hne g0 g1 s1 s2 es
  have RL := fun g0 g1 => C.step_straddle h1 h0 hne.symm g1 g0 s1 s2 es'
  rw [← ec0, ← hc] at LR
  rw [← ec1, ← hc] at RL
  rw [← hc] at RR LL ⊢
  refine ⟨?_, ?_, ?_⟩
  · rcases le_total r p0 with g0 | g0 <;> rcases le_total r p1 with g1 | g1
    · obtain ⟨a1, a2, -⟩ := RR g0 g1
      exact ⟨rA.trans a1, a2.trans h1.2⟩
    · obtain ⟨a1, a2, -⟩ := RL g0 g1
      exact ⟨h1.1.trans a1, a2.trans rB⟩
    · obtain ⟨a1, a2, -⟩ := LR g0 g1
      exact ⟨h0.1.trans a1, a2.trans rB⟩
    · obtain ⟨a1, a2⟩ := LL g0 g1
      exact ⟨rA.trans a1, a2⟩
  · intro T hT
    have T0 : 0 ≤ T := (abs_nonneg _).trans hT
    rcases le_total r p0 with g0 | g0 <;> rcases le_total r p1 with g1 | g1
    · obtain ⟨a1, a2, a3, a4⟩ := RR g0 g1
      rw [abs_of_nonpos (by linarith)] at hT
      rw [abs_of_nonneg (by linarith)]
      exact hfar T0 a3 (a4.trans (by gcongr; linarith))
    · obtain ⟨a1, a2, a3, a4⟩ := RL g0 g1
      rw [abs_of_nonneg (by linarith)] at hT
      rw [abs_of_nonpos (by linarith)]
      exact hfar T0 (by linarith) (a4.trans (by gcongr))
    · obtain ⟨a1, a2, a3, a4⟩ := LR g0 g1
      rw [abs_of_nonpos (by linarith)] at hT
      rw [abs_of_nonpos (by linarith)]
      exact hnear T0 (by linarith)
    · obtain ⟨a1, a2⟩ := LL g0 g1
      rw [abs_of_nonneg (by linarith)] at hT
      rw [abs_of_nonneg (by linarith)]
      exact hnear T0 (by linarith)
  · intro tol k R
    cases R with
    | rr n g0 g1 e hk =>
      obtain ⟨a1, a2, a3, a4⟩ := RR g0 g1
      rcases n with - | n
      · left; rw [abs_of_nonpos (by linarith)]; rw [pow_zero, mul_one] at e; linarith
      · right; exact .rr n g1 a1 (hsucc a3 e) (by omega)
    | rl n g0 g1 e hk =>
      obtain ⟨a1, a2, a3, a4⟩ := RL g0 g1
      rcases n with - | n
      · left; rw [abs_of_nonneg (by linarith)]; rw [mul_zero, pow_zero, mul_one] at e; linarith
      · right; exact .ll n g1 a2 (hsucc a3 (by rw [show 2 * n + 1 + 1 = 2 * (n + 1) by ring]; exact e)) (by omega)
    | lr n g0 g1 e hk =>
      obtain ⟨a1, a2, a3, a4⟩ := LR g0 g1
      right; exact .rl n g1 a2 (hsucc a3 e) (by omega)
    | ll n g0 g1 e hk =>
      obtain ⟨a1, a2⟩ := LL g0 g1
      right; exact .lr n g1 a1 e (by omega)

/-- accuracy: whatever the number of iterations, a returned value is close to the root -/
theorem Conv.loop_acc (C : Conv F A B r μ ν ν0) {f : ℝ → Py ℝ} (hf : ∀ x ∈ Set.Icc A B, f x = .ok (F x)) {tol rtol T m : ℝ} (ht : 0 ≤ tol) (hr : 0 ≤ rtol)
    (hT : ∀ x ∈ Set.Icc A B, tol + rtol * |x| ≤ T) : ∀ (k : ℕ) (p0 p1 : ℝ), p0 ∈ Set.Icc A B → p1 ∈ Set.Icc A B → p0 ≠ p1 →
      secantLoop tol rtol f k p0 p1 (F p0) (F p1) = .ok m → m ∈ Set.Icc A B ∧ |m - r| ≤ max 1 (ν / μ - 1) * T := by
  intro k
  induction k with
  | zero => intro p0 p1 _ _ _ h; cases h
  | succ k ih =>
    intro p0 p1 h0 h1 hne h
    obtain ⟨-, -, -, -, hq, -⟩ := C.slope h0 h1 hne
    obtain ⟨b1, b2, -⟩ := C.step h0 h1 hne
    rw [loop_succ hq] at h
    split_ifs at h with hc
    · have h := Except.ok.inj h
      subst h
      exact ⟨b1, b2 T (hc.trans (hT _ h1))⟩
    · rw [hf _ b1, Py.ok_bind] at h
      refine ih _ _ h1 b1 (fun e => hc ?_) h
      rw [← e, sub_self, abs_zero]; positivity

/-- convergence: the value is returned within the number of iterations given by the contraction -/
theorem Conv.loop_ok (C : Conv F A B r μ ν ν0) {f : ℝ → Py ℝ} (hf : ∀ x ∈ Set.Icc A B, f x = .ok (F x)) {tol rtol : ℝ} (ht : 0 ≤ tol) (hr : 0 ≤ rtol) :
    ∀ (k : ℕ) (p0 p1 : ℝ), p0 ∈ Set.Icc A B → p1 ∈ Set.Icc A B → p0 ≠ p1 → Ready r tol (1 - μ / ν) k p0 p1 →
      ∃ m, secantLoop tol rtol f k p0 p1 (F p0) (F p1) = .ok m := by
  intro k
  induction k with
  | zero => intro p0 p1 _ _ _ R; rcases R <;> omega
  | succ k ih =>
    intro p0 p1 h0 h1 hne R
    obtain ⟨-, -, -, -, hq, -⟩ := C.slope h0 h1 hne
    obtain ⟨b1, -, b3⟩ := C.step h0 h1 hne
    rw [loop_succ hq]
    split_ifs with hc
    · exact ⟨_, rfl⟩
    · rw [hf _ b1, Py.ok_bind]
      have hne' : p1 ≠ chord p0 p1 (F p0) (F p1) := fun e => hc (by rw [← e, sub_self, abs_zero]; positivity)
      refine ih _ _ h1 b1 hne' ((b3 tol k R).resolve_left fun h => hc (h.trans ?_))
      have : 0 ≤ rtol * |p1| := by positivity
      linarith

/-- convergence with a relative tolerance: `t` bounds the stopping threshold from below -/
theorem Conv.loop_ok_rel (C : Conv F A B r μ ν ν0) {f : ℝ → Py ℝ} (hf : ∀ x ∈ Set.Icc A B, f x = .ok (F x)) {tol rtol t : ℝ}
    (ht : ∀ x ∈ Set.Icc A B, t ≤ tol + rtol * |x|) (h0t : ∀ x ∈ Set.Icc A B, 0 ≤ tol + rtol * |x|) :
    ∀ (k : ℕ) (p0 p1 : ℝ), p0 ∈ Set.Icc A B → p1 ∈ Set.Icc A B → p0 ≠ p1 → Ready r t (1 - μ / ν) k p0 p1 →
      ∃ m, secantLoop tol rtol f k p0 p1 (F p0) (F p1) = .ok m := by
  intro k
  induction k with
  | zero => intro p0 p1 _ _ _ R; rcases R <;> omega
  | succ k ih =>
    intro p0 p1 h0 h1 hne R
    obtain ⟨-, -, -, -, hq, -⟩ := C.slope h0 h1 hne
    obtain ⟨b1, -, b3⟩ := C.step h0 h1 hne
    rw [loop_succ hq]
    split_ifs with hc
    · exact ⟨_, rfl⟩
    · rw [hf _ b1, Py.ok_bind]
      have hne' : p1 ≠ chord p0 p1 (F p0) (F p1) := fun e => hc (by rw [← e, sub_self, abs_zero]; exact h0t _ h1)
      exact ih _ _ h1 b1 hne' ((b3 t k R).resolve_left fun h => hc (h.trans (ht _ h1)))

/-- the whole search -/
theorem Conv.newton_ok (C : Conv F A B r μ ν ν0) {f : ℝ → Py ℝ} (hf : ∀ x ∈ Set.Icc A B, f x = .ok (F x)) {tol rtol x0 E : ℝ} (ht : 0 ≤ tol) (hr : 0 ≤ rtol)
    (h0 : x0 ∈ Set.Icc A B) (h1 : second x0 ∈ Set.Icc A B) (hne : x0 ≠ second x0) (hE1 : r - A ≤ E) (hE2 : ∀ x, x = x0 ∨ x = second x0 → x - r ≤ E) (n maxiter : ℕ)
    (hn : E * (1 - μ / ν) ^ (2 * n) ≤ tol) (hk : 3 * n + 3 ≤ maxiter) : ∃ m, newton tol rtol maxiter f x0 = .ok m := by
  have n0 : 0 < ν := by linarith [C.mn, C.mu]
  have hρ : 0 ≤ 1 - μ / ν := by rw [sub_nonneg, div_le_one n0]; exact C.mn
  have hρ1 : 1 - μ / ν ≤ 1 := by have := div_pos C.mu n0; linarith
  have hp : (1 - μ / ν) ^ (2 * n + 1) ≤ (1 - μ / ν) ^ (2 * n) := pow_le_pow_of_le_one hρ hρ1 (by omega)
  have hE0 : 0 ≤ E := by linarith [C.Ar]
  have key : ∀ a b, a ∈ Set.Icc A B → b ∈ Set.Icc A B → (b - r ≤ E) → Ready r tol (1 - μ / ν) maxiter a b := by
    intro a b ha hb he
    have m1 : ∀ x, x ≤ E → x * (1 - μ / ν) ^ (2 * n) ≤ tol := fun x hx => (mul_le_mul_of_nonneg_right hx (pow_nonneg hρ _)).trans hn
    have m2 : ∀ x, 0 ≤ x → x ≤ E → x * (1 - μ / ν) ^ (2 * n + 1) ≤ tol := fun x hx hx' => (mul_le_mul_of_nonneg_left hp hx).trans (m1 x hx')
    rcases le_total r a with g0 | g0 <;> rcases le_total r b with g1 | g1
    · exact .rr (2 * n) g0 g1 (m1 _ he) (by omega)
    · exact .rl n g0 g1 (m1 _ (by linarith [hb.1])) (by omega)
    · exact .lr n g0 g1 (m2 _ (by linarith) (by linarith [ha.1])) (by omega)
    · exact .ll n g0 g1 (m2 _ (by linarith) (by linarith [hb.1])) (by omega)
  unfold newton
  simp only []
  rw [hf _ h0, Py.ok_bind, hf _ h1, Py.ok_bind]
  split_ifs with hc
  · exact C.loop_ok hf ht hr _ _ _ h1 h0 hne.symm (key _ _ h1 h0 (hE2 _ (Or.inl rfl)))
  · exact C.loop_ok hf ht hr _ _ _ h0 h1 hne (key _ _ h0 h1 (hE2 _ (Or.inr rfl)))

/-- the search started at the right of the root -/
theorem Conv.newton_ok_right (C : Conv F A B r μ ν ν0) {f : ℝ → Py ℝ} (hf : ∀ x ∈ Set.Icc A B, f x = .ok (F x)) {tol rtol x0 E : ℝ} (ht : 0 ≤ tol) (hr : 0 ≤ rtol)
    (h0 : x0 ∈ Set.Icc A B) (h1 : second x0 ∈ Set.Icc A B) (hne : x0 ≠ second x0) (g0 : r ≤ x0) (g1 : r ≤ second x0)
    (hE2 : ∀ x, x = x0 ∨ x = second x0 → x - r ≤ E) (n maxiter : ℕ)
    (hn : E * (1 - μ / ν) ^ n ≤ tol) (hk : n + 1 ≤ maxiter) : ∃ m, newton tol rtol maxiter f x0 = .ok m := by
  have n0 : 0 < ν := by linarith [C.mn, C.mu]
  have hρ : 0 ≤ 1 - μ / ν := by rw [sub_nonneg, div_le_one n0]; exact C.mn
  have key : ∀ a b, r ≤ a → r ≤ b → (b - r ≤ E) → Ready r tol (1 - μ / ν) maxiter a b := fun a b ha hb he =>
    .rr n ha hb ((mul_le_mul_of_nonneg_right he (pow_nonneg hρ _)).trans hn) hk
  unfold newton
  simp only []
  rw [hf _ h0, Py.ok_bind, hf _ h1, Py.ok_bind]
  split_ifs with hc
  · exact C.loop_ok hf ht hr _ _ _ h1 h0 hne.symm (key _ _ g1 g0 (hE2 _ (Or.inl rfl)))
  · exact C.loop_ok hf ht hr _ _ _ h0 h1 hne (key _ _ g0 g1 (hE2 _ (Or.inr rfl)))

theorem Conv.newton_acc (C : Conv F A B r μ ν ν0) {f : ℝ → Py ℝ} (hf : ∀ x ∈ Set.Icc A B, f x = .ok (F x)) {tol rtol x0 T m : ℝ} (ht : 0 ≤ tol) (hr : 0 ≤ rtol)
    (hT : ∀ x ∈ Set.Icc A B, tol + rtol * |x| ≤ T) (h0 : x0 ∈ Set.Icc A B) (h1 : second x0 ∈ Set.Icc A B) (hne : x0 ≠ second x0) (maxiter : ℕ)
    (h : newton tol rtol maxiter f x0 = .ok m) : m ∈ Set.Icc A B ∧ |m - r| ≤ max 1 (ν / μ - 1) * T := by
  unfold newton at h
  simp only [] at h
  rw [hf _ h0, Py.ok_bind, hf _ h1, Py.ok_bind] at h
  split_ifs at h with hc
  · exact C.loop_acc hf ht hr hT _ _ _ h1 h0 hne.symm h
  · exact C.loop_acc hf ht hr hT _ _ _ h0 h1 hne h

end Aerokit.ScipyNewton
