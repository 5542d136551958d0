import Verif.Props.Solve
import Mathlib.Analysis.Convex.Slope
import Mathlib.Analysis.Convex.SpecificFunctions.Basic

/-! # Property C95 : what `secant_solve` guarantees when it does not warn

The secant iteration is part of the modelled code (`aero/IterativeSolve.py`), so no contract is
assumed here: the bounds are about the loop itself. -/

namespace Aerokit.Props
open IterativeSolve

theorem defaultTol_eq : defaultTol = 1 / 100000 := by unfold defaultTol; norm_num

/-- the stopping test in terms of one tolerance -/
theorem max_tol (tol z : ℝ) (htol : 0 ≤ tol) : max tol (tol * |z|) = tol * max 1 |z| := by
  rw [mul_max_of_nonneg _ _ htol, mul_one]

/-- C95 (residual): for every function that is `L`-Lipschitz where it is defined, a run started
beyond the dead zone (`|x| > 0.01`) that returns without the warning returns an approximate solution:
its residual is at most `2 L · 10⁻⁵ · max(1, |result|)`. -/
theorem C95_residual (f : ℝ → Py ℝ) (y x L v : ℝ) (res : SecantResult) (hx : 0.01 < |x|)
    (hL : ∀ a b fa fb, f a = .ok fa → f b = .ok fb → |fb - fa| ≤ L * |b - a|)
    (h : secant_run f y x defaultTol = .ok res) (hw : res.warned = false) (hv : f res.x = .ok v) :
    |v - y| ≤ 2 * L * 0.00001 * max 1 |res.x| := by
  obtain ⟨k, s, hk, s0, s1, hs, hres, hw1, hw2, hc⟩ := C28_returns_secant_iterate f y x _ res h
  have hlast := hw2 hw
  rw [max_tol _ _ (by rw [defaultTol_eq]; norm_num)] at hlast
  rcases k with _ | k
  · exfalso
    rw [← max_tol _ _ (by rw [defaultTol_eq]; norm_num)] at hlast
    rw [s1, s0, show 0.999 * x - x = -(0.001 * x) by ring, abs_neg, abs_mul, abs_mul,
      abs_of_pos (show (0:ℝ) < 0.999 by norm_num), abs_of_pos (show (0:ℝ) < 0.001 by norm_num)] at hlast
    unfold defaultTol at hlast
    rcases le_max_iff.1 hlast with h | h <;> norm_num at h hx <;> linarith
  · obtain ⟨fa, fb, hfa, hfb, hne, hstep⟩ := hs k (by omega)
    have h1 := hL _ _ _ _ hfa hfb
    rw [hres] at hv ⊢
    have h2 := hL _ _ _ _ hfb hv
    have hd : fb - fa ≠ 0 := sub_ne_zero.2 hne
    have hΔ : s (k + 1) - s k ≠ 0 := by
      intro h0
      rw [h0, abs_zero, mul_zero] at h1
      exact hd (abs_nonpos_iff.1 h1)
    set D := s (k + 1 + 1) - s (k + 1) with hD
    have e : (y - fb) * (s (k + 1) - s k) = D * (fb - fa) := by
      rw [hD, hstep]; field_simp; ring
    have hab : |y - fb| * |s (k + 1) - s k| ≤ (L * |D|) * |s (k + 1) - s k| := by
      rw [← abs_mul, e, abs_mul]
      calc |D| * |fb - fa| ≤ |D| * (L * |s (k + 1) - s k|) := mul_le_mul_of_nonneg_left h1 (abs_nonneg _)
        _ = _ := by ring
    have h3 : |y - fb| ≤ L * |D| := le_of_mul_le_mul_right hab (abs_pos.2 hΔ)
    have hL0 : 0 ≤ L := by
      have := (abs_nonneg _).trans h1
      exact nonneg_of_mul_nonneg_left this (abs_pos.2 hΔ)
    have hDle : L * |D| ≤ L * (defaultTol * max 1 |s (k + 1 + 1)|) := mul_le_mul_of_nonneg_left hlast hL0
    have h4 : |v - y| ≤ |v - fb| + |y - fb| := by
      rw [abs_sub_comm y fb]; exact abs_sub_le _ _ _
    rw [defaultTol_eq] at hDle
    norm_num at hDle ⊢
    linarith

/-- the hypotheses of `C95_residual`: an affine function, started at 1 -/
example : secant_run (fun z => .ok (2 * z + 1)) 7 1 defaultTol = .ok ⟨3, false⟩ ∧
    ∀ a b fa fb : ℝ, (fun z : ℝ => (.ok (2 * z + 1) : Py ℝ)) a = .ok fa → (fun z : ℝ => (.ok (2 * z + 1) : Py ℝ)) b = .ok fb →
      |fb - fa| ≤ 2 * |b - a| := by
  constructor
  · rw [C28_affine_exact 2 1 7 1 defaultTol (by norm_num) (by rw [defaultTol_eq]; norm_num)
      (by rw [defaultTol_eq]; norm_num [abs_of_pos])]
    norm_num
  · intro a b fa fb ha hb
    simp only [Except.ok.injEq] at ha hb
    rw [← ha, ← hb, show 2 * b + 1 - (2 * a + 1) = 2 * (b - a) by ring, abs_mul, abs_of_pos (two_pos)]

/-- invariant of the loop on the left of the root of an increasing concave function -/
theorem secantLoop_concave {f : ℝ → Py ℝ} {g : ℝ → ℝ} {lo r y L tol : ℝ} (htol : 0 ≤ tol) (hL0 : 0 ≤ L)
    (hf : ∀ z ∈ Set.Icc lo r, f z = .ok (g z)) (hg : StrictMonoOn g (Set.Icc lo r))
    (hc : ConcaveOn ℝ (Set.Icc lo r) g) (hy : g r = y)
    (hL : ∀ a ∈ Set.Icc lo r, ∀ b ∈ Set.Icc lo r, a < b → g b - g a ≤ L * (b - a)) :
    ∀ (n : ℕ) (a c : ℝ), a ∈ Set.Icc lo r → c ∈ Set.Icc lo r → a ≤ c → y - g a ≤ L * (c - a) →
      ∃ res, secantLoop f y tol n a (g a) c = .ok res ∧ c ≤ res.x ∧ res.x ≤ r ∧
        (res.warned = false → y - g res.x ≤ L * (tol * max 1 |res.x|)) := by
  intro n
  induction n with
  | zero =>
    intro a c _ hcI _ _
    exact ⟨⟨c, true⟩, rfl, le_rfl, hcI.2, by simp⟩
  | succ n ih =>
    intro a c haI hcI hac hres
    by_cases h : |c - a| > max tol (tol * |c|)
    · have hac' : a < c := by
        rcases hac.eq_or_lt with e | e
        · rw [e, sub_self, abs_zero] at h
          exact absurd h (not_lt.2 (le_max_of_le_left htol))
        · exact e
      have hlt := hg haI hcI hac'
      have hne : g c - g a ≠ 0 := by linarith
      have hgc : g c ≤ y := by
        rw [← hy]
        exact hg.monotoneOn hcI ⟨haI.1.trans haI.2, le_rfl⟩ hcI.2
      obtain ⟨d, hd⟩ : ∃ d, d = c + (c - a) / (g c - g a) * (y - g c) := ⟨_, rfl⟩
      have hstep : (d - c) * (g c - g a) = (c - a) * (y - g c) := by
        rw [hd]; field_simp; ring
      have hcd : c ≤ d := by
        rw [hd]
        have : 0 ≤ (c - a) / (g c - g a) * (y - g c) :=
          mul_nonneg (div_nonneg (by linarith) (by linarith)) (by linarith)
        linarith
      have hdr : d ≤ r := by
        rcases hcI.2.eq_or_lt with e | e
        · have : y - g c = 0 := by rw [← hy, e, sub_self]
          rw [hd, this, mul_zero, add_zero]; exact hcI.2
        · have hs := hc.slope_anti_adjacent haI ⟨haI.1.trans haI.2, le_rfl⟩ hac' e
          rw [div_le_div_iff₀ (by linarith) (by linarith), hy] at hs
          have : (d - c) * (g c - g a) ≤ (r - c) * (g c - g a) := by rw [hstep]; linarith
          have := le_of_mul_le_mul_right this (by linarith)
          linarith
      have hLd : y - g c ≤ L * (d - c) := by
        have h1 := hL a haI c hcI hac'
        have : (y - g c) * (c - a) ≤ (L * (d - c)) * (c - a) := by
          calc (y - g c) * (c - a) = (d - c) * (g c - g a) := by rw [hstep]; ring
            _ ≤ (d - c) * (L * (c - a)) := mul_le_mul_of_nonneg_left h1 (by linarith)
            _ = _ := by ring
        exact le_of_mul_le_mul_right this (by linarith)
      obtain ⟨res, h1, h2, h3, h4⟩ := ih c d hcI ⟨hcI.1.trans hcd, hdr⟩ hcd hLd
      refine ⟨res, ?_, hcd.trans h2, h3, h4⟩
      rw [secantLoop, if_pos h, hf c hcI]
      simp only [Py.ok_bind]
      rw [Py.div_ok hne, Py.ok_bind, ← hd]
      exact h1
    · refine ⟨⟨c, false⟩, by rw [secantLoop, if_neg h], le_rfl, hcI.2, fun _ => ?_⟩
      rw [not_lt, max_tol _ _ htol, abs_of_nonneg (by linarith)] at h
      have hmono : g a ≤ g c := hg.monotoneOn haI hcI hac
      calc y - g c ≤ y - g a := by linarith
        _ ≤ L * (c - a) := hres
        _ ≤ L * (tol * max 1 |c|) := mul_le_mul_of_nonneg_left h hL0

/-- C95 (no overshoot, from below): on an interval where the function is increasing and concave, a
search started on the left of the root always returns; its result is between the start and the root,
and without the warning the residual is at most `L · 10⁻⁵ · max(1, |result|)`. -/
theorem C95_one_sided (f : ℝ → Py ℝ) (g : ℝ → ℝ) (lo r y L x : ℝ) (hx : 0.01 < x) (hlo : lo ≤ 0.999 * x)
    (hxr : x ≤ r) (hf : ∀ z ∈ Set.Icc lo r, f z = .ok (g z)) (hg : StrictMonoOn g (Set.Icc lo r))
    (hc : ConcaveOn ℝ (Set.Icc lo r) g) (hy : g r = y) (hL0 : 0 ≤ L)
    (hL : ∀ a ∈ Set.Icc lo r, ∀ b ∈ Set.Icc lo r, a < b → g b - g a ≤ L * (b - a)) :
    ∃ res, secant_run f y x defaultTol = .ok res ∧ x ≤ res.x ∧ res.x ≤ r ∧ g res.x ≤ y ∧
      (res.warned = false → y - g res.x ≤ L * (0.00001 * max 1 |res.x|)) := by
  have hx' : (1:ℝ) / 100 < x := by norm_num at hx ⊢; exact hx
  obtain ⟨c, hcd⟩ : ∃ c, c = x * 0.999 := ⟨_, rfl⟩
  have hcx : x - c = x / 1000 := by rw [hcd]; ring
  have hcI : c ∈ Set.Icc lo r := ⟨by rw [hcd, mul_comm]; exact hlo, by linarith⟩
  have hxI : x ∈ Set.Icc lo r := ⟨by linarith [hcI.1], hxr⟩
  have hrI : r ∈ Set.Icc lo r := ⟨hxI.1.trans hxI.2, le_rfl⟩
  have hlt := hg hcI hxI (by linarith)
  have hne : g c - g x ≠ 0 := by linarith
  have hgx : g x ≤ y := by rw [← hy]; exact hg.monotoneOn hxI hrI hxr
  obtain ⟨d, hd⟩ : ∃ d, d = c + (c - x) / (g c - g x) * (y - g c) := ⟨_, rfl⟩
  have hstep : (d - c) * (g x - g c) = (x - c) * (y - g c) := by
    rw [hd]; field_simp; ring
  have hxd : x ≤ d := by
    have : (x - c) * (g x - g c) ≤ (d - c) * (g x - g c) := by
      rw [hstep]; exact mul_le_mul_of_nonneg_left (by linarith) (by linarith)
    have := le_of_mul_le_mul_right this (by linarith)
    linarith
  have hdr : d ≤ r := by
    have key : (x - c) * (y - g x) ≤ (r - x) * (g x - g c) := by
      rcases hxr.eq_or_lt with e | e
      · rw [← hy, e, sub_self, sub_self, mul_zero, zero_mul]
      · have hs := hc.slope_anti_adjacent hcI hrI (by linarith : c < x) e
        rw [div_le_div_iff₀ (by linarith) (by linarith), hy] at hs
        linarith
    have : (d - c) * (g x - g c) ≤ (r - c) * (g x - g c) := by rw [hstep]; nlinarith
    have := le_of_mul_le_mul_right this (by linarith)
    linarith
  have hLd : y - g c ≤ L * (d - c) := by
    have h1 := hL c hcI x hxI (by linarith)
    have : (y - g c) * (x - c) ≤ (L * (d - c)) * (x - c) := by
      calc (y - g c) * (x - c) = (d - c) * (g x - g c) := by rw [hstep]; ring
        _ ≤ (d - c) * (L * (x - c)) := mul_le_mul_of_nonneg_left h1 (by linarith)
        _ = _ := by ring
    exact le_of_mul_le_mul_right this (by linarith)
  obtain ⟨res, h1, h2, h3, h4⟩ := secantLoop_concave (tol := defaultTol) (by rw [defaultTol_eq]; norm_num) hL0 hf hg hc hy hL
    18 c d hcI ⟨by linarith [hcI.1], hdr⟩ (by linarith) hLd
  refine ⟨res, ?_, hxd.trans h2, h3, ?_, fun hw => ?_⟩
  · unfold secant_run
    simp only [hf x hxI, Py.ok_bind]
    rw [show itmax - 1 = 18 + 1 from rfl, ← hcd, secantLoop, if_pos, hf c hcI]
    · simp only [Py.ok_bind]
      rw [Py.div_ok hne, Py.ok_bind, ← hd]
      exact h1
    · rw [abs_sub_comm, hcx, abs_of_pos (by linarith : 0 < x / 1000), abs_of_pos (by linarith), defaultTol_eq]
      apply max_lt <;> linarith
  · rw [← hy]; exact hg.monotoneOn ⟨hxI.1.trans (hxd.trans h2), h3⟩ hrI h3
  · have := h4 hw
    rw [defaultTol_eq] at this
    norm_num at this ⊢; exact this

/-- the hypotheses of `C95_one_sided` for the logarithm, started at 1, root 3 -/
example : ∃ res, secant_run (fun z => .ok (Real.log z)) (Real.log 3) 1 defaultTol = .ok res ∧ 1 ≤ res.x ∧ res.x ≤ 3 := by
  have hsub : Set.Icc (1/2 : ℝ) 3 ⊆ Set.Ioi 0 := fun z hz => lt_of_lt_of_le (by norm_num) hz.1
  obtain ⟨res, h1, h2, h3, -⟩ := C95_one_sided (fun z => .ok (Real.log z)) Real.log (1/2) 3 (Real.log 3) 2 1
    (by norm_num) (by norm_num) (by norm_num) (fun _ _ => rfl) (Real.strictMonoOn_log.mono hsub)
    (strictConcaveOn_log_Ioi.concaveOn.subset hsub (convex_Icc _ _)) rfl (by norm_num) (by
      intro a ha b hb hab
      have ha0 : 0 < a := hsub ha
      have hb0 : 0 < b := hsub hb
      rw [← Real.log_div hb0.ne' ha0.ne']
      refine (Real.log_le_sub_one_of_pos (div_pos hb0 ha0)).trans ?_
      rw [div_sub_one ha0.ne', div_le_iff₀ ha0]
      have := ha.1
      nlinarith)
  exact ⟨res, h1, h2, h3⟩

/-- the loop commutes with the reflection `z ↦ -z` -/
theorem secantLoop_reflect (f : ℝ → Py ℝ) (y tol : ℝ) : ∀ (n : ℕ) (a b c : ℝ) (res : SecantResult),
    secantLoop (fun z => f (-z)) y tol n (-a) b (-c) = .ok res →
    secantLoop f y tol n a b c = .ok ⟨-res.x, res.warned⟩ := by
  intro n
  induction n with
  | zero => intro a b c res h; simp only [secantLoop, Except.ok.injEq] at h ⊢; subst h; simp
  | succ n ih =>
    intro a b c res h
    have e1 : -c - -a = -(c - a) := by ring
    by_cases hc : |c - a| > max tol (tol * |c|)
    · have hc' : |-c - -a| > max tol (tol * |-c|) := by rw [e1, abs_neg, abs_neg]; exact hc
      rw [secantLoop, if_pos hc'] at h
      rw [secantLoop, if_pos hc]
      simp only [neg_neg] at h
      rcases hfc : f c with e | v
      · rw [hfc] at h; cases h
      · rw [hfc] at h
        simp only [Py.ok_bind] at h ⊢
        by_cases hv : v - b = 0
        · rw [hv, Py.div_err] at h; cases h
        · rw [Py.div_ok hv, Py.ok_bind] at h ⊢
          apply ih
          rw [← h]
          congr 1
          rw [e1]; ring
    · have hc' : ¬ |-c - -a| > max tol (tol * |-c|) := by rw [e1, abs_neg, abs_neg]; exact hc
      rw [secantLoop, if_neg hc'] at h
      rw [secantLoop, if_neg hc]
      cases h; simp

/-- C95 (no overshoot, from above): on an interval where the function is decreasing and concave, a
search whose first two points `x`, `0.999 x` are on the right of the root always returns; its result is
between the root and the start, with the same residual bound. -/
theorem C95_one_sided_down (f : ℝ → Py ℝ) (g : ℝ → ℝ) (hi r y L x : ℝ) (hx : 0.01 < x) (hhi : x ≤ hi)
    (hxr : r ≤ 0.999 * x) (hf : ∀ z ∈ Set.Icc r hi, f z = .ok (g z)) (hg : StrictAntiOn g (Set.Icc r hi))
    (hc : ConcaveOn ℝ (Set.Icc r hi) g) (hy : g r = y) (hL0 : 0 ≤ L)
    (hL : ∀ a ∈ Set.Icc r hi, ∀ b ∈ Set.Icc r hi, a < b → g a - g b ≤ L * (b - a)) :
    ∃ res, secant_run f y x defaultTol = .ok res ∧ r ≤ res.x ∧ res.x ≤ x ∧ g res.x ≤ y ∧
      (res.warned = false → y - g res.x ≤ L * (0.00001 * max 1 |res.x|)) := by
  have hx' : (1:ℝ) / 100 < x := by norm_num at hx ⊢; exact hx
  obtain ⟨c, hcd⟩ : ∃ c, c = x * 0.999 := ⟨_, rfl⟩
  have hcx : x - c = x / 1000 := by rw [hcd]; ring
  have hrc : r ≤ c := by rw [hcd, mul_comm]; exact hxr
  have hcI : c ∈ Set.Icc r hi := ⟨hrc, by linarith⟩
  have hxI : x ∈ Set.Icc r hi := ⟨by linarith, hhi⟩
  have hrI : r ∈ Set.Icc r hi := ⟨le_rfl, by linarith⟩
  have hlt := hg hcI hxI (by linarith)
  have hne : g c - g x ≠ 0 := by linarith
  -- reflect
  have mem : ∀ z, z ∈ Set.Icc (-hi) (-r) → -z ∈ Set.Icc r hi := fun z hz =>
    ⟨by linarith [hz.2], by linarith [hz.1]⟩
  have hf' : ∀ z ∈ Set.Icc (-hi) (-r), (fun z => f (-z)) z = .ok ((fun z => g (-z)) z) :=
    fun z hz => hf _ (mem z hz)
  have hg' : StrictMonoOn (fun z => g (-z)) (Set.Icc (-hi) (-r)) :=
    fun u hu v hv huv => hg (mem v hv) (mem u hu) (by linarith)
  have hc' : ConcaveOn ℝ (Set.Icc (-hi) (-r)) (fun z => g (-z)) := by
    refine ⟨convex_Icc _ _, fun u hu v hv a b ha hb hab => ?_⟩
    have := hc.2 (mem u hu) (mem v hv) ha hb hab
    simp only [smul_eq_mul] at this ⊢
    rw [show -(a * u + b * v) = a * -u + b * -v by ring]; exact this
  have hL' : ∀ a ∈ Set.Icc (-hi) (-r), ∀ b ∈ Set.Icc (-hi) (-r), a < b →
      (fun z => g (-z)) b - (fun z => g (-z)) a ≤ L * (b - a) := by
    intro a ha b hb hab
    have := hL _ (mem b hb) _ (mem a ha) (by linarith)
    simp only
    linarith
  -- first step, from the pair (x, c)
  have hgc : g c ≤ y := by rw [← hy]; exact hg.antitoneOn hrI hcI hrc
  obtain ⟨d, hd⟩ : ∃ d, d = c + (c - x) / (g c - g x) * (y - g c) := ⟨_, rfl⟩
  have hstep : (c - d) * (g c - g x) = (x - c) * (y - g c) := by
    rw [hd]; field_simp; ring
  have hdc : d ≤ c := by
    have : 0 ≤ (c - d) * (g c - g x) := by rw [hstep]; exact mul_nonneg (by linarith) (by linarith)
    have := nonneg_of_mul_nonneg_left this (by linarith)
    linarith
  have hrd : r ≤ d := by
    rcases hrc.eq_or_lt with e | e
    · have : y - g c = 0 := by rw [← hy, e, sub_self]
      rw [hd, this, mul_zero, add_zero]; exact hrc
    · have hs := hc.slope_anti_adjacent hrI hxI e (by linarith : c < x)
      rw [div_le_div_iff₀ (by linarith) (by linarith), hy] at hs
      have : (c - d) * (g c - g x) ≤ (c - r) * (g c - g x) := by rw [hstep]; linarith
      have := le_of_mul_le_mul_right this (by linarith)
      linarith
  have hLd : y - g c ≤ L * (c - d) := by
    have h1 := hL c hcI x hxI (by linarith)
    have : (y - g c) * (x - c) ≤ (L * (c - d)) * (x - c) := by
      calc (y - g c) * (x - c) = (c - d) * (g c - g x) := by rw [hstep]; ring
        _ ≤ (c - d) * (L * (x - c)) := mul_le_mul_of_nonneg_left h1 (by linarith)
        _ = _ := by ring
    exact le_of_mul_le_mul_right this (by linarith)
  obtain ⟨res, h1, h2, h3, h4⟩ := secantLoop_concave (tol := defaultTol) (y := y) (by rw [defaultTol_eq]; norm_num)
    hL0 hf' hg' hc' (by simp [hy]) hL' 18 (-c) (-d) ⟨by linarith [hcI.2], by linarith⟩ ⟨by linarith [hcI.2], by linarith⟩
    (by linarith) (by simp only [neg_neg]; linarith)
  simp only [neg_neg] at h1 h4
  have hrun := secantLoop_reflect f y defaultTol 18 c (g c) d res h1
  have hrx : r ≤ -res.x := by linarith
  have hxr : -res.x ≤ x := by linarith
  refine ⟨⟨-res.x, res.warned⟩, ?_, hrx, hxr, ?_, fun hw => ?_⟩
  · unfold secant_run
    simp only [hf x hxI, Py.ok_bind]
    rw [show itmax - 1 = 18 + 1 from rfl, ← hcd, secantLoop, if_pos, hf c hcI]
    · simp only [Py.ok_bind]
      rw [Py.div_ok hne, Py.ok_bind, ← hd]
      exact hrun
    · rw [abs_sub_comm, hcx, abs_of_pos (by linarith : 0 < x / 1000), abs_of_pos (by linarith), defaultTol_eq]
      apply max_lt <;> linarith
  · rw [← hy]; exact hg.antitoneOn hrI ⟨hrx, by linarith⟩ hrx
  · have := h4 hw
    rw [defaultTol_eq] at this
    simp only [abs_neg]
    norm_num at this ⊢; exact this

end Aerokit.Props
