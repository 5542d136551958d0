import Verif.Props.SecantBounds

/-! # Property C95 (continued): secant search started beyond the root of a concave function -/

namespace Aerokit.Props
open IterativeSolve

/-- invariant of the loop around the root of an increasing concave function whose tangent at the start meets the level `y` in the
interval -/
theorem secantLoop_around {f : ℝ → Py ℝ} {g : ℝ → ℝ} {lo hi r y L m tol : ℝ} (htol : 0 ≤ tol) (hL0 : 0 ≤ L)
    (hf : ∀ z ∈ Set.Icc lo hi, f z = .ok (g z)) (hg : StrictMonoOn g (Set.Icc lo hi))
    (hc : ConcaveOn ℝ (Set.Icc lo hi) g) (hr : r ∈ Set.Icc lo hi) (hy : g r = y) (hm : 0 < m)
    (ht : ∀ z ∈ Set.Icc lo hi, g z ≤ g hi - m * (hi - z)) (hlo : g hi - y ≤ m * (hi - lo))
    (hL : ∀ a ∈ Set.Icc lo hi, ∀ b ∈ Set.Icc lo hi, a < b → g b - g a ≤ L * (b - a)) :
    ∀ (n : ℕ) (a c : ℝ), a ∈ Set.Icc lo hi → c ∈ Set.Icc lo hi → (r ≤ a ∨ r ≤ c) →
      (|g c - y| ≤ 2 * L * |c - a| ∨ |c - a| > max tol (tol * |c|)) →
      ∃ res, secantLoop f y tol n a (g a) c = .ok res ∧ res.x ∈ Set.Icc lo hi ∧
        (res.warned = false → |g res.x - y| ≤ 2 * L * (tol * max 1 |res.x|)) := by
  have hhi : hi ∈ Set.Icc lo hi := ⟨hr.1.trans hr.2, le_rfl⟩
  -- one step
  have step : ∀ u v, u ∈ Set.Icc lo hi → v ∈ Set.Icc lo hi → u < v → r ≤ v →
      ∃ d ∈ Set.Icc lo hi, (r ≤ u → d ≤ r) ∧ (u ≤ r → r ≤ d) ∧
        (d - v) * (g v - g u) = (v - u) * (y - g v) ∧ (d - u) * (g v - g u) = (v - u) * (y - g u) := by
    intro u v hu hv huv hrv
    have hlt := hg hu hv huv
    have hs : 0 < g v - g u := by linarith
    obtain ⟨d, hd⟩ : ∃ d, d = v + (v - u) * (y - g v) / (g v - g u) := ⟨_, rfl⟩
    have e1 : (d - v) * (g v - g u) = (v - u) * (y - g v) := by rw [hd]; field_simp; ring
    have e2 : (d - u) * (g v - g u) = (v - u) * (y - g u) := by
      have : (d - u) * (g v - g u) = (d - v) * (g v - g u) + (v - u) * (g v - g u) := by ring
      rw [this, e1]; ring
    have hgv : y ≤ g v := by rw [← hy]; exact hg.monotoneOn hr hv hrv
    have dv : d ≤ v := by
      have h0 : (d - v) * (g v - g u) ≤ 0 := by
        rw [e1]; exact mul_nonpos_of_nonneg_of_nonpos (by linarith) (by linarith)
      have := nonpos_of_mul_nonpos_left h0 hs
      linarith
    have h1 : r ≤ u → d ≤ r := by
      intro hru
      have key : (u - r) * (g v - g u) ≤ (v - u) * (g u - y) := by
        rcases hru.eq_or_lt with e | e
        · rw [← e, hy]; simp
        · have := hc.slope_anti_adjacent hr hv e huv
          rw [div_le_div_iff₀ (by linarith) (by linarith), hy] at this
          linarith
      have : (d - u) * (g v - g u) ≤ (r - u) * (g v - g u) := by rw [e2]; linarith
      have := le_of_mul_le_mul_right this hs
      linarith
    have h2 : u ≤ r → r ≤ d := by
      intro hur
      have key : (v - u) * (g v - y) ≤ (v - r) * (g v - g u) := by
        rcases hur.eq_or_lt with e | e
        · rw [e, hy]
        · rcases hrv.eq_or_lt with e' | e'
          · rw [← e', hy]; simp
          · have := hc.slope_anti_adjacent hu hv e e'
            rw [div_le_div_iff₀ (by linarith) (by linarith), hy] at this
            nlinarith
      have : (r - v) * (g v - g u) ≤ (d - v) * (g v - g u) := by rw [e1]; linarith
      have := le_of_mul_le_mul_right this hs
      linarith
    have h3 : lo ≤ d := by
      rcases le_total u r with h | h
      · exact hr.1.trans (h2 h)
      · have hmu : m * (v - u) ≤ g v - g u := by
          rcases hv.2.eq_or_lt with e | e
          · have := ht u hu
            rw [e]; linarith
          · have h5 := hc.slope_anti_adjacent hu hhi huv e
            have h6 := ht v hv
            have h7 : m ≤ (g hi - g v) / (hi - v) := by
              rw [le_div_iff₀ (by linarith)]; linarith
            have h8 := h7.trans h5
            rw [le_div_iff₀ (by linarith)] at h8
            exact h8
        have hu' : g u - y ≤ m * (u - lo) := by
          have := ht u hu
          linarith
        have : (lo - u) * (g v - g u) ≤ (d - u) * (g v - g u) := by
          rw [e2]
          have a1 : (u - lo) * (m * (v - u)) ≤ (u - lo) * (g v - g u) := mul_le_mul_of_nonneg_left hmu (by linarith [hu.1])
          have a2 : (v - u) * (g u - y) ≤ (v - u) * (m * (u - lo)) := mul_le_mul_of_nonneg_left hu' (by linarith)
          linarith
        have := le_of_mul_le_mul_right this hs
        linarith
    exact ⟨d, ⟨h3, dv.trans hv.2⟩, h1, h2, e1, e2⟩
  intro n
  induction n with
  | zero =>
    intro a c _ hcI _ _
    exact ⟨⟨c, true⟩, rfl, hcI, by simp⟩
  | succ n ih =>
    intro a c haI hcI hac hres
    by_cases h : |c - a| > max tol (tol * |c|)
    · have hne' : a ≠ c := by
        rintro rfl
        rw [sub_self, abs_zero] at h
        exact absurd h (not_lt.2 (le_max_of_le_left htol))
      have hne : g c - g a ≠ 0 := by
        rcases lt_or_gt_of_ne hne' with e | e
        · have := hg haI hcI e; linarith
        · have := hg hcI haI e; linarith
      -- the next point
      obtain ⟨d, hdI, hdr, e⟩ : ∃ d ∈ Set.Icc lo hi, (r ≤ c ∨ r ≤ d) ∧ (d - c) * (g c - g a) = (c - a) * (y - g c) := by
        rcases lt_or_gt_of_ne hne' with e | e
        · have hrc : r ≤ c := hac.elim (fun h => h.trans e.le) id
          obtain ⟨d, d1, -, -, d4, -⟩ := step a c haI hcI e hrc
          exact ⟨d, d1, .inl hrc, d4⟩
        · have hra : r ≤ a := hac.elim id (fun h => h.trans e.le)
          obtain ⟨d, d1, d2, d3, -, d5⟩ := step c a hcI haI e hra
          refine ⟨d, d1, ?_, by linarith⟩
          rcases le_total c r with h | h
          · exact .inr (d3 h)
          · exact .inl h
      have hd : d = c + (c - a) / (g c - g a) * (y - g c) := by
        field_simp
        linarith
      have hsl : |g c - g a| ≤ L * |c - a| := by
        rcases lt_or_gt_of_ne hne' with e | e
        · have h1 := hg haI hcI e
          rw [abs_of_pos (by linarith), abs_of_pos (by linarith)]
          exact hL a haI c hcI e
        · have h1 := hg hcI haI e
          rw [abs_of_neg (by linarith), abs_of_neg (by linarith)]
          have := hL c hcI a haI e
          linarith
      have hca : 0 < |c - a| := abs_pos.2 (sub_ne_zero.2 hne'.symm)
      have hy1 : |y - g c| ≤ L * |d - c| := by
        have : |y - g c| * |c - a| ≤ (L * |d - c|) * |c - a| := by
          rw [← abs_mul, mul_comm (y - g c), ← e, abs_mul]
          calc |d - c| * |g c - g a| ≤ |d - c| * (L * |c - a|) := mul_le_mul_of_nonneg_left hsl (abs_nonneg _)
            _ = _ := by ring
        exact le_of_mul_le_mul_right this hca
      have hy2 : |g d - g c| ≤ L * |d - c| := by
        rcases lt_trichotomy c d with e | e | e
        · have h1 := hg hcI hdI e
          rw [abs_of_pos (by linarith), abs_of_pos (by linarith)]
          exact hL c hcI d hdI e
        · rw [e]; simp
        · have h1 := hg hdI hcI e
          rw [abs_of_neg (by linarith), abs_of_neg (by linarith)]
          have := hL d hdI c hcI e
          linarith
      have hy3 : |g d - y| ≤ 2 * L * |d - c| := by
        have := abs_sub_le (g d) (g c) y
        rw [abs_sub_comm (g c) y] at this
        linarith
      obtain ⟨res, h1, h2, h3⟩ := ih c d hcI hdI hdr (.inl hy3)
      refine ⟨res, ?_, h2, h3⟩
      rw [secantLoop, if_pos h, hf c hcI]
      simp only [Py.ok_bind]
      rw [Py.div_ok hne, Py.ok_bind, ← hd]
      exact h1
    · refine ⟨⟨c, false⟩, by rw [secantLoop, if_neg h], hcI, fun _ => ?_⟩
      have hres' := hres.resolve_right h
      rw [not_lt, max_tol _ _ htol] at h
      exact hres'.trans (mul_le_mul_of_nonneg_left h (by linarith))

/-- C95 (search started beyond the root): on an interval `[lo, x]` where the function is increasing and concave, when the tangent at
the start `x` (slope `m`) meets the requested level at or right of `lo`, a search started at `x`, beyond the root, always returns;
its result is in the interval and, without the warning, the residual is at most `2 L · 10⁻⁵ · max(1, |result|)`. -/
theorem C95_beyond (f : ℝ → Py ℝ) (g : ℝ → ℝ) (lo r y L m x : ℝ) (hx : 0.01 < x) (hlo : lo ≤ 0.999 * x) (hlr : lo ≤ r)
    (hrx : r ≤ x) (hf : ∀ z ∈ Set.Icc lo x, f z = .ok (g z)) (hg : StrictMonoOn g (Set.Icc lo x))
    (hc : ConcaveOn ℝ (Set.Icc lo x) g) (hy : g r = y) (hm : 0 < m)
    (ht : ∀ z ∈ Set.Icc lo x, g z ≤ g x - m * (x - z)) (htl : g x - y ≤ m * (x - lo)) (hL0 : 0 ≤ L)
    (hL : ∀ a ∈ Set.Icc lo x, ∀ b ∈ Set.Icc lo x, a < b → g b - g a ≤ L * (b - a)) :
    ∃ res, secant_run f y x defaultTol = .ok res ∧ lo ≤ res.x ∧ res.x ≤ x ∧
      (res.warned = false → |g res.x - y| ≤ 2 * L * (0.00001 * max 1 |res.x|)) := by
  have hx' : (1:ℝ) / 100 < x := by norm_num at hx ⊢; exact hx
  have hxI : x ∈ Set.Icc lo x := ⟨hlr.trans hrx, le_rfl⟩
  have hcI : x * 0.999 ∈ Set.Icc lo x := ⟨by linarith, by norm_num; linarith⟩
  obtain ⟨res, h1, h2, h3⟩ := secantLoop_around (tol := defaultTol) (by rw [defaultTol_eq]; norm_num) hL0 hf hg hc ⟨hlr, hrx⟩ hy hm
    ht htl hL (itmax - 1) x (x * 0.999) hxI hcI (.inl hrx) (.inr (by
      rw [show x * 0.999 - x = -(x / 1000) by ring, abs_neg, abs_of_pos (by linarith : 0 < x / 1000),
        abs_of_pos (by norm_num; linarith : 0 < x * 0.999), defaultTol_eq]
      apply max_lt <;> norm_num <;> linarith))
  refine ⟨res, ?_, h2.1, h2.2, fun hw => ?_⟩
  · unfold secant_run
    simp only [hf x hxI, Py.ok_bind]
    exact h1
  · have := h3 hw
    rw [defaultTol_eq] at this
    norm_num at this ⊢; exact this

/-- C95 (search started before the root of a decreasing concave function): on `[0.999 x, hi]`, when the tangent at `0.999 x` (slope
`-m`) meets the requested level at or left of `hi`, the search always returns a value of the interval, with the same residual. -/
theorem C95_beyond_down (f : ℝ → Py ℝ) (g : ℝ → ℝ) (hi r y L m x : ℝ) (hx : 0.01 < x) (hxhi : x ≤ hi) (hr : 0.999 * x ≤ r)
    (hrx : r ≤ hi) (hf : ∀ z ∈ Set.Icc (0.999 * x) hi, f z = .ok (g z)) (hg : StrictAntiOn g (Set.Icc (0.999 * x) hi))
    (hc : ConcaveOn ℝ (Set.Icc (0.999 * x) hi) g) (hy : g r = y) (hm : 0 < m)
    (ht : ∀ z ∈ Set.Icc (0.999 * x) hi, g z ≤ g (0.999 * x) - m * (z - 0.999 * x))
    (htl : g (0.999 * x) - y ≤ m * (hi - 0.999 * x)) (hL0 : 0 ≤ L)
    (hL : ∀ a ∈ Set.Icc (0.999 * x) hi, ∀ b ∈ Set.Icc (0.999 * x) hi, a < b → g a - g b ≤ L * (b - a)) :
    ∃ res, secant_run f y x defaultTol = .ok res ∧ 0.999 * x ≤ res.x ∧ res.x ≤ hi ∧
      (res.warned = false → |g res.x - y| ≤ 2 * L * (0.00001 * max 1 |res.x|)) := by
  have hx' : (1:ℝ) / 100 < x := by norm_num at hx ⊢; exact hx
  obtain ⟨c, hcd⟩ : ∃ c, c = 0.999 * x := ⟨_, rfl⟩
  rw [← hcd] at hr hf hg hc ht htl hL ⊢
  have hcx : c - x = -(x / 1000) := by rw [hcd]; ring
  have mem : ∀ z, z ∈ Set.Icc (-hi) (-c) → -z ∈ Set.Icc c hi := fun z hz => ⟨by linarith [hz.2], by linarith [hz.1]⟩
  have hxI : x ∈ Set.Icc c hi := ⟨by linarith, hxhi⟩
  have hconc : ConcaveOn ℝ (Set.Icc (-hi) (-c)) (fun z => g (-z)) := by
    refine ⟨convex_Icc _ _, fun a ha b hb s t hs ht hst => ?_⟩
    have := hc.2 (mem a ha) (mem b hb) hs ht hst
    simp only [smul_eq_mul] at this ⊢
    rwa [show -(s * a + t * b) = s * -a + t * -b by ring]
  obtain ⟨res, h1, h2, h3⟩ := secantLoop_around (f := fun z => f (-z)) (g := fun z => g (-z)) (lo := -hi) (hi := -c) (r := -r)
    (y := y) (L := L) (m := m) (tol := defaultTol) (by rw [defaultTol_eq]; norm_num) hL0 (fun z hz => hf _ (mem z hz))
    (fun a ha b hb hab => hg (mem b hb) (mem a ha) (by linarith)) hconc ⟨by linarith, by linarith⟩ (by rw [neg_neg]; exact hy) hm
    (fun z hz => by have := ht _ (mem z hz); simp only [neg_neg]; linarith) (by simp only [neg_neg]; linarith)
    (fun a ha b hb hab => by have := hL _ (mem b hb) _ (mem a ha) (by linarith); linarith)
    (itmax - 1) (-x) (-c) ⟨by linarith [hxI.2], by linarith [hxI.1]⟩ ⟨by linarith [hxI.1, hxI.2], le_rfl⟩ (.inr (by linarith)) (.inr (by
      rw [show -c - -x = -(c - x) by ring, hcx, neg_neg, abs_of_pos (by linarith : 0 < x / 1000), abs_neg,
        abs_of_pos (by rw [hcd]; norm_num; linarith : 0 < c), defaultTol_eq]
      apply max_lt <;> linarith))
  simp only [neg_neg] at h1 h3
  have h4 := secantLoop_reflect f y defaultTol _ x (g x) c res h1
  refine ⟨⟨-res.x, res.warned⟩, ?_, by show c ≤ -res.x; linarith [h2.2], by show -res.x ≤ hi; linarith [h2.1], fun hw => ?_⟩
  · unfold secant_run
    simp only [hf x hxI, Py.ok_bind]
    rw [mul_comm x, ← hcd]
    exact h4
  · have := h3 hw
    simp only [abs_neg]
    rw [defaultTol_eq] at this
    norm_num at this ⊢; exact this

/-- the hypotheses of `C95_beyond`: `log x = log 2` started at 3 -/
example : ∃ res, secant_run (fun z => .ok (Real.log z)) (Real.log 2) 3 defaultTol = .ok res ∧ 1 ≤ res.x ∧ res.x ≤ 3 := by
  have hsub : Set.Icc (1 : ℝ) 3 ⊆ Set.Ioi 0 := fun z hz => lt_of_lt_of_le (by norm_num) hz.1
  have hlog : ∀ a b : ℝ, 0 < a → 0 < b → Real.log b - Real.log a ≤ (b - a) / a := by
    intro a b ha hb
    rw [← Real.log_div hb.ne' ha.ne']
    have := Real.log_le_sub_one_of_pos (div_pos hb ha)
    have e : (b - a) / a = b / a - 1 := by field_simp
    linarith
  obtain ⟨res, h1, h2, h3, -⟩ := C95_beyond (fun z => .ok (Real.log z)) Real.log 1 2 (Real.log 2) 1 (1 / 3) 3 (by norm_num)
    (by norm_num) (by norm_num) (by norm_num) (fun _ _ => rfl) (Real.strictMonoOn_log.mono hsub)
    (strictConcaveOn_log_Ioi.concaveOn.subset hsub (convex_Icc _ _)) rfl (by norm_num)
    (fun z hz => by have := hlog 3 z (by norm_num) (hsub hz); linarith)
    (by have := hlog 2 3 (by norm_num) (by norm_num); linarith) (by norm_num)
    (fun a ha b hb hab => by
      have := hlog a b (hsub ha) (hsub hb)
      have h : (b - a) / a ≤ b - a := div_le_self (by linarith) ha.1
      linarith)
  exact ⟨res, h1, h2, h3⟩

end Aerokit.Props
