import Verif.Props.Propulsion
import Verif.Props.SecantTwoSided
import Mathlib.Analysis.Convex.Deriv
import Mathlib.Analysis.SpecialFunctions.Sqrt

/-! # Property C78 (search) and C95 (convex functions): accuracy of `Mach_ThrustFunction` -/

namespace Aerokit.Props
open Propulsion Isentropic MassFlow IterativeSolve

/-- the search only sees the equation: changing the sign of both sides changes nothing -/
theorem secantLoop_neg (f : ℝ → Py ℝ) (y tol : ℝ) : ∀ (n : ℕ) (a b c : ℝ) (res : SecantResult),
    secantLoop (fun z => (f z).map (fun v => -v)) (-y) tol n a (-b) c = .ok res → secantLoop f y tol n a b c = .ok res := by
  intro n
  induction n with
  | zero => intro a b c res h; exact h
  | succ n ih =>
    intro a b c res h
    by_cases hc : |c - a| > max tol (tol * |c|)
    · rw [secantLoop, if_pos hc] at h ⊢
      rcases hfc : f c with e | v
      · simp only [hfc] at h; cases h
      · simp only [hfc, Except.map, Py.ok_bind] at h ⊢
        by_cases hv : v - b = 0
        · rw [show -v - -b = 0 by linarith, Py.div_err] at h; cases h
        · have hv' : -v - -b ≠ 0 := by intro hh; apply hv; linarith
          rw [Py.div_ok hv', Py.ok_bind] at h
          rw [Py.div_ok hv, Py.ok_bind]
          apply ih
          rw [← h]
          congr 1
          have : -v - -b = -(v - b) := by ring
          rw [this]
          field_simp
          ring
    · rw [secantLoop, if_neg hc] at h ⊢
      exact h

/-- C95 (no overshoot, convex decreasing function): on an interval where the function is decreasing and convex, a search
whose first two points are on the left of the root always returns; its result is between the start and the root. -/
theorem C95_one_sided_convex (f : ℝ → Py ℝ) (g : ℝ → ℝ) (lo r y L x : ℝ) (hx : 0.01 < x) (hlo : lo ≤ 0.999 * x)
    (hxr : x ≤ r) (hf : ∀ z ∈ Set.Icc lo r, f z = .ok (g z)) (hg : StrictAntiOn g (Set.Icc lo r))
    (hc : ConvexOn ℝ (Set.Icc lo r) g) (hy : g r = y) (hL0 : 0 ≤ L)
    (hL : ∀ a ∈ Set.Icc lo r, ∀ b ∈ Set.Icc lo r, a < b → g a - g b ≤ L * (b - a)) :
    ∃ res, secant_run f y x defaultTol = .ok res ∧ x ≤ res.x ∧ res.x ≤ r ∧ y ≤ g res.x ∧
      (res.warned = false → g res.x - y ≤ L * (0.00001 * max 1 |res.x|)) := by
  obtain ⟨res, a1, a2, a3, a4, a5⟩ := C95_one_sided (fun z => (f z).map (fun v => -v)) (fun z => -g z) lo r (-y) L x hx hlo hxr
    (fun z hz => by rw [hf z hz]; rfl) (fun a ha b hb hab => by have := hg ha hb hab; simp only; linarith) hc.neg
    (by simp only [hy]) hL0
    (fun a ha b hb hab => by have := hL a ha b hb hab; linarith)
  refine ⟨res, ?_, a2, a3, by linarith, fun hw => by have := a5 hw; linarith⟩
  unfold secant_run at a1 ⊢
  have h1 : (0:ℝ) < x := lt_trans (by norm_num) hx
  have hfx := hf x ⟨by linarith, hxr⟩
  simp only [hfx, Except.map, Py.ok_bind] at a1 ⊢
  exact secantLoop_neg f y defaultTol _ _ _ _ _ a1

/-- derivative of the impulse function -/
noncomputable def impS (γ M : ℝ) : ℝ := (M ^ 2 - 1) / (M ^ 2 * (tt M γ * Real.sqrt (tt M γ)))

theorem hasDerivAt_sqrtT {M γ : ℝ} (h : 1 < γ) :
    HasDerivAt (fun M => Real.sqrt (1 + (γ - 1) / 2 * M ^ 2)) ((γ - 1) / 2 * M / Real.sqrt (1 + (γ - 1) / 2 * M ^ 2)) M := by
  have ht : 0 < 1 + (γ - 1) / 2 * M ^ 2 := tt_pos (M := M) h
  have d1 : HasDerivAt (fun M : ℝ => 1 + (γ - 1) / 2 * M ^ 2) ((γ - 1) / 2 * (2 * M)) M := by
    have := ((hasDerivAt_pow 2 M).const_mul ((γ - 1) / 2)).const_add 1
    simpa using this
  refine (d1.sqrt ht.ne').congr_deriv ?_
  have := Real.sqrt_pos.2 ht
  field_simp

theorem hasDerivAt_imp {M γ : ℝ} (h : 1 < γ) (hM : 0 < M) : HasDerivAt (fun M => imp M γ) (impS γ M) M := by
  have ht : 0 < 1 + (γ - 1) / 2 * M ^ 2 := tt_pos (M := M) h
  have hs := Real.sqrt_pos.2 ht
  have hsq := Real.sq_sqrt ht.le
  have d1 : HasDerivAt (fun M : ℝ => 1 + γ * M ^ 2) (γ * (2 * M)) M := by
    have := ((hasDerivAt_pow 2 M).const_mul γ).const_add 1
    simpa using this
  have d2 := (hasDerivAt_id M).fun_mul (hasDerivAt_sqrtT (M := M) h)
  have d3 := d1.fun_div d2 (by simp only [id]; positivity)
  unfold imp
  refine d3.congr_deriv ?_
  unfold impS tt
  simp only [id]
  obtain ⟨r, hr⟩ : ∃ r, r = Real.sqrt (1 + (γ - 1) / 2 * M ^ 2) := ⟨_, rfl⟩
  rw [← hr] at hs hsq ⊢
  rw [← hsq]
  field_simp
  have : r ^ 2 = 1 + (γ - 1) / 2 * M ^ 2 := hsq
  rw [this]
  ring

theorem impS_le_one {M γ : ℝ} (h : 1 < γ) (hM : 0 < M) : impS γ M ≤ 1 := by
  have ht : 1 ≤ tt M γ := one_le_tt h
  have hs : 1 ≤ Real.sqrt (tt M γ) := by rw [Real.one_le_sqrt]; exact ht
  unfold impS
  rw [div_le_one (by positivity)]
  have h1 : 1 ≤ tt M γ * Real.sqrt (tt M γ) := by nlinarith
  nlinarith [sq_nonneg M]

/-- subsonic slope: increasing -/
theorem impS_monotone {M N γ : ℝ} (h : 1 < γ) (hM : 0 < M) (hMN : M ≤ N) (hN : N ≤ 1) : impS γ M ≤ impS γ N := by
  have hN0 : 0 < N := lt_of_lt_of_le hM hMN
  have ht := tt_pos (M := M) h
  have ht' := tt_pos (M := N) h
  have hle : tt M γ ≤ tt N γ := by
    unfold tt; have : M ^ 2 ≤ N ^ 2 := pow_le_pow_left₀ hM.le hMN 2
    nlinarith
  have hsle := Real.sqrt_le_sqrt hle
  have hs := Real.sqrt_pos.2 ht
  have hD : M ^ 2 * (tt M γ * Real.sqrt (tt M γ)) ≤ N ^ 2 * (tt N γ * Real.sqrt (tt N γ)) := by gcongr
  have hD0 : 0 < M ^ 2 * (tt M γ * Real.sqrt (tt M γ)) := by positivity
  have hnum : 1 - N ^ 2 ≤ 1 - M ^ 2 := by nlinarith
  have hnum0 : 0 ≤ 1 - N ^ 2 := by nlinarith
  unfold impS
  have : (1 - N ^ 2) / (N ^ 2 * (tt N γ * Real.sqrt (tt N γ))) ≤ (1 - M ^ 2) / (M ^ 2 * (tt M γ * Real.sqrt (tt M γ))) := by
    gcongr
    linarith
  rw [show M ^ 2 - 1 = -(1 - M ^ 2) by ring, show N ^ 2 - 1 = -(1 - N ^ 2) by ring, neg_div, neg_div]
  linarith

/-- Mach numbers above the inflection of the thrust function -/
def AboveInflection (γ M : ℝ) : Prop := 2 + (γ - 1) * M ^ 2 ≤ 3 / 2 * (γ - 1) * M ^ 2 * (M ^ 2 - 1)

theorem AboveInflection.mono {γ M N : ℝ} (h : 1 < γ) (hM : 0 < M) (hMN : M ≤ N) (ha : AboveInflection γ M) :
    AboveInflection γ N := by
  unfold AboveInflection at *
  have hx : M ^ 2 ≤ N ^ 2 := pow_le_pow_left₀ hM.le hMN 2
  have hx0 : 0 < M ^ 2 := by positivity
  obtain ⟨x, hxe⟩ : ∃ x, x = M ^ 2 := ⟨_, rfl⟩
  obtain ⟨y, hye⟩ : ∃ y, y = N ^ 2 := ⟨_, rfl⟩
  rw [← hxe] at ha hx hx0
  rw [← hye] at hx ⊢
  have hk : 0 < γ - 1 := by linarith
  have h1 : 0 < (γ - 1) * (3 * x - 5) := by
    have : 0 < x * ((γ - 1) * (3 * x - 5)) := by nlinarith
    exact (mul_pos_iff_of_pos_left hx0).1 this
  have h2 : 0 ≤ (γ - 1) * (y - x) := mul_nonneg hk.le (by linarith)
  nlinarith [mul_nonneg h2 (by linarith : 0 ≤ y), mul_nonneg h1.le (by linarith : 0 ≤ y - x)]

theorem hasDerivAt_impS {M γ : ℝ} (h : 1 < γ) (hM : 0 < M) : HasDerivAt (impS γ)
    ((2 * tt M γ - 3 * ((γ - 1) / 2) * M ^ 2 * (M ^ 2 - 1)) / (M ^ 3 * Real.sqrt (tt M γ) ^ 5)) M := by
  have ht : 0 < 1 + (γ - 1) / 2 * M ^ 2 := tt_pos (M := M) h
  have hs := Real.sqrt_pos.2 ht
  have hsq := Real.sq_sqrt ht.le
  have d1 : HasDerivAt (fun M : ℝ => M ^ 2 - 1) (2 * M) M := by simpa using (hasDerivAt_pow 2 M).sub_const 1
  have d0 : HasDerivAt (fun M : ℝ => M ^ 2) (2 * M) M := by simpa using hasDerivAt_pow 2 M
  have dr := (hasDerivAt_sqrtT (M := M) h).pow 3
  have d2 := d0.fun_mul dr
  have d3 := d1.fun_div d2 (by simp only [Pi.pow_apply]; positivity)
  have hfun : impS γ = fun M => (M ^ 2 - 1) / (M ^ 2 * ((fun M => Real.sqrt (1 + (γ - 1) / 2 * M ^ 2)) ^ 3) M) := by
    funext x
    have hx : 0 < 1 + (γ - 1) / 2 * x ^ 2 := tt_pos (M := x) h
    unfold impS tt
    simp only [Pi.pow_apply]
    congr 2
    nth_rewrite 1 [← Real.sq_sqrt hx.le]
    ring
  rw [hfun]
  refine d3.congr_deriv ?_
  simp only [Pi.pow_apply]
  unfold tt
  obtain ⟨r, hr⟩ : ∃ r, r = Real.sqrt (1 + (γ - 1) / 2 * M ^ 2) := ⟨_, rfl⟩
  rw [← hr] at hs hsq ⊢
  rw [← hsq]
  push_cast
  field_simp
  ring

theorem imp_concave {γ a : ℝ} (h : 1 < γ) (ha : 0 < a) (hi : AboveInflection γ a) :
    AntitoneOn (impS γ) (Set.Ici a) ∧ ConcaveOn ℝ (Set.Ici a) (fun M => imp M γ) := by
  have hanti : AntitoneOn (impS γ) (Set.Ici a) := by
    refine antitoneOn_of_deriv_nonpos (convex_Ici _)
      (fun M hM => (hasDerivAt_impS h (lt_of_lt_of_le ha hM)).continuousAt.continuousWithinAt)
      (fun M hM => (hasDerivAt_impS h (lt_of_lt_of_le ha (interior_subset hM))).differentiableAt.differentiableWithinAt) ?_
    intro M hM
    have hM' : a ≤ M := interior_subset hM
    have hM0 := lt_of_lt_of_le ha hM'
    rw [(hasDerivAt_impS h hM0).deriv]
    have ht := tt_pos (M := M) h
    have := Real.sqrt_pos.2 ht
    refine div_nonpos_of_nonpos_of_nonneg ?_ (by positivity)
    have := hi.mono h ha hM'
    unfold AboveInflection at this
    unfold tt
    linarith
  refine ⟨hanti, ?_⟩
  have hd : ∀ M ∈ Set.Ici a, HasDerivAt (fun M => imp M γ) (impS γ M) M := fun M hM => hasDerivAt_imp h (lt_of_lt_of_le ha hM)
  refine AntitoneOn.concaveOn_of_deriv (convex_Ici _)
    (fun M hM => (hd M hM).continuousAt.continuousWithinAt)
    (fun M hM => (hd M (interior_subset hM)).differentiableAt.differentiableWithinAt) ?_
  intro M hM N hN hMN
  rw [(hd M (interior_subset hM)).deriv, (hd N (interior_subset hN)).deriv]
  exact hanti (interior_subset hM) (interior_subset hN) hMN

theorem imp_mvt {γ a b : ℝ} (h : 1 < γ) (ha : 0 < a) (hab : a < b) :
    ∃ c ∈ Set.Ioo a b, imp b γ - imp a γ = impS γ c * (b - a) := by
  obtain ⟨c, hc, hs⟩ := exists_hasDerivAt_eq_slope (fun M => imp M γ) (impS γ) hab
    (fun x hx => (hasDerivAt_imp h (lt_of_lt_of_le ha hx.1)).continuousAt.continuousWithinAt)
    (fun x hx => hasDerivAt_imp h (ha.trans hx.1))
  refine ⟨c, hc, ?_⟩
  rw [hs]
  have : b - a ≠ 0 := by linarith
  field_simp

theorem impC_le_one {γ : ℝ} (h : 1 < γ) : impC γ ≤ 1 := by
  unfold impC
  refine Real.rpow_le_one (by positivity) ?_ ?_
  · rw [div_le_one (by linarith)]; linarith
  · have : 0 < γ - 1 := by linarith
    positivity

/-- C78 (supersonic search): started at `s` (not before the inflection of the thrust function, up to the factor 0.999 of the
first step) for the thrust of a Mach number `M ≥ s`, the search always returns; the result lies between `s` and `M`; when the
search did not print its warning its thrust differs from the request by at most `10⁻⁵ · Mach`. -/
theorem C78_search_supersonic (M s γ F : ℝ) (h : 1 < γ) (hs1 : 1 < 0.999 * s)
    (hi : AboveInflection γ (0.999 * s)) (hsM : s ≤ M) (hF : ThrustFunction M γ = .ok F) :
    ∃ res F', secant_run (fun m => ThrustFunction m γ) F s defaultTol = .ok res ∧ Mach_ThrustFunction F s γ = .ok res.x ∧
      s ≤ res.x ∧ res.x ≤ M ∧ ThrustFunction res.x γ = .ok F' ∧ F' ≤ F ∧ (res.warned = false → F - F' ≤ 0.00001 * res.x) := by
  have hs0 : 1 < s := by nlinarith
  have hM0 : 0 < M := by linarith
  have hC := impC_pos h
  have hC1 := impC_le_one h
  rw [C78_closed_form h hM0] at hF
  have hF := Except.ok.inj hF
  have hpos : ∀ z ∈ Set.Icc (0.999 * s) M, 0 < z := fun z hz => by linarith [hz.1]
  obtain ⟨res, a1, a2, a3, a4, a5⟩ := C95_one_sided (fun m => ThrustFunction m γ) (fun m => impC γ * imp m γ) (0.999 * s) M F 1 s
    (by linarith) le_rfl hsM (fun z hz => C78_closed_form h (hpos z hz))
    (fun a ha b hb hab => by
      obtain ⟨f, g, hf, hg, -, hm⟩ := C78_monotone h (hpos a ha) hab
      rw [C78_closed_form h (hpos a ha)] at hf
      rw [C78_closed_form h (hpos b hb)] at hg
      have := hm (by linarith [ha.1])
      rw [← Except.ok.inj hf, ← Except.ok.inj hg] at this
      exact this)
    (by
      have := (imp_concave h (by linarith : 0 < 0.999 * s) hi).2.subset
        (fun z (hz : z ∈ Set.Icc (0.999 * s) M) => hz.1) (convex_Icc _ _)
      exact this.smul hC.le)
    hF one_pos.le
    (fun a ha b hb hab => by
      obtain ⟨c, hc, e⟩ := imp_mvt h (hpos a ha) hab
      have := impS_le_one h (lt_trans (hpos a ha) hc.1)
      have h1 : imp b γ - imp a γ ≤ b - a := by rw [e]; nlinarith
      nlinarith)
  refine ⟨res, _, a1, ?_, a2, a3, C78_closed_form h (by linarith), a4, fun hw => ?_⟩
  · unfold Mach_ThrustFunction secant_solve
    rw [a1]; rfl
  · have := a5 hw
    rw [abs_of_pos (by linarith), max_eq_right (by linarith)] at this
    linarith

/-- C78 (default start 2): every thrust of a Mach number of at least 2, every `gamma ≥ 1.15`. -/
theorem C78_search_default (M γ F : ℝ) (hγ : 1.15 ≤ γ) (hM : 2 ≤ M) (hF : ThrustFunction M γ = .ok F) :
    ∃ res F', secant_run (fun m => ThrustFunction m γ) F 2.0 defaultTol = .ok res ∧ Mach_ThrustFunction F 2.0 γ = .ok res.x ∧
      2 ≤ res.x ∧ res.x ≤ M ∧ ThrustFunction res.x γ = .ok F' ∧ F' ≤ F ∧ (res.warned = false → F - F' ≤ 0.00001 * res.x) := by
  have h : 1 < γ := lt_of_lt_of_le (by norm_num) hγ
  have e2 : (2.0:ℝ) = 2 := by norm_num
  rw [e2]
  refine C78_search_supersonic M 2 γ F h (by norm_num) ?_ hM hF
  unfold AboveInflection
  norm_num at hγ ⊢
  linarith

/-- C78 (default start 2, thrusts of Mach numbers just below 2): the search always returns a Mach number between 1.7 and 2, with
the requested thrust up to `2·10⁻⁵ · Mach` when it did not print its warning. -/
theorem C78_search_below (M γ F : ℝ) (hγ : 1.4 ≤ γ) (hM : 1.8 ≤ M) (hM2 : M ≤ 2) (hF : ThrustFunction M γ = .ok F) :
    ∃ res F', secant_run (fun m => ThrustFunction m γ) F 2.0 defaultTol = .ok res ∧ Mach_ThrustFunction F 2.0 γ = .ok res.x ∧
      1.7 ≤ res.x ∧ res.x ≤ 2 ∧ ThrustFunction res.x γ = .ok F' ∧ (res.warned = false → |F' - F| ≤ 0.00002 * res.x) := by
  have h : 1 < γ := lt_of_lt_of_le (by norm_num) hγ
  have e2 : (2.0:ℝ) = 2 := by norm_num
  rw [e2]
  have hM0 : 0 < M := lt_of_lt_of_le (by norm_num) hM
  have hC := impC_pos h
  have hC1 := impC_le_one h
  rw [C78_closed_form h hM0] at hF
  have hF := Except.ok.inj hF
  have hpos : ∀ z ∈ Set.Icc (1.7:ℝ) 2, 0 < z := fun z hz => lt_of_lt_of_le (by norm_num) hz.1
  have hi : AboveInflection γ 1.7 := by
    unfold AboveInflection
    norm_num at hγ ⊢
    linarith
  obtain ⟨hanti, hconc⟩ := imp_concave h (by norm_num : (0:ℝ) < 1.7) hi
  have hS2 : 0 < impS γ 2 := by
    unfold impS
    have ht := tt_pos (M := 2) h
    have := Real.sqrt_pos.2 ht
    norm_num
    positivity
  -- slopes at 1.8 and 2
  have hslope : impS γ 1.8 ≤ 3 / 2 * impS γ 2 := by
    have t1 := tt_pos (M := 1.8) h
    have t2 := tt_pos (M := 2) h
    have s1 := Real.sqrt_pos.2 t1
    have s2 := Real.sqrt_pos.2 t2
    have hle : tt 2 γ ≤ 1.25 * tt 1.8 γ := by
      unfold tt; norm_num; linarith
    have hsle : Real.sqrt (tt 2 γ) ≤ 1.125 * Real.sqrt (tt 1.8 γ) := by
      rw [Real.sqrt_le_left (by positivity), mul_pow, Real.sq_sqrt t1.le]
      refine hle.trans ?_
      nlinarith
    have hprod : tt 2 γ * Real.sqrt (tt 2 γ) ≤ 1.25 * tt 1.8 γ * (1.125 * Real.sqrt (tt 1.8 γ)) :=
      mul_le_mul hle hsle s2.le (by positivity)
    have p1 : 0 < tt 1.8 γ * Real.sqrt (tt 1.8 γ) := by positivity
    have p2 : 0 < tt 2 γ * Real.sqrt (tt 2 γ) := by positivity
    unfold impS
    obtain ⟨P, hP⟩ : ∃ P, P = tt 1.8 γ * Real.sqrt (tt 1.8 γ) := ⟨_, rfl⟩
    obtain ⟨Q, hQ⟩ : ∃ Q, Q = tt 2 γ * Real.sqrt (tt 2 γ) := ⟨_, rfl⟩
    have hPQ : Q ≤ 1.40625 * P := by rw [hP, hQ]; refine hprod.trans (le_of_eq ?_); norm_num; ring
    rw [← hP] at p1 ⊢
    rw [← hQ] at p2 ⊢
    rw [← mul_div_assoc, div_le_div_iff₀ (by positivity) (by positivity)]
    norm_num at hPQ ⊢
    linarith
  have up : ∀ a b, 1.7 ≤ a → a < b → b ≤ 2 → imp b γ - imp a γ ≤ impS γ a * (b - a) ∧ impS γ 2 * (b - a) ≤ imp b γ - imp a γ := by
    intro a b ha hab hb
    obtain ⟨c, hc, e⟩ := imp_mvt h (lt_of_lt_of_le (by norm_num) ha) hab
    have h1 := hanti (Set.mem_Ici.2 ha) (Set.mem_Ici.2 (ha.trans hc.1.le)) hc.1.le
    have h2 := hanti (Set.mem_Ici.2 (ha.trans hc.1.le)) (Set.mem_Ici.2 (by norm_num : (1.7:ℝ) ≤ 2)) (hc.2.le.trans hb)
    rw [e]
    constructor <;> nlinarith
  obtain ⟨res, a1, a2, a3, a4⟩ := C95_beyond (fun m => ThrustFunction m γ) (fun m => impC γ * imp m γ) 1.7 M F 1 (impC γ * impS γ 2) 2
    (by norm_num) (by norm_num) (le_trans (by norm_num) hM) hM2 (fun z hz => C78_closed_form h (hpos z hz))
    (fun a ha b hb hab => by
      have := (up a b ha.1 hab hb.2).2
      have h0 : 0 < impS γ 2 * (b - a) := mul_pos hS2 (by linarith)
      exact mul_lt_mul_of_pos_left (by linarith) hC)
    ((hconc.subset (fun z (hz : z ∈ Set.Icc (1.7:ℝ) 2) => hz.1) (convex_Icc _ _)).smul hC.le)
    hF (by positivity)
    (fun z hz => by
      rcases hz.2.eq_or_lt with e | e
      · rw [e]; simp
      · have := (up z 2 hz.1 e le_rfl).2
        have := mul_le_mul_of_nonneg_left this hC.le
        linarith)
    (by
      rw [← hF]
      rcases hM2.eq_or_lt with e | e
      · rw [e, sub_self]; norm_num; positivity
      · have k1 := (up M 2 (le_trans (by norm_num) hM) e le_rfl).1
        have k2 := hanti (Set.mem_Ici.2 (by norm_num : (1.7:ℝ) ≤ 1.8)) (Set.mem_Ici.2 (le_trans (by norm_num) hM)) hM
        have k3 : impS γ M * (2 - M) ≤ 3 / 2 * impS γ 2 * 0.2 := by
          refine mul_le_mul (k2.trans hslope) (by norm_num at hM ⊢; linarith) (by linarith) (by positivity)
        have k4 : imp 2 γ - imp M γ ≤ impS γ 2 * (2 - 1.7) := by norm_num at k3 ⊢; linarith
        have := mul_le_mul_of_nonneg_left k4 hC.le
        linarith)
    one_pos.le
    (fun a ha b hb hab => by
      obtain ⟨c, hc, e⟩ := imp_mvt h (hpos a ha) hab
      have := impS_le_one h (lt_trans (hpos a ha) hc.1)
      have h1 : imp b γ - imp a γ ≤ b - a := by rw [e]; nlinarith
      nlinarith)
  have hres0 : 1 < res.x := lt_of_lt_of_le (by norm_num) a2
  refine ⟨res, _, a1, ?_, a2, a3, C78_closed_form h (by linarith), fun hw => ?_⟩
  · unfold Mach_ThrustFunction secant_solve
    rw [a1]; rfl
  · have := a4 hw
    rw [abs_of_pos (by linarith : 0 < res.x), max_eq_right hres0.le] at this
    linarith

/-- C78 (subsonic search): started at a subsonic `s > 0.01` for the thrust of a Mach number `M` in `[s, 1]`, the search always
returns; the result lies between `s` and `M`, and its thrust differs from the request by at most `10⁻⁵/(0.999 s)²` when the
search did not print its warning. -/
theorem C78_search_subsonic (M s γ F : ℝ) (h : 1 < γ) (hs : 0.01 < s) (hsM : s ≤ M) (hM1 : M ≤ 1)
    (hF : ThrustFunction M γ = .ok F) :
    ∃ res F', secant_run (fun m => ThrustFunction m γ) F s defaultTol = .ok res ∧ Mach_ThrustFunction F s γ = .ok res.x ∧
      s ≤ res.x ∧ res.x ≤ M ∧ ThrustFunction res.x γ = .ok F' ∧ F ≤ F' ∧
      (res.warned = false → F' - F ≤ 0.00001 / (0.999 * s) ^ 2) := by
  have hs0 : 0 < s := lt_trans (by norm_num) hs
  have hl0 : 0 < 0.999 * s := by positivity
  have hM0 : 0 < M := by linarith
  have hC := impC_pos h
  have hC1 := impC_le_one h
  rw [C78_closed_form h hM0] at hF
  have hF := Except.ok.inj hF
  have hpos : ∀ z ∈ Set.Icc (0.999 * s) M, 0 < z := fun z hz => lt_of_lt_of_le hl0 hz.1
  have hd : ∀ z ∈ Set.Icc (0.999 * s) M, HasDerivAt (fun M => imp M γ) (impS γ z) z := fun z hz => hasDerivAt_imp h (hpos z hz)
  have hconv : ConvexOn ℝ (Set.Icc (0.999 * s) M) (fun M => imp M γ) := by
    refine MonotoneOn.convexOn_of_deriv (convex_Icc _ _)
      (fun z hz => (hd z hz).continuousAt.continuousWithinAt)
      (fun z hz => (hd z (interior_subset hz)).differentiableAt.differentiableWithinAt) ?_
    intro a ha b hb hab
    have ha' := interior_subset ha
    have hb' := interior_subset hb
    rw [(hd a ha').deriv, (hd b hb').deriv]
    exact impS_monotone h (hpos a ha') hab (hb'.2.trans hM1)
  have hslope : ∀ z ∈ Set.Icc (0.999 * s) M, -impS γ z ≤ 1 / (0.999 * s) ^ 2 := by
    intro z hz
    have hz0 := hpos z hz
    have ht : 1 ≤ tt z γ := one_le_tt h
    have hsq : 1 ≤ Real.sqrt (tt z γ) := by rw [Real.one_le_sqrt]; exact ht
    have h1 : 1 ≤ tt z γ * Real.sqrt (tt z γ) := by nlinarith
    unfold impS
    rw [← neg_div]
    have hz2 : (0.999 * s) ^ 2 ≤ z ^ 2 := pow_le_pow_left₀ hl0.le hz.1 2
    have hden : (0.999 * s) ^ 2 ≤ z ^ 2 * (tt z γ * Real.sqrt (tt z γ)) := by nlinarith [sq_nonneg z]
    refine div_le_div₀ zero_le_one (by nlinarith [sq_nonneg z]) (by positivity) hden
  obtain ⟨res, a1, a2, a3, a4, a5⟩ := C95_one_sided_convex (fun m => ThrustFunction m γ) (fun m => impC γ * imp m γ) (0.999 * s) M F
    (1 / (0.999 * s) ^ 2) s hs le_rfl hsM (fun z hz => C78_closed_form h (hpos z hz))
    (fun a ha b hb hab => by
      obtain ⟨f, g, hf, hg, hm, -⟩ := C78_monotone h (hpos a ha) hab
      rw [C78_closed_form h (hpos a ha)] at hf
      rw [C78_closed_form h (hpos b hb)] at hg
      have := hm (hb.2.trans hM1)
      rw [← Except.ok.inj hf, ← Except.ok.inj hg] at this
      exact this)
    (hconv.smul hC.le) hF (by positivity)
    (fun a ha b hb hab => by
      obtain ⟨c, hc, e⟩ := imp_mvt h (hpos a ha) hab
      have k := hslope c ⟨ha.1.trans hc.1.le, hc.2.le.trans hb.2⟩
      have hB : 0 < 1 / (0.999 * s) ^ 2 := by positivity
      have h1 : imp a γ - imp b γ ≤ 1 / (0.999 * s) ^ 2 * (b - a) := by nlinarith
      have h2 : 0 ≤ 1 / (0.999 * s) ^ 2 * (b - a) := mul_nonneg hB.le (by linarith)
      have h3 : impC γ * (imp a γ - imp b γ) ≤ impC γ * (1 / (0.999 * s) ^ 2 * (b - a)) := mul_le_mul_of_nonneg_left h1 hC.le
      have h4 : impC γ * (1 / (0.999 * s) ^ 2 * (b - a)) ≤ 1 * (1 / (0.999 * s) ^ 2 * (b - a)) :=
        mul_le_mul_of_nonneg_right hC1 h2
      linarith)
  refine ⟨res, _, a1, ?_, a2, a3, C78_closed_form h (by linarith), a4, fun hw => ?_⟩
  · unfold Mach_ThrustFunction secant_solve
    rw [a1]; rfl
  · have := a5 hw
    rw [abs_of_pos (by linarith), max_eq_left (a3.trans hM1), mul_one] at this
    refine this.trans (le_of_eq ?_)
    ring

example : ∃ F, ThrustFunction 3 1.4 = .ok F := ⟨_, C78_closed_form (by norm_num) (by norm_num)⟩
example : AboveInflection 1.4 (0.999 * 2) := by unfold AboveInflection; norm_num
example : ∃ F, ThrustFunction 0.5 1.4 = .ok F := ⟨_, C78_closed_form (by norm_num) (by norm_num)⟩

end Aerokit.Props
