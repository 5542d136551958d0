import Verif.Props.Riemann
import Verif.Spec.Conservation
import Mathlib.MeasureTheory.Integral.DivergenceTheorem
import Mathlib.MeasureTheory.Function.LocallyIntegrable
import Mathlib.Analysis.SpecialFunctions.Pow.Deriv

/-! # Property C109 : the sampled Riemann solution is a weak solution of the Euler equations (`instance/riemann.py`) -/

namespace Aerokit.Props
open Model1D Unsteady1D Riemann Spec MeasureTheory
open MassFlow (RootFinder)

/-! ### Gluing -/

/-- `G` is a continuous primitive of `-U` on `S` up to countably many points -/
def Prim' (G U : ℝ → ℝ) (S : Set ℝ) : Prop :=
  Continuous G ∧ LocallyIntegrable U volume ∧ ∃ C : Set ℝ, C.Countable ∧ ∀ x ∈ S \ C, HasDerivAt G (-U x) x

theorem Prim'.glue {GA UA GB UB : ℝ → ℝ} {SA SB S : Set ℝ} {w : ℝ} (hA : Prim' GA UA SA) (hB : Prim' GB UB SB) (hw : GA w = GB w)
    (hS1 : ∀ x ∈ S, x < w → x ∈ SA) (hS2 : ∀ x ∈ S, w < x → x ∈ SB) :
    Prim' (fun x => if x ≤ w then GA x else GB x) (fun x => if x ≤ w then UA x else UB x) S := by
  obtain ⟨a1, a2, CA, a3, a4⟩ := hA
  obtain ⟨b1, b2, CB, b3, b4⟩ := hB
  refine ⟨Continuous.if_le a1 b1 continuous_id continuous_const (fun x hx => by rw [show x = w from hx]; exact hw), ?_,
    CA ∪ CB ∪ {w}, (a3.union b3).union (Set.countable_singleton w), ?_⟩
  · have e : (fun x => if x ≤ w then UA x else UB x) = (Set.Iic w).indicator UA + (Set.Ioi w).indicator UB := by
      funext x
      by_cases h : x ≤ w
      · simp [h]
      · simp [h, not_le.1 h]
    rw [e]
    exact (a2.indicator measurableSet_Iic).add (b2.indicator measurableSet_Ioi)
  · rintro x ⟨hx, hc⟩
    simp only [Set.mem_union, Set.mem_singleton_iff, not_or] at hc
    obtain ⟨⟨c1, c2⟩, c3⟩ := hc
    rcases lt_or_gt_of_ne c3 with h | h
    · simp only [if_pos h.le]
      refine (a4 x ⟨hS1 x hx h, c1⟩).congr_of_eventuallyEq ?_
      filter_upwards [Iio_mem_nhds h] with y hy
      exact if_pos (le_of_lt hy)
    · simp only [if_neg (not_le.2 h)]
      refine (b4 x ⟨hS2 x hx h, c2⟩).congr_of_eventuallyEq ?_
      filter_upwards [Ioi_mem_nhds h] with y hy
      exact if_neg (not_le.2 hy)

theorem Prim'.integral {G U : ℝ → ℝ} (h : Prim' G U Set.univ) (a b : ℝ) : ∫ x in a..b, U x = G a - G b := by
  obtain ⟨h1, h2, C, h3, h4⟩ := h
  have := integral_eq_of_hasDerivAt_off_countable (a := a) (b := b) G (fun x => -U x) h3 h1.continuousOn
    (fun x hx => h4 x ⟨trivial, hx.2⟩) ((h2.integrableOn_isCompact isCompact_uIcc).intervalIntegrable.neg)
  rw [intervalIntegral.integral_neg] at this
  linarith

theorem Prim'.integrable {G U : ℝ → ℝ} (h : Prim' G U Set.univ) (a b : ℝ) : IntervalIntegrable U volume a b :=
  (h.2.1.integrableOn_isCompact isCompact_uIcc).intervalIntegrable

/-! ### Pieces -/

theorem prim_const (l : Law) (γ : ℝ) (f : Flow) : Prim' (fun x => l.movingFlux γ f x) (fun _ => l.density γ f) Set.univ := by
  refine ⟨?_, (continuous_const).locallyIntegrable, ∅, Set.countable_empty, fun x _ => ?_⟩
  · unfold Law.movingFlux; fun_prop
  · unfold Law.movingFlux
    have := ((hasDerivAt_id x).mul_const (l.density γ f)).const_sub (l.flux γ f)
    simpa using this

/-- smooth self-similar flows satisfy the three balances -/
theorem law_deriv {γ : ℝ} (hγ : 1 < γ) {q : ℝ → Flow} {x : ℝ} (h : SelfSimilarEuler γ q x) (l : Law) :
    HasDerivAt (fun y => l.movingFlux γ (q y) y) (-l.density γ (q x)) x := by
  obtain ⟨dρ, du, dp, h1, h2, h3, e1, e2, e3⟩ := h
  have hg : γ - 1 ≠ 0 := by linarith
  cases l with
  | mass =>
    unfold Law.movingFlux Law.flux Law.density
    refine ((h1.fun_mul h2).fun_sub ((hasDerivAt_id' x).fun_mul h1)).congr_deriv ?_
    linear_combination e1
  | momentum =>
    unfold Law.movingFlux Law.flux Law.density
    refine (((h1.fun_mul (h2.fun_pow 2)).fun_add h3).fun_sub ((hasDerivAt_id' x).fun_mul (h1.fun_mul h2))).congr_deriv ?_
    simp only [Nat.cast_ofNat, Nat.add_one_sub_one, pow_one]
    linear_combination (q x).u * e1 + e2
  | energy =>
    unfold Law.movingFlux Law.flux Law.density
    have hE := (h3.div_const (γ - 1)).fun_add ((h1.fun_mul (h2.fun_pow 2)).div_const 2)
    refine ((h2.fun_mul (hE.fun_add h3)).fun_sub ((hasDerivAt_id' x).fun_mul hE)).congr_deriv ?_
    simp only [Nat.cast_ofNat, Nat.add_one_sub_one, pow_one]
    have e3' : ((q x).u - x) * dp / (γ - 1) + (q x).p * du / (γ - 1) + (q x).p * du = 0 := by
      field_simp; linear_combination e3
    linear_combination e3' + (q x).u ^ 2 / 2 * e1 + (q x).u * e2

/-- sound speed in a fan (`e = -1`: left, `e = 1`: right) -/
noncomputable def fa (e : ℝ) (q : UState) (x : ℝ) : ℝ := ((q.gamma - 1) * (e * (x - q.u)) + 2 * q.cs) / (q.gamma + 1)

/-- flow in a fan -/
noncomputable def ff (e : ℝ) (q : UState) (x : ℝ) : Flow :=
  ⟨q.rho * (fa e q x / q.cs) ^ (2 / (q.gamma - 1)), x - e * fa e q x, q.p * (fa e q x / q.cs) ^ (2 * q.gamma / (q.gamma - 1))⟩

theorem fa_deriv (e : ℝ) (q : UState) (x : ℝ) : HasDerivAt (fa e q) (e * (q.gamma - 1) / (q.gamma + 1)) x := by
  unfold fa
  have := (((((hasDerivAt_id' x).sub_const q.u).const_mul e).const_mul (q.gamma - 1)).add_const (2 * q.cs)).div_const (q.gamma + 1)
  refine this.congr_deriv ?_
  ring

/-- in a fan `γ p = ρ a²` -/
theorem ff_sound {e : ℝ} {q : UState} (h : q.Valid) {x : ℝ} (hx : 0 < fa e q x) :
    q.gamma * (ff e q x).p = (ff e q x).rho * fa e q x ^ 2 := by
  have hc := h.cs_pos
  have hg : 0 < q.gamma - 1 := by linarith [h.gamma]
  have hr : 0 < fa e q x / q.cs := by positivity
  have e1 : (fa e q x / q.cs) ^ (2 * q.gamma / (q.gamma - 1)) = (fa e q x / q.cs) ^ (2 / (q.gamma - 1)) * (fa e q x / q.cs) ^ 2 := by
    rw [← Real.rpow_natCast (fa e q x / q.cs) 2, ← Real.rpow_add hr]
    congr 1
    push_cast
    field_simp
    ring
  have h2 := h.cs_sq
  unfold ff
  simp only
  rw [e1, div_pow, h2]
  have := h.rho; have := h.p; have := h.g0
  field_simp

theorem ff_euler {e : ℝ} (he : e ^ 2 = 1) {q : UState} (h : q.Valid) {x : ℝ} (hx : 0 < fa e q x) :
    SelfSimilarEuler q.gamma (ff e q) x := by
  have hc := h.cs_pos
  have hg : 0 < q.gamma - 1 := by linarith [h.gamma]
  have hr : 0 < fa e q x / q.cs := by positivity
  have hd := fa_deriv e q x
  have hs := ff_sound h hx
  have hee : e = 1 ∨ e = -1 := by simpa using he
  obtain ⟨a, ha⟩ : ∃ a, a = fa e q x := ⟨_, rfl⟩
  have hp : ∀ k : ℝ, HasDerivAt (fun y => (fa e q y / q.cs) ^ k) (k * (fa e q x / q.cs) ^ k * (e * (q.gamma - 1) / (q.gamma + 1)) / a) x := by
    intro k
    refine ((hd.div_const q.cs).rpow_const (p := k) (Or.inl hr.ne')).congr_deriv ?_
    rw [Real.rpow_sub_one hr.ne', ← ha]
    have : a ≠ 0 := by rw [ha]; exact hx.ne'
    field_simp
  have hρ := (hp (2 / (q.gamma - 1))).const_mul q.rho
  have hpp := (hp (2 * q.gamma / (q.gamma - 1))).const_mul q.p
  have hu := (hasDerivAt_id' x).fun_sub (hd.const_mul e)
  have ha0 : 0 < a := by rw [ha]; exact hx
  refine ⟨_, _, _, hρ, hu, hpp, ?_, ?_, ?_⟩
  · unfold ff
    simp only
    rw [← ha]
    obtain ⟨R, hR⟩ : ∃ R, R = (a / q.cs) ^ (2 / (q.gamma - 1)) := ⟨_, rfl⟩
    rw [← hR]
    have : q.gamma + 1 ≠ 0 := by linarith
    rcases hee with rfl | rfl
    · field_simp; ring
    · field_simp; ring
  · unfold ff at hs ⊢
    simp only at hs ⊢
    rw [← ha] at hs ⊢
    obtain ⟨R, hR⟩ : ∃ R, R = (a / q.cs) ^ (2 / (q.gamma - 1)) := ⟨_, rfl⟩
    obtain ⟨P, hP⟩ : ∃ P, P = (a / q.cs) ^ (2 * q.gamma / (q.gamma - 1)) := ⟨_, rfl⟩
    rw [← hR, ← hP] at hs ⊢
    have : q.gamma + 1 ≠ 0 := by linarith
    have hs' : a ^ 2 * (q.rho * R) = q.gamma * (q.p * P) := by linarith
    rcases hee with rfl | rfl
    · field_simp; linear_combination (-2) * hs'
    · field_simp; linear_combination 2 * hs'
  · unfold ff
    simp only
    rw [← ha]
    obtain ⟨P, hP⟩ : ∃ P, P = (a / q.cs) ^ (2 * q.gamma / (q.gamma - 1)) := ⟨_, rfl⟩
    rw [← hP]
    have : q.gamma + 1 ≠ 0 := by linarith
    rcases hee with rfl | rfl
    · field_simp; ring
    · field_simp; ring

/-- a simple wave is `ff` -/
theorem fan_unique {e : ℝ} (he : e ^ 2 = 1) {q : UState} (h : q.Valid) {x : ℝ} {f : Flow} (hρ : 0 < f.rho) (hp : 0 < f.p)
    (hs : f.entropyFn q.gamma = (flow q).entropyFn q.gamma)
    (hi : f.u - e * (2 * f.a q.gamma / (q.gamma - 1)) = q.u - e * (2 * q.cs / (q.gamma - 1))) (hx : f.u + e * f.a q.gamma = x) :
    f.a q.gamma = fa e q x ∧ 0 < fa e q x ∧ f = ff e q x := by
  have hρ0 := h.rho; have hp0 := h.p; have hγ := h.g0; have hc := h.cs_pos
  have hg : 0 < q.gamma - 1 := by linarith [h.gamma]
  have ha : 0 < f.a q.gamma := Real.sqrt_pos.2 (by positivity)
  have ha2 : f.a q.gamma ^ 2 = q.gamma * f.p / f.rho := Real.sq_sqrt (by positivity)
  have hfa : f.a q.gamma = fa e q x := by
    unfold fa
    rw [eq_div_iff (by linarith), ← hx]
    field_simp at hi
    have hee : e = 1 ∨ e = -1 := by simpa using he
    rcases hee with rfl | rfl <;> linarith
  refine ⟨hfa, hfa ▸ ha, ?_⟩
  have hρr : 0 < f.rho / q.rho := by positivity
  have hpr : f.p / q.p = (f.rho / q.rho) ^ q.gamma := by
    unfold Flow.entropyFn flow at hs
    simp only at hs
    have h1 := Real.rpow_pos_of_pos hρ q.gamma
    have h2 := Real.rpow_pos_of_pos hρ0 q.gamma
    rw [Real.div_rpow hρ.le hρ0.le]
    field_simp at hs ⊢
    linarith
  have har : (f.a q.gamma / q.cs) ^ (2:ℝ) = (f.rho / q.rho) ^ (q.gamma - 1) := by
    rw [show (2:ℝ) = ((2:ℕ):ℝ) by norm_num, Real.rpow_natCast, Real.rpow_sub_one hρr.ne', ← hpr, div_pow, ha2, h.cs_sq]
    field_simp
  have hx0 : 0 < f.a q.gamma / q.cs := by positivity
  have hr : (f.a q.gamma / q.cs) ^ (2 / (q.gamma - 1)) = f.rho / q.rho := by
    rw [show 2 / (q.gamma - 1) = 2 * (1 / (q.gamma - 1)) by ring, Real.rpow_mul hx0.le, har, ← Real.rpow_mul hρr.le,
      mul_one_div_cancel hg.ne', Real.rpow_one]
  have hpp : (f.a q.gamma / q.cs) ^ (2 * q.gamma / (q.gamma - 1)) = f.p / q.p := by
    rw [show 2 * q.gamma / (q.gamma - 1) = 2 / (q.gamma - 1) * q.gamma by ring, Real.rpow_mul hx0.le, hr, hpr]
  unfold ff
  rw [← hfa, hr, hpp]
  have e1 : q.rho * (f.rho / q.rho) = f.rho := by field_simp
  have e2 : q.p * (f.p / q.p) = f.p := by field_simp
  have e3 : x - e * f.a q.gamma = f.u := by linarith
  rw [e1, e2, e3]

theorem fanL_unique {q : UState} (h : q.Valid) {x : ℝ} {f : Flow} (hf : InFanL q x f) :
    f.a q.gamma = fa (-1) q x ∧ 0 < fa (-1) q x ∧ f = ff (-1) q x := by
  obtain ⟨h1, h2, h3, h4, h5⟩ := hf
  refine fan_unique (by norm_num) h h1 h2 h3 ?_ (by linarith)
  have : (flow q).a q.gamma = q.cs := rfl
  rw [this] at h4
  linarith

theorem fanR_unique {q : UState} (h : q.Valid) {x : ℝ} {f : Flow} (hf : InFanR q x f) :
    f.a q.gamma = fa 1 q x ∧ 0 < fa 1 q x ∧ f = ff 1 q x := by
  obtain ⟨h1, h2, h3, h4, h5⟩ := hf
  refine fan_unique (by norm_num) h h1 h2 h3 ?_ (by linarith)
  have : (flow q).a q.gamma = q.cs := rfl
  rw [this] at h4
  linarith

theorem ff_continuous {q : UState} (h : q.Valid) (e : ℝ) :
    Continuous (fun x => (ff e q x).rho) ∧ Continuous (fun x => (ff e q x).u) ∧ Continuous (fun x => (ff e q x).p) := by
  have hg : 0 < q.gamma - 1 := by linarith [h.gamma]
  have hγ := h.g0
  have hc : Continuous (fa e q) := by unfold fa; fun_prop
  have hr := hc.div_const q.cs
  unfold ff
  refine ⟨continuous_const.mul (hr.rpow_const fun x => Or.inr (by positivity)), ?_,
    continuous_const.mul (hr.rpow_const fun x => Or.inr (by positivity))⟩
  show Continuous fun x => x - e * fa e q x
  fun_prop

theorem prim_fan {q : UState} (h : q.Valid) {e : ℝ} (he : e ^ 2 = 1) (l : Law) :
    Prim' (fun x => l.movingFlux q.gamma (ff e q x) x) (fun x => l.density q.gamma (ff e q x)) {x | 0 < fa e q x} := by
  obtain ⟨c1, c2, c3⟩ := ff_continuous h e
  refine ⟨?_, ?_, ∅, Set.countable_empty, fun x hx => law_deriv h.gamma (ff_euler he h hx.1) l⟩
  · unfold Law.movingFlux
    cases l <;> (simp only [Law.flux, Law.density]; fun_prop)
  · refine Continuous.locallyIntegrable ?_
    cases l <;> (simp only [Law.density]; fun_prop)

/-! ### Discontinuities -/

theorem shock_flux {σ : ℝ} {s s' : UState} (h : s.Valid) (h' : s'.Valid) (hm : MovingShock σ s s') (l : Law) :
    l.movingFlux s.gamma (flow s) σ = l.movingFlux s.gamma (flow s') σ := by
  obtain ⟨-, h1, h2, h3⟩ := hm
  have hg : 0 < s.gamma - 1 := by linarith [h.gamma]
  have hr := h.rho; have hr' := h'.rho
  unfold Flow.massFlux inFrame at h1
  unfold Flow.momentumFlux inFrame at h2
  unfold Flow.totalEnthalpy Flow.h inFrame at h3
  simp only at h1 h2 h3
  cases l with
  | mass => simp only [Law.movingFlux, Law.flux, Law.density, flow]; linarith
  | momentum => simp only [Law.movingFlux, Law.flux, Law.density, flow]; linear_combination h2 + σ * h1
  | energy =>
    have key : ∀ r u p : ℝ, 0 < r → Law.movingFlux s.gamma ⟨r, u, p⟩ σ .energy =
        r * (u - σ) * (s.gamma / (s.gamma - 1) * (p / r) + (u - σ) ^ 2 / 2) + σ * (p + r * (u - σ) ^ 2) + σ ^ 2 / 2 * (r * (u - σ)) := by
      intro r u p hr
      simp only [Law.movingFlux, Law.flux, Law.density]
      field_simp
      ring
    unfold flow
    rw [key _ _ _ hr, key _ _ _ hr', h3, h2, h1]

/-- a contact discontinuity carries no flux, whatever the two gases -/
theorem contact_flux (γ γ' ρ ρ' u p : ℝ) (l : Law) : l.movingFlux γ ⟨ρ, u, p⟩ u = l.movingFlux γ' ⟨ρ', u, p⟩ u := by
  cases l <;> (simp only [Law.movingFlux, Law.flux, Law.density]; ring)

/-! ### Half solutions -/

/-- left of the contact: `q` then (through a shock at `w0 = w1` or a fan on `[w0, w1]`) the star state `t` -/
theorem left_half {q t : UState} (h : q.Valid) (ht : t.Valid) {w0 w1 w2 : ℝ} (h01 : w0 ≤ w1)
    (hw : (w0 = w1 ∧ MovingShock w0 q t) ∨ (InFanL q w0 (flow q) ∧ InFanL q w1 (flow t))) {sol : ℝ → Flow}
    (s1 : ∀ x, x < w0 → sol x = flow q) (s2 : ∀ x, w0 < x → x < w1 → sol x = ff (-1) q x)
    (s3 : ∀ x, w1 < x → x < w2 → sol x = flow t) (l : Law) :
    ∃ G U, Prim' G U Set.univ ∧ (w1 < w2 → G w2 = l.movingFlux q.gamma (flow t) w2) ∧
      ∀ x, x < w2 → x ≠ w0 → x ≠ w1 → G x = l.movingFlux q.gamma (sol x) x ∧ U x = l.density q.gamma (sol x) := by
  rcases hw with ⟨rfl, hm⟩ | ⟨f0, f1⟩
  · refine ⟨_, _, (prim_const l q.gamma (flow q)).glue (w := w0) (prim_const l q.gamma (flow t)) (shock_flux h ht hm l)
      (fun _ _ _ => trivial) (fun _ _ _ => trivial), fun h2 => if_neg (not_le.2 h2), ?_⟩
    intro x hx n0 _
    rcases lt_or_gt_of_ne n0 with g | g
    · rw [if_pos g.le, if_pos g.le, s1 x g]; exact ⟨rfl, rfl⟩
    · rw [if_neg (not_le.2 g), if_neg (not_le.2 g), s3 x g hx]; exact ⟨rfl, rfl⟩
  · obtain ⟨-, -, e0⟩ := fanL_unique h f0
    obtain ⟨-, p1, e1⟩ := fanL_unique h f1
    have hg : 0 < q.gamma - 1 := by linarith [h.gamma]
    have hpos : ∀ x, x < w1 → 0 < fa (-1) q x := by
      intro x hx
      refine p1.trans ?_
      unfold fa
      rw [div_lt_div_iff_of_pos_right (by linarith)]
      nlinarith
    have A := (prim_fan h (e := -1) (by norm_num) l).glue (w := w1) (prim_const l q.gamma (flow t)) (S := Set.univ)
      (by simp only [← e1]) (fun x _ hx => hpos x hx) (fun _ _ _ => trivial)
    have B := (prim_const l q.gamma (flow q)).glue (w := w0) A (S := Set.univ)
      (by simp only [if_pos h01]; rw [← e0]) (fun _ _ _ => trivial) (fun _ _ _ => trivial)
    refine ⟨_, _, B, fun h2 => ?_, ?_⟩
    · rw [if_neg (not_le.2 (lt_of_le_of_lt h01 h2)), if_neg (not_le.2 h2)]
    · intro x hx n0 n1
      rcases lt_or_gt_of_ne n0 with g | g
      · rw [if_pos g.le, if_pos g.le, s1 x g]; exact ⟨rfl, rfl⟩
      · rw [if_neg (not_le.2 g), if_neg (not_le.2 g)]
        rcases lt_or_gt_of_ne n1 with g' | g'
        · rw [if_pos g'.le, if_pos g'.le, s2 x g g']; exact ⟨rfl, rfl⟩
        · rw [if_neg (not_le.2 g'), if_neg (not_le.2 g'), s3 x g' hx]; exact ⟨rfl, rfl⟩

/-- right of the contact -/
theorem right_half {q t : UState} (h : q.Valid) (ht : t.Valid) {w2 w3 w4 : ℝ} (h34 : w3 ≤ w4)
    (hw : (w3 = w4 ∧ MovingShock w4 q t) ∨ (InFanR q w4 (flow q) ∧ InFanR q w3 (flow t))) {sol : ℝ → Flow}
    (s1 : ∀ x, w4 < x → sol x = flow q) (s2 : ∀ x, w3 < x → x < w4 → sol x = ff 1 q x)
    (s3 : ∀ x, w2 < x → x < w3 → sol x = flow t) (l : Law) :
    ∃ G U, Prim' G U Set.univ ∧ (w2 < w3 → G w2 = l.movingFlux q.gamma (flow t) w2) ∧
      ∀ x, w2 < x → x ≠ w3 → x ≠ w4 → G x = l.movingFlux q.gamma (sol x) x ∧ U x = l.density q.gamma (sol x) := by
  rcases hw with ⟨rfl, hm⟩ | ⟨f0, f1⟩
  · refine ⟨_, _, (prim_const l q.gamma (flow t)).glue (w := w3) (prim_const l q.gamma (flow q)) (shock_flux h ht hm l).symm
      (fun _ _ _ => trivial) (fun _ _ _ => trivial), fun h2 => if_pos h2.le, ?_⟩
    intro x hx n0 _
    rcases lt_or_gt_of_ne n0 with g | g
    · rw [if_pos g.le, if_pos g.le, s3 x hx g]; exact ⟨rfl, rfl⟩
    · rw [if_neg (not_le.2 g), if_neg (not_le.2 g), s1 x g]; exact ⟨rfl, rfl⟩
  · obtain ⟨-, -, e0⟩ := fanR_unique h f0
    obtain ⟨-, p1, e1⟩ := fanR_unique h f1
    have hg : 0 < q.gamma - 1 := by linarith [h.gamma]
    have hpos : ∀ x, w3 < x → 0 < fa 1 q x := by
      intro x hx
      refine p1.trans ?_
      unfold fa
      rw [div_lt_div_iff_of_pos_right (by linarith)]
      nlinarith
    have A := (prim_fan h (e := 1) (by norm_num) l).glue (w := w4) (prim_const l q.gamma (flow q)) (S := Set.Ioi w3)
      (by simp only [← e0]) (fun x hx _ => hpos x hx) (fun _ _ _ => trivial)
    have B := (prim_const l q.gamma (flow t)).glue (w := w3) A (S := Set.univ)
      (by simp only [if_pos h34]; rw [← e1]) (fun _ _ _ => trivial) (fun _ _ g => g)
    refine ⟨_, _, B, fun h2 => if_pos h2.le, ?_⟩
    intro x hx n0 n1
    rcases lt_or_gt_of_ne n0 with g | g
    · rw [if_pos g.le, if_pos g.le, s3 x hx g]; exact ⟨rfl, rfl⟩
    · rw [if_neg (not_le.2 g), if_neg (not_le.2 g)]
      rcases lt_or_gt_of_ne n1 with g' | g'
      · rw [if_pos g'.le, if_pos g'.le, s2 x g g']; exact ⟨rfl, rfl⟩
      · rw [if_neg (not_le.2 g'), if_neg (not_le.2 g'), s1 x g']; exact ⟨rfl, rfl⟩

/-! ### The property -/

/-- the gas at `x/t`: that of the left state up to the contact -/
noncomputable def gasAt (s : Pb) (x : ℝ) : ℝ := if x < s.ustar then s.qL.gamma else s.qR.gamma

/-- `x` is the speed of one of the waves -/
def IsWave (s : Pb) (x : ℝ) : Prop := x = s.w0 ∨ x = s.w1 ∨ x = s.w2 ∨ x = s.w3 ∨ x = s.w4

/-- structure of the solved problem -/
theorem weak_data {newton : RootFinder} (hn : SoundRootFinder newton) {qL qR : UState} (hL : qL.Valid) (hR : qR.Valid)
    (hv : NoVacuum qL qR) {s : Pb} (h : Riemann.init newton qL qR = .ok s) :
    s.qL = qL ∧ s.qR = qR ∧ State.Valid s.qstarL ∧ State.Valid s.qstarR ∧ s.qstarL.u = s.w2 ∧ s.qstarR.u = s.w2 ∧ s.qstarL.p = s.qstarR.p ∧
    ((s.w0 = s.w1 ∧ MovingShock s.w0 qL s.qstarL) ∨ (InFanL qL s.w0 (flow qL) ∧ InFanL qL s.w1 (flow s.qstarL))) ∧
    ((s.w3 = s.w4 ∧ MovingShock s.w4 qR s.qstarR) ∨ (InFanR qR s.w4 (flow qR) ∧ InFanR qR s.w3 (flow s.qstarR))) := by
  obtain ⟨-, -, -, -, -, -, -, aL, aR, asL, asR, -, -, -, -, sL, sR, -, -⟩ := C60_waves newton hn qL qR hL hR hv s h
  obtain ⟨mL, mR, jL, jR⟩ := C60_jumps newton hn qL qR hL hR hv s h
  obtain ⟨p, hp, h0, rfl⟩ := riemann_init_spec hn hL hR hv h
  have vL := starState_valid hL hp (qL.u - df qL p)
  have vR := starState_valid hR hp (qL.u - df qL p)
  refine ⟨rfl, rfl, vL, vR, rfl, rfl, rfl, ?_, ?_⟩
  · by_cases c : p > qL.p
    · exact Or.inl ⟨(sL c).1, mL c⟩
    · obtain ⟨j1, j2⟩ := jL (not_lt.1 c)
      refine Or.inr ⟨⟨hL.rho, hL.p, rfl, rfl, ?_⟩, ⟨vL.rho, vL.p, j1, j2, ?_⟩⟩
      · show qL.u - qL.cs = qL.u - outer qL p
        unfold outer; rw [if_neg c]
      · show qL.u - df qL p - (starState qL (qL.u - df qL p) p).cs = qL.u - df qL p - inner qL _ p
        unfold Riemann.inner starState isen; simp only [if_neg c]
  · by_cases c : p > qR.p
    · exact Or.inl ⟨(sR c).1, mR c⟩
    · obtain ⟨j1, j2⟩ := jR (not_lt.1 c)
      refine Or.inr ⟨⟨hR.rho, hR.p, rfl, rfl, ?_⟩, ⟨vR.rho, vR.p, j1, j2, ?_⟩⟩
      · show qR.u + qR.cs = qR.u + outer qR p
        unfold outer; rw [if_neg c]
      · show qL.u - df qL p + (starState qR (qL.u - df qL p) p).cs = qL.u - df qL p + inner qR _ p
        unfold Riemann.inner starState isen; simp only [if_neg c]

/-- the flow `qsol` samples, region by region, away from the wave speeds -/
theorem weak_sol {newton : RootFinder} (hn : SoundRootFinder newton) {qL qR : UState} (hL : qL.Valid) (hR : qR.Valid)
    (hv : NoVacuum qL qR) {s : Pb} (h : Riemann.init newton qL qR = .ok s) :
    ∃ sol : ℝ → Flow, (∀ x, ∃ r, s.qsol x = .ok r ∧ solFlow r = sol x) ∧
      (∀ x, x < s.w0 → sol x = flow qL) ∧ (∀ x, s.w0 < x → x < s.w1 → sol x = ff (-1) qL x ∧ 0 < fa (-1) qL x) ∧
      (∀ x, s.w1 < x → x < s.w2 → sol x = flow s.qstarL) ∧ (∀ x, s.w2 < x → x < s.w3 → sol x = flow s.qstarR) ∧
      (∀ x, s.w3 < x → x < s.w4 → sol x = ff 1 qR x ∧ 0 < fa 1 qR x) ∧ (∀ x, s.w4 < x → sol x = flow qR) := by
  have hq : ∀ x, ∃ r, s.qsol x = .ok r := by
    intro x
    by_cases hx : s.pstar < qR.p ∧ x = s.w3
    · obtain ⟨r, hr, -⟩ := C61_false newton hn qL qR hL hR hv s h hx.1
      exact ⟨r, hx.2 ▸ hr⟩
    · obtain ⟨r, hr, -⟩ := C61_qsol_partial newton hn qL qR hL hR hv s h x hx
      exact ⟨r, hr⟩
  choose r hr using hq
  have key : ∀ x, x ≠ s.w3 → _ := fun x hx => C61_qsol_partial newton hn qL qR hL hR hv s h x (fun h => hx h.2)
  have get : ∀ x r', s.qsol x = .ok r' → r' = r x := fun x r' h' => by
    have := h'.symm.trans (hr x); exact Except.ok.inj this
  obtain ⟨o1, o2, o3, o4, -⟩ := C60_waves newton hn qL qR hL hR hv s h
  refine ⟨fun x => solFlow (r x), fun x => ⟨r x, hr x, rfl⟩, ?_, ?_, ?_, ?_, ?_, ?_⟩
  · intro x hx
    obtain ⟨r', h1, h2, -⟩ := key x (by linarith)
    show solFlow (r x) = _
    rw [← get x r' h1]; exact h2 (Or.inl hx)
  · intro x h1 h2
    obtain ⟨r', e, -, h3, -⟩ := key x (by linarith)
    show solFlow (r x) = _ ∧ _
    rw [← get x r' e]
    have := fanL_unique hL (h3 h1 h2).1
    exact ⟨this.2.2, this.2.1⟩
  · intro x h1 h2
    obtain ⟨r', e, -, -, h3, -⟩ := key x (by linarith)
    show solFlow (r x) = _
    rw [← get x r' e]; exact h3 h1.le h2
  · intro x h1 h2
    obtain ⟨r', e, -, -, -, h3, -⟩ := key x (by linarith)
    show solFlow (r x) = _
    rw [← get x r' e]; exact h3 h1.le h2
  · intro x h1 h2
    obtain ⟨r', e, -, -, -, -, h3, -⟩ := key x (by linarith)
    show solFlow (r x) = _ ∧ _
    rw [← get x r' e]
    have := fanR_unique hR (h3 h1 h2).1
    exact ⟨this.2.2, this.2.1⟩
  · intro x h1
    obtain ⟨r', e, -, -, -, -, -, h3⟩ := key x (by linarith)
    show solFlow (r x) = _
    rw [← get x r' e]; exact h3 h1.le

theorem euler_const (γ : ℝ) {q : ℝ → Flow} {x : ℝ} {f : Flow} (h : ∀ᶠ y in nhds x, q y = f) : SelfSimilarEuler γ q x := by
  refine ⟨0, 0, 0, ?_, ?_, ?_, by ring, by ring, by ring⟩
  · exact (hasDerivAt_const x f.rho).congr_of_eventuallyEq (h.mono fun y hy => by simp only [hy])
  · exact (hasDerivAt_const x f.u).congr_of_eventuallyEq (h.mono fun y hy => by simp only [hy])
  · exact (hasDerivAt_const x f.p).congr_of_eventuallyEq (h.mono fun y hy => by simp only [hy])

theorem euler_congr {γ : ℝ} {q q' : ℝ → Flow} {x : ℝ} (h : ∀ᶠ y in nhds x, q y = q' y) (he : SelfSimilarEuler γ q' x) :
    SelfSimilarEuler γ q x := by
  obtain ⟨d1, d2, d3, h1, h2, h3, e1, e2, e3⟩ := he
  have hx := h.self_of_nhds
  refine ⟨d1, d2, d3, ?_, ?_, ?_, by rw [hx]; exact e1, by rw [hx]; exact e2, by rw [hx]; exact e3⟩
  · exact h1.congr_of_eventuallyEq (h.mono fun y hy => by simp only [hy])
  · exact h2.congr_of_eventuallyEq (h.mono fun y hy => by simp only [hy])
  · exact h3.congr_of_eventuallyEq (h.mono fun y hy => by simp only [hy])

/-- C109: the solution sampled by `qsol` (the function of `x/t` it computes, at every `x/t`) is a weak solution of the Euler
equations.  Away from the five wave speeds it is differentiable and satisfies them; and over any segment `[a t, b t]` with ends off
the wave speeds -- containing shocks, fans and the contact or not -- mass, momentum and energy are exactly what entered through
the ends. -/
theorem C109_weak_solution (newton : RootFinder) (hn : SoundRootFinder newton) (qL qR : UState) (hL : qL.Valid) (hR : qR.Valid)
    (hv : NoVacuum qL qR) (s : Pb) (h : Riemann.init newton qL qR = .ok s) :
    ∃ sol : ℝ → Flow, (∀ x, ∃ r, s.qsol x = .ok r ∧ solFlow r = sol x) ∧
      (∀ x, ¬ IsWave s x → SelfSimilarEuler (gasAt s x) sol x) ∧
      ∀ (l : Law) (a b : ℝ), ¬ IsWave s a → ¬ IsWave s b → Balanced l (gasAt s) sol a b := by
  obtain ⟨o1, o2, o3, o4, hw2, -⟩ := C60_waves newton hn qL qR hL hR hv s h
  obtain ⟨eL, eR, vL, vR, uL, uR, hpp, dL, dR⟩ := weak_data hn hL hR hv h
  obtain ⟨sol, hsol, r0, r1, r2, r3, r4, r5⟩ := weak_sol hn hL hR hv h
  refine ⟨sol, hsol, ?_, ?_⟩
  · intro x hx
    unfold IsWave at hx
    push Not at hx
    obtain ⟨n0, n1, n2, n3, n4⟩ := hx
    rcases lt_or_gt_of_ne n0 with g0 | g0
    · refine euler_const _ (f := flow qL) ?_
      filter_upwards [Iio_mem_nhds g0] with y hy using r0 y hy
    rcases lt_or_gt_of_ne n1 with g1 | g1
    · have : gasAt s x = qL.gamma := by unfold gasAt; rw [if_pos (by linarith), eL]
      rw [this]
      refine euler_congr ?_ (ff_euler (e := -1) (by norm_num) hL (r1 x g0 g1).2)
      filter_upwards [Ioo_mem_nhds g0 g1] with y hy using (r1 y hy.1 hy.2).1
    rcases lt_or_gt_of_ne n2 with g2 | g2
    · refine euler_const _ (f := flow s.qstarL) ?_
      filter_upwards [Ioo_mem_nhds g1 g2] with y hy using r2 y hy.1 hy.2
    rcases lt_or_gt_of_ne n3 with g3 | g3
    · refine euler_const _ (f := flow s.qstarR) ?_
      filter_upwards [Ioo_mem_nhds g2 g3] with y hy using r3 y hy.1 hy.2
    rcases lt_or_gt_of_ne n4 with g4 | g4
    · have : gasAt s x = qR.gamma := by unfold gasAt; rw [if_neg (by linarith), eR]
      rw [this]
      refine euler_congr ?_ (ff_euler (e := 1) (by norm_num) hR (r4 x g3 g4).2)
      filter_upwards [Ioo_mem_nhds g3 g4] with y hy using (r4 y hy.1 hy.2).1
    · refine euler_const _ (f := flow qR) ?_
      filter_upwards [Ioi_mem_nhds g4] with y hy using r5 y hy
  · intro l a b ha hb
    obtain ⟨Gl, Ul, pL, cL, fL⟩ := left_half hL vL o1 dL r0 (fun x a b => (r1 x a b).1) r2 l
    obtain ⟨Gr, Ur, pR, cR, fR⟩ := right_half hR vR o4 dR r5 (fun x a b => (r4 x a b).1) r3 l
    have hc : Gl s.w2 = Gr s.w2 := by
      rw [cL o2, cR o3]
      have k1 : flow s.qstarL = ⟨s.qstarL.rho, s.w2, s.qstarR.p⟩ := by unfold flow; rw [uL, hpp]
      have k2 : flow s.qstarR = ⟨s.qstarR.rho, s.w2, s.qstarR.p⟩ := by unfold flow; rw [uR]
      rw [k1, k2]
      exact contact_flux _ _ _ _ _ _ _
    have P := pL.glue (w := s.w2) pR hc (S := Set.univ) (fun _ _ _ => trivial) (fun _ _ _ => trivial)
    have val : ∀ x, ¬ IsWave s x → (if x ≤ s.w2 then Gl x else Gr x) = l.movingFlux (gasAt s x) (sol x) x ∧
        (if x ≤ s.w2 then Ul x else Ur x) = l.density (gasAt s x) (sol x) := by
      intro x hx
      unfold IsWave at hx
      push Not at hx
      obtain ⟨n0, n1, n2, n3, n4⟩ := hx
      unfold gasAt
      rcases lt_or_gt_of_ne n2 with g | g
      · rw [if_pos g.le, if_pos g.le, if_pos (by linarith), eL]
        exact fL x g n0 n1
      · rw [if_neg (not_le.2 g), if_neg (not_le.2 g), if_neg (by linarith), eR]
        exact fR x g n3 n4
    have hae : (fun x => if x ≤ s.w2 then Ul x else Ur x) =ᵐ[volume] fun x => l.density (gasAt s x) (sol x) := by
      have hfin : ({s.w0, s.w1, s.w2, s.w3, s.w4} : Set ℝ).Countable := (Set.toFinite _).countable
      filter_upwards [hfin.ae_notMem volume] with x hx
      refine (val x ?_).2
      simpa [IsWave] using hx
    refine ⟨?_, ?_⟩
    · exact (P.integrable a b).congr_ae (ae_restrict_of_ae hae)
    · rw [← intervalIntegral.integral_congr_ae (hae.mono fun x hx _ => hx), P.integral a b]
      rw [(val a ha).1, (val b hb).1]

/-- C109, whole domain: between two points that no wave has reached, the content of the solution is the exact balance of the two
initial states (the consistency condition of Riemann solvers). -/
theorem C109_total (newton : RootFinder) (hn : SoundRootFinder newton) (qL qR : UState) (hL : qL.Valid) (hR : qR.Valid)
    (hv : NoVacuum qL qR) (s : Pb) (h : Riemann.init newton qL qR = .ok s) (l : Law) (a b : ℝ) (ha : a < s.w0) (hb : s.w4 < b) :
    ∃ sol : ℝ → Flow, (∀ x, ∃ r, s.qsol x = .ok r ∧ solFlow r = sol x) ∧
      ∫ x in a..b, l.density (gasAt s x) (sol x) = l.movingFlux qL.gamma (flow qL) a - l.movingFlux qR.gamma (flow qR) b := by
  obtain ⟨o1, o2, o3, o4, hw2, -⟩ := C60_waves newton hn qL qR hL hR hv s h
  obtain ⟨eL, eR, -⟩ := weak_data hn hL hR hv h
  obtain ⟨sol, h1, -, h3⟩ := C109_weak_solution newton hn qL qR hL hR hv s h
  obtain ⟨sol', k1, r0, -, -, -, -, r5⟩ := weak_sol hn hL hR hv h
  have hs : ∀ x, sol x = sol' x := by
    intro x
    obtain ⟨r, a1, a2⟩ := h1 x
    obtain ⟨r', b1, b2⟩ := k1 x
    have := Except.ok.inj (a1.symm.trans b1)
    rw [← a2, ← b2, this]
  refine ⟨sol, h1, ?_⟩
  have na : ¬ IsWave s a := by
    rintro (g | g | g | g | g) <;> linarith
  have nb : ¬ IsWave s b := by
    rintro (g | g | g | g | g) <;> linarith
  rw [(h3 l a b na nb).2, hs a, hs b, r0 a ha, r5 b hb]
  unfold gasAt
  rw [if_pos (by linarith), if_neg (by linarith), eL, eR]

/-! ### Entropy -/

/-- entropy jump of a shock of pressure ratio `z` -/
theorem shock_entropy_aux {g : ℝ} (hg : 1 < g) {z : ℝ} (hz : 1 < z) :
    g * Real.log (((g + 1) * z + (g - 1)) / ((g - 1) * z + (g + 1))) < Real.log z := by
  have hg1 : 0 < g - 1 := by linarith
  have hd : ∀ x : ℝ, 0 < x → HasDerivAt (fun z => Real.log z - g * (Real.log ((g + 1) * z + (g - 1)) - Real.log ((g - 1) * z + (g + 1))))
      ((g ^ 2 - 1) * (x - 1) ^ 2 / (x * ((g + 1) * x + (g - 1)) * ((g - 1) * x + (g + 1)))) x := by
    intro x hx
    have k1 : 0 < (g + 1) * x + (g - 1) := by positivity
    have k2 : 0 < (g - 1) * x + (g + 1) := by positivity
    have d1 : HasDerivAt (fun z => (g + 1) * z + (g - 1)) (g + 1) x := by
      simpa using ((hasDerivAt_id' x).const_mul (g + 1)).add_const (g - 1)
    have d2 : HasDerivAt (fun z => (g - 1) * z + (g + 1)) (g - 1) x := by
      simpa using ((hasDerivAt_id' x).const_mul (g - 1)).add_const (g + 1)
    refine ((Real.hasDerivAt_log hx.ne').fun_sub (((d1.log k1.ne').fun_sub (d2.log k2.ne')).const_mul g)).congr_deriv ?_
    field_simp
    ring
  have hm : StrictMonoOn (fun z => Real.log z - g * (Real.log ((g + 1) * z + (g - 1)) - Real.log ((g - 1) * z + (g + 1)))) (Set.Ici 1) := by
    refine strictMonoOn_of_deriv_pos (convex_Ici 1) (fun x hx => (hd x (lt_of_lt_of_le one_pos hx)).continuousAt.continuousWithinAt) ?_
    intro x hx
    rw [interior_Ici] at hx
    have hx : 1 < x := hx
    rw [(hd x (by linarith)).deriv]
    have : 0 < x - 1 := by linarith
    have : 0 < g ^ 2 - 1 := by nlinarith
    have : 0 < x := by linarith
    positivity
  have := hm (show (1:ℝ) ≤ 1 from le_rfl) (show (1:ℝ) ≤ z from hz.le) hz
  simp only at this
  have e1 : (g + 1) * 1 + (g - 1) = (g - 1) * 1 + (g + 1) := by ring
  rw [e1, Real.log_one] at this
  rw [Real.log_div (by positivity) (by positivity)]
  linarith

theorem shock_entropy {q : UState} (h : q.Valid) {p : ℝ} (hp : q.p < p) (u : ℝ) :
    (flow q).entropyFn q.gamma < Flow.entropyFn q.gamma ⟨rhs q p, u, p⟩ := by
  have hp0 := h.p; have hr := h.rho; have hg := h.gamma; have hg0 := h.g0
  have hpp : 0 < p := by linarith
  have hz : 1 < p / q.p := by rw [lt_div_iff₀ hp0]; linarith
  have key := shock_entropy_aux hg hz
  have hg1 : 0 < q.gamma - 1 := by linarith
  have e : ((q.gamma + 1) * (p / q.p) + (q.gamma - 1)) / ((q.gamma - 1) * (p / q.p) + (q.gamma + 1)) = KK q p / LL q p := by
    unfold KK LL
    have : 0 < (q.gamma - 1) * p + (q.gamma + 1) * q.p := by positivity
    field_simp
  rw [e] at key
  have hk : 0 < KK q p / LL q p := div_pos (KK_pos h hpp) (LL_pos h hpp)
  rw [← Real.log_rpow hk] at key
  have := (Real.log_lt_log_iff (Real.rpow_pos_of_pos hk _) (by positivity)).1 key
  unfold Flow.entropyFn flow rhs
  simp only
  rw [Real.mul_rpow hr.le hk.le]
  have h1 := Real.rpow_pos_of_pos hr q.gamma
  have h2 := Real.rpow_pos_of_pos hk q.gamma
  rw [lt_div_iff₀ hp0] at this
  rw [div_lt_div_iff₀ h1 (by positivity)]
  nlinarith

/-- C109, admissibility: particles that have crossed a shock of the solution have a strictly higher entropy, those that have crossed an
expansion have kept it -/
theorem C109_entropy (newton : RootFinder) (hn : SoundRootFinder newton) (qL qR : UState) (hL : qL.Valid) (hR : qR.Valid)
    (hv : NoVacuum qL qR) (s : Pb) (h : Riemann.init newton qL qR = .ok s) :
    (s.pstar > qL.p → (flow qL).entropyFn qL.gamma < (flow s.qstarL).entropyFn qL.gamma) ∧
    (s.pstar > qR.p → (flow qR).entropyFn qR.gamma < (flow s.qstarR).entropyFn qR.gamma) ∧
    (s.pstar ≤ qL.p → (flow s.qstarL).entropyFn qL.gamma = (flow qL).entropyFn qL.gamma) ∧
    (s.pstar ≤ qR.p → (flow s.qstarR).entropyFn qR.gamma = (flow qR).entropyFn qR.gamma) := by
  obtain ⟨-, -, jL, jR⟩ := C60_jumps newton hn qL qR hL hR hv s h
  refine ⟨?_, ?_, fun hc => (jL hc).1, fun hc => (jR hc).1⟩ <;> obtain ⟨p, hp, h0, rfl⟩ := riemann_init_spec hn hL hR hv h
  · intro hc
    have hc : p > qL.p := hc
    show _ < (flow (starState qL _ p)).entropyFn qL.gamma
    unfold starState
    rw [if_pos hc]
    exact shock_entropy hL hc _
  · intro hc
    have hc : p > qR.p := hc
    show _ < (flow (starState qR _ p)).entropyFn qR.gamma
    unfold starState
    rw [if_pos hc]
    exact shock_entropy hR hc _

/-- a shock tube (left expansion and right shock included) meets the hypotheses -/
example : ∃ (newton : RootFinder) (qL qR : UState) (s : Pb), SoundRootFinder newton ∧ qL.Valid ∧ qR.Valid ∧ NoVacuum qL qR ∧
    Riemann.init newton qL qR = .ok s ∧ ¬ IsWave s (s.w0 - 1) ∧ ¬ IsWave s (s.w4 + 1) := by
  obtain ⟨nf, h1, h2⟩ := exists_soundRootFinder
  obtain ⟨qL, qR, hL, hR, hg, hv⟩ := sod
  obtain ⟨s, hs⟩ := C59_constructs nf h1 h2 qL qR hL hR hg hv
  obtain ⟨o1, o2, o3, o4, -⟩ := C60_waves nf h1 qL qR hL hR hv s hs
  refine ⟨nf, qL, qR, s, h1, hL, hR, hv, hs, ?_, ?_⟩ <;> (rintro (g | g | g | g | g) <;> linarith)

end Aerokit.Props
