import Verif.Props.Riemann

/-!
# Property C115: the Riemann problem in other units

`scale a b q` is the state `q` when densities are measured in a unit `a` times smaller and velocities in a unit `b`
times smaller (so pressures are multiplied by `a b²`).
-/

namespace Aerokit.Props
open Isentropic Model1D Unsteady1D Riemann Real
open MassFlow (RootFinder)
open Spec

/-- change of units of a state: densities times `a`, velocities times `b`, pressures times `a b²` -/
noncomputable def scale (a b : ℝ) (q : UState) : UState := ⟨a * q.rho, b * q.u, a * b ^ 2 * q.p, q.gamma⟩

/-- change of units of a solved problem -/
noncomputable def scalePb (a b : ℝ) (s : Pb) : Pb :=
  { qL := scale a b s.qL, qR := scale a b s.qR, pstar := a * b ^ 2 * s.pstar, ustar := b * s.ustar,
    qstarL := scale a b s.qstarL, qstarR := scale a b s.qstarR, w0 := b * s.w0, w1 := b * s.w1, w2 := b * s.w2,
    w3 := b * s.w3, w4 := b * s.w4 }

variable {a b : ℝ}

theorem valid_scale {q : UState} (h : q.Valid) (ha : 0 < a) (hb : 0 < b) : State.Valid (scale a b q) :=
  ⟨mul_pos ha h.rho, mul_pos (by positivity) h.p, h.gamma⟩

theorem cs_scale (ha : 0 < a) (hb : 0 < b) {q : UState} (h : q.Valid) : State.cs (scale a b q) = b * q.cs := by
  unfold State.cs scale
  have := h.rho
  simp only
  rw [show q.gamma * (a * b ^ 2 * q.p) / (a * q.rho) = b ^ 2 * (q.gamma * q.p / q.rho) by field_simp,
    Real.sqrt_mul (by positivity), Real.sqrt_sq hb.le]

theorem SS_scale (ha : 0 < a) (hb : 0 < b) {q : UState} (h : q.Valid) (p : ℝ) :
    SS (scale a b q) (a * b ^ 2 * p) = b * SS q p := by
  unfold SS KK scale
  have := h.rho
  simp only
  rw [show ((q.gamma + 1) * (a * b ^ 2 * p) + (q.gamma - 1) * (a * b ^ 2 * q.p)) / (2 * (a * q.rho))
      = b ^ 2 * (((q.gamma + 1) * p + (q.gamma - 1) * q.p) / (2 * q.rho)) by field_simp,
    Real.sqrt_mul (by positivity), Real.sqrt_sq hb.le]

theorem gt_scale (ha : 0 < a) (hb : 0 < b) (q : UState) (p : ℝ) :
    a * b ^ 2 * p > (scale a b q).p ↔ p > q.p := by
  show a * b ^ 2 * q.p < a * b ^ 2 * p ↔ _
  exact mul_lt_mul_iff_right₀ (by positivity)

theorem pr_scale (ha : 0 < a) (hb : 0 < b) (q : UState) (p : ℝ) :
    a * b ^ 2 * p / (scale a b q).p = p / q.p := by
  show a * b ^ 2 * p / (a * b ^ 2 * q.p) = _
  exact mul_div_mul_left _ _ (by positivity)

theorem dus_scale (ha : 0 < a) (hb : 0 < b) {q : UState} (h : q.Valid) {p : ℝ} (hp : 0 < p) :
    dus (scale a b q) (a * b ^ 2 * p) = b * dus q p := by
  unfold dus
  rw [SS_scale ha hb h]
  have := SS_pos h hp
  have := h.rho
  show (a * b ^ 2 * p - a * b ^ 2 * q.p) / (a * q.rho * (b * SS q p)) = _
  field_simp

theorem due_scale (ha : 0 < a) (hb : 0 < b) {q : UState} (h : q.Valid) (p : ℝ) :
    due (scale a b q) (a * b ^ 2 * p) = b * due q p := by
  unfold due
  rw [cs_scale ha hb h, pr_scale ha hb]
  show 2 * (b * q.cs) / (q.gamma - 1) * _ = _
  rw [show (scale a b q).gamma = q.gamma from rfl]
  ring

theorem df_scale (ha : 0 < a) (hb : 0 < b) {q : UState} (h : q.Valid) {p : ℝ} (hp : 0 < p) :
    df (scale a b q) (a * b ^ 2 * p) = b * df q p := by
  unfold df
  by_cases hc : p > q.p
  · rw [if_pos hc, if_pos ((gt_scale ha hb q p).2 hc), dus_scale ha hb h hp]
  · rw [if_neg hc, if_neg (fun h' => hc ((gt_scale ha hb q p).1 h')), due_scale ha hb h]

theorem rhi_scale (ha : 0 < a) (hb : 0 < b) (q : UState) (p : ℝ) :
    rhi (scale a b q) (a * b ^ 2 * p) = a * rhi q p := by
  unfold rhi
  rw [pr_scale ha hb]
  show a * q.rho * _ = _
  rw [show (scale a b q).gamma = q.gamma from rfl]
  ring

theorem rhs_scale (ha : 0 < a) (hb : 0 < b) {q : UState} (h : q.Valid) {p : ℝ} (hp : 0 < p) :
    rhs (scale a b q) (a * b ^ 2 * p) = a * rhs q p := by
  have := LL_pos h hp
  unfold rhs
  have e1 : KK (scale a b q) (a * b ^ 2 * p) = a * b ^ 2 * KK q p := by unfold KK scale; simp only; ring
  have e2 : LL (scale a b q) (a * b ^ 2 * p) = a * b ^ 2 * LL q p := by unfold LL scale; simp only; ring
  rw [e1, e2, mul_div_mul_left _ _ (by positivity)]
  show a * q.rho * _ = _
  ring

theorem starState_scale (ha : 0 < a) (hb : 0 < b) {q : UState} (h : q.Valid) {p : ℝ} (hp : 0 < p) (u : ℝ) :
    starState (scale a b q) (b * u) (a * b ^ 2 * p) = scale a b (starState q u p) := by
  unfold starState
  by_cases hc : p > q.p
  · rw [if_pos hc, if_pos ((gt_scale ha hb q p).2 hc), rhs_scale ha hb h hp]; rfl
  · rw [if_neg hc, if_neg (fun h' => hc ((gt_scale ha hb q p).1 h')), rhi_scale ha hb]; rfl

theorem outer_scale (ha : 0 < a) (hb : 0 < b) {q : UState} (h : q.Valid) (p : ℝ) :
    outer (scale a b q) (a * b ^ 2 * p) = b * outer q p := by
  unfold outer
  by_cases hc : p > q.p
  · rw [if_pos hc, if_pos ((gt_scale ha hb q p).2 hc), SS_scale ha hb h]
  · rw [if_neg hc, if_neg (fun h' => hc ((gt_scale ha hb q p).1 h')), cs_scale ha hb h]

theorem inner_scale (ha : 0 < a) (hb : 0 < b) {q : UState} (h : q.Valid) {p : ℝ} (hp : 0 < p) (u : ℝ) :
    Riemann.inner (scale a b q) (b * u) (a * b ^ 2 * p) = b * Riemann.inner q u p := by
  unfold Riemann.inner
  by_cases hc : p > q.p
  · rw [if_pos hc, if_pos ((gt_scale ha hb q p).2 hc), SS_scale ha hb h, dus_scale ha hb h hp]; ring
  · rw [if_neg hc, if_neg (fun h' => hc ((gt_scale ha hb q p).1 h')), ← cs_scale ha hb (isen_valid h hp u)]
    congr 1
    unfold isen
    rw [rhi_scale ha hb]; rfl

theorem novac_scale (ha : 0 < a) (hb : 0 < b) {qL qR : UState} (hL : qL.Valid) (hR : qR.Valid) (h : NoVacuum qL qR) :
    NoVacuum (scale a b qL) (scale a b qR) := by
  unfold NoVacuum at *
  rw [cs_scale ha hb hL, cs_scale ha hb hR]
  show b * qR.u - b * qL.u < 2 * (b * qL.cs) / (qL.gamma - 1) + 2 * (b * qR.cs) / (qR.gamma - 1)
  have := mul_lt_mul_of_pos_left h hb
  calc b * qR.u - b * qL.u = b * (qR.u - qL.u) := by ring
    _ < _ := this
    _ = _ := by ring

/-- C115: measured in other units of density and velocity, the Riemann problem has the same solution: star pressure,
star velocity, both star states (densities included) and the five wave speeds are those of the original problem,
converted -- whatever sound solvers are used for the two problems. -/
theorem C115_units (newton newton' : RootFinder) (hn : SoundRootFinder newton) (hn' : SoundRootFinder newton')
    (qL qR : UState) (hL : qL.Valid) (hR : qR.Valid) (hv : NoVacuum qL qR) (a b : ℝ) (ha : 0 < a) (hb : 0 < b) (s s' : Pb)
    (h : Riemann.init newton qL qR = .ok s) (h' : Riemann.init newton' (scale a b qL) (scale a b qR) = .ok s') :
    s' = scalePb a b s := by
  obtain ⟨p, hp, h0, rfl⟩ := riemann_init_spec hn hL hR hv h
  obtain ⟨p', hp', h0', rfl⟩ := riemann_init_spec hn' (valid_scale hL ha hb) (valid_scale hR ha hb)
    (novac_scale ha hb hL hR hv) h'
  have hk : 0 < a * b ^ 2 := by positivity
  have hpp : p' = a * b ^ 2 * p := by
    refine duf_unique (valid_scale hL ha hb) (valid_scale hR ha hb) hp'.le (by positivity) h0' ?_
    unfold duf at h0 ⊢
    rw [df_scale ha hb hL hp, df_scale ha hb hR hp]
    show b * df qL p + b * df qR p + b * qR.u - b * qL.u = 0
    linear_combination b * h0
  subst hpp
  have m1 : (scale a b qL).u - df (scale a b qL) (a * b ^ 2 * p) = b * (qL.u - df qL p) := by
    rw [df_scale ha hb hL hp]; show b * qL.u - _ = _; ring
  unfold solPb scalePb
  simp only [m1, Pb.mk.injEq, starState_scale ha hb hL hp, starState_scale ha hb hR hp, inner_scale ha hb hL hp,
    inner_scale ha hb hR hp, outer_scale ha hb hL, outer_scale ha hb hR, true_and]
  refine ⟨?_, ?_, ?_, ?_⟩
  · show b * qL.u - _ = _; ring
  · ring
  · ring
  · show b * qR.u + _ = _; ring

/-- change of units of one element of the sampled solution -/
noncomputable def primScale (a b : ℝ) (r : Prim) : Prim := ⟨a * r.rho, b * r.u, a * b ^ 2 * r.p⟩

theorem rho_isentropic_scale (ha : 0 < a) (hb : 0 < b) {q : UState} (h : q.Valid) (p : ℝ) :
    UState.rho_through_isentropic (scale a b q) (a * b ^ 2 * p) = (UState.rho_through_isentropic q p).map (fun r => a * r) := by
  unfold UState.rho_through_isentropic
  lits
  have hg := h.g0
  have hp := h.p
  rw [Py.div_ok (valid_scale h ha hb).p.ne', Py.ok_bind, Py.div_ok h.p.ne', Py.ok_bind, pr_scale ha hb]
  rw [show (scale a b q).gamma = q.gamma from rfl]
  rw [Py.div_ok hg.ne', Py.ok_bind, Py.ok_bind]
  cases Py.pow (p / q.p) (1 / q.gamma) with
  | error e => rfl
  | ok w =>
    show Except.ok (a * q.rho * w) = Except.ok (a * (q.rho * w))
    rw [mul_assoc]

theorem fanL_scale (ha : 0 < a) (hb : 0 < b) {q : UState} (h : q.Valid) (x : ℝ) :
    fanL (scale a b q) (b * x) = (fanL q x).map (primScale a b) := by
  have hg : 0 < q.gamma - 1 := by linarith [h.gamma]
  have hg0 := h.g0
  have hc := h.cs_pos
  unfold fanL
  simp only []
  lits
  have e2 : State.asound (scale a b q) = .ok (b * q.cs) := by rw [← cs_scale ha hb h]; exact (valid_scale h ha hb).asound
  rw [show (scale a b q).gamma = q.gamma from rfl, e2, h.asound, Py.div_ok (by positivity), Py.ok_bind, Py.div_ok hg.ne', Py.ok_bind, Py.ok_bind,
    Py.ok_bind, Py.ok_bind, Py.ok_bind]
  have e3 : (q.gamma - 1) / (q.gamma + 1) * ((scale a b q).u + 2 / (q.gamma - 1) * (b * q.cs + b * x))
      = b * ((q.gamma - 1) / (q.gamma + 1) * (q.u + 2 / (q.gamma - 1) * (q.cs + x))) := by
    show (q.gamma - 1) / (q.gamma + 1) * (b * q.u + 2 / (q.gamma - 1) * (b * q.cs + b * x)) = _
    ring
  rw [e3]
  obtain ⟨u, hu⟩ : ∃ u, u = (q.gamma - 1) / (q.gamma + 1) * (q.u + 2 / (q.gamma - 1) * (q.cs + x)) := ⟨_, rfl⟩
  rw [← hu, Py.div_ok (by positivity), Py.ok_bind, Py.div_ok hc.ne', Py.ok_bind,
    Py.div_ok hg.ne', Py.ok_bind, Py.ok_bind, show (b * u - b * x) / (b * q.cs) = (u - x) / q.cs by
      rw [← mul_sub, mul_div_mul_left _ _ hb.ne']]
  cases hw : Py.pow ((u - x) / q.cs) (2 * q.gamma / (q.gamma - 1)) with
  | error e => rfl
  | ok w =>
    rw [Py.ok_bind, Py.ok_bind, show (scale a b q).p * w = a * b ^ 2 * (q.p * w) by show a * b ^ 2 * q.p * w = _; ring,
      rho_isentropic_scale ha hb h]
    cases hr : UState.rho_through_isentropic q (q.p * w) with
    | error e => rfl
    | ok r => rfl

theorem fanR_scale (ha : 0 < a) (hb : 0 < b) {q : UState} (h : q.Valid) (x : ℝ) :
    fanR (scale a b q) (b * x) = (fanR q x).map (primScale a b) := by
  have hg : 0 < q.gamma - 1 := by linarith [h.gamma]
  have hg0 := h.g0
  have hc := h.cs_pos
  unfold fanR
  simp only []
  lits
  have e2 : State.asound (scale a b q) = .ok (b * q.cs) := by rw [← cs_scale ha hb h]; exact (valid_scale h ha hb).asound
  rw [show (scale a b q).gamma = q.gamma from rfl, e2, h.asound, Py.div_ok (by positivity), Py.ok_bind, Py.div_ok hg.ne', Py.ok_bind, Py.ok_bind,
    Py.ok_bind, Py.ok_bind, Py.ok_bind]
  have e3 : (q.gamma - 1) / (q.gamma + 1) * ((scale a b q).u + 2 / (q.gamma - 1) * (-(b * q.cs) + b * x))
      = b * ((q.gamma - 1) / (q.gamma + 1) * (q.u + 2 / (q.gamma - 1) * (-q.cs + x))) := by
    show (q.gamma - 1) / (q.gamma + 1) * (b * q.u + 2 / (q.gamma - 1) * (-(b * q.cs) + b * x)) = _
    ring
  rw [e3]
  obtain ⟨u, hu⟩ : ∃ u, u = (q.gamma - 1) / (q.gamma + 1) * (q.u + 2 / (q.gamma - 1) * (-q.cs + x)) := ⟨_, rfl⟩
  rw [← hu, Py.div_ok (by positivity), Py.ok_bind, Py.div_ok hc.ne', Py.ok_bind,
    Py.div_ok hg.ne', Py.ok_bind, Py.ok_bind, show (b * x - b * u) / (b * q.cs) = (x - u) / q.cs by
      rw [← mul_sub, mul_div_mul_left _ _ hb.ne']]
  cases hw : Py.pow ((x - u) / q.cs) (2 * q.gamma / (q.gamma - 1)) with
  | error e => rfl
  | ok w =>
    rw [Py.ok_bind, Py.ok_bind, show (scale a b q).p * w = a * b ^ 2 * (q.p * w) by show a * b ^ 2 * q.p * w = _; ring,
      rho_isentropic_scale ha hb h]
    cases hr : UState.rho_through_isentropic q (q.p * w) with
    | error e => rfl
    | ok r => rfl

/-- C115 (sampled solution): at the converted `x/t` the sampled solution of the converted problem is the converted
sampled solution, for every `x/t` (also when the two sides are different gases). -/
theorem C115_units_qsol (newton newton' : RootFinder) (hn : SoundRootFinder newton) (hn' : SoundRootFinder newton')
    (qL qR : UState) (hL : qL.Valid) (hR : qR.Valid) (hv : NoVacuum qL qR) (a b : ℝ) (ha : 0 < a) (hb : 0 < b) (s s' : Pb)
    (h : Riemann.init newton qL qR = .ok s) (h' : Riemann.init newton' (scale a b qL) (scale a b qR) = .ok s') (x : ℝ) :
    s'.qsol (b * x) = (s.qsol x).map (scale a b) := by
  rw [C115_units newton newton' hn hn' qL qR hL hR hv a b ha hb s s' h h']
  obtain ⟨p, hp, h0, hs⟩ := riemann_init_spec hn hL hR hv h
  have e2 : s.qL = qL := by rw [hs]; rfl
  have e3 : s.qR = qR := by rw [hs]; rfl
  have hL' : State.Valid s.qL := e2 ▸ hL
  have hR' : State.Valid s.qR := e3 ▸ hR
  have k1 : ∀ y, b * x ≥ b * y ↔ x ≥ y := fun y => mul_le_mul_iff_right₀ hb
  have k2 : ∀ y, b * x < b * y ↔ x < y := fun y => mul_lt_mul_iff_right₀ hb
  have k3 : ∀ y, b * x > b * y ↔ x > y := fun y => mul_lt_mul_iff_right₀ hb
  have k4 : ∀ q : UState, a * b ^ 2 * s.pstar < (scale a b q).p ↔ s.pstar < q.p := fun q =>
    mul_lt_mul_iff_right₀ (by positivity)
  have k5 : b * x < 0.0 ↔ x < 0.0 := by rw [show (0.0:ℝ) = b * 0 by norm_num, k2]; norm_num
  have kp : ∀ q : UState, prim (scale a b q) = primScale a b (prim q) := fun q => rfl
  have kif : ∀ (c : Prop) [Decidable c] (r r' : Prim), (if c then primScale a b r else primScale a b r') = primScale a b (if c then r else r') := by
    intro c _ r r'; split <;> rfl
  unfold Pb.qsol scalePb
  simp only [k1, k2, k3, k4, k5, kp, kif, fanL_scale ha hb hL', fanR_scale ha hb hR']
  by_cases hA : s.pstar < s.qL.p ∧ x > s.w0 ∧ x < s.w1 <;> by_cases hB : s.pstar < s.qR.p ∧ x > s.w3 ∧ x < s.w4
  · simp only [if_pos hA, if_pos hB]
    cases fanL s.qL x with
    | error e => rfl
    | ok r =>
      cases fanR s.qR x with
      | error e => rfl
      | ok r => rfl
  · simp only [if_pos hA, if_neg hB]
    cases fanL s.qL x with
    | error e => rfl
    | ok r => rfl
  · simp only [if_neg hA, if_pos hB]
    cases fanR s.qR x with
    | error e => rfl
    | ok r => rfl
  · simp only [if_neg hA, if_neg hB]
    rfl

/-- the shock tube of Sod in SI-like units (densities ×1.2, velocities ×290) -/
example : ∃ (nf : RootFinder) (qL qR : UState) (s s' : Pb), SoundRootFinder nf ∧ State.Valid qL ∧ State.Valid qR ∧
    NoVacuum qL qR ∧ Riemann.init nf qL qR = .ok s ∧ Riemann.init nf (scale 1.2 290 qL) (scale 1.2 290 qR) = .ok s' := by
  obtain ⟨nf, h1, h2⟩ := exists_soundRootFinder
  obtain ⟨qL, qR, hL, hR, hg, hv⟩ := sod
  have ha : (0:ℝ) < 1.2 := by norm_num
  have hb : (0:ℝ) < 290 := by norm_num
  obtain ⟨s, hs⟩ := C59_constructs nf h1 h2 qL qR hL hR hg hv
  obtain ⟨s', hs'⟩ := C59_constructs nf h1 h2 _ _ (valid_scale hL ha hb) (valid_scale hR ha hb) hg (novac_scale ha hb hL hR hv)
  exact ⟨nf, qL, qR, s, s', h1, hL, hR, hv, hs, hs'⟩

end Aerokit.Props
