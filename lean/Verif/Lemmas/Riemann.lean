import Verif.Model.Riemann
import Verif.Lemmas.Unsteady1D
import Mathlib.Analysis.SpecialFunctions.Pow.Continuity
import Mathlib.Topology.Order.IntermediateValue

/-! The velocity jump function of the Riemann problem. -/

namespace Aerokit.Riemann
open Model1D Unsteady1D

variable {q : UState}

/-- velocity jump of one side -/
noncomputable def df (q : UState) (p : ℝ) : ℝ := if p > q.p then dus q p else due q p

theorem delta_u_ok (h : q.Valid) {p : ℝ} (hp : 0 < p) : delta_u q p = .ok (df q p) := by
  unfold delta_u df
  split
  · exact delta_u_shock_ok h hp
  · exact delta_u_expansion_ok h hp

/-- exponent of the expansion is in (0, 1/2) -/
theorem ez_pos (h : q.Valid) : 0 < (q.gamma - 1) / (2 * q.gamma) := by
  have := h.gamma; have := h.g0; apply div_pos <;> linarith

theorem dus_self : dus q q.p = 0 := by unfold dus; simp
theorem due_self (h : q.Valid) : due q q.p = 0 := by
  unfold due; rw [div_self h.p.ne', Real.one_rpow]; simp

theorem df_eq (h : q.Valid) (p : ℝ) : df q p = due q (min p q.p) + dus q (max p q.p) := by
  unfold df
  split
  · rename_i hp
    rw [min_eq_right hp.le, max_eq_left hp.le, due_self h, zero_add]
  · rename_i hp
    push Not at hp
    rw [min_eq_left hp, max_eq_right hp, dus_self, add_zero]

theorem SS_continuous : Continuous (SS q) := by
  unfold SS KK; fun_prop

theorem dus_eq (h : q.Valid) {p : ℝ} (hp : 0 < p) :
    dus q p = 2 / (q.gamma + 1) * (SS q p - q.cs ^ 2 / SS q p) := by
  have h1 := h.rho; have h2 := h.p; have h3 := h.g0
  have hS := SS_pos h hp
  have hS2 := SS_sq h hp
  unfold dus
  rw [h.cs_sq]
  have : p - q.p = (2 * q.rho * SS q p ^ 2 - 2 * q.gamma * q.p) / (q.gamma + 1) := by
    rw [hS2]; unfold KK; field_simp; ring
  rw [this]; field_simp

theorem SS_strictMono (h : q.Valid) : StrictMonoOn (SS q) (Set.Ioi 0) := by
  intro a ha b hb hab
  have h1 := h.rho; have h3 := h.g0
  unfold SS
  apply Real.sqrt_lt_sqrt
  · have := KK_pos h ha; positivity
  · unfold KK; apply div_lt_div_of_pos_right _ (by positivity)
    nlinarith

theorem dus_strictMono (h : q.Valid) : StrictMonoOn (dus q) (Set.Ioi 0) := by
  intro a ha b hb hab
  have h3 := h.g0
  have hc := h.cs_pos
  rw [dus_eq h ha, dus_eq h hb]
  have hs := SS_strictMono h ha hb hab
  have ha' := SS_pos h ha
  have : q.cs ^ 2 / SS q b < q.cs ^ 2 / SS q a := div_lt_div_of_pos_left (by positivity) ha' hs
  apply mul_lt_mul_of_pos_left _ (by positivity)
  linarith

theorem due_strictMono (h : q.Valid) : StrictMonoOn (due q) (Set.Ici 0) := by
  intro a ha b hb hab
  have ha' : 0 ≤ a := ha
  have h2 := h.p
  have hg : 0 < q.gamma - 1 := by linarith [h.gamma]
  have hc := h.cs_pos
  unfold due
  apply mul_lt_mul_of_pos_left _ (by positivity)
  have : (a / q.p) ^ ((q.gamma - 1) / (2 * q.gamma)) < (b / q.p) ^ ((q.gamma - 1) / (2 * q.gamma)) := by
    apply Real.rpow_lt_rpow (by positivity) _ (ez_pos h)
    exact div_lt_div_of_pos_right hab h2
  linarith

theorem dus_continuousOn (h : q.Valid) : ContinuousOn (dus q) (Set.Ioi 0) := by
  unfold dus
  apply ContinuousOn.div (by fun_prop)
  · exact (continuous_const.mul SS_continuous).continuousOn
  · intro x hx; have := h.rho; have := SS_pos h hx; positivity

theorem due_continuous (h : q.Valid) : Continuous (due q) := by
  unfold due
  apply Continuous.mul continuous_const
  apply Continuous.sub _ continuous_const
  apply Continuous.rpow_const (by fun_prop)
  intro x; right; exact (ez_pos h).le

theorem df_continuousOn (h : q.Valid) : ContinuousOn (df q) (Set.Ici 0) := by
  have : df q = fun p => due q (min p q.p) + dus q (max p q.p) := funext (df_eq h)
  rw [this]
  apply ContinuousOn.add
  · exact ((due_continuous h).comp (by fun_prop)).continuousOn
  · apply (dus_continuousOn h).comp (by fun_prop)
    intro x _; exact lt_of_lt_of_le h.p (le_max_right x q.p)

theorem df_strictMono (h : q.Valid) : StrictMonoOn (df q) (Set.Ici 0) := by
  intro a ha b hb hab
  have ha' : 0 ≤ a := ha
  have hb' : 0 ≤ b := hb
  rw [df_eq h, df_eq h]
  have h2 := h.p
  have m1 : due q (min a q.p) ≤ due q (min b q.p) :=
    (due_strictMono h).monotoneOn (show (0:ℝ) ≤ _ from le_min ha' h2.le) (show (0:ℝ) ≤ _ from le_min hb' h2.le)
      (min_le_min_right _ hab.le)
  have m2 : dus q (max a q.p) ≤ dus q (max b q.p) :=
    (dus_strictMono h).monotoneOn (lt_of_lt_of_le h2 (le_max_right a q.p)) (lt_of_lt_of_le h2 (le_max_right b q.p))
      (max_le_max_right _ hab.le)
  by_cases hc : a < q.p
  · have : due q (min a q.p) < due q (min b q.p) := by
      apply (due_strictMono h) (show (0:ℝ) ≤ _ from le_min ha' h2.le) (show (0:ℝ) ≤ _ from le_min hb' h2.le)
      rw [min_eq_left hc.le]; exact lt_min hab hc
    linarith
  · push Not at hc
    have : dus q (max a q.p) < dus q (max b q.p) := by
      apply (dus_strictMono h) (lt_of_lt_of_le h2 (le_max_right a q.p)) (lt_of_lt_of_le h2 (le_max_right b q.p))
      rw [max_eq_left hc, max_eq_left (hc.trans hab.le)]; exact hab
    linarith

/-- velocity jump to vacuum -/
theorem df_zero (h : q.Valid) : df q 0 = -(2 * q.cs / (q.gamma - 1)) := by
  unfold df
  rw [if_neg (not_lt.2 h.p.le)]
  unfold due
  rw [zero_div, Real.zero_rpow (ez_pos h).ne']; ring

theorem delta_u_zero_ok (h : q.Valid) : delta_u q 0 = .ok (df q 0) := by
  have h1 := h.rho; have h2 := h.p; have h3 := h.g0
  have hg : 0 < q.gamma - 1 := by linarith [h.gamma]
  rw [df_zero h]
  unfold delta_u
  rw [if_neg (not_lt.2 h2.le)]
  unfold UState.delta_u_expansion
  simp only []
  lits
  have he : 0 < 1 / 2 * (q.gamma - 1) / q.gamma := by positivity
  rw [h.asound, Py.ok_bind, Py.div_ok (by positivity), Py.ok_bind, Py.div_ok h2.ne', Py.ok_bind,
    Py.div_ok h3.ne', Py.ok_bind, zero_div, Py.pow_zero_ok he.le, Py.ok_bind, Py.pure_eq]
  congr 1
  rw [Real.zero_rpow he.ne']
  field_simp; ring

/-- below zero pressure the expansion branch has no finite value -/
theorem delta_u_neg (h : q.Valid) {p : ℝ} (hp : p < 0) : delta_u q p = .error .nonFinite := by
  have h2 := h.p; have h3 := h.g0
  have hg : 0 < q.gamma - 1 := by linarith [h.gamma]
  unfold delta_u
  rw [if_neg (by push Not; linarith)]
  unfold UState.delta_u_expansion
  simp only []
  lits
  have he : 0 < 1 / 2 * (q.gamma - 1) / q.gamma := by positivity
  have he1 : 1 / 2 * (q.gamma - 1) / q.gamma < 1 := by rw [div_lt_one h3]; linarith
  have hr : p / q.p < 0 := div_neg_of_neg_of_pos hp h2
  rw [h.asound, Py.ok_bind, Py.div_ok (by positivity), Py.ok_bind, Py.div_ok h2.ne', Py.ok_bind,
    Py.div_ok h3.ne', Py.ok_bind]
  have : Py.pow (p / q.p) (1 / 2 * (q.gamma - 1) / q.gamma) = .error .nonFinite := by
    unfold Py.pow
    rw [if_neg]
    rintro (h | ⟨h, _⟩ | ⟨_, n, hn⟩)
    · linarith
    · linarith
    · rw [hn] at he he1
      have a1 : (0:ℤ) < n := by exact_mod_cast he
      have a2 : n < (1:ℤ) := by exact_mod_cast he1
      omega
  rw [this]; rfl

/-- at a pressure above `q.p + X` ... the jump is unbounded -/
theorem df_unbounded (h : q.Valid) (B : ℝ) : ∃ p, q.p < p ∧ B ≤ df q p := by
  have h1 := h.rho; have h2 := h.p; have h3 := h.g0
  -- choose p with SS q p = T large
  obtain ⟨T, hT⟩ : ∃ T, T = q.cs + 1 + (q.gamma + 1) / 2 * |B| := ⟨_, rfl⟩
  have hc := h.cs_pos
  have hTc : q.cs + 1 ≤ T := by rw [hT]; have : 0 ≤ (q.gamma + 1) / 2 * |B| := by positivity
                                linarith
  have hT0 : 0 < T := by linarith
  obtain ⟨p, hp⟩ : ∃ p, p = (2 * q.rho * T ^ 2 - (q.gamma - 1) * q.p) / (q.gamma + 1) := ⟨_, rfl⟩
  have hK : KK q p = 2 * q.rho * T ^ 2 := by unfold KK; rw [hp]; field_simp; ring
  have hcs := h.cs_sq
  have hpp : q.p < p := by
    rw [hp, lt_div_iff₀ (by positivity)]
    have : q.cs ^ 2 < T ^ 2 := by nlinarith
    rw [hcs, div_lt_iff₀ h1] at this
    nlinarith
  have hp0 : 0 < p := by linarith
  have hS : SS q p = T := by
    unfold SS; rw [hK, mul_div_cancel_left₀ _ (by positivity), Real.sqrt_sq hT0.le]
  refine ⟨p, hpp, ?_⟩
  unfold df
  rw [if_pos hpp, dus_eq h hp0, hS]
  have h5 : q.cs ^ 2 / T ≤ q.cs := by
    rw [div_le_iff₀ hT0]; nlinarith
  have h6 : 2 / (q.gamma + 1) * (T - q.cs) ≤ 2 / (q.gamma + 1) * (T - q.cs ^ 2 / T) := by
    apply mul_le_mul_of_nonneg_left _ (by positivity); linarith
  have h7 : 2 / (q.gamma + 1) * (T - q.cs) = 2 / (q.gamma + 1) + |B| := by
    rw [hT]; field_simp; ring
  have h8 : 0 < 2 / (q.gamma + 1) := by positivity
  have := le_abs_self B
  linarith

/-! ### the two-sided function -/

variable {qL qR : UState}

/-- closed form of `du` -/
noncomputable def duf (qL qR : UState) (p : ℝ) : ℝ := df qL p + df qR p + qR.u - qL.u

theorem du_ok (hL : qL.Valid) (hR : qR.Valid) {p : ℝ} (hp : 0 ≤ p) : du qL qR p = .ok (duf qL qR p) := by
  unfold du duf
  rcases hp.eq_or_lt with h | h
  · subst h; rw [delta_u_zero_ok hL, Py.ok_bind, delta_u_zero_ok hR]; rfl
  · rw [delta_u_ok hL h, Py.ok_bind, delta_u_ok hR h]; rfl

theorem du_neg (hL : qL.Valid) {p : ℝ} (hp : p < 0) : du qL qR p = .error .nonFinite := by
  unfold du; rw [delta_u_neg hL hp]; rfl

theorem duf_continuousOn (hL : qL.Valid) (hR : qR.Valid) : ContinuousOn (duf qL qR) (Set.Ici 0) :=
  (((df_continuousOn hL).add (df_continuousOn hR)).add continuousOn_const).sub continuousOn_const

theorem duf_strictMono (hL : qL.Valid) (hR : qR.Valid) : StrictMonoOn (duf qL qR) (Set.Ici 0) := by
  intro a ha b hb hab
  have h1 := df_strictMono hL ha hb hab
  have h2 := df_strictMono hR ha hb hab
  unfold duf; linarith

/-- no vacuum: the two states do not separate faster than the maximal expansion speeds -/
def NoVacuum (qL qR : UState) : Prop :=
  qR.u - qL.u < 2 * qL.cs / (qL.gamma - 1) + 2 * qR.cs / (qR.gamma - 1)

theorem duf_zero (hL : qL.Valid) (hR : qR.Valid) : duf qL qR 0 < 0 ↔ NoVacuum qL qR := by
  unfold duf NoVacuum; rw [df_zero hL, df_zero hR]; constructor <;> intro h <;> linarith

theorem duf_root (hL : qL.Valid) (hR : qR.Valid) :
    (∃ p, 0 < p ∧ duf qL qR p = 0) ↔ NoVacuum qL qR := by
  rw [← duf_zero hL hR]
  constructor
  · rintro ⟨p, hp, h0⟩
    have := duf_strictMono hL hR (le_refl (0:ℝ)) hp.le hp
    linarith
  · intro h0
    obtain ⟨b, hb, hB⟩ := df_unbounded hL (|qR.u| + |qL.u| + |df qR 0|)
    have hb0 : 0 < b := by have := hL.p; linarith
    have hpos : 0 ≤ duf qL qR b := by
      have h1 := (df_strictMono hR).monotoneOn (le_refl (0:ℝ)) (show (0:ℝ) ≤ b from hb0.le) hb0.le
      unfold duf
      have := neg_abs_le qR.u
      have := le_abs_self qL.u
      have := neg_abs_le (df qR 0)
      linarith
    have hiv := intermediate_value_Icc hb0.le ((duf_continuousOn hL hR).mono (fun x hx => hx.1))
    obtain ⟨p, hp, hp0⟩ := hiv ⟨h0.le, hpos⟩
    refine ⟨p, ?_, hp0⟩
    rcases hp.1.eq_or_lt with h | h
    · rw [← h] at hp0; linarith
    · exact h

theorem duf_unique (hL : qL.Valid) (hR : qR.Valid) {p p' : ℝ} (hp : 0 ≤ p) (hp' : 0 ≤ p')
    (h : duf qL qR p = 0) (h' : duf qL qR p' = 0) : p = p' :=
  (duf_strictMono hL hR).injOn hp hp' (h.trans h'.symm)

/-! ### the solved problem in closed form -/

/-- star state of the side of `q` for the star pressure `p` and velocity `u` -/
noncomputable def starState (q : UState) (u p : ℝ) : UState :=
  ⟨if p > q.p then rhs q p else rhi q p, u, p, q.gamma⟩

/-- speed, relative to `q`, of the outer edge of the wave -/
noncomputable def outer (q : UState) (p : ℝ) : ℝ := if p > q.p then SS q p else q.cs
/-- speed, relative to the star state, of the inner edge of the wave -/
noncomputable def inner (q : UState) (u p : ℝ) : ℝ :=
  if p > q.p then SS q p - dus q p else (isen q u p).cs

/-- the solved problem -/
noncomputable def solPb (qL qR : UState) (p : ℝ) : Pb :=
  let us := qL.u - df qL p
  { qL := qL, qR := qR, pstar := p, ustar := us, qstarL := starState qL us p, qstarR := starState qR us p,
    w0 := qL.u - outer qL p, w1 := us - inner qL us p, w2 := us, w3 := us + inner qR us p,
    w4 := qR.u + outer qR p }

theorem starState_valid (h : q.Valid) {p : ℝ} (hp : 0 < p) (u : ℝ) : (starState q u p).Valid := by
  refine ⟨?_, hp, h.gamma⟩
  unfold starState; simp only
  split
  · exact rhs_pos h hp
  · exact rhi_pos h hp

theorem leftSide_ok (h : q.Valid) {p : ℝ} (hp : 0 < p) :
    leftSide q p (q.u - df q p) = .ok (starState q (q.u - df q p) p, q.u - outer q p,
      q.u - df q p - inner q (q.u - df q p) p) := by
  unfold leftSide starState outer inner
  by_cases hc : p > q.p
  · have hd : df q p = dus q p := by unfold df; rw [if_pos hc]
    have hne : q.rho - rhs q p ≠ 0 := by have := rhs_gt h hc; intro h0; linarith
    have hs := shock_speed h hc (-1)
    simp only [if_pos hc]
    rw [rho_through_shock_ok h hp, Py.ok_bind, Py.div_ok hne, Py.ok_bind, Py.pure_eq, hd]
    have e : (q.massflow - rhs q p * (q.u - dus q p)) / (q.rho - rhs q p) = q.u - SS q p := by
      unfold State.massflow; simpa [sub_eq_add_neg] using hs
    rw [e]
    congr 3; ring
  · simp only [if_neg hc]
    rw [rho_through_isentropic_ok h hp, Py.ok_bind]
    rw [h.asound, Py.ok_bind, show State.asound ⟨rhi q p, q.u - df q p, p, q.gamma⟩ = _ from
      (isen_valid h hp (q.u - df q p)).asound]
    rfl

theorem rightSide_ok (h : q.Valid) {p : ℝ} (hp : 0 < p) :
    rightSide q p (q.u + df q p) = .ok (starState q (q.u + df q p) p,
      q.u + df q p + inner q (q.u + df q p) p, q.u + outer q p) := by
  unfold rightSide starState outer inner
  by_cases hc : p > q.p
  · have hd : df q p = dus q p := by unfold df; rw [if_pos hc]
    have hne : q.rho - rhs q p ≠ 0 := by have := rhs_gt h hc; intro h0; linarith
    have hs := shock_speed h hc 1
    simp only [if_pos hc]
    rw [rho_through_shock_ok h hp, Py.ok_bind, Py.div_ok hne, Py.ok_bind, Py.pure_eq, hd]
    have e : (q.massflow - rhs q p * (q.u + dus q p)) / (q.rho - rhs q p) = q.u + SS q p := by
      unfold State.massflow; simpa using hs
    rw [e]
    congr 3; ring
  · simp only [if_neg hc]
    rw [rho_through_isentropic_ok h hp, Py.ok_bind]
    rw [show State.asound ⟨rhi q p, q.u + df q p, p, q.gamma⟩ = _ from
      (isen_valid h hp (q.u + df q p)).asound, Py.ok_bind, h.asound]
    rfl

theorem ustar_ok (hL : qL.Valid) (hR : qR.Valid) {p : ℝ} (hp : 0 < p) (h0 : duf qL qR p = 0) :
    ustar_from_pstar qL qR p = .ok (qL.u - df qL p) := by
  unfold ustar_from_pstar
  rw [delta_u_ok hR hp, Py.ok_bind, delta_u_ok hL hp, Py.ok_bind, Py.pure_eq]
  congr 1
  unfold duf at h0
  lits
  linear_combination (1 / 2) * h0

theorem afterSolve_ok (hL : qL.Valid) (hR : qR.Valid) {p : ℝ} (hp : 0 < p) (h0 : duf qL qR p = 0) :
    (do
      let ustar ← ustar_from_pstar qL qR p
      let l ← leftSide qL p ustar
      let r ← rightSide qR p ustar
      pure { qL := qL, qR := qR, pstar := p, ustar := ustar, qstarL := l.1, qstarR := r.1,
             w0 := l.2.1, w1 := l.2.2, w2 := ustar, w3 := r.2.1, w4 := r.2.2 } : Py Pb)
    = .ok (solPb qL qR p) := by
  have e : qL.u - df qL p = qR.u + df qR p := by unfold duf at h0; linarith
  rw [ustar_ok hL hR hp h0, Py.ok_bind, leftSide_ok hL hp, Py.ok_bind]
  have hr := rightSide_ok hR hp
  rw [← e] at hr
  rw [hr]
  rfl

end Aerokit.Riemann
