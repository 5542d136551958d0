import Verif.Props.Inflow

/-! # Property C117: the inflow problem has exactly one solution with gas entering (and a spurious one) -/

namespace Aerokit.Props
open Model1D Unsteady1D Riemann Inflow Spec Isentropic
open MassFlow (RootFinder)

/-- closed form of the total pressure of the inflow for the star pressure `p` -/
noncomputable def ptIn (q : UState) (rtt0 p : ℝ) : ℝ :=
  p * (q.gamma / (q.gamma - 1) * rtt0 / (q.gamma / (q.gamma - 1) * rtt0 - 1 / 2 * (q.u + df q p) ^ 2)) ^ (q.gamma / (q.gamma - 1))

theorem ptIn_ok {q : UState} (hq : q.Valid) {rtt0 p : ℝ} (hr : 0 < rtt0) (hp : 0 < p)
    (hl : (q.u + df q p) ^ 2 < 2 * q.gamma / (q.gamma - 1) * rtt0) :
    Inflow.pt0_from_pstar_rtt0 q p rtt0 = .ok (ptIn q rtt0 p) := by
  have hg : 0 < q.gamma - 1 := by linarith [hq.gamma]
  have hg0 := hq.g0
  have hD : 0 < q.gamma / (q.gamma - 1) * rtt0 - 1 / 2 * (q.u + df q p) ^ 2 := by
    have : 2 * q.gamma / (q.gamma - 1) * rtt0 = 2 * (q.gamma / (q.gamma - 1) * rtt0) := by ring
    rw [this] at hl; linarith
  unfold Inflow.pt0_from_pstar_rtt0 ptIn
  rw [inflow_delta, delta_u_ok hq hp, Py.ok_bind]
  simp only [l0_5, l1_0]
  have hb : 1 + 1 / 2 * (q.u + df q p) ^ 2 / (q.gamma / (q.gamma - 1) * rtt0 - 1 / 2 * (q.u + df q p) ^ 2)
      = q.gamma / (q.gamma - 1) * rtt0 / (q.gamma / (q.gamma - 1) * rtt0 - 1 / 2 * (q.u + df q p) ^ 2) := by
    rw [eq_div_iff hD.ne', add_mul, div_mul_cancel₀ _ hD.ne']; ring
  rw [Py.div_ok hg.ne', Py.ok_bind, Py.div_ok hD.ne', Py.ok_bind, hb, Py.pow_ok _ (by positivity)]
  rfl

theorem ptIn_le {q : UState} (hq : q.Valid) {rtt0 p p' : ℝ} (hr : 0 < rtt0) (hp : 0 < p) (hpp : p < p')
    (hu : 0 ≤ q.u + df q p) (hl : (q.u + df q p') ^ 2 < 2 * q.gamma / (q.gamma - 1) * rtt0) :
    ptIn q rtt0 p < ptIn q rtt0 p' := by
  have hg : 0 < q.gamma - 1 := by linarith [hq.gamma]
  have hg0 := hq.g0
  have hd := df_strictMono hq hp.le (hp.trans hpp).le hpp
  obtain ⟨H, hH⟩ : ∃ H, H = q.gamma / (q.gamma - 1) * rtt0 := ⟨_, rfl⟩
  have hH0 : 0 < H := by rw [hH]; positivity
  have e2 : 2 * q.gamma / (q.gamma - 1) * rtt0 = 2 * H := by rw [hH]; ring
  unfold ptIn
  rw [e2] at hl
  rw [← hH]
  have hsq : (q.u + df q p) ^ 2 < (q.u + df q p') ^ 2 := pow_lt_pow_left₀ (by linarith) hu two_ne_zero
  have D2 : 0 < H - 1 / 2 * (q.u + df q p') ^ 2 := by linarith
  have D1 : 0 < H - 1 / 2 * (q.u + df q p) ^ 2 := by linarith
  have hb : H / (H - 1 / 2 * (q.u + df q p) ^ 2) < H / (H - 1 / 2 * (q.u + df q p') ^ 2) :=
    div_lt_div_of_pos_left hH0 D2 (by linarith)
  have hk : 0 < q.gamma / (q.gamma - 1) := by positivity
  have hw := Real.rpow_lt_rpow (by positivity) hb hk
  have hw0 : 0 < (H / (H - 1 / 2 * (q.u + df q p) ^ 2)) ^ (q.gamma / (q.gamma - 1)) := Real.rpow_pos_of_pos (by positivity) _
  have a1 := mul_lt_mul_of_pos_right hpp hw0
  have a2 := mul_lt_mul_of_pos_left hw (hp.trans hpp)
  linarith

theorem delta_inv {q : UState} (hq : q.Valid) {p d : ℝ} (hp : 0 < p) (h : Riemann.delta_u q p = .ok d) : d = df q p := by
  rw [delta_u_ok hq hp] at h; exact (Except.ok.inj h).symm

/-- C117 (monotony): among star pressures for which gas enters (`u ≥ 0`, below the limit velocity of the total temperature) the
total pressure of the incoming gas, as computed by the class, is strictly increasing with the star pressure; so is the
velocity. -/
theorem C117_increasing (q : UState) (hq : q.Valid) (rtt0 p p' d d' P P' : ℝ) (hr : 0 < rtt0) (hp : 0 < p) (hpp : p < p')
    (hd : Riemann.delta_u q p = .ok d) (hd' : Riemann.delta_u q p' = .ok d') (hu : 0 ≤ q.u + d)
    (hl : (q.u + d') ^ 2 < 2 * q.gamma / (q.gamma - 1) * rtt0)
    (h : Inflow.pt0_from_pstar_rtt0 q p rtt0 = .ok P) (h' : Inflow.pt0_from_pstar_rtt0 q p' rtt0 = .ok P') :
    P < P' ∧ q.u + d < q.u + d' := by
  have hp' := hp.trans hpp
  have e := delta_inv hq hp hd
  have e' := delta_inv hq hp' hd'
  subst e e'
  have hlt := df_strictMono hq hp.le hp'.le hpp
  have hl1 : (q.u + df q p) ^ 2 < 2 * q.gamma / (q.gamma - 1) * rtt0 := by
    refine lt_of_le_of_lt ?_ hl
    exact pow_le_pow_left₀ hu (by linarith) 2
  rw [ptIn_ok hq hr hp hl1] at h
  rw [ptIn_ok hq hr hp' hl] at h'
  rw [← Except.ok.inj h, ← Except.ok.inj h']
  exact ⟨ptIn_le hq hr hp hpp hu hl, by linarith⟩

/-- C117 (uniqueness): the total conditions determine the star state among those with gas entering. -/
theorem C117_unique (q : UState) (hq : q.Valid) (pt0 rtt0 p p' d d' : ℝ) (hr : 0 < rtt0) (hp : 0 < p) (hp' : 0 < p')
    (hd : Riemann.delta_u q p = .ok d) (hd' : Riemann.delta_u q p' = .ok d') (hu : 0 ≤ q.u + d) (hu' : 0 ≤ q.u + d')
    (hl : (q.u + d) ^ 2 < 2 * q.gamma / (q.gamma - 1) * rtt0) (hl' : (q.u + d') ^ 2 < 2 * q.gamma / (q.gamma - 1) * rtt0)
    (h : Inflow.dpt q pt0 rtt0 p = .ok 0) (h' : Inflow.dpt q pt0 rtt0 p' = .ok 0) : p = p' := by
  have inv : ∀ x, Inflow.dpt q pt0 rtt0 x = .ok 0 → Inflow.pt0_from_pstar_rtt0 q x rtt0 = .ok pt0 := by
    intro x hx
    unfold Inflow.dpt at hx
    cases hc : Inflow.pt0_from_pstar_rtt0 q x rtt0 with
    | error e => rw [hc] at hx; cases hx
    | ok y =>
      rw [hc] at hx
      have : y - pt0 = 0 := Except.ok.inj hx
      rw [show y = pt0 by linarith]
  rcases lt_trichotomy p p' with c | c | c
  · exact absurd (C117_increasing q hq rtt0 p p' d d' _ _ hr hp c hd hd' hu hl' (inv p h) (inv p' h')).1 (lt_irrefl _)
  · exact c
  · exact absurd (C117_increasing q hq rtt0 p' p d' d _ _ hr hp' c hd' hd hu' hl (inv p' h') (inv p h)).1 (lt_irrefl _)

theorem ptIn_continuousOn {q : UState} (hq : q.Valid) {rtt0 a b : ℝ} (hr : 0 < rtt0) (ha : 0 < a)
    (hl : ∀ p ∈ Set.Icc a b, (q.u + df q p) ^ 2 < 2 * q.gamma / (q.gamma - 1) * rtt0) :
    ContinuousOn (ptIn q rtt0) (Set.Icc a b) := by
  have hg : 0 < q.gamma - 1 := by linarith [hq.gamma]
  have hg0 := hq.g0
  have hc : ContinuousOn (df q) (Set.Icc a b) := (df_continuousOn hq).mono (fun p hp => ha.le.trans hp.1)
  have hD : ∀ p ∈ Set.Icc a b, 0 < q.gamma / (q.gamma - 1) * rtt0 - 1 / 2 * (q.u + df q p) ^ 2 := by
    intro p hp
    have := hl p hp
    have e : 2 * q.gamma / (q.gamma - 1) * rtt0 = 2 * (q.gamma / (q.gamma - 1) * rtt0) := by ring
    rw [e] at this; linarith
  unfold ptIn
  refine continuousOn_id.mul (ContinuousOn.rpow_const ?_ ?_)
  · refine continuousOn_const.div ?_ (fun p hp => (hD p hp).ne')
    exact continuousOn_const.sub (continuousOn_const.mul ((continuousOn_const.add hc).pow 2))
  · intro p hp
    left
    have := hD p hp
    positivity

theorem ptIn_ge {q : UState} (hq : q.Valid) {rtt0 p B : ℝ} (hr : 0 < rtt0) (hp : 0 < p) (hB : 1 ≤ B)
    (hu : (q.u + df q p) ^ 2 = 2 * (q.gamma / (q.gamma - 1) * rtt0) * (1 - 1 / B)) : p * B ≤ ptIn q rtt0 p := by
  have hg : 0 < q.gamma - 1 := by linarith [hq.gamma]
  have hg0 := hq.g0
  have hB0 : 0 < B := by linarith
  have hH0 : 0 < q.gamma / (q.gamma - 1) * rtt0 := by positivity
  unfold ptIn
  have e : q.gamma / (q.gamma - 1) * rtt0 / (q.gamma / (q.gamma - 1) * rtt0 - 1 / 2 * (q.u + df q p) ^ 2) = B := by
    rw [hu]
    obtain ⟨H, hH⟩ : ∃ H, H = q.gamma / (q.gamma - 1) * rtt0 := ⟨_, rfl⟩
    rw [← hH] at hH0 ⊢
    have : H - 1 / 2 * (2 * H * (1 - 1 / B)) = H / B := by field_simp; ring
    rw [this]; field_simp
  rw [e]
  refine mul_le_mul_of_nonneg_left ?_ hp.le
  have hk : 1 ≤ q.gamma / (q.gamma - 1) := by rw [le_div_iff₀ hg]; linarith
  calc B = B ^ (1:ℝ) := (Real.rpow_one B).symm
    _ ≤ _ := Real.rpow_le_rpow_of_exponent_le hB hk

theorem df_surj {q : UState} (hq : q.Valid) {a v : ℝ} (ha : 0 < a) (hv : df q a ≤ v) : ∃ p, a ≤ p ∧ df q p = v := by
  obtain ⟨m, hm1, hm2⟩ := df_unbounded hq v
  rcases hv.eq_or_lt with h | h
  · exact ⟨a, le_rfl, h⟩
  have hm0 := hq.p.trans hm1
  have ham : a ≤ m := by
    by_contra hc
    push Not at hc
    have := df_strictMono hq hm0.le ha.le hc
    linarith
  obtain ⟨p, hp, e⟩ := intermediate_value_Icc ham ((df_continuousOn hq).mono (fun x hx => ha.le.trans hx.1)) ⟨hv, hm2⟩
  exact ⟨p, hp.1, e⟩

/-- C117 (existence): let `p0` be the pressure at which the gas in the pipe would come to rest at the inlet.  For every total
pressure `pt0 ≥ p0` (and any total temperature) the equation solved by the class has a root with gas entering, at a
pressure of at least `p0`. -/
theorem C117_exists (q : UState) (hq : q.Valid) (pt0 rtt0 p0 : ℝ) (hr : 0 < rtt0) (hp0 : 0 < p0)
    (hrest : Riemann.delta_u q p0 = .ok (-q.u)) (hpt : p0 ≤ pt0) :
    ∃ p d, p0 ≤ p ∧ p ≤ pt0 ∧ Riemann.delta_u q p = .ok d ∧ 0 ≤ q.u + d ∧ (q.u + d) ^ 2 < 2 * q.gamma / (q.gamma - 1) * rtt0 ∧
      Inflow.dpt q pt0 rtt0 p = .ok 0 := by
  have hg : 0 < q.gamma - 1 := by linarith [hq.gamma]
  have hg0 := hq.g0
  have e0 := delta_inv hq hp0 hrest
  obtain ⟨H, hH⟩ : ∃ H, H = q.gamma / (q.gamma - 1) * rtt0 := ⟨_, rfl⟩
  have hH0 : 0 < H := by rw [hH]; positivity
  have eH : 2 * q.gamma / (q.gamma - 1) * rtt0 = 2 * H := by rw [hH]; ring
  have hB : 1 ≤ pt0 / p0 := by rw [le_div_iff₀ hp0]; linarith
  have hB0 : 0 < pt0 / p0 := by linarith
  have hb1 : 1 / (pt0 / p0) ≤ 1 := by rw [div_le_one hB0]; exact hB
  have hb0 : 0 < 1 / (pt0 / p0) := by positivity
  have hq0 : 0 ≤ 2 * H * (1 - 1 / (pt0 / p0)) := mul_nonneg (by positivity) (by linarith)
  obtain ⟨w, hw⟩ : ∃ w, w = √(2 * H * (1 - 1 / (pt0 / p0))) := ⟨_, rfl⟩
  have hw0 : 0 ≤ w := by rw [hw]; exact Real.sqrt_nonneg _
  have hw2 : w ^ 2 = 2 * H * (1 - 1 / (pt0 / p0)) := by rw [hw]; exact Real.sq_sqrt hq0
  obtain ⟨b, hb, eb⟩ := df_surj hq (v := w - q.u) hp0 (by linarith)
  have hbw : q.u + df q b = w := by rw [eb]; ring
  have hmono : ∀ p ∈ Set.Icc p0 b, 0 ≤ q.u + df q p ∧ (q.u + df q p) ^ 2 < 2 * H := by
    intro p hp
    have hp' : 0 < p := hp0.trans_le hp.1
    have m1 := (df_strictMono hq).monotoneOn hp0.le hp'.le hp.1
    have m2 := (df_strictMono hq).monotoneOn hp'.le (hp0.le.trans hb) hp.2
    have h1 : 0 ≤ q.u + df q p := by linarith
    refine ⟨h1, ?_⟩
    have : (q.u + df q p) ^ 2 ≤ w ^ 2 := pow_le_pow_left₀ h1 (by linarith) 2
    rw [hw2] at this
    have : 0 < 2 * H * (1 / (pt0 / p0)) := by positivity
    nlinarith
  have hF0 : ptIn q rtt0 p0 = p0 := by
    unfold ptIn
    rw [← e0, ← hH]
    simp only [add_neg_cancel]
    rw [show H - 1 / 2 * (0:ℝ) ^ 2 = H by ring, div_self hH0.ne', Real.one_rpow, mul_one]
  have hFb : pt0 ≤ ptIn q rtt0 b := by
    have := ptIn_ge hq (B := pt0 / p0) hr (hp0.trans_le hb) hB (by rw [hbw, hw2, hH])
    refine le_trans ?_ this
    calc pt0 = p0 * (pt0 / p0) := by field_simp
      _ ≤ _ := mul_le_mul_of_nonneg_right hb hB0.le
  obtain ⟨p, hp, e⟩ := intermediate_value_Icc hb
    (ptIn_continuousOn hq hr hp0 (fun p hp => by rw [eH]; exact (hmono p hp).2)) ⟨by rw [hF0]; exact hpt, hFb⟩
  have hp' : 0 < p := hp0.trans_le hp.1
  obtain ⟨m1, m2⟩ := hmono p hp
  refine ⟨p, df q p, hp.1, ?_, delta_u_ok hq hp', m1, by rw [eH]; exact m2, ?_⟩
  · rw [← e]
    have hD : 0 < H - 1 / 2 * (q.u + df q p) ^ 2 := by linarith
    unfold ptIn
    rw [← hH]
    have : (1:ℝ) ≤ (H / (H - 1 / 2 * (q.u + df q p) ^ 2)) ^ (q.gamma / (q.gamma - 1)) := by
      apply Real.one_le_rpow _ (by positivity)
      rw [le_div_iff₀ hD]; have := sq_nonneg (q.u + df q p); linarith
    nlinarith
  · unfold Inflow.dpt
    rw [ptIn_ok hq hr hp' (by rw [eH]; exact m2), Py.ok_bind, e, sub_self]; rfl

/-- C117 (the equation does not select the solution): when the gas in the pipe can expand to the limit velocity of the incoming gas,
for every total pressure `pt0 > p0` the equation solved by the class has a second root, with gas LEAVING the pipe: the total
pressure of that stream is the requested one, but it does not come from the reservoir. -/
theorem C117_outflow_root (q : UState) (hq : q.Valid) (pt0 rtt0 p0 a : ℝ) (hr : 0 < rtt0) (hp0 : 0 < p0)
    (ha : q.asound = .ok a) (hrest : Riemann.delta_u q p0 = .ok (-q.u)) (hpt : p0 < pt0)
    (hexp : √(2 * q.gamma / (q.gamma - 1) * rtt0) < 2 * a / (q.gamma - 1) - q.u) :
    ∃ p d, 0 < p ∧ p < p0 ∧ Riemann.delta_u q p = .ok d ∧ q.u + d < 0 ∧ Inflow.dpt q pt0 rtt0 p = .ok 0 := by
  have hg : 0 < q.gamma - 1 := by linarith [hq.gamma]
  have hg0 := hq.g0
  rw [hq.asound] at ha
  have ha := Except.ok.inj ha
  subst ha
  have e0 := delta_inv hq hp0 hrest
  obtain ⟨H, hH⟩ : ∃ H, H = q.gamma / (q.gamma - 1) * rtt0 := ⟨_, rfl⟩
  have hH0 : 0 < H := by rw [hH]; positivity
  have eH : 2 * q.gamma / (q.gamma - 1) * rtt0 = 2 * H := by rw [hH]; ring
  rw [eH] at hexp
  -- pressure of the gas expanded to the limit velocity
  have hz := df_zero hq
  obtain ⟨m, hm, em⟩ := intermediate_value_Icc hp0.le ((df_continuousOn hq).mono (fun x hx => hx.1))
    (show -√(2 * H) - q.u ∈ Set.Icc (df q 0) (df q p0) from
      ⟨by rw [hz]; linarith, by rw [← e0]; have := Real.sqrt_nonneg (2 * H); linarith⟩)
  have hm0 : 0 < m := by
    rcases hm.1.eq_or_lt with h | h
    · rw [← h, hz] at em; linarith
    · exact h
  obtain ⟨B, hBd⟩ : ∃ B, B = pt0 / m := ⟨_, rfl⟩
  have hB : 1 < B := by
    rw [hBd, lt_div_iff₀ hm0]; linarith [hm.2]
  have hB0 : 0 < B := by linarith
  have hb1 : 1 / B < 1 := by rw [div_lt_one hB0]; exact hB
  have hb0 : 0 < 1 / B := by positivity
  have hq0 : 0 < 2 * H * (1 - 1 / B) := mul_pos (by positivity) (by linarith)
  obtain ⟨w, hw⟩ : ∃ w, w = √(2 * H * (1 - 1 / B)) := ⟨_, rfl⟩
  have hw0 : 0 < w := by rw [hw]; exact Real.sqrt_pos.2 hq0
  have hw2 : w ^ 2 = 2 * H * (1 - 1 / B) := by rw [hw]; exact Real.sq_sqrt hq0.le
  have hwl : w < √(2 * H) := by
    rw [hw]; apply Real.sqrt_lt_sqrt hq0.le
    have : 0 < 2 * H * (1 / B) := by positivity
    linarith
  obtain ⟨b, hb, eb⟩ := intermediate_value_Icc hm.2 ((df_continuousOn hq).mono (fun x hx => hm0.le.trans hx.1))
    (show -w - q.u ∈ Set.Icc (df q m) (df q p0) from ⟨by rw [em]; linarith, by rw [← e0]; linarith⟩)
  have hbp : 0 < b := hm0.trans_le hb.1
  have hbw : q.u + df q b = -w := by rw [eb]; ring
  have hmono : ∀ p ∈ Set.Icc b p0, q.u + df q p ≤ 0 ∧ (q.u + df q p) ^ 2 < 2 * H := by
    intro p hp
    have hp' : 0 < p := hbp.trans_le hp.1
    have m1 := (df_strictMono hq).monotoneOn hbp.le hp'.le hp.1
    have m2 := (df_strictMono hq).monotoneOn hp'.le hp0.le hp.2
    have h1 : q.u + df q p ≤ 0 := by linarith
    refine ⟨h1, ?_⟩
    have : (-(q.u + df q p)) ^ 2 ≤ w ^ 2 := pow_le_pow_left₀ (by linarith) (by linarith) 2
    rw [hw2, neg_sq] at this
    have : 0 < 2 * H * (1 / B) := by positivity
    linarith
  have hF0 : ptIn q rtt0 p0 = p0 := by
    unfold ptIn
    rw [← e0, ← hH]
    simp only [add_neg_cancel]
    rw [show H - 1 / 2 * (0:ℝ) ^ 2 = H by ring, div_self hH0.ne', Real.one_rpow, mul_one]
  have hFb : pt0 ≤ ptIn q rtt0 b := by
    have := ptIn_ge hq (B := B) hr hbp hB.le (by rw [hbw, neg_sq, hw2, hH])
    refine le_trans ?_ this
    calc pt0 = m * B := by rw [hBd]; field_simp
      _ ≤ _ := mul_le_mul_of_nonneg_right hb.1 hB0.le
  obtain ⟨p, hp, e⟩ := intermediate_value_Icc' hb.2
    (ptIn_continuousOn hq hr hbp (fun p hp => by rw [eH]; exact (hmono p hp).2)) ⟨by rw [hF0]; exact hpt.le, hFb⟩
  have hp' : 0 < p := hbp.trans_le hp.1
  obtain ⟨m1, m2⟩ := hmono p hp
  have hne : p < p0 := by
    rcases hp.2.eq_or_lt with h | h
    · rw [h, hF0] at e; linarith
    · exact h
  refine ⟨p, df q p, hp', hne, delta_u_ok hq hp', ?_, ?_⟩
  · have := df_strictMono hq hp'.le hp0.le hne
    linarith
  · unfold Inflow.dpt
    rw [ptIn_ok hq hr hp' (by rw [eH]; exact m2), Py.ok_bind, e, sub_self]; rfl

/-- gas at rest in the pipe: `p0` is its pressure; with the total temperature of the gas itself both roots exist -/
example : ∃ (q : UState) (a : ℝ), q.Valid ∧ q.asound = .ok a ∧ Riemann.delta_u q 1 = .ok (-q.u) ∧
    √(2 * q.gamma / (q.gamma - 1) * 1) < 2 * a / (q.gamma - 1) - q.u := by
  have hq : State.Valid (⟨1, 0, 1, 7/5⟩ : UState) := ⟨by norm_num, by norm_num, by norm_num⟩
  refine ⟨⟨1, 0, 1, 7/5⟩, _, hq, hq.asound, ?_, ?_⟩
  · rw [delta_u_ok hq one_pos]
    unfold df
    simp only [gt_iff_lt, lt_irrefl, if_false]
    have := due_self hq
    simp only at this
    rw [this, neg_zero]
  · unfold State.cs
    have e1 : (1:ℝ) < √(7/5 * 1 / 1) := by rw [Real.lt_sqrt] <;> norm_num
    have e2 : √(2 * (7/5:ℝ) / (7/5 - 1) * 1) < 3 := by rw [Real.sqrt_lt'] <;> norm_num
    simp only
    norm_num at e1 e2 ⊢
    linarith

/-- C117 (wave): the state computed next to the inlet is joined to the initial state by one wave of the right-running family: a
shock of some speed when the pressure rises, otherwise an expansion that keeps entropy and the Riemann invariant. -/
theorem C117_wave (fsolve : RootFinder) (hf : SoundRootFinder fsolve) (q : UState) (hq : q.Valid) (b : Inflow.Pb)
    (hb : b.qR = q) (pt0 rtt0 : ℝ) (hpt : 0 < pt0) (hr : 0 < rtt0) (b' : Inflow.Pb)
    (h : b.solve_with_pt0_rtt0 fsolve pt0 rtt0 = .ok b') :
    ∃ qR aR a, b'.getQstarR = .ok qR ∧ qR.asound = .ok aR ∧ q.asound = .ok a ∧
      (qR.p > q.p → ∃ σ, MovingShock σ q qR ∧ q.u + a < σ ∧ σ < qR.u + aR) ∧
      (qR.p ≤ q.p → (flow qR).entropyFn q.gamma = (flow q).entropyFn q.gamma ∧
        qR.u - 2 * aR / (q.gamma - 1) = q.u - 2 * a / (q.gamma - 1) ∧ qR.u + aR ≤ q.u + a) := by
  have hg : 0 < q.gamma - 1 := by linarith [hq.gamma]
  have key : ∃ p, 0 < p ∧ b'.getQstarR = .ok (starState q (q.u + df q p) p) := by
    unfold Inflow.Pb.solve_with_pt0_rtt0 at h
    rw [hb] at h
    cases he : Inflow.pstar_estimate_expansion q pt0 with
    | error e => rw [he] at h; cases h
    | ok p0 =>
    rw [he, Py.ok_bind] at h
    cases hs : fsolve (Inflow.dpt q pt0 rtt0) p0 with
    | error e => rw [hs] at h; cases h
    | ok p =>
    obtain ⟨hp, -⟩ := inflow_root hq hpt hr (hf _ _ _ hs)
    rw [hs, Py.ok_bind, inflow_delta, delta_u_ok hq hp, Py.ok_bind] at h
    simp only [] at h
    refine ⟨p, hp, ?_⟩
    unfold Inflow.Pb.getQstarR starState
    split at h
    · rename_i hc
      rw [rho_through_shock_ok hq hp, Py.ok_bind] at h
      cases hcc : State.compute_from_pt_rtt_u q pt0 rtt0 (q.u + df q p) with
      | error e => rw [hcc] at h; cases h
      | ok y => rw [hcc] at h; rw [← Except.ok.inj h, if_pos hc]; rfl
    · rename_i hc
      rw [rho_through_isentropic_ok hq hp, Py.ok_bind] at h
      cases hcc : State.compute_from_pt_rtt_u q pt0 rtt0 (q.u + df q p) with
      | error e => rw [hcc] at h; cases h
      | ok y => rw [hcc] at h; rw [← Except.ok.inj h, if_neg hc]; rfl
  obtain ⟨p, hp, hget⟩ := key
  refine ⟨_, _, _, hget, (starState_valid hq hp _).asound, hq.asound, ?_, ?_⟩
  · intro hc
    have hc' : p > q.p := hc
    have h1 := shock_general q hq p hp 1 (by norm_num)
    have e2 : starState q (q.u + df q p) p = ⟨rhs q p, q.u + 1 * dus q p, p, q.gamma⟩ := by
      unfold starState df; rw [if_pos hc', if_pos hc']; congr 1; ring
    refine ⟨q.u + 1 * SS q p, by rw [e2]; exact h1, ?_, ?_⟩
    · have := cs_lt_SS hq hc'; linarith
    · rw [e2]
      have := SS_sub_dus_lt hq hc' (q.u + 1 * dus q p)
      show q.u + 1 * SS q p < q.u + 1 * dus q p + _
      linarith
  · intro hc
    have hc' : ¬ p > q.p := not_lt.2 hc
    obtain ⟨d, r, a, aL, aR, h1, h2, h3, h4, h5, h6, h7, h8, _⟩ := C58_expansion q hq p hp
    rw [delta_u_expansion_ok hq hp] at h1
    rw [rho_through_isentropic_ok hq hp] at h2
    rw [hq.asound] at h3
    cases h1; cases h2; cases h3
    have e2 : starState q (q.u + df q p) p = ⟨rhi q p, q.u + due q p, p, q.gamma⟩ := by
      unfold starState df; rw [if_neg hc', if_neg hc']
    rw [e2]
    have h5' := h5.symm.trans (isen_valid hq hp (q.u + due q p)).asound
    cases h5'
    refine ⟨h6, h8, ?_⟩
    have h8' : q.u + due q p - 2 * State.cs (⟨rhi q p, q.u + due q p, p, q.gamma⟩ : UState) / (q.gamma - 1) = q.u - 2 * q.cs / (q.gamma - 1) := h8
    have hd : due q p ≤ 0 := by
      rw [← due_self hq]
      exact (due_strictMono hq).monotoneOn hp.le hq.p.le hc
    show q.u + due q p + State.cs (⟨rhi q p, q.u + due q p, p, q.gamma⟩ : UState) ≤ _
    obtain ⟨c, hcd⟩ : ∃ c, c = State.cs (⟨rhi q p, q.u + due q p, p, q.gamma⟩ : UState) := ⟨_, rfl⟩
    rw [← hcd] at h8' ⊢
    have : c = q.cs + (q.gamma - 1) / 2 * due q p := by
      field_simp at h8' ⊢; linarith
    rw [this]
    nlinarith

end Aerokit.Props
