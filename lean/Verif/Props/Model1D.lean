import Verif.Lemmas.Model1D
import Verif.Spec.Flow

/-! # Properties C54–C56 : `aerokit/aero/model1D.py` -/

namespace Aerokit.Props
open Model1D Isentropic ShockWave

/-- the state with `_gamma` put back to a given value -/
def withGamma (s : State) (g : ℝ) : State := { s with gamma := g }

/-- The state with total pressure `pt`, total `r T` `rtt` and Mach number `M` -/
theorem tot_of_static {g pt rtt M : ℝ} (hg : 1 < g) (hpt : 0 < pt) (hr : 0 < rtt) :
    ∀ s : State, s = ⟨pt / tt M g ^ (g / (g - 1)) / (rtt / tt M g), M * Real.sqrt (g * (rtt / tt M g)),
      pt / tt M g ^ (g / (g - 1)), g⟩ → s.Valid ∧ s.Ptot = .ok pt ∧ s.rTtot = .ok rtt ∧ s.Mach = .ok M := by
  intro s hs
  have ht := tt_pos (M := M) hg
  have hw := Real.rpow_pos_of_pos ht (g / (g - 1))
  have hv : s.Valid := by subst hs; refine ⟨?_, ?_, hg⟩ <;> simp only <;> positivity
  have hc : s.cs = Real.sqrt (g * (rtt / tt M g)) := by
    unfold State.cs; subst hs; simp only; congr 1; field_simp
  have hc0 : 0 < Real.sqrt (g * (rtt / tt M g)) := hc ▸ hv.cs_pos
  have hu : s.u = M * Real.sqrt (g * (rtt / tt M g)) := by subst hs; rfl
  have hm : s.u / s.cs = M := by
    rw [hc, hu]; field_simp
  have hg' : s.gamma = g := by subst hs; rfl
  refine ⟨hv, ?_, ?_, ?_⟩
  · rw [hv.Ptot, hm, hg']; congr 1; subst hs; simp only; field_simp
  · rw [hv.rTtot, hv.rTtot_tt, hm, hg']; congr 1; subst hs; simp only; field_simp
  · rw [hv.Mach, hm]

theorem compute_from_pt_rtt_M_ok {s : State} {pt rtt M : ℝ} (hg : 1 < s.gamma) (hpt : 0 < pt)
    (hr : 0 < rtt) :
    s.compute_from_pt_rtt_M pt rtt M = .ok (State.initDefault
      (pt / tt M s.gamma ^ (s.gamma / (s.gamma - 1)) / (rtt / tt M s.gamma))
      (M * Real.sqrt (s.gamma * (rtt / tt M s.gamma))) (pt / tt M s.gamma ^ (s.gamma / (s.gamma - 1)))) := by
  have ht := tt_pos (M := M) hg
  have hw := Real.rpow_pos_of_pos ht (s.gamma / (s.gamma - 1))
  have hg0 : 0 < s.gamma := by linarith
  unfold State.compute_from_pt_rtt_M
  rw [PtPs_Mach_ok hg, Py.ok_bind, Py.div_ok hw.ne', Py.ok_bind, TtTs_Mach_ok, Py.ok_bind,
    Py.div_ok ht.ne', Py.ok_bind, Py.div_ok (by positivity), Py.ok_bind, Py.sqrt_ok (by positivity)]
  rfl

/-- C54 (partial): `compute_from_pt_rtt_M` yields density, velocity and pressure of the state with
the given total pressure, total temperature and Mach number, for every gamma > 1 -- but that is only
true of a state carrying the original gamma, and the method resets `_gamma` to the default. -/
theorem C54_M_partial (s : State) (pt rtt M : ℝ) (hg : 1 < s.gamma) (hpt : 0 < pt) (hr : 0 < rtt) :
    ∃ s', s.compute_from_pt_rtt_M pt rtt M = .ok s' ∧ s'.gamma = DefaultGas.gamma0 ∧
      (withGamma s' s.gamma).Ptot = .ok pt ∧ (withGamma s' s.gamma).rTtot = .ok rtt ∧
      (withGamma s' s.gamma).Mach = .ok M := by
  refine ⟨_, compute_from_pt_rtt_M_ok hg hpt hr, rfl, ?_⟩
  exact (tot_of_static hg hpt hr (withGamma _ s.gamma) rfl).2

/-- C54 for the default gamma: all three inputs are reproduced. -/
theorem C54_M_default_partial (s : State) (pt rtt M : ℝ) (hg : s.gamma = DefaultGas.gamma0) (hpt : 0 < pt)
    (hr : 0 < rtt) :
    ∃ s', s.compute_from_pt_rtt_M pt rtt M = .ok s' ∧
      s'.Ptot = .ok pt ∧ s'.rTtot = .ok rtt ∧ s'.Mach = .ok M := by
  have h1 : 1 < s.gamma := hg ▸ one_lt_gamma0
  obtain ⟨s', h, h0, h2⟩ := C54_M_partial s pt rtt M h1 hpt hr
  refine ⟨s', h, ?_⟩
  have : withGamma s' s.gamma = s' := by rw [hg, ← h0]; rfl
  rwa [this] at h2

/-- C54 is false for every other gamma (and `M ≠ 0`): the new state has another Mach number and
another total temperature. -/
theorem C54_false (s : State) (pt rtt M : ℝ) (hg : 1 < s.gamma) (hne : s.gamma ≠ 1.4) (hM : M ≠ 0)
    (hpt : 0 < pt) (hr : 0 < rtt) :
    ∃ s', s.compute_from_pt_rtt_M pt rtt M = .ok s' ∧ s'.Mach ≠ .ok M ∧ s'.rTtot ≠ .ok rtt := by
  have ht := tt_pos (M := M) hg
  have hw := Real.rpow_pos_of_pos ht (s.gamma / (s.gamma - 1))
  have hg0 : 0 < s.gamma := by linarith
  have hgd : (0:ℝ) < 7 / 5 := by norm_num
  refine ⟨_, compute_from_pt_rtt_M_ok hg hpt hr, ?_⟩
  obtain ⟨s', hs'⟩ : ∃ s', s' = State.initDefault
      (pt / tt M s.gamma ^ (s.gamma / (s.gamma - 1)) / (rtt / tt M s.gamma))
      (M * Real.sqrt (s.gamma * (rtt / tt M s.gamma)))
      (pt / tt M s.gamma ^ (s.gamma / (s.gamma - 1))) := ⟨_, rfl⟩
  rw [← hs']
  have hv : s'.Valid := by
    subst hs'; unfold State.initDefault
    refine ⟨?_, ?_, one_lt_gamma0⟩ <;> simp only <;> positivity
  have hne' : s.gamma ≠ 7 / 5 := by intro h; apply hne; rw [h]; norm_num
  have hps : s'.p / s'.rho = rtt / tt M s.gamma := by
    subst hs'; unfold State.initDefault; simp only; field_simp
  have hu : s'.u ^ 2 = M ^ 2 * (s.gamma * (rtt / tt M s.gamma)) := by
    subst hs'; unfold State.initDefault; simp only
    rw [mul_pow, Real.sq_sqrt (by positivity)]
  have hgg : s'.gamma = 7 / 5 := by subst hs'; exact gamma0_eq
  have hc : s'.cs ^ 2 = 7 / 5 * (rtt / tt M s.gamma) := by
    rw [hv.cs_sq, mul_div_assoc, hps, hgg]
  have hM2 : 0 < M ^ 2 := by positivity
  constructor
  · rw [hv.Mach]
    intro h
    have h2 : s'.u / s'.cs = M := by injection h
    have h3 : s'.u ^ 2 = M ^ 2 * s'.cs ^ 2 := by
      rw [div_eq_iff hv.cs_pos.ne'] at h2; rw [h2]; ring
    rw [hu, hc] at h3
    apply hne'
    have h4 : M ^ 2 * (rtt / tt M s.gamma) ≠ 0 := by positivity
    have h5 : (s.gamma - 7 / 5) * (M ^ 2 * (rtt / tt M s.gamma)) = 0 := by linear_combination h3
    rcases mul_eq_zero.1 h5 with h6 | h6
    · linarith
    · exact absurd h6 h4
  · rw [hv.rTtot]
    intro h
    have h2 : s'.p / s'.rho + (s'.gamma - 1) / (2 * s'.gamma) * s'.u ^ 2 = rtt := by injection h
    rw [hps, hu, hgg] at h2
    have h3 : rtt = rtt / tt M s.gamma * tt M s.gamma := by field_simp
    have hx : 0 < rtt / tt M s.gamma := by positivity
    obtain ⟨x, hxe⟩ : ∃ x, x = rtt / tt M s.gamma := ⟨_, rfl⟩
    rw [← hxe] at h2 h3
    rw [h3] at h2
    rw [← hxe] at hx
    unfold tt at h2
    have h5 : (s.gamma - 7 / 5) * (M ^ 2 * x) = 0 := by linear_combination (-14 / 5) * h2
    rcases mul_eq_zero.1 h5 with h6 | h6
    · exact hne' (by linarith)
    · have : M ^ 2 * x ≠ 0 := by positivity
      exact absurd h6 this

/-- C54 (partial, velocity form): for every gamma, up to the reset of `_gamma`. -/
theorem C54_u_partial (s : State) (pt rtt u : ℝ) (hg : 1 < s.gamma) (hpt : 0 < pt) (hr : 0 < rtt)
    (hu : u ^ 2 < 2 * s.gamma / (s.gamma - 1) * rtt) :
    ∃ s', s.compute_from_pt_rtt_u pt rtt u = .ok s' ∧ s'.gamma = DefaultGas.gamma0 ∧
      (withGamma s' s.gamma).Ptot = .ok pt ∧ (withGamma s' s.gamma).rTtot = .ok rtt ∧ s'.u = u := by
  have hg1 : 0 < s.gamma - 1 := by linarith
  have hg0 : 0 < s.gamma := by linarith
  have hd : 0 < s.gamma / (s.gamma - 1) * rtt - 1 / 2 * u ^ 2 := by
    have : 2 * s.gamma / (s.gamma - 1) * rtt = 2 * (s.gamma / (s.gamma - 1) * rtt) := by ring
    rw [this] at hu; linarith
  obtain ⟨D, hD⟩ : ∃ D, D = s.gamma / (s.gamma - 1) * rtt - 1 / 2 * u ^ 2 := ⟨_, rfl⟩
  rw [← hD] at hd
  have hq : 0 < 1 + 1 / 2 * u ^ 2 / D := by positivity
  have hw := Real.rpow_pos_of_pos hq (s.gamma / (s.gamma - 1))
  have ha : s.gamma * rtt - 1 / 2 * (s.gamma - 1) * u ^ 2 = (s.gamma - 1) * D := by
    rw [hD]; field_simp
  have hok : s.compute_from_pt_rtt_u pt rtt u = .ok (State.initDefault
      (s.gamma * (pt / (1 + 1 / 2 * u ^ 2 / D) ^ (s.gamma / (s.gamma - 1))) / ((s.gamma - 1) * D)) u
      (pt / (1 + 1 / 2 * u ^ 2 / D) ^ (s.gamma / (s.gamma - 1)))) := by
    unfold State.compute_from_pt_rtt_u
    simp only []
    lits
    rw [Py.div_ok hg1.ne', Py.ok_bind, ← hD, Py.div_ok hd.ne', Py.ok_bind, Py.pow_ok _ hq, Py.ok_bind,
      Py.div_ok hw.ne', Py.ok_bind, ha, Py.div_ok (by positivity)]
    rfl
  refine ⟨_, hok, rfl, ?_⟩
  obtain ⟨s', hs'⟩ : ∃ s', s' = withGamma (State.initDefault
      (s.gamma * (pt / (1 + 1 / 2 * u ^ 2 / D) ^ (s.gamma / (s.gamma - 1))) / ((s.gamma - 1) * D)) u
      (pt / (1 + 1 / 2 * u ^ 2 / D) ^ (s.gamma / (s.gamma - 1)))) s.gamma := ⟨_, rfl⟩
  rw [← hs']
  have e1 : s'.rho = (s.gamma * (pt / (1 + 1 / 2 * u ^ 2 / D) ^ (s.gamma / (s.gamma - 1))) / ((s.gamma - 1) * D)) := by
    subst hs'; rfl
  have e2 : s'.p = (pt / (1 + 1 / 2 * u ^ 2 / D) ^ (s.gamma / (s.gamma - 1))) := by subst hs'; rfl
  have e3 : s'.u = u := by subst hs'; rfl
  have e4 : s'.gamma = s.gamma := by subst hs'; rfl
  have hv : s'.Valid := by
    refine ⟨?_, ?_, ?_⟩
    · rw [e1]; positivity
    · rw [e2]; positivity
    · rw [e4]; exact hg
  have hps : s'.p / s'.rho = (s.gamma - 1) * D / s.gamma := by
    rw [e1, e2]
    obtain ⟨W, hW⟩ : ∃ W, W = (1 + 1 / 2 * u ^ 2 / D) ^ (s.gamma / (s.gamma - 1)) := ⟨_, rfl⟩
    rw [← hW] at hw ⊢
    field_simp
  have hm : tt (s'.u / s'.cs) s'.gamma = 1 + 1 / 2 * u ^ 2 / D := by
    unfold tt
    rw [div_pow, hv.cs_sq, mul_div_assoc, hps, e3, e4]
    field_simp
  refine ⟨?_, ?_, rfl⟩
  · rw [hv.Ptot, hm, e2, e4, div_mul_cancel₀ _ hw.ne']
  · rw [hv.rTtot, hps, e3, e4]; congr 1
    rw [hD]; field_simp; ring

/-- C54 (partial, pressure form): for every gamma, up to the reset of `_gamma`; the velocity is
nonnegative as documented. -/
theorem C54_p_partial (s : State) (pt rtt p : ℝ) (hg : 1 < s.gamma) (hp : 0 < p) (hr : 0 < rtt)
    (hpp : p ≤ pt) :
    ∃ s', s.compute_from_pt_rtt_p pt rtt p = .ok s' ∧ s'.gamma = DefaultGas.gamma0 ∧
      (withGamma s' s.gamma).Ptot = .ok pt ∧ (withGamma s' s.gamma).rTtot = .ok rtt ∧ s'.p = p ∧
      0 ≤ s'.u := by
  have hpt : 0 < pt := by linarith
  have hg0 : 0 < s.gamma := by linarith
  have h1 : 1 ≤ pt / p := by rw [one_le_div hp]; exact hpp
  obtain ⟨M, hM⟩ : ∃ M, M = Real.sqrt (((pt / p) ^ ((s.gamma - 1) / s.gamma) - 1) * 2 / (s.gamma - 1)) :=
    ⟨_, rfl⟩
  have h2 : 1 ≤ (pt / p) ^ ((s.gamma - 1) / s.gamma) := by
    apply Real.one_le_rpow h1; apply div_nonneg <;> linarith
  have htt : tt M s.gamma = (pt / p) ^ ((s.gamma - 1) / s.gamma) := by rw [hM]; exact tt_sqrt hg h2
  have ht := tt_pos (M := M) hg
  have hpe : p = pt / tt M s.gamma ^ (s.gamma / (s.gamma - 1)) := by
    rw [htt, rpow_rpow_cancel' hg (by positivity)]; field_simp
  have hok : s.compute_from_pt_rtt_p pt rtt p = .ok (State.initDefault
      (p / (rtt / tt M s.gamma)) (M * Real.sqrt (s.gamma * (rtt / tt M s.gamma))) p) := by
    unfold State.compute_from_pt_rtt_p
    rw [Py.div_ok hp.ne', Py.ok_bind, Mach_PtPs_ok hg h1, Py.ok_bind, ← hM, TtTs_Mach_ok, Py.ok_bind,
      Py.div_ok ht.ne', Py.ok_bind, Py.div_ok (by positivity), Py.ok_bind, Py.sqrt_ok (by positivity)]
    rfl
  refine ⟨_, hok, rfl, ?_⟩
  have := (tot_of_static (M := M) hg hpt hr (withGamma (State.initDefault
      (p / (rtt / tt M s.gamma)) (M * Real.sqrt (s.gamma * (rtt / tt M s.gamma))) p) s.gamma)
      (by unfold withGamma State.initDefault; rw [← hpe])).2
  refine ⟨this.1, this.2.1, rfl, ?_⟩
  show 0 ≤ M * Real.sqrt _
  rw [hM]; positivity

example : ∃ s : State, ∃ u, 1 < s.gamma ∧ u ^ 2 < 2 * s.gamma / (s.gamma - 1) * 1 :=
  ⟨⟨1, 0, 1, 5/3⟩, 1, by norm_num, by norm_num⟩
example : ∃ s : State, 1 < s.gamma ∧ s.gamma ≠ 1.4 := ⟨⟨1, 0, 1, 5/3⟩, by norm_num, by norm_num⟩

/-! ### C55 -/

/-- the specification view of a state -/
def flow (s : State) : Spec.Flow := ⟨s.rho, s.u, s.p⟩

theorem state_RH_ok {s : State} (h : s.Valid) (hu : s.u ≠ 0) :
    s.state_RH = .ok ⟨s.rho * rhr (s.u / s.cs) s.gamma, s.u / rhr (s.u / s.cs) s.gamma,
      s.p * psr (s.u / s.cs) s.gamma, s.gamma⟩ := by
  have hM : s.u / s.cs ≠ 0 := div_ne_zero hu h.cs_pos.ne'
  unfold State.state_RH
  rw [h.Mach, Py.ok_bind, Rho_ratio_ok h.gamma, Py.ok_bind, Py.div_ok (rhr_pos h.gamma hM).ne',
    Py.ok_bind, Ps_ratio_ok h.gamma]
  rfl

theorem mach_sq {s : State} (h : s.Valid) : (s.u / s.cs) ^ 2 = s.rho * s.u ^ 2 / (s.gamma * s.p) := by
  have h1 := h.rho; have h2 := h.p; have h3 := h.g0
  rw [div_pow, h.cs_sq]; field_simp

/-- C55: for every admissible state with `(γ-1)/(2γ) < M²` the state returned by `state_RH` is
admissible, keeps gamma, satisfies the three Rankine–Hugoniot relations with the original one, and
`state_RH` applied to it returns the original state. -/
theorem C55_RH (s : State) (h : s.Valid) (m : ℝ) (hm : s.Mach = .ok m)
    (hd : (s.gamma - 1) / (2 * s.gamma) < m ^ 2) :
    ∃ s', s.state_RH = .ok s' ∧ s'.Valid ∧ s'.gamma = s.gamma ∧
      Spec.RankineHugoniot s.gamma (flow s) (flow s') ∧ s'.state_RH = .ok s := by
  rw [h.Mach] at hm
  have hm' : s.u / s.cs = m := by injection hm
  subst hm'
  have h1 := h.rho; have h2 := h.p; have h3 := h.g0; have h4 := h.gamma
  have hg1 : 0 < s.gamma - 1 := by linarith
  have hu : s.u ≠ 0 := by
    intro h0; rw [h0, zero_div] at hd
    have : 0 < (s.gamma - 1) / (2 * s.gamma) := by positivity
    norm_num at hd; linarith
  have hdom := (dom_iff h4).1 hd
  have hM : s.u / s.cs ≠ 0 := div_ne_zero hu h.cs_pos.ne'
  have hR := rhr_pos h4 hM
  have hP := psr_pos h4 hd
  have hx := mach_sq h
  obtain ⟨x, hxe⟩ : ∃ x, x = (s.u / s.cs) ^ 2 := ⟨_, rfl⟩
  have hx0 : 0 < x := by rw [hxe]; positivity
  rw [← hxe] at hx hdom
  have hu2 : s.u ^ 2 = x * (s.gamma * s.p) / s.rho := by rw [hx]; field_simp
  have eR : rhr (s.u / s.cs) s.gamma = (s.gamma + 1) * x / (2 + (s.gamma - 1) * x) := by
    unfold rhr; rw [hxe]
  have eP : psr (s.u / s.cs) s.gamma = (2 * s.gamma * x - (s.gamma - 1)) / (s.gamma + 1) := by
    unfold psr; rw [← hxe]; field_simp; ring
  obtain ⟨R, hRe⟩ : ∃ R, R = rhr (s.u / s.cs) s.gamma := ⟨_, rfl⟩
  obtain ⟨P, hPe⟩ : ∃ P, P = psr (s.u / s.cs) s.gamma := ⟨_, rfl⟩
  have hD : 0 < 2 + (s.gamma - 1) * x := by positivity
  have hok := state_RH_ok h hu
  rw [← hRe, ← hPe] at hok
  rw [← hRe] at eR hR
  rw [← hPe] at eP hP
  obtain ⟨s', hs'⟩ : ∃ s' : State, s' = ⟨s.rho * R, s.u / R, s.p * P, s.gamma⟩ := ⟨_, rfl⟩
  have hv' : s'.Valid := by subst hs'; exact ⟨by positivity, by positivity, h4⟩
  have hg' : s'.gamma = s.gamma := by subst hs'; rfl
  have hDP : 0 < 2 * s.gamma * x - (s.gamma - 1) := by linarith
  refine ⟨s', by rw [hs']; exact hok, hv', hg', ?_, ?_⟩
  · subst hs'
    refine ⟨?_, ?_, ?_⟩
    · simp only [flow, Spec.Flow.massFlux]; field_simp
    · simp only [flow, Spec.Flow.momentumFlux]
      rw [div_pow, hu2]
      rw [eR, eP]; field_simp; ring
    · simp only [flow, Spec.Flow.totalEnthalpy, Spec.Flow.h]
      rw [div_pow, hu2]
      rw [eR, eP]; field_simp; ring
  · have hu' : s'.u ≠ 0 := by subst hs'; exact div_ne_zero hu hR.ne'
    have hx' := mach_sq hv'
    have hx'' : (s'.u / s'.cs) ^ 2 = x / (R * P) := by
      rw [hx']; subst hs'; simp only; rw [div_pow, hu2]; field_simp
    have e : x / (R * P) = (2 + (s.gamma - 1) * x) / (2 * s.gamma * x - (s.gamma - 1)) := by
      rw [eR, eP]; field_simp
    have eR' : rhr (s'.u / s'.cs) s'.gamma = 1 / R := by
      have e2 : 2 + (s.gamma - 1) * ((2 + (s.gamma - 1) * x) / (2 * s.gamma * x - (s.gamma - 1)))
          = (s.gamma + 1) ^ 2 * x / (2 * s.gamma * x - (s.gamma - 1)) := by
        obtain ⟨Q, hQ⟩ : ∃ Q, Q = 2 * s.gamma * x - (s.gamma - 1) := ⟨_, rfl⟩
        rw [← hQ] at hDP ⊢
        field_simp; rw [hQ]; ring
      unfold rhr; rw [hx'', e, hg', eR, e2]
      obtain ⟨Q, hQ⟩ : ∃ Q, Q = 2 * s.gamma * x - (s.gamma - 1) := ⟨_, rfl⟩
      rw [← hQ] at hDP ⊢
      field_simp
    have eP' : psr (s'.u / s'.cs) s'.gamma = 1 / P := by
      unfold psr; rw [hx'', e, hg', eP]
      obtain ⟨Q, hQ⟩ : ∃ Q, Q = 2 * s.gamma * x - (s.gamma - 1) := ⟨_, rfl⟩
      rw [← hQ] at hDP ⊢
      field_simp
      rw [hQ]; ring
    rw [state_RH_ok hv' hu', eR', eP']
    congr 1
    subst hs'
    simp only
    cases s
    simp only [State.mk.injEq, and_true]
    refine ⟨?_, ?_, ?_⟩ <;> field_simp

/-- a Mach 2 state meets the hypotheses of C55 -/
example : ∃ (s : State) (m : ℝ), s.Valid ∧ s.Mach = .ok m ∧ (s.gamma - 1) / (2 * s.gamma) < m ^ 2 := by
  have h : State.Valid ⟨1.4, 2, 1, 1.4⟩ := ⟨by norm_num, by norm_num, by norm_num⟩
  have hc : State.cs ⟨1.4, 2, 1, 1.4⟩ = 1 := by unfold State.cs; norm_num
  exact ⟨⟨1.4, 2, 1, 1.4⟩, 2, h, by rw [h.Mach, hc]; norm_num, by norm_num⟩

/-! ### C56 -/

theorem state_isentropic_Mach_ok {s : State} (h : s.Valid) (M : ℝ) (T : ℝ) (hT : s.rTtot = .ok T) :
    0 < T ∧ s.state_isentropic_Mach M = s.compute_from_pt_rtt_M T T M := by
  have h1 := h.rho; have h2 := h.p; have h3 := h.g0; have h4 := h.gamma
  have hg1 : 0 < s.gamma - 1 := by linarith
  constructor
  · rw [h.rTtot] at hT
    have : s.p / s.rho + (s.gamma - 1) / (2 * s.gamma) * s.u ^ 2 = T := by injection hT
    rw [← this]; positivity
  · unfold State.state_isentropic_Mach State.compute_from_pt_rtt_M
    rw [hT]; rfl

/-- C56 (partial): `state_isentropic_Mach` keeps the total temperature and reaches the requested
Mach number when gamma is the default one. -/
theorem C56_total_temperature_partial (s : State) (h : s.Valid) (hg : s.gamma = DefaultGas.gamma0) (M : ℝ) :
    ∃ s', s.state_isentropic_Mach M = .ok s' ∧ s'.rTtot = s.rTtot ∧ s'.Mach = .ok M ∧ s'.gamma = s.gamma := by
  obtain ⟨hT, he⟩ := state_isentropic_Mach_ok h M _ h.rTtot
  obtain ⟨s', h1, h2, h3, h4⟩ := C54_M_default_partial s _ _ M hg hT hT
  refine ⟨s', by rw [he, h1], by rw [h3, h.rTtot], h4, ?_⟩
  rw [compute_from_pt_rtt_M_ok h.gamma hT hT] at h1
  have := (Except.ok.inj h1).symm
  rw [this, hg]; rfl

/-- C56 is false: even for the default gamma, the total pressure of the new state is the value of
`rTtot` of the old one, so it is kept only for states whose total pressure equals `r·Ttot`. -/
theorem C56_false (s : State) (h : s.Valid) (hg : s.gamma = DefaultGas.gamma0) (M : ℝ) :
    ∃ s', s.state_isentropic_Mach M = .ok s' ∧ s'.Ptot = s.rTtot ∧
      (s'.Ptot = s.Ptot ↔ s.rTtot = s.Ptot) := by
  obtain ⟨hT, he⟩ := state_isentropic_Mach_ok h M _ h.rTtot
  obtain ⟨s', h1, h2, h3, h4⟩ := C54_M_default_partial s _ _ M hg hT hT
  have e : s'.Ptot = s.rTtot := by rw [h2, h.rTtot]
  exact ⟨s', by rw [he, h1], e, by rw [e]⟩

/-- C56 also loses gamma: the result always carries the default gamma. -/
theorem C56_false_gamma (s : State) (h : s.Valid) (hg : s.gamma ≠ 1.4) (M : ℝ) :
    ∃ s', s.state_isentropic_Mach M = .ok s' ∧ s'.gamma ≠ s.gamma := by
  obtain ⟨hT, he⟩ := state_isentropic_Mach_ok h M _ h.rTtot
  refine ⟨_, by rw [he]; exact compute_from_pt_rtt_M_ok h.gamma hT hT, ?_⟩
  intro h0
  apply hg
  rw [← h0]
  rfl

/-- a state at rest with unit density: `rTtot = 100000 = Ptot` only because `rho = 1`; with
`rho = 1.2` they differ, so the total pressure is not kept -/
theorem C56_false_witness : ∃ s : State, s.Valid ∧ s.gamma = DefaultGas.gamma0 ∧
    ∀ M s', s.state_isentropic_Mach M = .ok s' → s'.Ptot ≠ s.Ptot := by
  have h : State.Valid ⟨6/5, 0, 100000, DefaultGas.gamma0⟩ :=
    ⟨by norm_num, by norm_num, one_lt_gamma0⟩
  refine ⟨_, h, rfl, ?_⟩
  intro M s' hs' he
  obtain ⟨s'', h1, _, h3⟩ := C56_false _ h rfl M
  rw [hs'] at h1
  cases h1
  have := h3.1 he
  rw [h.rTtot, h.Ptot] at this
  have := Except.ok.inj this
  simp [tt] at this
  norm_num at this

end Aerokit.Props
