import Verif.Model.Inflow
import Verif.Props.Riemann

/-! # Property C64 : `aerokit/instance/unsteady_inflow.py` -/

namespace Aerokit.Props
open Model1D Unsteady1D Riemann Inflow Spec Isentropic
open MassFlow (RootFinder)

theorem inflow_delta (q : UState) (p : ℝ) : Inflow.delta_uR q p = Riemann.delta_u q p := rfl

/-- what a root of the inflow residual satisfies -/
theorem inflow_root {qR : UState} (hR : qR.Valid) {pt0 rtt0 p : ℝ} (hpt : 0 < pt0) (hr : 0 < rtt0)
    (h : Inflow.dpt qR pt0 rtt0 p = .ok 0) :
    0 < p ∧ ∃ w, Py.pow (1 + 1 / 2 * (qR.u + df qR p) ^ 2 /
        (qR.gamma / (qR.gamma - 1) * rtt0 - 1 / 2 * (qR.u + df qR p) ^ 2)) (qR.gamma / (qR.gamma - 1)) = .ok w ∧
      p * w = pt0 ∧ qR.gamma / (qR.gamma - 1) * rtt0 - 1 / 2 * (qR.u + df qR p) ^ 2 ≠ 0 := by
  have hg : 0 < qR.gamma - 1 := by linarith [hR.gamma]
  have hn : 0 ≤ p := by
    by_contra hc
    push Not at hc
    unfold Inflow.dpt Inflow.pt0_from_pstar_rtt0 at h
    rw [inflow_delta, delta_u_neg hR hc] at h
    cases h
  have hd : Inflow.delta_uR qR p = .ok (df qR p) := by
    rw [inflow_delta]
    rcases hn.eq_or_lt with h | h
    · subst h; exact delta_u_zero_ok hR
    · exact delta_u_ok hR h
  unfold Inflow.dpt Inflow.pt0_from_pstar_rtt0 at h
  rw [hd, Py.ok_bind] at h
  simp only [l0_5, l1_0] at h
  rw [Py.div_ok hg.ne', Py.ok_bind] at h
  by_cases hD : qR.gamma / (qR.gamma - 1) * rtt0 - 1 / 2 * (qR.u + df qR p) ^ 2 = 0
  · rw [hD, Py.div_err] at h; cases h
  rw [Py.div_ok hD, Py.ok_bind] at h
  cases hw : Py.pow (1 + 1 / 2 * (qR.u + df qR p) ^ 2 /
        (qR.gamma / (qR.gamma - 1) * rtt0 - 1 / 2 * (qR.u + df qR p) ^ 2)) (qR.gamma / (qR.gamma - 1)) with
  | error e => rw [hw] at h; cases h
  | ok w =>
    rw [hw] at h
    have h' : p * w - pt0 = 0 := Except.ok.inj h
    refine ⟨?_, w, rfl, by linarith, hD⟩
    rcases hn.eq_or_lt with h0 | h0
    · rw [← h0] at h'; linarith
    · exact h0

/-- C64 (partial), for every gamma: when the star velocity is below the limit velocity of the total
temperature, the left star state has the pressure and velocity of the right star state, and total
conditions `(pt0, rtt0)` if the original gamma is put back (the code resets it); the right star state
is joined to the initial state by the C+ wave. -/
theorem C64_inflow_partial (fsolve : RootFinder) (hf : SoundRootFinder fsolve) (q : UState) (hq : q.Valid)
    (b : Inflow.Pb) (hb : b.qR = q) (pt0 rtt0 : ℝ) (hpt : 0 < pt0) (hr : 0 < rtt0) (b' : Inflow.Pb)
    (h : b.solve_with_pt0_rtt0 fsolve pt0 rtt0 = .ok b') :
    ∃ p u qL qR, b'.getPstar = .ok p ∧ b'.getUstar = .ok u ∧ b'.getQstarL = .ok qL ∧ b'.getQstarR = .ok qR ∧
      0 < p ∧ qR.p = p ∧ qR.u = u ∧ qL.u = u ∧ qR.gamma = q.gamma ∧
      (∃ d, Riemann.delta_u q p = .ok d ∧ u = q.u + d) ∧
      (u ^ 2 < 2 * q.gamma / (q.gamma - 1) * rtt0 →
        qL.p = p ∧ (withGamma qL q.gamma).Ptot = .ok pt0 ∧ (withGamma qL q.gamma).rTtot = .ok rtt0) := by
  have hg : 0 < q.gamma - 1 := by linarith [hq.gamma]
  have hg0 := hq.g0
  unfold Inflow.Pb.solve_with_pt0_rtt0 at h
  rw [hb] at h
  cases he : Inflow.pstar_estimate_expansion q pt0 with
  | error e => rw [he] at h; cases h
  | ok p0 =>
  rw [he, Py.ok_bind] at h
  cases hs : fsolve (Inflow.dpt q pt0 rtt0) p0 with
  | error e => rw [hs] at h; cases h
  | ok p =>
  rw [hs, Py.ok_bind] at h
  obtain ⟨hp, w, hw, hpw, hD⟩ := inflow_root hq hpt hr (hf _ _ _ hs)
  rw [inflow_delta, delta_u_ok hq hp, Py.ok_bind] at h
  simp only [] at h
  obtain ⟨r, hrr⟩ : ∃ r, (if p > q.p then UState.rho_through_shock q p else UState.rho_through_isentropic q p)
      = .ok r := by
    split
    · exact ⟨_, rho_through_shock_ok hq hp⟩
    · exact ⟨_, rho_through_isentropic_ok hq hp⟩
  have hb' : ∃ qL, State.compute_from_pt_rtt_u q pt0 rtt0 (q.u + df q p) = .ok qL ∧
      b' = { qR := q, pstar := some p, ustar := some (q.u + df q p), qstarR := some ⟨r, q.u + df q p, p, q.gamma⟩,
             qstarL := some qL, waves := b.waves } := by
    cases hc : State.compute_from_pt_rtt_u q pt0 rtt0 (q.u + df q p) with
    | error e =>
      rw [hc] at h
      split at h
      · rename_i hgt
        rw [if_pos hgt] at hrr; rw [hrr] at h; cases h
      · rename_i hgt
        rw [if_neg hgt] at hrr; rw [hrr] at h; cases h
    | ok qL =>
      rw [hc] at h
      split at h
      · rename_i hgt
        rw [if_pos hgt] at hrr; rw [hrr] at h
        exact ⟨qL, rfl, (Except.ok.inj h).symm⟩
      · rename_i hgt
        rw [if_neg hgt] at hrr; rw [hrr] at h
        exact ⟨qL, rfl, (Except.ok.inj h).symm⟩
  obtain ⟨qL, hqL, hb'⟩ := hb'
  have huL : qL.u = q.u + df q p := by
    unfold State.compute_from_pt_rtt_u at hqL
    simp only [l0_5, l1_0] at hqL
    rw [Py.div_ok hg.ne', Py.ok_bind, Py.div_ok hD, Py.ok_bind, hw, Py.ok_bind] at hqL
    have hw0 : w ≠ 0 := by rintro rfl; rw [mul_zero] at hpw; linarith
    rw [Py.div_ok hw0, Py.ok_bind] at hqL
    cases hx : Py.div (q.gamma * (pt0 / w)) (q.gamma * rtt0 - 1 / 2 * (q.gamma - 1) * (q.u + df q p) ^ 2) with
    | error e => rw [hx] at hqL; cases hqL
    | ok y => rw [hx] at hqL; rw [← Except.ok.inj hqL]; rfl
  refine ⟨p, q.u + df q p, qL, ⟨r, q.u + df q p, p, q.gamma⟩, by rw [hb']; rfl, by rw [hb']; rfl,
    by rw [hb']; rfl, by rw [hb']; rfl, hp, rfl, rfl, huL, rfl, ⟨_, delta_u_ok hq hp, rfl⟩, ?_⟩
  intro hlim
  obtain ⟨qL', h1, h2, h3, h4, h5⟩ := C54_u_partial q pt0 rtt0 (q.u + df q p) hq.gamma hpt hr hlim
  rw [hqL] at h1
  cases h1
  refine ⟨?_, h3, h4⟩
  -- pressure
  unfold State.compute_from_pt_rtt_u at hqL
  simp only [l0_5, l1_0] at hqL
  rw [Py.div_ok hg.ne', Py.ok_bind, Py.div_ok hD, Py.ok_bind, hw, Py.ok_bind] at hqL
  have hw0 : w ≠ 0 := by rintro rfl; rw [mul_zero] at hpw; linarith
  rw [Py.div_ok hw0, Py.ok_bind] at hqL
  cases hx : Py.div (q.gamma * (pt0 / w)) (q.gamma * rtt0 - 1 / 2 * (q.gamma - 1) * (q.u + df q p) ^ 2) with
  | error e => rw [hx] at hqL; cases hqL
  | ok y =>
    rw [hx] at hqL; rw [← Except.ok.inj hqL]
    show pt0 / w = p
    rw [← hpw]; field_simp

/-- C64 (partial), default gamma: the total conditions are reached and pressure and velocity are
continuous, unconditionally. -/
theorem C64_default_partial (fsolve : RootFinder) (hf : SoundRootFinder fsolve) (q : UState) (hq : q.Valid)
    (hg : q.gamma = DefaultGas.gamma0)
    (b : Inflow.Pb) (hb : b.qR = q) (pt0 rtt0 : ℝ) (hpt : 0 < pt0) (hr : 0 < rtt0) (b' : Inflow.Pb)
    (h : b.solve_with_pt0_rtt0 fsolve pt0 rtt0 = .ok b') :
    ∃ qL qR, b'.getQstarL = .ok qL ∧ b'.getQstarR = .ok qR ∧ qL.Ptot = .ok pt0 ∧ qL.rTtot = .ok rtt0 ∧
      qL.p = qR.p ∧ qL.u = qR.u ∧ b'.getPstar = .ok qR.p ∧ b'.getUstar = .ok qR.u ∧
      qL.gamma = q.gamma ∧ qR.gamma = q.gamma := by
  obtain ⟨p, u, qL, qR, h1, h2, h3, h4, hp, h5, h6, h7, h8, ⟨d, hd, hu⟩, h9⟩ :=
    C64_inflow_partial fsolve hf q hq b hb pt0 rtt0 hpt hr b' h
  have hroot : Inflow.dpt q pt0 rtt0 p = .ok 0 := by
    unfold Inflow.Pb.solve_with_pt0_rtt0 at h
    rw [hb] at h
    cases he : Inflow.pstar_estimate_expansion q pt0 with
    | error e => rw [he] at h; cases h
    | ok p0 =>
    rw [he, Py.ok_bind] at h
    cases hs : fsolve (Inflow.dpt q pt0 rtt0) p0 with
    | error e => rw [hs] at h; cases h
    | ok p' =>
    have hr' := hf _ _ _ hs
    obtain ⟨hp', w, hw, hpw, hD⟩ := inflow_root hq hpt hr hr'
    rw [hs, Py.ok_bind, inflow_delta, delta_u_ok hq hp', Py.ok_bind] at h
    have : p = p' := by
      simp only [] at h
      have hps : b'.pstar = some p' := by
        split at h
        · rw [rho_through_shock_ok hq hp', Py.ok_bind] at h
          cases hc : State.compute_from_pt_rtt_u q pt0 rtt0 (q.u + df q p') with
          | error e => rw [hc] at h; cases h
          | ok y => rw [hc] at h; rw [← Except.ok.inj h]
        · rw [rho_through_isentropic_ok hq hp', Py.ok_bind] at h
          cases hc : State.compute_from_pt_rtt_u q pt0 rtt0 (q.u + df q p') with
          | error e => rw [hc] at h; cases h
          | ok y => rw [hc] at h; rw [← Except.ok.inj h]
      unfold Inflow.Pb.getPstar at h1
      rw [hps] at h1
      exact (Except.ok.inj h1).symm
    rw [this]; exact hr'
  obtain ⟨_, w, hw, hpw, hD⟩ := inflow_root hq hpt hr hroot
  have hd' : d = df q p := by rw [delta_u_ok hq hp] at hd; exact (Except.ok.inj hd).symm
  have hlim : u ^ 2 < 2 * q.gamma / (q.gamma - 1) * rtt0 := by
    rw [hu, hd']
    have hgg : q.gamma = 7 / 5 := by rw [hg]; exact gamma0_eq
    rw [hgg] at hw hD ⊢
    obtain ⟨D, hDe⟩ : ∃ D, D = (7 / 5 : ℝ) / (7 / 5 - 1) * rtt0 - 1 / 2 * (q.u + df q p) ^ 2 := ⟨_, rfl⟩
    rw [← hDe] at hw hD
    have hbase : 1 + 1 / 2 * (q.u + df q p) ^ 2 / D = (7 / 2 * rtt0) / D := by
      rw [eq_div_iff hD, add_mul, div_mul_cancel₀ _ hD, one_mul, hDe]; ring
    rw [hbase] at hw
    have hDpos : 0 < D := by
      by_contra hc
      have hDneg : D < 0 := lt_of_le_of_ne (not_lt.1 hc) hD
      have hneg : 7 / 2 * rtt0 / D < 0 := div_neg_of_pos_of_neg (by positivity) hDneg
      unfold Py.pow at hw
      rw [if_neg] at hw
      · cases hw
      · rintro (h | ⟨h, _⟩ | ⟨_, n, hn⟩)
        · linarith
        · linarith
        · have h35 : (7 / 5 : ℝ) / (7 / 5 - 1) = 7 / 2 := by norm_num
          rw [h35] at hn
          have : (7 : ℝ) = 2 * n := by linarith
          have h7 : (7 : ℤ) = 2 * n := by exact_mod_cast this
          omega
    have : (7 / 5 : ℝ) / (7 / 5 - 1) * rtt0 = 7 / 2 * rtt0 := by norm_num
    have h2 : 2 * (7 / 5 : ℝ) / (7 / 5 - 1) * rtt0 = 7 * rtt0 := by norm_num
    rw [this] at hDe
    rw [h2]; linarith
  obtain ⟨k1, k2, k3⟩ := h9 hlim
  have hgL : qL.gamma = q.gamma := by
    unfold Inflow.Pb.getQstarL at h3
    -- the left state comes from `compute_from_pt_rtt_u`, which always resets gamma
    have hx : ∃ r v y, qL = State.initDefault r v y := by
      unfold Inflow.Pb.solve_with_pt0_rtt0 at h
      rw [hb] at h
      cases he : Inflow.pstar_estimate_expansion q pt0 with
      | error e => rw [he] at h; cases h
      | ok p0 =>
      rw [he, Py.ok_bind] at h
      cases hs : fsolve (Inflow.dpt q pt0 rtt0) p0 with
      | error e => rw [hs] at h; cases h
      | ok p' =>
      obtain ⟨hp', _⟩ := inflow_root hq hpt hr (hf _ _ _ hs)
      rw [hs, Py.ok_bind, inflow_delta, delta_u_ok hq hp', Py.ok_bind] at h
      simp only [] at h
      have key : ∀ v y, State.compute_from_pt_rtt_u q pt0 rtt0 v = .ok y → ∃ r v' z, y = State.initDefault r v' z := by
        intro v y hy
        unfold State.compute_from_pt_rtt_u at hy
        simp only [] at hy
        cases a1 : Py.div q.gamma (q.gamma - 1.0) with
        | error e => rw [a1] at hy; cases hy
        | ok g1 =>
        rw [a1, Py.ok_bind] at hy
        cases a2 : Py.div (0.5 * v ^ 2) (g1 * rtt0 - 0.5 * v ^ 2) with
        | error e => rw [a2] at hy; cases hy
        | ok g2 =>
        rw [a2, Py.ok_bind] at hy
        cases a3 : Py.pow (1.0 + g2) g1 with
        | error e => rw [a3] at hy; cases hy
        | ok g3 =>
        rw [a3, Py.ok_bind] at hy
        cases a4 : Py.div pt0 g3 with
        | error e => rw [a4] at hy; cases hy
        | ok g4 =>
        rw [a4, Py.ok_bind] at hy
        cases a5 : Py.div (q.gamma * g4) (q.gamma * rtt0 - 0.5 * (q.gamma - 1.0) * v ^ 2) with
        | error e => rw [a5] at hy; cases hy
        | ok g5 =>
        rw [a5] at hy
        exact ⟨_, _, _, (Except.ok.inj hy).symm⟩
      split at h
      · rw [rho_through_shock_ok hq hp', Py.ok_bind] at h
        cases hc : State.compute_from_pt_rtt_u q pt0 rtt0 (q.u + df q p') with
        | error e => rw [hc] at h; cases h
        | ok y =>
          rw [hc] at h; rw [← Except.ok.inj h] at h3
          have := Except.ok.inj h3
          rw [← this]; exact key _ _ hc
      · rw [rho_through_isentropic_ok hq hp', Py.ok_bind] at h
        cases hc : State.compute_from_pt_rtt_u q pt0 rtt0 (q.u + df q p') with
        | error e => rw [hc] at h; cases h
        | ok y =>
          rw [hc] at h; rw [← Except.ok.inj h] at h3
          have := Except.ok.inj h3
          rw [← this]; exact key _ _ hc
    obtain ⟨r, v, y, rfl⟩ := hx
    rw [hg]; rfl
  have hwg : withGamma qL q.gamma = qL := by rw [← hgL]; rfl
  rw [hwg] at k2 k3
  exact ⟨qL, qR, h3, h4, k2, k3, by rw [k1, h5], by rw [h7, h6], by rw [h1, h5], by rw [h2, h6], hgL, h8⟩

/-- C64: the search starts at the geometric mean of the initial pressure and the total pressure, so between the two (and at the solution when
they are equal and the gas is at rest). -/
theorem C64_estimate (q : UState) (hq : q.Valid) (pt0 : ℝ) (hpt : 0 < pt0) :
    ∃ e, Inflow.pstar_estimate_expansion q pt0 = .ok e ∧ 0 < e ∧ min q.p pt0 ≤ e ∧ e ≤ max q.p pt0 ∧ e / q.p = pt0 / e := by
  have hp := hq.p
  have h0 : 0 < q.p * pt0 := mul_pos hp hpt
  have hs := Real.sqrt_pos.2 h0
  have h2 := Real.sq_sqrt h0.le
  refine ⟨Real.sqrt (q.p * pt0), ?_, hs, ?_, ?_, ?_⟩
  · unfold Inflow.pstar_estimate_expansion; exact Py.sqrt_ok h0.le
  · refine Real.le_sqrt_of_sq_le ?_
    rw [pow_two]
    exact mul_le_mul (min_le_left _ _) (min_le_right _ _) (le_min hp.le hpt.le) hp.le
  · refine Real.sqrt_le_iff.2 ⟨le_max_of_le_left hp.le, ?_⟩
    rw [pow_two]
    exact mul_le_mul (le_max_left _ _) (le_max_right _ _) hpt.le (le_max_of_le_left hp.le)
  · rw [div_eq_div_iff hp.ne' hs.ne', ← pow_two, h2, mul_comm]

/-- a nontrivial inflow problem that the solver solves: gas at rest, `p* = 2` -/
example : ∃ (fsolve : RootFinder) (q : UState) (pt0 rtt0 : ℝ) (b' : Inflow.Pb), SoundRootFinder fsolve ∧ q.Valid ∧
    q.gamma = DefaultGas.gamma0 ∧ 0 < pt0 ∧ 0 < rtt0 ∧
    (Inflow.init q).solve_with_pt0_rtt0 fsolve pt0 rtt0 = .ok b' := by
  obtain ⟨nf, h1, h2⟩ := exists_soundRootFinder
  have hq : State.Valid ⟨1, 0, 1, DefaultGas.gamma0⟩ := ⟨by norm_num, by norm_num, one_lt_gamma0⟩
  obtain ⟨q, hqe⟩ : ∃ q : UState, q = ⟨1, 0, 1, DefaultGas.gamma0⟩ := ⟨_, rfl⟩
  rw [← hqe] at hq
  have hgg : q.gamma = 7 / 5 := by rw [hqe]; exact gamma0_eq
  have hg1 : q.gamma - 1 ≠ 0 := by rw [hgg]; norm_num
  obtain ⟨u, hu⟩ : ∃ u, u = q.u + df q 2 := ⟨_, rfl⟩
  obtain ⟨T, hT⟩ : ∃ T, T = u ^ 2 + 1 := ⟨_, rfl⟩
  have hT0 : 0 < T := by rw [hT]; positivity
  have hD : 0 < q.gamma / (q.gamma - 1) * T - 1 / 2 * u ^ 2 := by
    rw [hgg, hT]; norm_num; nlinarith [sq_nonneg u]
  obtain ⟨D, hDe⟩ : ∃ D, D = q.gamma / (q.gamma - 1) * T - 1 / 2 * u ^ 2 := ⟨_, rfl⟩
  rw [← hDe] at hD
  have hb : 0 < 1 + 1 / 2 * u ^ 2 / D := by positivity
  have hw := Real.rpow_pos_of_pos hb (q.gamma / (q.gamma - 1))
  obtain ⟨w, hwe⟩ : ∃ w, w = (1 + 1 / 2 * u ^ 2 / D) ^ (q.gamma / (q.gamma - 1)) := ⟨_, rfl⟩
  rw [← hwe] at hw
  have hroot : Inflow.dpt q (2 * w) T 2 = .ok 0 := by
    unfold Inflow.dpt Inflow.pt0_from_pstar_rtt0
    rw [inflow_delta, delta_u_ok hq (by norm_num), Py.ok_bind]
    simp only [l0_5, l1_0]
    rw [← hu, Py.div_ok hg1, Py.ok_bind, ← hDe, Py.div_ok hD.ne', Py.ok_bind, Py.pow_ok _ hb, ← hwe]
    simp only [Py.ok_bind, Py.pure_eq]
    congr 1; ring
  obtain ⟨p, hp⟩ := h2 (Inflow.dpt q (2 * w) T) (Real.sqrt (q.p * (2 * w))) ⟨2, hroot⟩
  have hr := h1 _ _ _ hp
  have hpt : 0 < 2 * w := by positivity
  obtain ⟨hp0, w', hw', hpw', hD'⟩ := inflow_root hq hpt hT0 hr
  refine ⟨nf, q, 2 * w, T, ?_⟩
  have hqp : 0 < q.p := hq.p
  have hok : ∃ y, State.compute_from_pt_rtt_u q (2 * w) T (q.u + df q p) = .ok y := by
    unfold State.compute_from_pt_rtt_u
    simp only [l0_5, l1_0]
    have hw0 : w' ≠ 0 := by rintro rfl; rw [mul_zero] at hpw'; linarith
    rw [Py.div_ok hg1, Py.ok_bind, Py.div_ok hD', Py.ok_bind, hw', Py.ok_bind, Py.div_ok hw0, Py.ok_bind]
    have : q.gamma * T - 1 / 2 * (q.gamma - 1) * (q.u + df q p) ^ 2
        = (q.gamma - 1) * (q.gamma / (q.gamma - 1) * T - 1 / 2 * (q.u + df q p) ^ 2) := by field_simp
    rw [this, Py.div_ok (mul_ne_zero hg1 hD')]
    exact ⟨_, rfl⟩
  obtain ⟨y, hy⟩ := hok
  have : ∃ b', (Inflow.init q).solve_with_pt0_rtt0 nf (2 * w) T = .ok b' := by
    have hi : (Inflow.init q).qR = q := rfl
    unfold Inflow.Pb.solve_with_pt0_rtt0 Inflow.pstar_estimate_expansion
    rw [hi, Py.sqrt_ok (by positivity), Py.ok_bind, hp, Py.ok_bind, inflow_delta, delta_u_ok hq hp0, Py.ok_bind]
    simp only []
    split
    · rw [rho_through_shock_ok hq hp0, Py.ok_bind, hy]; exact ⟨_, rfl⟩
    · rw [rho_through_isentropic_ok hq hp0, Py.ok_bind, hy]; exact ⟨_, rfl⟩
  obtain ⟨b', hb'⟩ := this
  exact ⟨b', h1, hq, by rw [hqe], hpt, hT0, hb'⟩

/-- C64 is false: after any sequence of calls `solve_with_pt0_rtt0` (any solver, any arguments, failed
calls leaving the object as it was), `left_fastest` and `right_fastest` raise AttributeError. -/
theorem C64_false_fastest (fsolve : RootFinder) (q : UState) (calls : List (ℝ × ℝ)) :
    let b := calls.foldl (fun b c => match b.solve_with_pt0_rtt0 fsolve c.1 c.2 with
      | .ok b' => b' | .error _ => b) (Inflow.init q)
    b.left_fastest = .error .attributeError ∧ b.right_fastest = .error .attributeError := by
  have key : ∀ (calls : List (ℝ × ℝ)) (b : Inflow.Pb), b.waves = none →
      (calls.foldl (fun b c => match b.solve_with_pt0_rtt0 fsolve c.1 c.2 with
        | .ok b' => b' | .error _ => b) b).waves = none := by
    intro calls
    induction calls with
    | nil => intro b hb; exact hb
    | cons c cs ih =>
      intro b hb
      rw [List.foldl_cons]
      apply ih
      cases hs : b.solve_with_pt0_rtt0 fsolve c.1 c.2 with
      | error e => simp only []; exact hb
      | ok b' =>
        simp only []
        unfold Inflow.Pb.solve_with_pt0_rtt0 at hs
        cases a1 : Inflow.pstar_estimate_expansion b.qR c.1 with
        | error e => rw [a1] at hs; cases hs
        | ok p0 =>
        rw [a1, Py.ok_bind] at hs
        cases a2 : fsolve (Inflow.dpt b.qR c.1 c.2) p0 with
        | error e => rw [a2] at hs; cases hs
        | ok p =>
        rw [a2, Py.ok_bind] at hs
        cases a3 : Inflow.delta_uR b.qR p with
        | error e => rw [a3] at hs; cases hs
        | ok d =>
        rw [a3, Py.ok_bind] at hs
        simp only [] at hs
        split at hs
        · cases a4 : UState.rho_through_shock b.qR p with
          | error e => rw [a4] at hs; cases hs
          | ok r =>
          rw [a4, Py.ok_bind] at hs
          cases a5 : State.compute_from_pt_rtt_u b.qR c.1 c.2 (b.qR.u + d) with
          | error e => rw [a5] at hs; cases hs
          | ok y => rw [a5] at hs; rw [← Except.ok.inj hs]; exact hb
        · cases a4 : UState.rho_through_isentropic b.qR p with
          | error e => rw [a4] at hs; cases hs
          | ok r =>
          rw [a4, Py.ok_bind] at hs
          cases a5 : State.compute_from_pt_rtt_u b.qR c.1 c.2 (b.qR.u + d) with
          | error e => rw [a5] at hs; cases hs
          | ok y => rw [a5] at hs; rw [← Except.ok.inj hs]; exact hb
  have hw := key calls (Inflow.init q) rfl
  simp only []
  unfold Inflow.Pb.left_fastest Inflow.Pb.right_fastest
  rw [hw]
  exact ⟨rfl, rfl⟩

end Aerokit.Props
