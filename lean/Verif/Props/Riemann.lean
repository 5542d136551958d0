import Verif.Lemmas.Riemann
import Verif.Spec.Solver
import Verif.Props.Unsteady1D

/-! # Properties C59–C63 : `aerokit/instance/riemann.py` -/

namespace Aerokit.Props
open Model1D Unsteady1D Riemann Spec
open MassFlow (RootFinder)

/-! ### C59 -/

/-- C59: the velocity-jump function of the Riemann problem (`du` of `_solve`) has a finite value for
every `p > 0`, is continuous and strictly increasing there. -/
theorem C59_monotone (qL qR : UState) (hL : qL.Valid) (hR : qR.Valid) :
    ∃ f : ℝ → ℝ, (∀ p, 0 < p → du qL qR p = .ok (f p)) ∧ ContinuousOn f (Set.Ioi 0) ∧
      StrictMonoOn f (Set.Ioi 0) :=
  ⟨duf qL qR, fun _ hp => du_ok hL hR hp.le,
    (duf_continuousOn hL hR).mono (fun x (hx : 0 < x) => hx.le),
    (duf_strictMono hL hR).mono (fun x (hx : 0 < x) => hx.le)⟩

/-- C59: it has a (positive) root iff no vacuum is created. -/
theorem C59_root_iff (qL qR : UState) (hL : qL.Valid) (hR : qR.Valid) (aL aR : ℝ)
    (haL : qL.asound = .ok aL) (haR : qR.asound = .ok aR) :
    (∃ p, 0 < p ∧ du qL qR p = .ok 0) ↔
      qR.u - qL.u < 2 * aL / (qL.gamma - 1) + 2 * aR / (qR.gamma - 1) := by
  rw [hL.asound] at haL
  rw [hR.asound] at haR
  cases haL; cases haR
  refine Iff.trans ?_ (duf_root hL hR)
  constructor
  · rintro ⟨p, hp, h⟩
    rw [du_ok hL hR hp.le] at h
    exact ⟨p, hp, Except.ok.inj h⟩
  · rintro ⟨p, hp, h⟩
    exact ⟨p, hp, by rw [du_ok hL hR hp.le, h]⟩

/-- C59: the root is unique among all real pressures (no finite value below zero). -/
theorem C59_unique (qL qR : UState) (hL : qL.Valid) (hR : qR.Valid) (p p' : ℝ)
    (h : du qL qR p = .ok 0) (h' : du qL qR p' = .ok 0) : p = p' := by
  have nn : ∀ x, du qL qR x = .ok 0 → 0 ≤ x := by
    intro x hx
    by_contra hc
    push Not at hc
    rw [du_neg hL hc] at hx
    cases hx
  have hp := nn p h
  have hp' := nn p' h'
  rw [du_ok hL hR hp] at h
  rw [du_ok hL hR hp'] at h'
  exact duf_unique hL hR hp hp' (Except.ok.inj h) (Except.ok.inj h')

/-- the solved object in closed form, from any sound solver -/
theorem riemann_init_spec {newton : RootFinder} (hn : SoundRootFinder newton) {qL qR : UState} (hL : qL.Valid)
    (hR : qR.Valid) (hv : NoVacuum qL qR) {s : Pb} (h : Riemann.init newton qL qR = .ok s) :
    ∃ p, 0 < p ∧ duf qL qR p = 0 ∧ s = solPb qL qR p := by
  unfold Riemann.init at h
  cases he : pstar_estimate_expansion qL qR with
  | error e => rw [he] at h; cases h
  | ok p0 =>
    rw [he, Py.ok_bind] at h
    cases hp : newton (du qL qR) p0 with
    | error e => rw [hp] at h; cases h
    | ok p =>
      rw [hp, Py.ok_bind] at h
      have hr := hn _ _ _ hp
      obtain ⟨p', hp', hr'⟩ := (duf_root hL hR).2 hv
      have : p = p' := C59_unique qL qR hL hR p p' hr (by rw [du_ok hL hR hp'.le, hr'])
      subst this
      refine ⟨p, hp', hr', ?_⟩
      rw [afterSolve_ok hL hR hp' hr'] at h
      exact (Except.ok.inj h).symm

/-- C59: what the constructed object contains, for every solver that only returns roots: `pstar` is
the (positive) root, and `ustar` is the star velocity seen from both sides. -/
theorem C59_solution (newton : RootFinder) (hn : SoundRootFinder newton) (qL qR : UState) (hL : qL.Valid)
    (hR : qR.Valid) (hv : NoVacuum qL qR) (s : Pb) (h : Riemann.init newton qL qR = .ok s) :
    0 < s.pstar ∧ du qL qR s.pstar = .ok 0 ∧
    ∃ dL dR, delta_u qL s.pstar = .ok dL ∧ delta_u qR s.pstar = .ok dR ∧
      s.ustar = qL.u - dL ∧ s.ustar = qR.u + dR ∧ s.qL = qL ∧ s.qR = qR ∧
      s.qstarL.p = s.pstar ∧ s.qstarR.p = s.pstar ∧ s.qstarL.u = s.ustar ∧ s.qstarR.u = s.ustar ∧
      s.qstarL.gamma = qL.gamma ∧ s.qstarR.gamma = qR.gamma := by
  obtain ⟨p, hp, h0, rfl⟩ := riemann_init_spec hn hL hR hv h
  refine ⟨hp, by rw [show (solPb qL qR p).pstar = p from rfl, du_ok hL hR hp.le, h0], _, _,
    delta_u_ok hL hp, delta_u_ok hR hp, rfl, ?_, rfl, rfl, rfl, rfl, rfl, rfl, rfl, rfl⟩
  show qL.u - df qL p = _
  unfold duf at h0; show _ = qR.u + df qR p; linarith

theorem estimate_ok {qL qR : UState} (hL : qL.Valid) (hR : qR.Valid) (hg : qL.gamma = qR.gamma) :
    ∀ z, z = (qL.gamma - 1) / (2 * qL.gamma) →
    pstar_estimate_expansion qL qR =
      Py.pow ((qL.cs + qR.cs - (qL.gamma - 1) / 2 * (qR.u - qL.u)) / (qL.cs / qL.p ^ z + qR.cs / qR.p ^ z)) (1 / z) := by
  intro z hz
  have hgp := hL.gamma; have hg0 := hL.g0
  have hg1 : 0 < qL.gamma - 1 := by linarith
  have hz0 : 0 < z := by rw [hz]; positivity
  have e1 : (1 / 2 * (qL.gamma + qR.gamma)) = qL.gamma := by rw [← hg]; ring
  have e2 : 1 / 2 * (qL.gamma - 1) / qL.gamma = z := by rw [hz]; field_simp
  have wL := Real.rpow_pos_of_pos hL.p z
  have wR := Real.rpow_pos_of_pos hR.p z
  have cL := hL.cs_pos; have cR := hR.cs_pos
  unfold pstar_estimate_expansion
  simp only []
  lits
  rw [e1, hL.asound, Py.ok_bind, hR.asound, Py.ok_bind, Py.div_ok hg0.ne', Py.ok_bind, e2,
    Py.pow_ok _ hL.p, Py.ok_bind, Py.div_ok wL.ne', Py.ok_bind, Py.pow_ok _ hR.p, Py.ok_bind,
    Py.div_ok wR.ne', Py.ok_bind, Py.div_ok (by positivity), Py.ok_bind, Py.div_ok (by positivity),
    Py.ok_bind]
  have e3 : qL.gamma / (1 / 2 * (qL.gamma - 1)) = 1 / z := by rw [hz]; field_simp
  rw [e3]
  congr 2
  ring

theorem estimate_finite {qL qR : UState} (hL : qL.Valid) (hR : qR.Valid) (hg : qL.gamma = qR.gamma)
    (hv : NoVacuum qL qR) : ∃ p0, 0 < p0 ∧ pstar_estimate_expansion qL qR = .ok p0 := by
  have hg1 : 0 < qL.gamma - 1 := by linarith [hL.gamma]
  have hg0 := hL.g0
  have cL := hL.cs_pos; have cR := hR.cs_pos
  rw [estimate_ok hL hR hg _ rfl]
  have wL := Real.rpow_pos_of_pos hL.p ((qL.gamma - 1) / (2 * qL.gamma))
  have wR := Real.rpow_pos_of_pos hR.p ((qL.gamma - 1) / (2 * qL.gamma))
  have hb : 0 < (qL.cs + qR.cs - (qL.gamma - 1) / 2 * (qR.u - qL.u)) /
      (qL.cs / qL.p ^ ((qL.gamma - 1) / (2 * qL.gamma)) + qR.cs / qR.p ^ ((qL.gamma - 1) / (2 * qL.gamma))) := by
    apply div_pos _ (by positivity)
    unfold NoVacuum at hv
    rw [← hg] at hv
    have : 2 * qL.cs / (qL.gamma - 1) + 2 * qR.cs / (qL.gamma - 1) = 2 / (qL.gamma - 1) * (qL.cs + qR.cs) := by
      field_simp
    rw [this] at hv
    have h2 : (qL.gamma - 1) / 2 * (qR.u - qL.u) < (qL.gamma - 1) / 2 * (2 / (qL.gamma - 1) * (qL.cs + qR.cs)) :=
      mul_lt_mul_of_pos_left hv (by positivity)
    rw [show (qL.gamma - 1) / 2 * (2 / (qL.gamma - 1) * (qL.cs + qR.cs)) = qL.cs + qR.cs by field_simp] at h2
    linarith
  exact ⟨_, Real.rpow_pos_of_pos hb _, Py.pow_ok _ hb⟩

/-- C59: for equal gammas and no vacuum the constructor succeeds with every solver that finds a root
whenever there is one. -/
theorem C59_constructs (newton : RootFinder) (hn : SoundRootFinder newton)
    (hc : ∀ f x0, (∃ x, f x = .ok 0) → ∃ x, newton f x0 = .ok x)
    (qL qR : UState) (hL : qL.Valid) (hR : qR.Valid) (hg : qL.gamma = qR.gamma) (hv : NoVacuum qL qR) :
    ∃ s, Riemann.init newton qL qR = .ok s := by
  obtain ⟨p0, _, h0⟩ := estimate_finite hL hR hg hv
  obtain ⟨p, hp, hr⟩ := (duf_root hL hR).2 hv
  have hr' : du qL qR p = .ok 0 := by rw [du_ok hL hR hp.le, hr]
  obtain ⟨p', hp'⟩ := hc (du qL qR) p0 ⟨p, hr'⟩
  have := C59_unique qL qR hL hR p' p (hn _ _ _ hp') hr'
  subst this
  refine ⟨solPb qL qR p', ?_⟩
  unfold Riemann.init
  rw [h0, Py.ok_bind, hp', Py.ok_bind, afterSolve_ok hL hR hp hr]

/-- Sod's shock tube meets the hypotheses -/
theorem sod : ∃ qL qR : UState, State.Valid qL ∧ State.Valid qR ∧ qL.gamma = qR.gamma ∧ NoVacuum qL qR := by
  refine ⟨⟨1, 0, 1, 1.4⟩, ⟨0.125, 0, 0.1, 1.4⟩, ⟨by norm_num, by norm_num, by norm_num⟩,
    ⟨by norm_num, by norm_num, by norm_num⟩, rfl, ?_⟩
  have h1 : State.Valid ⟨1, 0, 1, 1.4⟩ := ⟨by norm_num, by norm_num, by norm_num⟩
  have h2 : State.Valid ⟨0.125, 0, 0.1, 1.4⟩ := ⟨by norm_num, by norm_num, by norm_num⟩
  have a1 := h1.cs_pos; have a2 := h2.cs_pos
  unfold NoVacuum
  simp only
  norm_num
  norm_num at a1 a2
  positivity

example : ∃ (newton : RootFinder) (qL qR : UState) (s : Pb), SoundRootFinder newton ∧ State.Valid qL ∧ State.Valid qR ∧
    NoVacuum qL qR ∧ Riemann.init newton qL qR = .ok s := by
  obtain ⟨nf, h1, h2⟩ := exists_soundRootFinder
  obtain ⟨qL, qR, hL, hR, hg, hv⟩ := sod
  obtain ⟨s, hs⟩ := C59_constructs nf h1 h2 qL qR hL hR hg hv
  exact ⟨nf, qL, qR, s, h1, hL, hR, hv, hs⟩

/-! ### C60 -/

theorem outer_ge {q : UState} (h : q.Valid) (p : ℝ) : q.cs ≤ outer q p := by
  unfold outer; split
  · rename_i hc; exact (cs_lt_SS h hc).le
  · exact le_rfl

theorem inner_pos {q : UState} (h : q.Valid) {p : ℝ} (hp : 0 < p) (u : ℝ) : 0 < inner q u p := by
  unfold inner; split
  · rw [SS_sub_dus h hp]
    have := LL_pos h hp; have := SS_pos h hp; have := h.rho
    positivity
  · exact (isen_valid h hp u).cs_pos

/-- the wave has a nonnegative width; it is a jump iff shock (or no wave) -/
theorem width {q : UState} (h : q.Valid) {p : ℝ} (hp : 0 < p) (u : ℝ) :
    inner q u p + df q p ≤ outer q p ∧ (p < q.p → inner q u p + df q p < outer q p) ∧
    (q.p ≤ p → inner q u p + df q p = outer q p) := by
  have hg : 0 < q.gamma - 1 := by linarith [h.gamma]
  have hg0 := h.g0
  unfold inner df outer
  by_cases hc : p > q.p
  · simp only [if_pos hc]
    refine ⟨by linarith, fun h => absurd h (not_lt.2 (le_of_lt hc)), fun _ => by ring⟩
  · simp only [if_neg hc]
    have hr : 0 < p / q.p := div_pos hp h.p
    have e := due_eq h hp u
    have hle : (isen q u p).cs ≤ q.cs := by
      rw [isen_cs h hp]
      have : (p / q.p) ^ ((q.gamma - 1) / (2 * q.gamma)) ≤ 1 :=
        Real.rpow_le_one hr.le (by rw [div_le_one h.p]; linarith) (by positivity)
      have := h.cs_pos
      nlinarith
    have hw : 0 < 2 / (q.gamma - 1) := by positivity
    refine ⟨?_, ?_, ?_⟩
    · rw [e]; nlinarith
    · intro hlt
      have hlt' : (isen q u p).cs < q.cs := by
        rw [isen_cs h hp]
        have : (p / q.p) ^ ((q.gamma - 1) / (2 * q.gamma)) < 1 :=
          Real.rpow_lt_one hr.le (by rw [div_lt_one h.p]; linarith) (by positivity)
        have := h.cs_pos
        nlinarith
      rw [e]; nlinarith
    · intro hge
      have : p = q.p := by linarith
      subst this
      rw [due_self h, isen_cs h h.p, div_self h.p.ne', Real.one_rpow]; ring

/-- C60: the wave speeds of every solved Riemann problem are ordered, shocks are faster than the
acoustic speed ahead and slower than the one behind (Lax), expansions have a positive width. -/
theorem C60_waves (newton : RootFinder) (hn : SoundRootFinder newton) (qL qR : UState) (hL : qL.Valid)
    (hR : qR.Valid) (hv : NoVacuum qL qR) (s : Pb) (h : Riemann.init newton qL qR = .ok s) :
    s.w0 ≤ s.w1 ∧ s.w1 < s.w2 ∧ s.w2 < s.w3 ∧ s.w3 ≤ s.w4 ∧ s.w2 = s.ustar ∧
    s.left_fastest = s.w0 ∧ s.right_fastest = s.w4 ∧
    ∃ aL aR asL asR, qL.asound = .ok aL ∧ qR.asound = .ok aR ∧
      s.qstarL.asound = .ok asL ∧ s.qstarR.asound = .ok asR ∧
      (s.pstar > qL.p → s.w0 = s.w1 ∧ s.w0 < qL.u - aL ∧ s.ustar - asL < s.w1) ∧
      (s.pstar > qR.p → s.w3 = s.w4 ∧ qR.u + aR < s.w4 ∧ s.w3 < s.ustar + asR) ∧
      (s.pstar < qL.p → s.w0 < s.w1 ∧ s.w0 = qL.u - aL ∧ s.w1 = s.ustar - asL) ∧
      (s.pstar < qR.p → s.w3 < s.w4 ∧ s.w4 = qR.u + aR ∧ s.w3 = s.ustar + asR) := by
  obtain ⟨p, hp, h0, rfl⟩ := riemann_init_spec hn hL hR hv h
  have e : qL.u - df qL p = qR.u + df qR p := by unfold duf at h0; linarith
  obtain ⟨l1, l2, l3⟩ := width hL hp (qL.u - df qL p)
  obtain ⟨r1, r2, r3⟩ := width hR hp (qL.u - df qL p)
  have il := inner_pos hL hp (qL.u - df qL p)
  have ir := inner_pos hR hp (qL.u - df qL p)
  refine ⟨?_, ?_, ?_, ?_, rfl, rfl, rfl, qL.cs, qR.cs, (starState qL (qL.u - df qL p) p).cs,
    (starState qR (qL.u - df qL p) p).cs, hL.asound, hR.asound, (starState_valid hL hp _).asound,
    (starState_valid hR hp _).asound, ?_, ?_, ?_, ?_⟩
  · show qL.u - outer qL p ≤ qL.u - df qL p - inner qL _ p; linarith
  · show qL.u - df qL p - inner qL _ p < qL.u - df qL p; linarith
  · show qL.u - df qL p < qL.u - df qL p + inner qR _ p; linarith
  · show qL.u - df qL p + inner qR _ p ≤ qR.u + outer qR p; rw [e] at *; linarith
  · intro hc
    have hc' : p > qL.p := hc
    refine ⟨?_, ?_, ?_⟩
    · show qL.u - outer qL p = qL.u - df qL p - inner qL _ p; have := l3 (le_of_lt hc); linarith
    · show qL.u - outer qL p < qL.u - qL.cs
      have := cs_lt_SS hL hc'; unfold outer; rw [if_pos hc']; linarith
    · show qL.u - df qL p - _ < qL.u - df qL p - inner qL _ p
      have := SS_sub_dus_lt hL hc' (qL.u - df qL p)
      unfold inner starState
      simp only [if_pos hc']
      linarith
  · intro hc
    have hc' : p > qR.p := hc
    refine ⟨?_, ?_, ?_⟩
    · show qL.u - df qL p + inner qR _ p = qR.u + outer qR p; have := r3 (le_of_lt hc); rw [e] at *; linarith
    · show qR.u + qR.cs < qR.u + outer qR p
      have := cs_lt_SS hR hc'; unfold outer; rw [if_pos hc']; linarith
    · show qL.u - df qL p + inner qR _ p < qL.u - df qL p + _
      have := SS_sub_dus_lt hR hc' (qL.u - df qL p)
      unfold inner starState
      simp only [if_pos hc']
      linarith
  · intro hc
    have hc' : ¬ p > qL.p := not_lt.2 (le_of_lt hc)
    refine ⟨?_, ?_, ?_⟩
    · show qL.u - outer qL p < qL.u - df qL p - inner qL _ p; have := l2 hc; linarith
    · show qL.u - outer qL p = qL.u - qL.cs
      unfold outer; rw [if_neg hc']
    · show qL.u - df qL p - inner qL _ p = qL.u - df qL p - _
      unfold inner starState isen
      simp only [if_neg hc']
  · intro hc
    have hc' : ¬ p > qR.p := not_lt.2 (le_of_lt hc)
    refine ⟨?_, ?_, ?_⟩
    · show qL.u - df qL p + inner qR _ p < qR.u + outer qR p; have := r2 hc; rw [e] at *; linarith
    · show qR.u + outer qR p = qR.u + qR.cs
      unfold outer; rw [if_neg hc']
    · show qL.u - df qL p + inner qR _ p = qL.u - df qL p + _
      unfold inner starState isen
      simp only [if_neg hc']

/-- C60: every shock of the solution satisfies the Rankine–Hugoniot relations at its wave speed, and
every expansion keeps entropy and the Riemann invariant. -/
theorem C60_jumps (newton : RootFinder) (hn : SoundRootFinder newton) (qL qR : UState) (hL : qL.Valid)
    (hR : qR.Valid) (hv : NoVacuum qL qR) (s : Pb) (h : Riemann.init newton qL qR = .ok s) :
    (s.pstar > qL.p → MovingShock s.w0 qL s.qstarL) ∧
    (s.pstar > qR.p → MovingShock s.w4 qR s.qstarR) ∧
    (s.pstar ≤ qL.p → (flow s.qstarL).entropyFn qL.gamma = (flow qL).entropyFn qL.gamma ∧
      s.qstarL.u + 2 * s.qstarL.cs / (qL.gamma - 1) = qL.u + 2 * qL.cs / (qL.gamma - 1)) ∧
    (s.pstar ≤ qR.p → (flow s.qstarR).entropyFn qR.gamma = (flow qR).entropyFn qR.gamma ∧
      s.qstarR.u - 2 * s.qstarR.cs / (qR.gamma - 1) = qR.u - 2 * qR.cs / (qR.gamma - 1)) := by
  obtain ⟨p, hp, h0, rfl⟩ := riemann_init_spec hn hL hR hv h
  have e : qL.u - df qL p = qR.u + df qR p := by unfold duf at h0; linarith
  refine ⟨?_, ?_, ?_, ?_⟩
  · intro hc
    have hc' : p > qL.p := hc
    have := shock_general qL hL p hp (-1) (by norm_num)
    have e1 : (solPb qL qR p).w0 = qL.u + -1 * SS qL p := by
      show qL.u - outer qL p = _; unfold outer; rw [if_pos hc']; ring
    have e2 : (solPb qL qR p).qstarL = ⟨rhs qL p, qL.u + -1 * dus qL p, p, qL.gamma⟩ := by
      show starState qL (qL.u - df qL p) p = _
      unfold starState df; rw [if_pos hc', if_pos hc']; congr 1; ring
    rw [e1, e2]; exact this
  · intro hc
    have hc' : p > qR.p := hc
    have := shock_general qR hR p hp 1 (by norm_num)
    have e1 : (solPb qL qR p).w4 = qR.u + 1 * SS qR p := by
      show qR.u + outer qR p = _; unfold outer; rw [if_pos hc']; ring
    have e2 : (solPb qL qR p).qstarR = ⟨rhs qR p, qR.u + 1 * dus qR p, p, qR.gamma⟩ := by
      show starState qR (qL.u - df qL p) p = _
      rw [e]
      unfold starState df; rw [if_pos hc', if_pos hc']; congr 1; ring
    rw [e1, e2]; exact this
  · intro hc
    have hc' : ¬ p > qL.p := not_lt.2 hc
    obtain ⟨d, r, a, aL, aR, h1, h2, h3, h4, h5, h6, h7, h8, _⟩ := C58_expansion qL hL p hp
    rw [delta_u_expansion_ok hL hp] at h1
    rw [rho_through_isentropic_ok hL hp] at h2
    rw [hL.asound] at h3
    cases h1; cases h2; cases h3
    have e2 : (solPb qL qR p).qstarL = ⟨rhi qL p, qL.u - due qL p, p, qL.gamma⟩ := by
      show starState qL (qL.u - df qL p) p = _
      unfold starState df; rw [if_neg hc', if_neg hc']
    rw [e2]
    have h4' := h4.symm.trans (isen_valid hL hp (qL.u - due qL p)).asound
    cases h4'
    exact ⟨h6, h7⟩
  · intro hc
    have hc' : ¬ p > qR.p := not_lt.2 hc
    obtain ⟨d, r, a, aL, aR, h1, h2, h3, h4, h5, h6, h7, h8, _⟩ := C58_expansion qR hR p hp
    rw [delta_u_expansion_ok hR hp] at h1
    rw [rho_through_isentropic_ok hR hp] at h2
    rw [hR.asound] at h3
    cases h1; cases h2; cases h3
    have e2 : (solPb qL qR p).qstarR = ⟨rhi qR p, qR.u + due qR p, p, qR.gamma⟩ := by
      show starState qR (qL.u - df qL p) p = _
      rw [e]
      unfold starState df; rw [if_neg hc', if_neg hc']
    rw [e2]
    have h5' := h5.symm.trans (isen_valid hR hp (qR.u + due qR p)).asound
    cases h5'
    exact ⟨h6, h8⟩

/-! ### C61 -/

/-- C- simple wave: isentropic, with the Riemann invariant `u + 2a/(γ-1)` of `q`, and `u - a = x/t` -/
def InFanL (q : UState) (xot : ℝ) (f : Spec.Flow) : Prop :=
  0 < f.rho ∧ 0 < f.p ∧ f.entropyFn q.gamma = (flow q).entropyFn q.gamma ∧
  f.u + 2 * f.a q.gamma / (q.gamma - 1) = q.u + 2 * (flow q).a q.gamma / (q.gamma - 1) ∧
  f.u - f.a q.gamma = xot

/-- C+ simple wave: isentropic, with the Riemann invariant `u - 2a/(γ-1)` of `q`, and `u + a = x/t` -/
def InFanR (q : UState) (xot : ℝ) (f : Spec.Flow) : Prop :=
  0 < f.rho ∧ 0 < f.p ∧ f.entropyFn q.gamma = (flow q).entropyFn q.gamma ∧
  f.u - 2 * f.a q.gamma / (q.gamma - 1) = q.u - 2 * (flow q).a q.gamma / (q.gamma - 1) ∧
  f.u + f.a q.gamma = xot

theorem entropy_isen {q : UState} (h : q.Valid) {p : ℝ} (hp : 0 < p) (u : ℝ) :
    (flow (isen q u p)).entropyFn q.gamma = (flow q).entropyFn q.gamma := by
  have h1 := h.rho; have h2 := h.p; have h3 := h.g0
  have hr : 0 < p / q.p := by positivity
  unfold Spec.Flow.entropyFn flow isen rhi
  simp only
  rw [Real.mul_rpow h1.le (Real.rpow_pos_of_pos hr _).le, ← Real.rpow_mul hr.le, one_div_mul_cancel h3.ne',
    Real.rpow_one]
  have := Real.rpow_pos_of_pos h1 q.gamma
  field_simp

/-- pressure and sound speed in a fan where the speed of sound is `af` -/
theorem fan_p {q : UState} (h : q.Valid) {af : ℝ} (ha : 0 < af) (u : ℝ) :
    ∀ p, p = q.p * (af / q.cs) ^ (2 * q.gamma / (q.gamma - 1)) → 0 < p ∧ (isen q u p).cs = af := by
  intro p hp
  have h2 := h.p; have h3 := h.g0; have hc := h.cs_pos
  have hg : 0 < q.gamma - 1 := by linarith [h.gamma]
  have hx : 0 < af / q.cs := by positivity
  have hw := Real.rpow_pos_of_pos hx (2 * q.gamma / (q.gamma - 1))
  have hp0 : 0 < p := by rw [hp]; positivity
  refine ⟨hp0, ?_⟩
  rw [isen_cs h hp0, hp, mul_div_cancel_left₀ _ h2.ne', ← Real.rpow_mul hx.le]
  rw [show 2 * q.gamma / (q.gamma - 1) * ((q.gamma - 1) / (2 * q.gamma)) = 1 by field_simp, Real.rpow_one]
  field_simp

theorem fanL_spec {q : UState} (h : q.Valid) {x : ℝ} (hx : 0 < (q.gamma - 1) * (q.u - x) + 2 * q.cs) :
    ∃ u p, fanL q x = .ok ⟨rhi q p, u, p⟩ ∧ 0 < p ∧ InFanL q x ⟨rhi q p, u, p⟩ ∧
      (isen q u p).cs = ((q.gamma - 1) * (q.u - x) + 2 * q.cs) / (q.gamma + 1) := by
  have h2 := h.p; have h3 := h.g0; have hc := h.cs_pos
  have hg : 0 < q.gamma - 1 := by linarith [h.gamma]
  obtain ⟨u, hu⟩ : ∃ u, u = (q.gamma - 1) / (q.gamma + 1) * (q.u + 2 / (q.gamma - 1) * (q.cs + x)) := ⟨_, rfl⟩
  have hux : u - x = ((q.gamma - 1) * (q.u - x) + 2 * q.cs) / (q.gamma + 1) := by
    rw [hu]; field_simp; ring
  have haf : 0 < u - x := by rw [hux]; positivity
  obtain ⟨p, hp⟩ : ∃ p, p = q.p * ((u - x) / q.cs) ^ (2 * q.gamma / (q.gamma - 1)) := ⟨_, rfl⟩
  obtain ⟨hp0, hcs⟩ := fan_p h haf u p hp
  refine ⟨u, p, ?_, hp0, ⟨rhi_pos h hp0, hp0, entropy_isen h hp0 u, ?_, ?_⟩, by rw [hcs, hux]⟩
  · unfold fanL
    simp only []
    lits
    rw [Py.div_ok (by positivity), Py.ok_bind, Py.div_ok hg.ne', Py.ok_bind, h.asound, Py.ok_bind, ← hu,
      Py.div_ok hc.ne', Py.ok_bind, Py.div_ok hg.ne', Py.ok_bind, Py.pow_ok _ (by positivity), Py.ok_bind,
      ← hp, rho_through_isentropic_ok h hp0]
    rfl
  · show u + 2 * (isen q u p).cs / (q.gamma - 1) = q.u + 2 * q.cs / (q.gamma - 1)
    rw [hcs, hux]
    have hu' : u = x + ((q.gamma - 1) * (q.u - x) + 2 * q.cs) / (q.gamma + 1) := by linarith
    rw [hu']; field_simp; ring
  · show u - (isen q u p).cs = x
    rw [hcs]; ring

theorem fanR_spec {q : UState} (h : q.Valid) {x : ℝ} (hx : 0 < (q.gamma - 1) * (x - q.u) + 2 * q.cs) :
    ∃ u p, fanR q x = .ok ⟨rhi q p, u, p⟩ ∧ 0 < p ∧ InFanR q x ⟨rhi q p, u, p⟩ ∧
      (isen q u p).cs = ((q.gamma - 1) * (x - q.u) + 2 * q.cs) / (q.gamma + 1) := by
  have h2 := h.p; have h3 := h.g0; have hc := h.cs_pos
  have hg : 0 < q.gamma - 1 := by linarith [h.gamma]
  obtain ⟨u, hu⟩ : ∃ u, u = (q.gamma - 1) / (q.gamma + 1) * (q.u + 2 / (q.gamma - 1) * (-q.cs + x)) := ⟨_, rfl⟩
  have hux : x - u = ((q.gamma - 1) * (x - q.u) + 2 * q.cs) / (q.gamma + 1) := by
    rw [hu]; field_simp; ring
  have haf : 0 < x - u := by rw [hux]; positivity
  obtain ⟨p, hp⟩ : ∃ p, p = q.p * ((x - u) / q.cs) ^ (2 * q.gamma / (q.gamma - 1)) := ⟨_, rfl⟩
  obtain ⟨hp0, hcs⟩ := fan_p h haf u p hp
  refine ⟨u, p, ?_, hp0, ⟨rhi_pos h hp0, hp0, entropy_isen h hp0 u, ?_, ?_⟩, by rw [hcs, hux]⟩
  · unfold fanR
    simp only []
    lits
    rw [Py.div_ok (by positivity), Py.ok_bind, Py.div_ok hg.ne', Py.ok_bind, h.asound, Py.ok_bind, ← hu,
      Py.div_ok hc.ne', Py.ok_bind, Py.div_ok hg.ne', Py.ok_bind, Py.pow_ok _ (by positivity), Py.ok_bind,
      ← hp, rho_through_isentropic_ok h hp0]
    rfl
  · show u - 2 * (isen q u p).cs / (q.gamma - 1) = q.u - 2 * q.cs / (q.gamma - 1)
    rw [hcs, hux]
    have hu' : u = x - ((q.gamma - 1) * (x - q.u) + 2 * q.cs) / (q.gamma + 1) := by linarith
    rw [hu']; field_simp; ring
  · show u + (isen q u p).cs = x
    rw [hcs]; ring

/-- the sound speed of an isentropic state orders the pressure -/
theorem isen_cs_lt {q : UState} (h : q.Valid) {p p' : ℝ} (hp : 0 < p) (hp' : 0 < p') (u u' : ℝ)
    (hlt : (isen q u p).cs < (isen q u' p').cs) : p < p' := by
  by_contra hc
  push Not at hc
  have h2 := h.p; have hcs := h.cs_pos
  rw [isen_cs h hp, isen_cs h hp'] at hlt
  have : (p' / q.p) ^ ((q.gamma - 1) / (2 * q.gamma)) ≤ (p / q.p) ^ ((q.gamma - 1) / (2 * q.gamma)) :=
    Real.rpow_le_rpow (by positivity) (div_le_div_of_nonneg_right hc h2.le) (ez_pos h).le
  nlinarith

/-- density, velocity and pressure of a solution element -/
def solFlow (q : UState) : Spec.Flow := ⟨q.rho, q.u, q.p⟩

/-- C61 (partial: every `x/t` except the inner edge of a right expansion): the solution is `qL` left
of the left wave, the two star states around the contact, `qR` right of the right wave, and the
simple wave (with pressure strictly between the two sides) inside expansions. -/
theorem C61_qsol_partial (newton : RootFinder) (hn : SoundRootFinder newton) (qL qR : UState) (hL : qL.Valid)
    (hR : qR.Valid) (hv : NoVacuum qL qR) (s : Pb) (h : Riemann.init newton qL qR = .ok s) (x : ℝ)
    (hx : ¬ (s.pstar < qR.p ∧ x = s.w3)) :
    ∃ r, s.qsol x = .ok r ∧
      (x < s.w0 ∨ (x = s.w0 ∧ s.pstar < qL.p) → solFlow r = flow qL) ∧
      (s.w0 < x → x < s.w1 → InFanL qL x (solFlow r) ∧ s.pstar < r.p ∧ r.p < qL.p) ∧
      (s.w1 ≤ x → x < s.w2 → solFlow r = flow s.qstarL) ∧
      (s.w2 ≤ x → x < s.w3 → solFlow r = flow s.qstarR) ∧
      (s.w3 < x → x < s.w4 → InFanR qR x (solFlow r) ∧ s.pstar < r.p ∧ r.p < qR.p) ∧
      (s.w4 ≤ x → solFlow r = flow qR) := by
  obtain ⟨o1, o2, o3, o4, o5, -, -, aL, aR, asL, asR, haL, haR, -, -, sL, sR, eL, eR⟩ :=
    C60_waves newton hn qL qR hL hR hv s h
  obtain ⟨-, -, jL, jR⟩ := C60_jumps newton hn qL qR hL hR hv s h
  obtain ⟨p, hp, h0, hs⟩ := riemann_init_spec hn hL hR hv h
  rw [hL.asound] at haL
  rw [hR.asound] at haR
  cases haL; cases haR
  have hgL : 0 < qL.gamma - 1 := by linarith [hL.gamma]
  have hgR : 0 < qR.gamma - 1 := by linarith [hR.gamma]
  have e1 : s.pstar = p := by rw [hs]; rfl
  have e2 : s.qL = qL := by rw [hs]; rfl
  have e3 : s.qR = qR := by rw [hs]; rfl
  by_cases cL : s.pstar < qL.p ∧ (x > s.w0 ∧ x < s.w1)
  · -- left fan
    obtain ⟨c1, c2, c3⟩ := cL
    obtain ⟨l1, l2, l3⟩ := eL c1
    have jl := (jL c1.le).2
    have hss : s.qstarL = isen qL s.ustar s.pstar := by
      rw [hs]; show starState qL _ p = _
      unfold starState isen
      rw [if_neg (by rw [e1] at c1; exact not_lt.2 c1.le)]; rfl
    have hpos : 0 < (qL.gamma - 1) * (qL.u - x) + 2 * qL.cs ∧
        s.qstarL.cs < ((qL.gamma - 1) * (qL.u - x) + 2 * qL.cs) / (qL.gamma + 1) := by
      have hc0 : 0 < s.qstarL.cs := by rw [hss, e1]; exact (isen_valid hL hp _).cs_pos
      have hus : s.qstarL.u = s.ustar := by rw [hss]; rfl
      have has : asL = s.qstarL.cs := by
        have : s.w1 = s.ustar - s.qstarL.cs := by
          rw [hs]; show qL.u - df qL p - inner qL _ p = qL.u - df qL p - _
          rw [← hs, hss]; unfold inner
          rw [if_neg (by rw [e1] at c1; exact not_lt.2 c1.le)]
          rw [hs]; rfl
        linarith
      have k : (qL.gamma - 1) * qL.u + 2 * qL.cs = (qL.gamma - 1) * s.ustar + 2 * s.qstarL.cs := by
        rw [hus] at jl; field_simp at jl; linarith
      have hx1 : x < s.ustar - s.qstarL.cs := by rw [← has, ← l3]; exact c3
      have hm : (qL.gamma - 1) * s.qstarL.cs < (qL.gamma - 1) * (s.ustar - x) :=
        mul_lt_mul_of_pos_left (by linarith) hgL
      constructor
      · have : 0 < (qL.gamma - 1) * s.qstarL.cs := by positivity
        nlinarith
      · rw [lt_div_iff₀ (by linarith)]; nlinarith
    obtain ⟨u, pf, f1, f2, f3, f4⟩ := fanL_spec hL hpos.1
    have hr : s.qsol x = .ok ⟨rhi qL pf, u, pf, if x < 0.0 then qL.gamma else qR.gamma⟩ := by
      unfold Pb.qsol
      simp only []
      rw [e2, e3, if_pos ⟨c1, c2, c3⟩, f1, Py.ok_bind, if_neg (by rintro ⟨_, h5, _⟩; linarith)]
      rfl
    refine ⟨_, hr, ?_, ?_, ?_, ?_, ?_, ?_⟩
    · rintro (_ | ⟨_, _⟩) <;> (exfalso; linarith)
    · intro _ _
      refine ⟨f3, ?_, ?_⟩
      · apply isen_cs_lt hL (by rw [e1]; exact hp) f2 s.ustar u
        rw [f4, ← hss]; exact hpos.2
      · have : (isen qL u pf).cs < (isen qL u qL.p).cs := by
          rw [f4, isen_cs hL hL.p, div_self hL.p.ne', Real.one_rpow, mul_one, div_lt_iff₀ (by linarith)]
          have : qL.u - x < qL.cs := by rw [l2] at c2; linarith
          nlinarith
        exact isen_cs_lt hL f2 hL.p u u this
    · intro _ _; exfalso; linarith
    · intro _ _; exfalso; linarith
    · intro _ _; exfalso; linarith
    · intro _; exfalso; linarith
  by_cases cR : s.pstar < qR.p ∧ (x > s.w3 ∧ x < s.w4)
  · -- right fan
    obtain ⟨c1, c2, c3⟩ := cR
    obtain ⟨l1, l2, l3⟩ := eR c1
    have jr := (jR c1.le).2
    have hss : s.qstarR = isen qR s.ustar s.pstar := by
      rw [hs]; show starState qR _ p = _
      unfold starState isen
      rw [if_neg (by rw [e1] at c1; exact not_lt.2 c1.le)]; rfl
    have hpos : 0 < (qR.gamma - 1) * (x - qR.u) + 2 * qR.cs ∧
        s.qstarR.cs < ((qR.gamma - 1) * (x - qR.u) + 2 * qR.cs) / (qR.gamma + 1) := by
      have hc0 : 0 < s.qstarR.cs := by rw [hss, e1]; exact (isen_valid hR hp _).cs_pos
      have hus : s.qstarR.u = s.ustar := by rw [hss]; rfl
      have has : asR = s.qstarR.cs := by
        have : s.w3 = s.ustar + s.qstarR.cs := by
          rw [hs]; show qL.u - df qL p + inner qR _ p = qL.u - df qL p + _
          rw [← hs, hss]; unfold inner
          rw [if_neg (by rw [e1] at c1; exact not_lt.2 c1.le)]
          rw [hs]; rfl
        linarith
      have k : (qR.gamma - 1) * qR.u - 2 * qR.cs = (qR.gamma - 1) * s.ustar - 2 * s.qstarR.cs := by
        rw [hus] at jr; field_simp at jr; linarith
      have hx1 : s.ustar + s.qstarR.cs < x := by rw [← has, ← l3]; exact c2
      have hm : (qR.gamma - 1) * s.qstarR.cs < (qR.gamma - 1) * (x - s.ustar) :=
        mul_lt_mul_of_pos_left (by linarith) hgR
      constructor
      · have : 0 < (qR.gamma - 1) * s.qstarR.cs := by positivity
        nlinarith
      · rw [lt_div_iff₀ (by linarith)]; nlinarith
    obtain ⟨u, pf, f1, f2, f3, f4⟩ := fanR_spec hR hpos.1
    have hr : s.qsol x = .ok ⟨rhi qR pf, u, pf, if x < 0.0 then qL.gamma else qR.gamma⟩ := by
      unfold Pb.qsol
      simp only []
      rw [e2, e3, if_neg cL, Py.pure_eq, Py.ok_bind, if_pos ⟨c1, c2, c3⟩, f1]
      rfl
    refine ⟨_, hr, ?_, ?_, ?_, ?_, ?_, ?_⟩
    · rintro (_ | ⟨_, _⟩) <;> (exfalso; linarith)
    · intro _ _; exfalso; linarith
    · intro _ _; exfalso; linarith
    · intro _ _; exfalso; linarith
    · intro _ _
      refine ⟨f3, ?_, ?_⟩
      · apply isen_cs_lt hR (by rw [e1]; exact hp) f2 s.ustar u
        rw [f4, ← hss]; exact hpos.2
      · have : (isen qR u pf).cs < (isen qR u qR.p).cs := by
          rw [f4, isen_cs hR hR.p, div_self hR.p.ne', Real.one_rpow, mul_one, div_lt_iff₀ (by linarith)]
          have : x - qR.u < qR.cs := by rw [l2] at c3; linarith
          nlinarith
        exact isen_cs_lt hR f2 hR.p u u this
    · intro _; exfalso; linarith
  -- uniform regions
  have hr : s.qsol x = .ok (let q := (if x ≥ s.w4 then prim qR else if x ≥ s.w2 ∧ x < s.w3 then prim s.qstarR
      else if x ≥ s.w1 ∧ x < s.w2 then prim s.qstarL else prim qL);
      ⟨q.rho, q.u, q.p, if x < 0.0 then qL.gamma else qR.gamma⟩) := by
    unfold Pb.qsol
    simp only []
    rw [e2, e3, if_neg cL, Py.pure_eq, Py.ok_bind, if_neg cR]
    rfl
  refine ⟨_, hr, ?_, ?_, ?_, ?_, ?_, ?_⟩
  · intro hh
    have hh : x < s.w1 := by
      rcases hh with hh | ⟨hh, h6⟩
      · linarith
      · have := (eL h6).1; linarith
    simp only []
    rw [if_neg (by intro h5; linarith), if_neg (by rintro ⟨h5, _⟩; linarith), if_neg (by rintro ⟨h5, _⟩; linarith)]
    rfl
  · intro g1 g2
    exfalso
    rcases lt_trichotomy s.pstar qL.p with g | g | g
    · exact cL ⟨g, g1, g2⟩
    · -- no wave: zero width
      have := (width hL hp (qL.u - df qL p)).2.2 (by rw [← g, e1])
      have a0 : s.w0 = qL.u - outer qL p := by rw [hs]; rfl
      have a1 : s.w1 = qL.u - df qL p - inner qL (qL.u - df qL p) p := by rw [hs]; rfl
      linarith
    · have := (sL g).1; linarith
  · intro g1 g2
    simp only []
    rw [if_neg (by intro h5; linarith), if_neg (by rintro ⟨h5, _⟩; linarith), if_pos ⟨g1, g2⟩]
    rfl
  · intro g1 g2
    simp only []
    rw [if_neg (by intro h5; linarith), if_pos ⟨g1, g2⟩]
    rfl
  · intro g1 g2
    exfalso
    rcases lt_trichotomy s.pstar qR.p with g | g | g
    · exact cR ⟨g, g1, g2⟩
    · have := (width hR hp (qL.u - df qL p)).2.2 (by rw [← g, e1])
      have a0 : s.w4 = qR.u + outer qR p := by rw [hs]; rfl
      have a1 : s.w3 = qL.u - df qL p + inner qR (qL.u - df qL p) p := by rw [hs]; rfl
      have e : qL.u - df qL p = qR.u + df qR p := by unfold duf at h0; linarith
      linarith
    · have := (sR g).1; linarith
  · intro g1
    simp only []
    rw [if_pos g1]
    rfl

/-- C61 is false at the inner edge of a right expansion: there `qsol` returns the *left* state. -/
theorem C61_false (newton : RootFinder) (hn : SoundRootFinder newton) (qL qR : UState) (hL : qL.Valid)
    (hR : qR.Valid) (hv : NoVacuum qL qR) (s : Pb) (h : Riemann.init newton qL qR = .ok s)
    (he : s.pstar < qR.p) :
    ∃ r, s.qsol s.w3 = .ok r ∧ solFlow r = flow qL := by
  obtain ⟨o1, o2, o3, o4, o5, -, -, aL, aR, asL, asR, haL, haR, -, -, sL, sR, eL, eR⟩ :=
    C60_waves newton hn qL qR hL hR hv s h
  have := (eR he).1
  obtain ⟨p, hp, h0, hs⟩ := riemann_init_spec hn hL hR hv h
  have e2 : s.qL = qL := by rw [hs]; rfl
  have e3 : s.qR = qR := by rw [hs]; rfl
  refine ⟨⟨qL.rho, qL.u, qL.p, if s.w3 < 0.0 then qL.gamma else qR.gamma⟩, ?_, rfl⟩
  unfold Pb.qsol
  simp only []
  rw [e2, e3, if_neg (by rintro ⟨_, h5, h6⟩; linarith), Py.pure_eq, Py.ok_bind,
    if_neg (by rintro ⟨_, h5, h6⟩; linarith), if_neg (by intro h5; linarith),
    if_neg (by rintro ⟨h5, h6⟩; linarith), if_neg (by rintro ⟨h5, h6⟩; linarith)]
  rfl

/-- C61, gamma of the solution: it is the gamma of the left state for `x/t < 0` and of the right
state otherwise. -/
theorem C61_gamma_partial (s : Pb) (x : ℝ) (r : UState) (h : s.qsol x = .ok r) :
    r.gamma = if x < 0 then s.qL.gamma else s.qR.gamma := by
  have aux : ∀ a b : Py Prim, (do
      let _ ← a
      let q5 ← b
      pure (⟨q5.rho, q5.u, q5.p, if x < 0.0 then s.qL.gamma else s.qR.gamma⟩ : UState)) = .ok r →
      r.gamma = if x < 0 then s.qL.gamma else s.qR.gamma := by
    intro a b hab
    cases a with
    | error e => cases hab
    | ok a =>
      cases b with
      | error e => cases hab
      | ok b =>
        have := Except.ok.inj hab
        rw [← this]
        simp only
        norm_num
  unfold Pb.qsol at h
  simp only [] at h
  split at h
  · cases hf : fanL s.qL x with
    | error e => rw [hf] at h; cases h
    | ok a =>
      rw [hf, Py.ok_bind] at h
      split at h
      · exact aux (.ok a) (fanR s.qR x) h
      · exact aux (.ok a) (.ok a) h
  · rw [Py.pure_eq, Py.ok_bind] at h
    split at h
    · exact aux (.ok (prim s.qL)) (fanR s.qR x) h
    · exact aux (.ok (prim s.qL)) (.ok _) h

/-- C61 is false for two gases: between `x/t = 0` and the contact (moving right), `qsol` returns the
density, velocity and pressure of the left star state with the gamma of the *right* gas. -/
theorem C61_false_gamma (newton : RootFinder) (hn : SoundRootFinder newton) (qL qR : UState) (hL : qL.Valid)
    (hR : qR.Valid) (hv : NoVacuum qL qR) (s : Pb) (h : Riemann.init newton qL qR = .ok s)
    (hg : qL.gamma ≠ qR.gamma) (x : ℝ) (h0 : 0 ≤ x) (h1 : s.w1 ≤ x) (h2 : x < s.w2) :
    ∃ r, s.qsol x = .ok r ∧ solFlow r = flow s.qstarL ∧ r.gamma ≠ s.qstarL.gamma := by
  obtain ⟨o1, o2, o3, o4, -⟩ := C60_waves newton hn qL qR hL hR hv s h
  obtain ⟨r, hr, -, -, h3, -⟩ := C61_qsol_partial newton hn qL qR hL hR hv s h x
    (by rintro ⟨_, h5⟩; linarith)
  refine ⟨r, hr, h3 h1 h2, ?_⟩
  obtain ⟨p, hp, hd, hs⟩ := riemann_init_spec hn hL hR hv h
  rw [C61_gamma_partial s x r hr, if_neg (not_lt.2 h0), hs]
  exact fun h => hg h.symm

/-- both kinds of data of the two refutations occur -/
example : ∃ (newton : RootFinder) (qL qR : UState) (s : Pb), SoundRootFinder newton ∧ qL.Valid ∧ qR.Valid ∧
    NoVacuum qL qR ∧ Riemann.init newton qL qR = .ok s ∧ s.pstar < qR.p := by
  obtain ⟨nf, h1, h2⟩ := exists_soundRootFinder
  have hL : State.Valid ⟨1, -1, 1, 3⟩ := ⟨by norm_num, by norm_num, by norm_num⟩
  have hR : State.Valid ⟨1, 1, 1, 3⟩ := ⟨by norm_num, by norm_num, by norm_num⟩
  have hcs : ∀ u, 1 < State.cs ⟨1, u, 1, 3⟩ := by
    intro u; unfold State.cs; rw [Real.lt_sqrt] <;> norm_num
  have hv : NoVacuum ⟨1, -1, 1, 3⟩ ⟨1, 1, 1, 3⟩ := by
    unfold NoVacuum
    have := hcs (-1); have := hcs 1
    simp only; norm_num; linarith
  obtain ⟨s, hs⟩ := C59_constructs nf h1 h2 _ _ hL hR rfl hv
  refine ⟨nf, _, _, s, h1, hL, hR, hv, hs, ?_⟩
  obtain ⟨p, hp, h0, rfl⟩ := riemann_init_spec h1 hL hR hv hs
  show p < 1
  by_contra hc
  push Not at hc
  have := (duf_strictMono hL hR).monotoneOn (show (0:ℝ) ≤ 1 by norm_num) (show (0:ℝ) ≤ p by linarith) hc
  rw [h0] at this
  have e : duf ⟨1, -1, 1, 3⟩ ⟨1, 1, 1, 3⟩ 1 = 2 := by
    have a := due_self hL; have b := due_self hR
    simp only at a b
    unfold duf df
    simp only [gt_iff_lt, lt_irrefl, if_false]
    rw [a, b]; norm_num
  linarith

/-! ### C62 -/

/-- mirror image of a state -/
def mirror (q : UState) : UState := UState.copysymmetric q
/-- the same state seen from a frame moving at speed `-v` -/
def shift (v : ℝ) (q : UState) : UState := ⟨q.rho, q.u + v, q.p, q.gamma⟩

theorem valid_mirror {q : UState} (h : q.Valid) : State.Valid (mirror q) := ⟨h.rho, h.p, h.gamma⟩
theorem valid_shift {q : UState} (h : q.Valid) (v : ℝ) : State.Valid (shift v q) := ⟨h.rho, h.p, h.gamma⟩

theorem novac_mirror {qL qR : UState} (h : NoVacuum qL qR) : NoVacuum (mirror qR) (mirror qL) := by
  unfold NoVacuum at *
  show -qL.u - -qR.u < 2 * qR.cs / (qR.gamma - 1) + 2 * qL.cs / (qL.gamma - 1)
  linarith
theorem novac_shift {qL qR : UState} (h : NoVacuum qL qR) (v : ℝ) : NoVacuum (shift v qL) (shift v qR) := by
  unfold NoVacuum at *
  show qR.u + v - (qL.u + v) < 2 * qL.cs / (qL.gamma - 1) + 2 * qR.cs / (qR.gamma - 1)
  linarith

theorem outer_mirror (q : UState) (p : ℝ) : outer (mirror q) p = outer q p := rfl
theorem inner_mirror (q : UState) (u u' p : ℝ) : inner (mirror q) u p = inner q u' p := rfl
theorem df_mirror (q : UState) (p : ℝ) : df (mirror q) p = df q p := rfl

/-- the mirrored solved problem -/
def mirrorPb (s : Pb) : Pb :=
  { qL := mirror s.qR, qR := mirror s.qL, pstar := s.pstar, ustar := -s.ustar, qstarL := mirror s.qstarR,
    qstarR := mirror s.qstarL, w0 := -s.w4, w1 := -s.w3, w2 := -s.w2, w3 := -s.w1, w4 := -s.w0 }

/-- the shifted solved problem -/
def shiftPb (v : ℝ) (s : Pb) : Pb :=
  { qL := shift v s.qL, qR := shift v s.qR, pstar := s.pstar, ustar := s.ustar + v, qstarL := shift v s.qstarL,
    qstarR := shift v s.qstarR, w0 := s.w0 + v, w1 := s.w1 + v, w2 := s.w2 + v, w3 := s.w3 + v, w4 := s.w4 + v }

/-- C62: mirroring the data mirrors the solution (pressure kept, velocities and wave speeds negated and
exchanged), whatever sound solvers are used for the two problems. -/
theorem C62_mirror (newton newton' : RootFinder) (hn : SoundRootFinder newton) (hn' : SoundRootFinder newton')
    (qL qR : UState) (hL : qL.Valid) (hR : qR.Valid) (hv : NoVacuum qL qR) (s s' : Pb)
    (h : Riemann.init newton qL qR = .ok s)
    (h' : Riemann.init newton' (UState.copysymmetric qR) (UState.copysymmetric qL) = .ok s') :
    s' = mirrorPb s := by
  obtain ⟨p, hp, h0, rfl⟩ := riemann_init_spec hn hL hR hv h
  obtain ⟨p', hp', h0', rfl⟩ := riemann_init_spec hn' (valid_mirror hR) (valid_mirror hL) (novac_mirror hv) h'
  have hpp : p' = p := by
    apply duf_unique hL hR hp'.le hp.le _ h0
    have : df qR p' + df qL p' + -qL.u - -qR.u = 0 := h0'
    unfold duf; linarith
  subst hpp
  have e : qL.u - df qL p' = qR.u + df qR p' := by unfold duf at h0; linarith
  have e' : -qR.u - df qR p' = -(qL.u - df qL p') := by linarith
  show solPb (mirror qR) (mirror qL) p' = _
  unfold solPb mirrorPb
  simp only [Pb.mk.injEq]
  have m1 : (mirror qR).u - df (mirror qR) p' = -(qL.u - df qL p') := e'
  rw [m1]
  refine ⟨by first | trivial | rfl, by first | trivial | rfl, by first | trivial | rfl, by first | trivial | rfl, by first | trivial | rfl, by first | trivial | rfl, ?_, ?_, by first | trivial | rfl, ?_, ?_⟩
  · show -qR.u - outer qR p' = -(qR.u + outer qR p'); ring
  · show -(qL.u - df qL p') - inner qR _ p' = -(qL.u - df qL p' + inner qR _ p')
    have : inner qR (-(qL.u - df qL p')) p' = inner qR (qL.u - df qL p') p' := rfl
    rw [this]; ring
  · rw [inner_mirror qL _ (qL.u - df qL p')]; ring
  · show -qL.u + outer qL p' = -(qL.u - outer qL p'); ring

/-- C62: adding a constant velocity to the data shifts all velocities and wave speeds by it. -/
theorem C62_galilean (newton newton' : RootFinder) (hn : SoundRootFinder newton) (hn' : SoundRootFinder newton')
    (qL qR : UState) (hL : qL.Valid) (hR : qR.Valid) (hv : NoVacuum qL qR) (v : ℝ) (s s' : Pb)
    (h : Riemann.init newton qL qR = .ok s)
    (h' : Riemann.init newton' (shift v qL) (shift v qR) = .ok s') :
    s' = shiftPb v s := by
  obtain ⟨p, hp, h0, rfl⟩ := riemann_init_spec hn hL hR hv h
  obtain ⟨p', hp', h0', rfl⟩ := riemann_init_spec hn' (valid_shift hL v) (valid_shift hR v) (novac_shift hv v) h'
  have hpp : p' = p := by
    apply duf_unique hL hR hp'.le hp.le _ h0
    have : df qL p' + df qR p' + (qR.u + v) - (qL.u + v) = 0 := h0'
    unfold duf; linarith
  subst hpp
  unfold solPb shiftPb
  simp only [Pb.mk.injEq]
  have m1 : (shift v qL).u - df (shift v qL) p' = qL.u - df qL p' + v := by
    show qL.u + v - df qL p' = _; ring
  rw [m1]
  refine ⟨by first | trivial | rfl, by first | trivial | rfl, by first | trivial | rfl, by first | trivial | rfl, by first | trivial | rfl, by first | trivial | rfl, ?_, ?_, by first | trivial | rfl, ?_, ?_⟩
  · show qL.u + v - outer qL p' = qL.u - outer qL p' + v; ring
  · have : inner (shift v qL) (qL.u - df qL p' + v) p' = inner qL (qL.u - df qL p') p' := rfl
    rw [this]; ring
  · have : inner (shift v qR) (qL.u - df qL p' + v) p' = inner qR (qL.u - df qL p') p' := rfl
    rw [this]; ring
  · show qR.u + v + outer qR p' = qR.u + outer qR p' + v; ring

/-- the constructor also succeeds on the transformed data (so C62 is not vacuous) -/
example : ∃ (nf : RootFinder) (qL qR : UState) (s s' s'' : Pb), SoundRootFinder nf ∧ State.Valid qL ∧ State.Valid qR ∧
    NoVacuum qL qR ∧ Riemann.init nf qL qR = .ok s ∧
    Riemann.init nf (UState.copysymmetric qR) (UState.copysymmetric qL) = .ok s' ∧
    Riemann.init nf (shift 3 qL) (shift 3 qR) = .ok s'' := by
  obtain ⟨nf, h1, h2⟩ := exists_soundRootFinder
  obtain ⟨qL, qR, hL, hR, hg, hv⟩ := sod
  obtain ⟨s, hs⟩ := C59_constructs nf h1 h2 qL qR hL hR hg hv
  obtain ⟨s', hs'⟩ := C59_constructs nf h1 h2 _ _ (valid_mirror hR) (valid_mirror hL) hg.symm (novac_mirror hv)
  obtain ⟨s'', hs''⟩ := C59_constructs nf h1 h2 _ _ (valid_shift hL 3) (valid_shift hR 3) hg (novac_shift hv 3)
  exact ⟨nf, qL, qR, s, s', s'', h1, hL, hR, hv, hs, hs', hs''⟩

/-- elementwise action on solution elements -/
def primShift (v : ℝ) (r : Prim) : Prim := ⟨r.rho, r.u + v, r.p⟩
def primMirror (r : Prim) : Prim := ⟨r.rho, -r.u, r.p⟩

theorem fanL_shift {q : UState} (h : q.Valid) (v x : ℝ) :
    fanL (shift v q) (x + v) = (fanL q x).map (primShift v) := by
  have hg : 0 < q.gamma - 1 := by linarith [h.gamma]
  have hg0 := h.g0
  unfold fanL
  simp only []
  lits
  have e1 : (shift v q).gamma = q.gamma := rfl
  have e2 : State.asound (shift v q) = .ok q.cs := (valid_shift h v).asound
  rw [e1, e2, h.asound, Py.div_ok (by positivity), Py.ok_bind, Py.div_ok hg.ne', Py.ok_bind, Py.ok_bind,
    Py.ok_bind, Py.ok_bind, Py.ok_bind]
  have e3 : (q.gamma - 1) / (q.gamma + 1) * ((shift v q).u + 2 / (q.gamma - 1) * (q.cs + (x + v)))
      = (q.gamma - 1) / (q.gamma + 1) * (q.u + 2 / (q.gamma - 1) * (q.cs + x)) + v := by
    show (q.gamma - 1) / (q.gamma + 1) * (q.u + v + 2 / (q.gamma - 1) * (q.cs + (x + v))) = _
    field_simp; ring
  rw [e3]
  obtain ⟨u, hu⟩ : ∃ u, u = (q.gamma - 1) / (q.gamma + 1) * (q.u + 2 / (q.gamma - 1) * (q.cs + x)) := ⟨_, rfl⟩
  rw [← hu, show u + v - (x + v) = u - x by ring, Py.div_ok h.cs_pos.ne', Py.ok_bind, Py.ok_bind,
    Py.div_ok hg.ne', Py.ok_bind, Py.ok_bind]
  cases hw : Py.pow ((u - x) / q.cs) (2 * q.gamma / (q.gamma - 1)) with
  | error e => rfl
  | ok w =>
    rw [Py.ok_bind, Py.ok_bind]
    show (do let rho ← UState.rho_through_isentropic q (q.p * w); pure _) = _
    cases hr : UState.rho_through_isentropic q (q.p * w) with
    | error e => rfl
    | ok r => rfl

theorem fanR_shift {q : UState} (h : q.Valid) (v x : ℝ) :
    fanR (shift v q) (x + v) = (fanR q x).map (primShift v) := by
  have hg : 0 < q.gamma - 1 := by linarith [h.gamma]
  have hg0 := h.g0
  unfold fanR
  simp only []
  lits
  have e1 : (shift v q).gamma = q.gamma := rfl
  have e2 : State.asound (shift v q) = .ok q.cs := (valid_shift h v).asound
  rw [e1, e2, h.asound, Py.div_ok (by positivity), Py.ok_bind, Py.div_ok hg.ne', Py.ok_bind, Py.ok_bind,
    Py.ok_bind, Py.ok_bind, Py.ok_bind]
  have e3 : (q.gamma - 1) / (q.gamma + 1) * ((shift v q).u + 2 / (q.gamma - 1) * (-q.cs + (x + v)))
      = (q.gamma - 1) / (q.gamma + 1) * (q.u + 2 / (q.gamma - 1) * (-q.cs + x)) + v := by
    show (q.gamma - 1) / (q.gamma + 1) * (q.u + v + 2 / (q.gamma - 1) * (-q.cs + (x + v))) = _
    field_simp; ring
  rw [e3]
  obtain ⟨u, hu⟩ : ∃ u, u = (q.gamma - 1) / (q.gamma + 1) * (q.u + 2 / (q.gamma - 1) * (-q.cs + x)) := ⟨_, rfl⟩
  rw [← hu, show x + v - (u + v) = x - u by ring, Py.div_ok h.cs_pos.ne', Py.ok_bind, Py.ok_bind,
    Py.div_ok hg.ne', Py.ok_bind, Py.ok_bind]
  cases hw : Py.pow ((x - u) / q.cs) (2 * q.gamma / (q.gamma - 1)) with
  | error e => rfl
  | ok w =>
    rw [Py.ok_bind, Py.ok_bind]
    show (do let rho ← UState.rho_through_isentropic q (q.p * w); pure _) = _
    cases hr : UState.rho_through_isentropic q (q.p * w) with
    | error e => rfl
    | ok r => rfl

/-- the left fan of the mirrored right state is the mirrored right fan -/
theorem fanL_mirror {q : UState} (h : q.Valid) (x : ℝ) :
    fanL (mirror q) (-x) = (fanR q x).map primMirror := by
  have hg : 0 < q.gamma - 1 := by linarith [h.gamma]
  have hg0 := h.g0
  unfold fanR fanL
  simp only []
  lits
  have e1 : (mirror q).gamma = q.gamma := rfl
  have e2 : State.asound (mirror q) = .ok q.cs := (valid_mirror h).asound
  rw [e1, e2, h.asound, Py.div_ok (by positivity), Py.ok_bind, Py.div_ok hg.ne', Py.ok_bind, Py.ok_bind,
    Py.ok_bind, Py.ok_bind, Py.ok_bind]
  have e3 : (q.gamma - 1) / (q.gamma + 1) * ((mirror q).u + 2 / (q.gamma - 1) * (q.cs + -x))
      = -((q.gamma - 1) / (q.gamma + 1) * (q.u + 2 / (q.gamma - 1) * (-q.cs + x))) := by
    show (q.gamma - 1) / (q.gamma + 1) * (-q.u + 2 / (q.gamma - 1) * (q.cs + -x)) = _
    field_simp; ring
  rw [e3]
  obtain ⟨u, hu⟩ : ∃ u, u = (q.gamma - 1) / (q.gamma + 1) * (q.u + 2 / (q.gamma - 1) * (-q.cs + x)) := ⟨_, rfl⟩
  rw [← hu, show -u - -x = x - u by ring, Py.div_ok h.cs_pos.ne', Py.ok_bind, Py.ok_bind,
    Py.div_ok hg.ne', Py.ok_bind, Py.ok_bind]
  cases hw : Py.pow ((x - u) / q.cs) (2 * q.gamma / (q.gamma - 1)) with
  | error e => rfl
  | ok w =>
    rw [Py.ok_bind, Py.ok_bind]
    show (do let rho ← UState.rho_through_isentropic q (q.p * w); pure _) = _
    cases hr : UState.rho_through_isentropic q (q.p * w) with
    | error e => rfl
    | ok r => rfl

/-- the right fan of the mirrored left state is the mirrored left fan -/
theorem fanR_mirror {q : UState} (h : q.Valid) (x : ℝ) :
    fanR (mirror q) (-x) = (fanL q x).map primMirror := by
  have hg : 0 < q.gamma - 1 := by linarith [h.gamma]
  have hg0 := h.g0
  unfold fanR fanL
  simp only []
  lits
  have e1 : (mirror q).gamma = q.gamma := rfl
  have e2 : State.asound (mirror q) = .ok q.cs := (valid_mirror h).asound
  rw [e1, e2, h.asound, Py.div_ok (by positivity), Py.ok_bind, Py.div_ok hg.ne', Py.ok_bind, Py.ok_bind,
    Py.ok_bind, Py.ok_bind, Py.ok_bind]
  have e3 : (q.gamma - 1) / (q.gamma + 1) * ((mirror q).u + 2 / (q.gamma - 1) * (-q.cs + -x))
      = -((q.gamma - 1) / (q.gamma + 1) * (q.u + 2 / (q.gamma - 1) * (q.cs + x))) := by
    show (q.gamma - 1) / (q.gamma + 1) * (-q.u + 2 / (q.gamma - 1) * (-q.cs + -x)) = _
    field_simp; ring
  rw [e3]
  obtain ⟨u, hu⟩ : ∃ u, u = (q.gamma - 1) / (q.gamma + 1) * (q.u + 2 / (q.gamma - 1) * (q.cs + x)) := ⟨_, rfl⟩
  rw [← hu, show -x - -u = u - x by ring, Py.div_ok h.cs_pos.ne', Py.ok_bind, Py.ok_bind,
    Py.div_ok hg.ne', Py.ok_bind, Py.ok_bind]
  cases hw : Py.pow ((u - x) / q.cs) (2 * q.gamma / (q.gamma - 1)) with
  | error e => rfl
  | ok w =>
    rw [Py.ok_bind, Py.ok_bind]
    show (do let rho ← UState.rho_through_isentropic q (q.p * w); pure _) = _
    cases hr : UState.rho_through_isentropic q (q.p * w) with
    | error e => rfl
    | ok r => rfl

/-- ordered wave speeds -/
structure Ordered (s : Pb) : Prop where
  o1 : s.w0 ≤ s.w1
  o2 : s.w1 < s.w2
  o3 : s.w2 < s.w3
  o4 : s.w3 ≤ s.w4

/-- element of the solution with the gamma of `np.where` -/
noncomputable def withG (s : Pb) (x : ℝ) (r : Prim) : UState :=
  ⟨r.rho, r.u, r.p, if x < 0.0 then s.qL.gamma else s.qR.gamma⟩

/-- the six sampling intervals of `qsol` (plus the forgotten one, the inner edge of the right wave) -/
theorem qsol_regions (s : Pb) (o : Ordered s) (x : ℝ) :
    (x < s.w1 → ¬ (s.pstar < s.qL.p ∧ s.w0 < x) → s.qsol x = .ok (withG s x (prim s.qL))) ∧
    (s.pstar < s.qL.p → s.w0 < x → x < s.w1 → s.qsol x = (fanL s.qL x).map (withG s x)) ∧
    (s.w1 ≤ x → x < s.w2 → s.qsol x = .ok (withG s x (prim s.qstarL))) ∧
    (s.w2 ≤ x → x < s.w3 → s.qsol x = .ok (withG s x (prim s.qstarR))) ∧
    (s.w3 ≤ x → x < s.w4 → ¬ (s.pstar < s.qR.p ∧ s.w3 < x) → s.qsol x = .ok (withG s x (prim s.qL))) ∧
    (s.pstar < s.qR.p → s.w3 < x → x < s.w4 → s.qsol x = (fanR s.qR x).map (withG s x)) ∧
    (s.w4 ≤ x → s.qsol x = .ok (withG s x (prim s.qR))) := by
  obtain ⟨o1, o2, o3, o4⟩ := o
  unfold Pb.qsol
  simp only []
  refine ⟨?_, ?_, ?_, ?_, ?_, ?_, ?_⟩
  · intro h1 h2
    rw [if_neg (fun h5 => h2 ⟨h5.1, h5.2.1⟩), Py.pure_eq, Py.ok_bind, if_neg (by rintro ⟨_, h5, h6⟩; linarith),
      if_neg (by intro h5; linarith), if_neg (by rintro ⟨h5, h6⟩; linarith), if_neg (by rintro ⟨h5, h6⟩; linarith)]
    rfl
  · intro h0 h1 h2
    rw [if_pos ⟨h0, h1, h2⟩]
    cases fanL s.qL x with
    | error e => rfl
    | ok r => rw [Py.ok_bind, if_neg (by rintro ⟨_, h5, h6⟩; linarith)]; rfl
  · intro h1 h2
    rw [if_neg (by rintro ⟨_, h5, h6⟩; linarith), Py.pure_eq, Py.ok_bind, if_neg (by rintro ⟨_, h5, h6⟩; linarith),
      if_neg (by intro h5; linarith), if_neg (by rintro ⟨h5, h6⟩; linarith), if_pos ⟨h1, h2⟩]
    rfl
  · intro h1 h2
    rw [if_neg (by rintro ⟨_, h5, h6⟩; linarith), Py.pure_eq, Py.ok_bind, if_neg (by rintro ⟨_, h5, h6⟩; linarith),
      if_neg (by intro h5; linarith), if_pos ⟨h1, h2⟩]
    rfl
  · intro h1 h2 h3
    rw [if_neg (by rintro ⟨_, h5, h6⟩; linarith), Py.pure_eq, Py.ok_bind, if_neg (fun h5 => h3 ⟨h5.1, h5.2.1⟩),
      if_neg (by intro h5; linarith), if_neg (by rintro ⟨h5, h6⟩; linarith), if_neg (by rintro ⟨h5, h6⟩; linarith)]
    rfl
  · intro h0 h1 h2
    rw [if_neg (by rintro ⟨_, h5, h6⟩; linarith), Py.pure_eq, Py.ok_bind, if_pos ⟨h0, h1, h2⟩]
    cases fanR s.qR x with
    | error e => rfl
    | ok r => rfl
  · intro h1
    rw [if_neg (by rintro ⟨_, h5, h6⟩; linarith), Py.pure_eq, Py.ok_bind, if_neg (by rintro ⟨_, h5, h6⟩; linarith),
      if_pos h1]
    rfl

/-- C62: for one gas, the sampled solution of the shifted problem at `x/t + v` is the sampled solution
of the original problem at `x/t`, with `v` added to the velocity -- for every `x/t`. -/
theorem C62_galilean_qsol (newton newton' : RootFinder) (hn : SoundRootFinder newton)
    (hn' : SoundRootFinder newton') (qL qR : UState) (hL : qL.Valid) (hR : qR.Valid) (hv : NoVacuum qL qR)
    (hg : qL.gamma = qR.gamma) (v : ℝ) (s s' : Pb) (h : Riemann.init newton qL qR = .ok s)
    (h' : Riemann.init newton' (shift v qL) (shift v qR) = .ok s') (x : ℝ) :
    s'.qsol (x + v) = (s.qsol x).map (shift v) := by
  rw [C62_galilean newton newton' hn hn' qL qR hL hR hv v s s' h h']
  obtain ⟨o1, o2, o3, o4, -⟩ := C60_waves newton hn qL qR hL hR hv s h
  obtain ⟨p, hp, h0, hs⟩ := riemann_init_spec hn hL hR hv h
  have e2 : s.qL = qL := by rw [hs]; rfl
  have e3 : s.qR = qR := by rw [hs]; rfl
  have hL' : State.Valid s.qL := e2 ▸ hL
  have hR' : State.Valid s.qR := e3 ▸ hR
  have hg' : s.qL.gamma = s.qR.gamma := by rw [e2, e3, hg]
  have O : Ordered s := ⟨o1, o2, o3, o4⟩
  have b0 : (shiftPb v s).w0 = s.w0 + v := rfl
  have b1 : (shiftPb v s).w1 = s.w1 + v := rfl
  have b2 : (shiftPb v s).w2 = s.w2 + v := rfl
  have b3 : (shiftPb v s).w3 = s.w3 + v := rfl
  have b4 : (shiftPb v s).w4 = s.w4 + v := rfl
  have O' : Ordered (shiftPb v s) := by
    constructor
    · rw [b0, b1]; linarith
    · rw [b1, b2]; linarith
    · rw [b2, b3]; linarith
    · rw [b3, b4]; linarith
  have a0 : (shiftPb v s).qL = shift v s.qL := rfl
  have a1 : (shiftPb v s).qR = shift v s.qR := rfl
  have b5 : (shiftPb v s).pstar = s.pstar := rfl
  have pL : (shift v s.qL).p = s.qL.p := rfl
  have pR : (shift v s.qR).p = s.qR.p := rfl
  obtain ⟨r0, r1, r2, r3, r4, r5, r6⟩ := qsol_regions s O x
  obtain ⟨t0, t1, t2, t3, t4, t5, t6⟩ := qsol_regions _ O' (x + v)
  rw [b0, b1, b5, a0, pL] at t0 t1
  rw [b1, b2] at t2
  rw [b2, b3] at t3
  rw [b3, b4, a1, b5, pR] at t4 t5
  rw [b4] at t6
  have key : ∀ r : Prim, withG (shiftPb v s) (x + v) (primShift v r) = shift v (withG s x r) := by
    intro r
    have e4 : ∀ y : ℝ, (if y < 0.0 then s.qL.gamma else s.qR.gamma) = s.qR.gamma := by
      intro y; split
      · exact hg'
      · rfl
    have : (⟨r.rho, r.u + v, r.p, if x + v < 0.0 then s.qL.gamma else s.qR.gamma⟩ : UState)
      = ⟨r.rho, r.u + v, r.p, if x < 0.0 then s.qL.gamma else s.qR.gamma⟩ := by rw [e4, e4]
    exact this
  by_cases c1 : x < s.w1
  · by_cases cf : s.pstar < s.qL.p ∧ s.w0 < x
    · rw [r1 cf.1 cf.2 c1, t1 cf.1 (by linarith [cf.2]) (by linarith), fanL_shift hL']
      cases fanL s.qL x with
      | error e => rfl
      | ok r => exact congrArg Except.ok (key r)
    · rw [r0 c1 cf, t0 (by linarith) (fun h5 => cf ⟨h5.1, by linarith [h5.2]⟩)]
      exact congrArg Except.ok (key (prim s.qL))
  push Not at c1
  by_cases c2 : x < s.w2
  · rw [r2 c1 c2, t2 (by linarith) (by linarith)]
    exact congrArg Except.ok (key (prim s.qstarL))
  push Not at c2
  by_cases c3 : x < s.w3
  · rw [r3 c2 c3, t3 (by linarith) (by linarith)]
    exact congrArg Except.ok (key (prim s.qstarR))
  push Not at c3
  by_cases c4 : x < s.w4
  · by_cases cf : s.pstar < s.qR.p ∧ s.w3 < x
    · rw [r5 cf.1 cf.2 c4, t5 cf.1 (by linarith [cf.2]) (by linarith), fanR_shift hR']
      cases fanR s.qR x with
      | error e => rfl
      | ok r => exact congrArg Except.ok (key r)
    · rw [r4 c3 c4 cf, t4 (by linarith) (by linarith) (fun h5 => cf ⟨h5.1, by linarith [h5.2]⟩)]
      exact congrArg Except.ok (key (prim s.qL))
  push Not at c4
  rw [r6 c4, t6 (by linarith)]
  exact congrArg Except.ok (key (prim s.qR))

/-- C62: the sampled solution of the mirrored problem at `-x/t` is the mirrored sampled solution at
`x/t`, for every `x/t` that is not a wave speed (and not 0, where the two conventions of the sampling
intervals differ). -/
theorem C62_mirror_qsol (newton newton' : RootFinder) (hn : SoundRootFinder newton)
    (hn' : SoundRootFinder newton') (qL qR : UState) (hL : qL.Valid) (hR : qR.Valid) (hv : NoVacuum qL qR)
    (s s' : Pb) (h : Riemann.init newton qL qR = .ok s)
    (h' : Riemann.init newton' (UState.copysymmetric qR) (UState.copysymmetric qL) = .ok s') (x : ℝ)
    (hx : x ≠ 0) (n0 : x ≠ s.w0) (n1 : x ≠ s.w1) (n2 : x ≠ s.w2) (n3 : x ≠ s.w3) (n4 : x ≠ s.w4) :
    s'.qsol (-x) = (s.qsol x).map UState.copysymmetric := by
  rw [C62_mirror newton newton' hn hn' qL qR hL hR hv s s' h h']
  obtain ⟨o1, o2, o3, o4, -⟩ := C60_waves newton hn qL qR hL hR hv s h
  obtain ⟨p, hp, h0, hs⟩ := riemann_init_spec hn hL hR hv h
  have e1 : s.pstar = p := by rw [hs]; rfl
  have e2 : s.qL = qL := by rw [hs]; rfl
  have e3 : s.qR = qR := by rw [hs]; rfl
  have hL' : State.Valid s.qL := e2 ▸ hL
  have hR' : State.Valid s.qR := e3 ▸ hR
  -- an interval between distinct wave speeds is an expansion
  have kL : s.w0 < s.w1 → s.pstar < s.qL.p := by
    intro hlt
    by_contra hc
    push Not at hc
    have := (width hL hp (qL.u - df qL p)).2.2 (by rw [← e1, ← e2]; exact hc)
    have a0 : s.w0 = qL.u - outer qL p := by rw [hs]; rfl
    have a1 : s.w1 = qL.u - df qL p - inner qL (qL.u - df qL p) p := by rw [hs]; rfl
    linarith
  have kR : s.w3 < s.w4 → s.pstar < s.qR.p := by
    intro hlt
    by_contra hc
    push Not at hc
    have := (width hR hp (qL.u - df qL p)).2.2 (by rw [← e1, ← e3]; exact hc)
    have a0 : s.w4 = qR.u + outer qR p := by rw [hs]; rfl
    have a1 : s.w3 = qL.u - df qL p + inner qR (qL.u - df qL p) p := by rw [hs]; rfl
    have e : qL.u - df qL p = qR.u + df qR p := by unfold duf at h0; linarith
    linarith
  have O : Ordered s := ⟨o1, o2, o3, o4⟩
  have b0 : (mirrorPb s).w0 = -s.w4 := rfl
  have b1 : (mirrorPb s).w1 = -s.w3 := rfl
  have b2 : (mirrorPb s).w2 = -s.w2 := rfl
  have b3 : (mirrorPb s).w3 = -s.w1 := rfl
  have b4 : (mirrorPb s).w4 = -s.w0 := rfl
  have O' : Ordered (mirrorPb s) := by
    constructor
    · rw [b0, b1]; linarith
    · rw [b1, b2]; linarith
    · rw [b2, b3]; linarith
    · rw [b3, b4]; linarith
  have a0 : (mirrorPb s).qL = mirror s.qR := rfl
  have a1 : (mirrorPb s).qR = mirror s.qL := rfl
  have b5 : (mirrorPb s).pstar = s.pstar := rfl
  have pL : (mirror s.qL).p = s.qL.p := rfl
  have pR : (mirror s.qR).p = s.qR.p := rfl
  obtain ⟨r0, r1, r2, r3, r4, r5, r6⟩ := qsol_regions s O x
  obtain ⟨t0, t1, t2, t3, t4, t5, t6⟩ := qsol_regions _ O' (-x)
  rw [b0, b1, b5, a0, pR] at t0 t1
  rw [b1, b2] at t2
  rw [b2, b3] at t3
  rw [b3, b4, a1, b5, pL] at t4 t5
  rw [b4] at t6
  have key : ∀ r : Prim, withG (mirrorPb s) (-x) (primMirror r) = UState.copysymmetric (withG s x r) := by
    intro r
    have g : (if -x < 0.0 then s.qR.gamma else s.qL.gamma) = (if x < 0.0 then s.qL.gamma else s.qR.gamma) := by
      lits
      rcases lt_or_gt_of_ne hx with hx | hx
      · rw [if_neg (by linarith), if_pos hx]
      · rw [if_pos (by linarith), if_neg (by linarith)]
    have : (⟨r.rho, -r.u, r.p, if -x < 0.0 then s.qR.gamma else s.qL.gamma⟩ : UState)
      = ⟨r.rho, -r.u, r.p, if x < 0.0 then s.qL.gamma else s.qR.gamma⟩ := by rw [g]
    exact this
  by_cases c0 : x < s.w0
  · rw [r0 (by linarith) (fun h5 => by linarith [h5.2]), t6 (by linarith)]
    exact congrArg Except.ok (key (prim s.qL))
  have c0' : s.w0 < x := lt_of_le_of_ne (not_lt.1 c0) (Ne.symm n0)
  by_cases c1 : x < s.w1
  · have hk := kL (c0'.trans c1)
    rw [r1 hk c0' c1, t5 hk (by linarith) (by linarith), fanR_mirror hL']
    cases fanL s.qL x with
    | error e => rfl
    | ok r => exact congrArg Except.ok (key r)
  have c1' : s.w1 < x := lt_of_le_of_ne (not_lt.1 c1) (Ne.symm n1)
  by_cases c2 : x < s.w2
  · rw [r2 c1'.le c2, t3 (by linarith) (by linarith)]
    exact congrArg Except.ok (key (prim s.qstarL))
  have c2' : s.w2 < x := lt_of_le_of_ne (not_lt.1 c2) (Ne.symm n2)
  by_cases c3 : x < s.w3
  · rw [r3 c2'.le c3, t2 (by linarith) (by linarith)]
    exact congrArg Except.ok (key (prim s.qstarR))
  have c3' : s.w3 < x := lt_of_le_of_ne (not_lt.1 c3) (Ne.symm n3)
  by_cases c4 : x < s.w4
  · have hk := kR (c3'.trans c4)
    rw [r5 hk c3' c4, t1 hk (by linarith) (by linarith), fanL_mirror hR']
    cases fanR s.qR x with
    | error e => rfl
    | ok r => exact congrArg Except.ok (key r)
  have c4' : s.w4 < x := lt_of_le_of_ne (not_lt.1 c4) (Ne.symm n4)
  rw [r6 c4'.le, t0 (by linarith) (fun h5 => by linarith [h5.2])]
  exact congrArg Except.ok (key (prim s.qR))

/-! ### C63 -/

/-- C63: when the gammas are equal and the root of the velocity-jump function is not above either
pressure (both waves are expansions), the two-expansion estimate *is* that root. -/
theorem C63_exact (qL qR : UState) (hL : qL.Valid) (hR : qR.Valid) (hg : qL.gamma = qR.gamma) (p : ℝ)
    (hp : 0 < p) (hr : du qL qR p = .ok 0) (h1 : p ≤ qL.p) (h2 : p ≤ qR.p) :
    pstar_estimate_expansion qL qR = .ok p := by
  rw [du_ok hL hR hp.le] at hr
  have h0 : duf qL qR p = 0 := Except.ok.inj hr
  have hg1 : 0 < qL.gamma - 1 := by linarith [hL.gamma]
  have hg0 := hL.g0
  have cL := hL.cs_pos; have cR := hR.cs_pos
  obtain ⟨z, hz⟩ : ∃ z, z = (qL.gamma - 1) / (2 * qL.gamma) := ⟨_, rfl⟩
  have hz0 : 0 < z := by rw [hz]; positivity
  rw [estimate_ok hL hR hg z hz]
  have wL := Real.rpow_pos_of_pos hL.p z
  have wR := Real.rpow_pos_of_pos hR.p z
  have w := Real.rpow_pos_of_pos hp z
  have hb : (qL.cs + qR.cs - (qL.gamma - 1) / 2 * (qR.u - qL.u)) / (qL.cs / qL.p ^ z + qR.cs / qR.p ^ z) = p ^ z := by
    rw [div_eq_iff (by positivity)]
    unfold duf df at h0
    rw [if_neg (not_lt.2 h1), if_neg (not_lt.2 h2)] at h0
    unfold due at h0
    rw [← hg, ← hz, Real.div_rpow hp.le hL.p.le, Real.div_rpow hp.le hR.p.le] at h0
    have e : p ^ z * (qL.cs / qL.p ^ z + qR.cs / qR.p ^ z) - (qL.cs + qR.cs) + (qL.gamma - 1) / 2 * (qR.u - qL.u)
        = (qL.gamma - 1) / 2 * (2 * qL.cs / (qL.gamma - 1) * (p ^ z / qL.p ^ z - 1) +
          2 * qR.cs / (qL.gamma - 1) * (p ^ z / qR.p ^ z - 1) + qR.u - qL.u) := by
      field_simp; ring
    rw [h0, mul_zero] at e
    linarith
  rw [hb, Py.pow_ok _ w, ← Real.rpow_mul hp.le, mul_one_div_cancel hz0.ne', Real.rpow_one]

/-- a symmetric double expansion meets the hypotheses -/
example : ∃ (qL qR : UState) (p : ℝ), qL.Valid ∧ qR.Valid ∧ qL.gamma = qR.gamma ∧ 0 < p ∧
    du qL qR p = .ok 0 ∧ p < qL.p ∧ p < qR.p := by
  have hL : State.Valid ⟨1, -1, 1, 3⟩ := ⟨by norm_num, by norm_num, by norm_num⟩
  have hR : State.Valid ⟨1, 1, 1, 3⟩ := ⟨by norm_num, by norm_num, by norm_num⟩
  have hcs : ∀ u, 1 < State.cs ⟨1, u, 1, 3⟩ := by
    intro u; unfold State.cs; rw [Real.lt_sqrt] <;> norm_num
  have hv : NoVacuum ⟨1, -1, 1, 3⟩ ⟨1, 1, 1, 3⟩ := by
    unfold NoVacuum
    have := hcs (-1); have := hcs 1
    simp only; norm_num; linarith
  obtain ⟨p, hp, h0⟩ := (duf_root hL hR).2 hv
  have hlt : p < 1 := by
    by_contra hc
    push Not at hc
    have := (duf_strictMono hL hR).monotoneOn (show (0:ℝ) ≤ 1 by norm_num) (show (0:ℝ) ≤ p by linarith) hc
    rw [h0] at this
    have e : duf ⟨1, -1, 1, 3⟩ ⟨1, 1, 1, 3⟩ 1 = 2 := by
      have a := due_self hL; have b := due_self hR
      simp only at a b
      unfold duf df
      simp only [gt_iff_lt, lt_irrefl, if_false]
      rw [a, b]; norm_num
    linarith
  exact ⟨_, _, p, hL, hR, rfl, hp, by rw [du_ok hL hR hp.le, h0], hlt, hlt⟩

end Aerokit.Props
