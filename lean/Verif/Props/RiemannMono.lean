import Verif.Props.RiemannScale

/-! # Property C116: how the star state of a Riemann problem depends on the data -/

namespace Aerokit.Props
open Isentropic Model1D Unsteady1D Riemann Real
open MassFlow (RootFinder)
open Spec

/-- the same state with another velocity -/
def atU (q : UState) (u : ℝ) : UState := ⟨q.rho, u, q.p, q.gamma⟩
/-- the same state with another pressure -/
def atP (q : UState) (p : ℝ) : UState := ⟨q.rho, q.u, p, q.gamma⟩
/-- the same state with another density -/
def atRho (q : UState) (r : ℝ) : UState := ⟨r, q.u, q.p, q.gamma⟩

theorem df_lt_of_p {q : UState} (h : q.Valid) {P p : ℝ} (hP : q.p < P) (hp : 0 < p) : df (atP q P) p < df q p := by
  have hP0 : 0 < P := h.p.trans hP
  have h' : State.Valid (atP q P) := ⟨h.rho, hP0, h.gamma⟩
  have hg : 0 < q.gamma - 1 := by linarith [h.gamma]
  have hg0 := h.g0
  have hρ := h.rho
  unfold df
  show (if p > P then _ else _) < _
  rcases lt_or_ge P p with h1 | h1
  · rw [if_pos h1, if_pos (hP.trans h1)]
    unfold dus
    show (p - P) / (q.rho * SS (atP q P) p) < (p - q.p) / (q.rho * SS q p)
    have s1 := SS_pos h hp
    have s2 : SS q p < SS (atP q P) p := by
      unfold SS KK atP
      simp only
      apply Real.sqrt_lt_sqrt
      · have := KK_pos h hp
        unfold KK at this
        exact div_nonneg this.le (by positivity)
      · rw [div_lt_div_iff_of_pos_right (by positivity)]
        have := mul_lt_mul_of_pos_left hP hg
        linarith
    have s3 := s1.trans s2
    rw [div_lt_div_iff₀ (by positivity) (by positivity)]
    have a1 : (p - P) * (q.rho * SS q p) < (p - q.p) * (q.rho * SS q p) :=
      mul_lt_mul_of_pos_right (by linarith) (by positivity)
    have a2 : (p - q.p) * (q.rho * SS q p) < (p - q.p) * (q.rho * SS (atP q P) p) :=
      mul_lt_mul_of_pos_left (mul_lt_mul_of_pos_left s2 hρ) (by linarith)
    linarith
  · rw [if_neg (not_lt.2 h1)]
    have hz := ez_pos h
    have c2 : q.cs < State.cs (atP q P) := by
      unfold State.cs atP
      simp only
      apply Real.sqrt_lt_sqrt
      · have := h.p; positivity
      · rw [div_lt_div_iff_of_pos_right hρ]
        exact mul_lt_mul_of_pos_left hP hg0
    have c1 := h.cs_pos
    have w2 : (p / P) ^ ((q.gamma - 1) / (2 * q.gamma)) ≤ 1 :=
      Real.rpow_le_one (by positivity) ((div_le_one hP0).2 h1) hz.le
    rcases lt_or_ge q.p p with h2 | h2
    · rw [if_pos h2]
      have : 0 < dus q p := by
        have := dus_strictMono h h.p (h.p.trans h2) h2
        rwa [dus_self] at this
      refine lt_of_le_of_lt ?_ this
      unfold due
      show 2 * State.cs (atP q P) / (q.gamma - 1) * ((p / P) ^ ((q.gamma - 1) / (2 * q.gamma)) - 1) ≤ 0
      apply mul_nonpos_of_nonneg_of_nonpos _ (by linarith)
      exact div_nonneg (by linarith) hg.le
    · rw [if_neg (not_lt.2 h2)]
      unfold due
      show 2 * State.cs (atP q P) / (q.gamma - 1) * ((p / P) ^ ((q.gamma - 1) / (2 * q.gamma)) - 1)
        < 2 * q.cs / (q.gamma - 1) * ((p / q.p) ^ ((q.gamma - 1) / (2 * q.gamma)) - 1)
      have hq := h.p
      have w1 : (p / q.p) ^ ((q.gamma - 1) / (2 * q.gamma)) ≤ 1 :=
        Real.rpow_le_one (by positivity) ((div_le_one hq).2 h2) hz.le
      have w3 : (p / P) ^ ((q.gamma - 1) / (2 * q.gamma)) < (p / q.p) ^ ((q.gamma - 1) / (2 * q.gamma)) :=
        Real.rpow_lt_rpow (by positivity) (div_lt_div_of_pos_left hp hq hP) hz
      obtain ⟨x, hx⟩ : ∃ x, x = (p / P) ^ ((q.gamma - 1) / (2 * q.gamma)) := ⟨_, rfl⟩
      obtain ⟨y, hy⟩ : ∃ y, y = (p / q.p) ^ ((q.gamma - 1) / (2 * q.gamma)) := ⟨_, rfl⟩
      rw [← hx] at w2 w3 ⊢
      rw [← hy] at w1 w3 ⊢
      have k : State.cs (atP q P) * (x - 1) < q.cs * (y - 1) := by nlinarith
      have := mul_lt_mul_of_pos_left k (show 0 < 2 / (q.gamma - 1) by positivity)
      calc _ = 2 / (q.gamma - 1) * (State.cs (atP q P) * (x - 1)) := by ring
        _ < _ := this
        _ = _ := by ring

theorem df_rho {q : UState} (h : q.Valid) {r p : ℝ} (hr : 0 < r) (hp : 0 < p) : df (atRho q r) p = √(q.rho / r) * df q p := by
  have hρ := h.rho
  have hq := h.p
  have hg : 0 < q.gamma - 1 := by linarith [h.gamma]
  have hg0 := h.g0
  unfold df
  show (if p > q.p then _ else _) = _
  by_cases hc : p > q.p
  · rw [if_pos hc, if_pos hc]
    unfold dus
    show (p - q.p) / (r * SS (atRho q r) p) = _
    have hK := KK_pos h hp
    have e : SS (atRho q r) p = √(q.rho / r) * SS q p := by
      unfold SS
      rw [show KK (atRho q r) p = KK q p from rfl, ← Real.sqrt_mul (by positivity)]
      congr 1
      show KK q p / (2 * r) = _
      field_simp
    have e2 : √(q.rho / r) ^ 2 = q.rho / r := Real.sq_sqrt (by positivity)
    have s0 : 0 < √(q.rho / r) := Real.sqrt_pos.2 (by positivity)
    have s1 := SS_pos h hp
    rw [e]
    obtain ⟨t, ht⟩ : ∃ t, t = √(q.rho / r) := ⟨_, rfl⟩
    rw [← ht] at e2 s0 ⊢
    have : q.rho = t ^ 2 * r := by rw [e2]; field_simp
    rw [this]
    field_simp
  · rw [if_neg hc, if_neg hc]
    unfold due
    have e : State.cs (atRho q r) = √(q.rho / r) * q.cs := by
      unfold State.cs
      rw [← Real.sqrt_mul (by positivity)]
      congr 1
      show q.gamma * q.p / r = _
      field_simp
    rw [e]
    show 2 * (√(q.rho / r) * q.cs) / (q.gamma - 1) * ((p / q.p) ^ ((q.gamma - 1) / (2 * q.gamma)) - 1) = _
    ring

/-- comparison of two solved problems -/
theorem star_compare {n n' : RootFinder} (hn : SoundRootFinder n) (hn' : SoundRootFinder n') {qL qR qL' qR' : UState}
    (hL : qL.Valid) (hR : qR.Valid) (hL' : qL'.Valid) (hR' : qR'.Valid) (hv : NoVacuum qL qR) (hv' : NoVacuum qL' qR') {s s' : Pb}
    (h : Riemann.init n qL qR = .ok s) (h' : Riemann.init n' qL' qR' = .ok s')
    (hd : ∀ p, 0 < p → duf qL qR p = 0 → duf qL' qR' p < 0) :
    s.pstar < s'.pstar ∧ 0 < s.pstar ∧ s.ustar = qL.u - df qL s.pstar ∧ s.ustar = qR.u + df qR s.pstar ∧
      s'.ustar = qL'.u - df qL' s'.pstar ∧ s'.ustar = qR'.u + df qR' s'.pstar := by
  obtain ⟨p, hp, h0, rfl⟩ := riemann_init_spec hn hL hR hv h
  obtain ⟨p', hp', h0', rfl⟩ := riemann_init_spec hn' hL' hR' hv' h'
  refine ⟨?_, hp, rfl, ?_, rfl, ?_⟩
  · show p < p'
    by_contra hc
    push Not at hc
    have := (duf_strictMono hL' hR').monotoneOn hp'.le hp.le hc
    rw [h0'] at this
    exact absurd (hd p hp h0) (not_lt.2 this)
  · show qL.u - df qL p = _
    unfold duf at h0; show qL.u - df qL p = qR.u + df qR p; linarith
  · show qL'.u - df qL' p' = qR'.u + df qR' p'
    unfold duf at h0'; linarith

/-- C116 (velocities): a faster left gas raises the star pressure and the contact velocity; a faster right gas lowers
the star pressure and raises the contact velocity. -/
theorem C116_velocity (n n' : RootFinder) (hn : SoundRootFinder n) (hn' : SoundRootFinder n') (qL qR : UState)
    (hL : qL.Valid) (hR : qR.Valid) (hv : NoVacuum qL qR) (s s' : Pb) (h : Riemann.init n qL qR = .ok s) (w : ℝ) :
    (qL.u < w → Riemann.init n' ⟨qL.rho, w, qL.p, qL.gamma⟩ qR = .ok s' → s.pstar < s'.pstar ∧ s.ustar < s'.ustar) ∧
    (qR.u < w → NoVacuum qL ⟨qR.rho, w, qR.p, qR.gamma⟩ → Riemann.init n' qL ⟨qR.rho, w, qR.p, qR.gamma⟩ = .ok s' →
      s'.pstar < s.pstar ∧ s.ustar < s'.ustar) := by
  constructor
  · intro hw h'
    have hL' : State.Valid (⟨qL.rho, w, qL.p, qL.gamma⟩ : UState) := ⟨hL.rho, hL.p, hL.gamma⟩
    have hv' : NoVacuum (⟨qL.rho, w, qL.p, qL.gamma⟩ : UState) qR := by
      unfold NoVacuum at *
      show qR.u - w < 2 * qL.cs / (qL.gamma - 1) + 2 * qR.cs / (qR.gamma - 1)
      linarith
    obtain ⟨a1, a2, -, a3, -, a4⟩ := star_compare hn hn' hL hR hL' hR hv hv' h h' (by
      intro p hp h0
      have : df (⟨qL.rho, w, qL.p, qL.gamma⟩ : UState) p = df qL p := rfl
      unfold duf at h0 ⊢
      rw [this]
      show df qL p + df qR p + qR.u - w < 0
      linarith)
    refine ⟨a1, ?_⟩
    rw [a3, a4]
    have := df_strictMono hR a2.le (a2.trans a1).le a1
    linarith
  · intro hw hv' h'
    have hR' : State.Valid (⟨qR.rho, w, qR.p, qR.gamma⟩ : UState) := ⟨hR.rho, hR.p, hR.gamma⟩
    obtain ⟨a1, a2, a3, -, a4, -⟩ := star_compare hn' hn hL hR' hL hR hv' hv h' h (by
      intro p hp h0
      have : df (⟨qR.rho, w, qR.p, qR.gamma⟩ : UState) p = df qR p := rfl
      unfold duf at h0 ⊢
      rw [this] at h0
      have h0 : df qL p + df qR p + w - qL.u = 0 := h0
      linarith)
    refine ⟨a1, ?_⟩
    rw [a3, a4]
    have := df_strictMono hL a2.le (a2.trans a1).le a1
    linarith

/-- C116 (pressures): raising the pressure of the left gas raises the star pressure and the contact velocity; raising
the pressure of the right gas raises the star pressure and lowers the contact velocity. -/
theorem C116_pressure (n n' : RootFinder) (hn : SoundRootFinder n) (hn' : SoundRootFinder n') (qL qR : UState)
    (hL : qL.Valid) (hR : qR.Valid) (hv : NoVacuum qL qR) (s s' : Pb) (h : Riemann.init n qL qR = .ok s) (P : ℝ) :
    (qL.p < P → Riemann.init n' ⟨qL.rho, qL.u, P, qL.gamma⟩ qR = .ok s' → s.pstar < s'.pstar ∧ s.ustar < s'.ustar) ∧
    (qR.p < P → Riemann.init n' qL ⟨qR.rho, qR.u, P, qR.gamma⟩ = .ok s' → s.pstar < s'.pstar ∧ s'.ustar < s.ustar) := by
  have csle : ∀ {q : UState}, q.Valid → q.p < P → q.cs ≤ State.cs (atP q P) := by
    intro q hq hP
    unfold State.cs atP
    simp only
    apply Real.sqrt_le_sqrt
    have := hq.rho
    have := hq.g0
    rw [div_le_div_iff_of_pos_right hq.rho]
    exact mul_le_mul_of_nonneg_left hP.le hq.g0.le
  have hgL : 0 < qL.gamma - 1 := by linarith [hL.gamma]
  have hgR : 0 < qR.gamma - 1 := by linarith [hR.gamma]
  constructor
  · intro hw h'
    have hL' : State.Valid (atP qL P) := ⟨hL.rho, hL.p.trans hw, hL.gamma⟩
    have hv' : NoVacuum (atP qL P) qR := by
      unfold NoVacuum at *
      show qR.u - qL.u < 2 * State.cs (atP qL P) / (qL.gamma - 1) + 2 * qR.cs / (qR.gamma - 1)
      refine lt_of_lt_of_le hv ?_
      have := div_le_div_of_nonneg_right (mul_le_mul_of_nonneg_left (csle hL hw) (by norm_num : (0:ℝ) ≤ 2)) hgL.le
      linarith
    obtain ⟨a1, a2, -, a3, -, a4⟩ := star_compare hn hn' hL hR hL' hR hv hv' h h' (by
      intro p hp h0
      have := df_lt_of_p hL hw hp
      unfold duf at h0 ⊢
      show df (atP qL P) p + df qR p + qR.u - qL.u < 0
      linarith)
    refine ⟨a1, ?_⟩
    rw [a3, a4]
    have := df_strictMono hR a2.le (a2.trans a1).le a1
    linarith
  · intro hw h'
    have hR' : State.Valid (atP qR P) := ⟨hR.rho, hR.p.trans hw, hR.gamma⟩
    have hv' : NoVacuum qL (atP qR P) := by
      unfold NoVacuum at *
      show qR.u - qL.u < 2 * qL.cs / (qL.gamma - 1) + 2 * State.cs (atP qR P) / (qR.gamma - 1)
      refine lt_of_lt_of_le hv ?_
      have := div_le_div_of_nonneg_right (mul_le_mul_of_nonneg_left (csle hR hw) (by norm_num : (0:ℝ) ≤ 2)) hgR.le
      linarith
    obtain ⟨a1, a2, a3, -, a4, -⟩ := star_compare hn hn' hL hR hL hR' hv hv' h h' (by
      intro p hp h0
      have := df_lt_of_p hR hw hp
      unfold duf at h0 ⊢
      show df qL p + df (atP qR P) p + qR.u - qL.u < 0
      linarith)
    refine ⟨a1, ?_⟩
    rw [a3, a4]
    have := df_strictMono hL a2.le (a2.trans a1).le a1
    linarith

/-- C116 (densities): a heavier left gas strengthens its own wave's effect on the star pressure: behind a shock
(`p* > p_L`) the star pressure rises, behind an expansion (`p* < p_L`) it falls. -/
theorem C116_density (n n' : RootFinder) (hn : SoundRootFinder n) (hn' : SoundRootFinder n') (qL qR : UState)
    (hL : qL.Valid) (hR : qR.Valid) (hv : NoVacuum qL qR) (s s' : Pb) (h : Riemann.init n qL qR = .ok s) (r : ℝ)
    (hr : qL.rho < r) (hv' : NoVacuum ⟨r, qL.u, qL.p, qL.gamma⟩ qR)
    (h' : Riemann.init n' ⟨r, qL.u, qL.p, qL.gamma⟩ qR = .ok s') :
    (qL.p < s.pstar → s.pstar < s'.pstar) ∧ (s.pstar < qL.p → s'.pstar < s.pstar) := by
  have hr0 := hL.rho.trans hr
  have hL' : State.Valid (atRho qL r) := ⟨hr0, hL.p, hL.gamma⟩
  obtain ⟨p, hp, h0, rfl⟩ := riemann_init_spec hn hL hR hv h
  obtain ⟨p', hp', h0', rfl⟩ := riemann_init_spec hn' hL' hR hv' h'
  have k1 : √(qL.rho / r) < 1 := by
    rw [Real.sqrt_lt' one_pos, one_pow, div_lt_one hr0]; exact hr
  have e : duf (atRho qL r) qR p = (√(qL.rho / r) - 1) * df qL p := by
    unfold duf at h0 ⊢
    rw [df_rho hL hr0 hp]
    show √(qL.rho / r) * df qL p + df qR p + qR.u - qL.u = _
    linear_combination h0
  have z : df qL qL.p = 0 := by unfold df; rw [if_neg (lt_irrefl _), due_self hL]
  constructor
  · intro hlt
    show p < p'
    have hlt : qL.p < p := hlt
    have d0 : 0 < df qL p := by rw [← z]; exact df_strictMono hL hL.p.le hp.le hlt
    by_contra hc
    push Not at hc
    have := (duf_strictMono hL' hR).monotoneOn hp'.le hp.le hc
    rw [h0', e] at this
    nlinarith
  · intro hlt
    show p' < p
    have hlt : p < qL.p := hlt
    have d0 : df qL p < 0 := by rw [← z]; exact df_strictMono hL hp.le hL.p.le hlt
    by_contra hc
    push Not at hc
    have := (duf_strictMono hL' hR).monotoneOn hp.le hp'.le hc
    rw [h0', e] at this
    nlinarith

/-- C116 (no discontinuity): two equal states make no wave: the star states are that state, and the sampled solution is
that state for every `x/t`. -/
theorem C116_uniform (n : RootFinder) (hn : SoundRootFinder n) (q : UState) (hq : q.Valid) (s : Pb)
    (h : Riemann.init n q q = .ok s) (x : ℝ) : s.pstar = q.p ∧ s.ustar = q.u ∧ s.qstarL = q ∧ s.qstarR = q ∧ s.qsol x = .ok q := by
  have hg : 0 < q.gamma - 1 := by linarith [hq.gamma]
  have hc := hq.cs_pos
  have hv : NoVacuum q q := by unfold NoVacuum; rw [sub_self]; positivity
  obtain ⟨p, hp, h0, rfl⟩ := riemann_init_spec hn hq hq hv h
  have z : df q q.p = 0 := by unfold df; rw [if_neg (lt_irrefl _), due_self hq]
  have e : p = q.p := duf_unique hq hq hp.le hq.p.le h0 (by unfold duf; rw [z]; ring)
  subst e
  have hrhi : rhi q q.p = q.rho := by unfold rhi; rw [div_self hq.p.ne', Real.one_rpow, mul_one]
  have eu : q.u - df q q.p = q.u := by rw [z, sub_zero]
  have es : starState q q.u q.p = q := by
    unfold starState; rw [if_neg (lt_irrefl _), hrhi]
  have ei : isen q q.u q.p = q := by unfold isen; rw [hrhi]
  have hs : solPb q q q.p = ⟨q, q, q.p, q.u, q, q, q.u - q.cs, q.u - q.cs, q.u, q.u + q.cs, q.u + q.cs⟩ := by
    unfold solPb
    simp only [eu, es, outer, Riemann.inner, gt_iff_lt, lt_irrefl, if_false, ei]
  rw [hs]
  refine ⟨rfl, rfl, rfl, rfl, ?_⟩
  unfold Pb.qsol
  simp only [lt_irrefl, false_and, if_false, ite_self, Py.pure_eq, Py.ok_bind]
  rfl

/-- the hypotheses hold for Sod's shock tube with a faster, more compressed left gas -/
example : ∃ (nf : RootFinder) (qL qR : UState) (s s' s'' : Pb), SoundRootFinder nf ∧ State.Valid qL ∧ State.Valid qR ∧
    NoVacuum qL qR ∧ Riemann.init nf qL qR = .ok s ∧ Riemann.init nf ⟨qL.rho, qL.u + 1, qL.p, qL.gamma⟩ qR = .ok s' ∧
    Riemann.init nf qL qL = .ok s'' := by
  obtain ⟨nf, h1, h2⟩ := exists_soundRootFinder
  obtain ⟨qL, qR, hL, hR, hg, hv⟩ := sod
  obtain ⟨s, hs⟩ := C59_constructs nf h1 h2 qL qR hL hR hg hv
  obtain ⟨s', hs'⟩ := C59_constructs nf h1 h2 (⟨qL.rho, qL.u + 1, qL.p, qL.gamma⟩ : UState) qR ⟨hL.rho, hL.p, hL.gamma⟩ hR hg (by
    unfold NoVacuum at *
    show qR.u - (qL.u + 1) < 2 * qL.cs / (qL.gamma - 1) + 2 * qR.cs / (qR.gamma - 1)
    linarith)
  obtain ⟨s'', hs''⟩ := C59_constructs nf h1 h2 qL qL hL hL rfl (by
    have hgL : 0 < qL.gamma - 1 := by linarith [hL.gamma]
    have hc := hL.cs_pos
    unfold NoVacuum; rw [sub_self]; positivity)
  exact ⟨nf, qL, qR, s, s', s'', h1, hL, hR, hv, hs, hs', hs''⟩

end Aerokit.Props
