import Verif.Model.GuideVane
import Verif.Props.MassFlow
import Verif.Props.Isentropic
import Verif.Props.Riemann

/-! # Property C151 : the guide vane script -/

namespace Aerokit.Props
open Spec GuideVane Isentropic Model1D MassFlow Riemann Unsteady1D

local notation "γ₀" => DefaultGas.gamma0

theorem gv_g : (1 : ℝ) < γ₀ := by rw [gamma0_eq]; norm_num

/-- a state given by its Mach number -/
theorem gv_mach {q : State} (h : q.Valid) {M : ℝ} (hu : q.u = M * q.cs) :
    q.Mach = .ok M ∧ q.Ptot = .ok (q.p * tt M q.gamma ^ (q.gamma / (q.gamma - 1))) ∧ q.rTtot = .ok (q.p / q.rho * tt M q.gamma) := by
  have e : q.u / q.cs = M := by rw [hu]; field_simp [h.cs_pos.ne']
  refine ⟨by rw [h.Mach, e], by rw [h.Ptot, e], by rw [h.rTtot, h.rTtot_tt, e]⟩

theorem gv_cos {α : ℝ} (hα : |α| < 90) : 0 < degree.cos α ∧ degree.cos α ≤ 1 := by
  have h := abs_lt.1 hα
  refine ⟨Real.cos_pos_of_mem_Ioo ⟨?_, ?_⟩, Real.cos_le_one _⟩ <;> unfold Py.radians <;> nlinarith [Real.pi_pos]

/-- the initial state of the script -/
theorem gv_initial {nS : RootFinder} (hS : SoundRootFinder nS) {α p0c : ℝ} (hα : |α| < 90) (hp : 0 < p0c) {A M : ℝ} {q : State}
    (h : initial nS α p0c = .ok (A, M, q)) :
    A = 1 / degree.cos α ∧ 0 < M ∧ sig M γ₀ = A ∧ q.Valid ∧ q.gamma = γ₀ ∧ q.rho = 1 ∧ q.u = M * q.cs ∧
      q.p = p0c * tt 1 γ₀ ^ (γ₀ / (γ₀ - 1)) / tt M γ₀ ^ (γ₀ / (γ₀ - 1)) := by
  obtain ⟨c0, c1⟩ := gv_cos hα
  have hA : (1.0 : ℝ) / degree.cos α = 1 / degree.cos α := by norm_num
  unfold initial at h
  rw [Py.div_ok c0.ne', Py.ok_bind, hA] at h
  cases hm : MassFlow.Mach_Sigma nS (1 / degree.cos α) 0.2 γ₀ with
  | error e => rw [hm] at h; cases h
  | ok m =>
    rw [hm, Py.ok_bind, PtPs_Mach_ok gv_g, Py.ok_bind, PtPs_Mach_ok gv_g, Py.ok_bind] at h
    have k1 : 0 < tt m γ₀ ^ (γ₀ / (γ₀ - 1)) := Real.rpow_pos_of_pos (tt_pos gv_g) _
    have k0 : 0 < tt (1.0 : ℝ) γ₀ ^ (γ₀ / (γ₀ - 1)) := Real.rpow_pos_of_pos (tt_pos gv_g) _
    rw [Py.div_ok k1.ne', Py.ok_bind, Py.div_ok (by norm_num), Py.ok_bind] at h
    have pp : 0 < p0c * tt (1.0 : ℝ) γ₀ ^ (γ₀ / (γ₀ - 1)) / tt m γ₀ ^ (γ₀ / (γ₀ - 1)) := by positivity
    rw [Py.sqrt_ok (by positivity), Py.ok_bind, Py.pure_eq] at h
    have h := Except.ok.inj h
    injection h with h1 h2
    injection h2 with h2 h3
    subst h1 h2 h3
    have hr := hS _ _ _ hm
    have hs : Sigma_Mach m γ₀ = .ok (1 / degree.cos α) := by
      unfold sigma_residual at hr
      cases hx : Sigma_Mach m γ₀ with
      | error e => rw [hx] at hr; cases hr
      | ok s =>
        rw [hx, Py.ok_bind, Py.pure_eq] at hr
        have := Except.ok.inj hr
        rw [sub_eq_zero.1 this]
    obtain ⟨m0, ms⟩ := pos_of_Sigma gv_g (by rw [le_div_iff₀ c0]; linarith) hs
    refine ⟨rfl, m0, ms, ⟨by norm_num [State.initDefault], by simpa [State.initDefault] using pp, gv_g⟩, rfl, by norm_num [State.initDefault], ?_, ?_⟩
    · simp only [State.initDefault, State.cs]
      rw [gamma0_eq]
      norm_num
    · simp only [State.initDefault]
      norm_num

theorem gv_df_self {q : State} (h : q.Valid) : df q q.p = 0 := by
  unfold df; rw [if_neg (lt_irrefl _), due_self h]

/-- equal velocities, higher pressure on the left: expansion to the left, shock to the right -/
theorem gv_push {qL qR : State} (hL : qL.Valid) (hR : qR.Valid) (hu : qL.u = qR.u) (hp : qR.p < qL.p) {p : ℝ} (p0 : 0 < p) (h0 : duf qL qR p = 0) :
    qR.p < p ∧ p < qL.p ∧ qR.u < qL.u - df qL p := by
  have mono := duf_strictMono hL hR
  have a1 : duf qL qR qR.p < 0 := by
    have := df_strictMono hL hR.p.le hL.p.le hp
    unfold duf
    rw [gv_df_self hR]
    rw [gv_df_self hL] at this
    linarith
  have a2 : 0 < duf qL qR qL.p := by
    have := df_strictMono hR hR.p.le hL.p.le hp
    unfold duf
    rw [gv_df_self hL]
    rw [gv_df_self hR] at this
    linarith
  have b1 : qR.p < p := by
    by_contra hc
    have := mono.monotoneOn p0.le hR.p.le (not_lt.1 hc)
    rw [h0] at this; linarith
  have b2 : p < qL.p := by
    by_contra hc
    have := mono.monotoneOn hL.p.le p0.le (not_lt.1 hc)
    rw [h0] at this; linarith
  refine ⟨b1, b2, ?_⟩
  have := df_strictMono hL p0.le hL.p.le b2
  rw [gv_df_self hL] at this
  linarith

/-- equal pressures, the left flow faster: two shocks -/
theorem gv_collide {qL qR : State} (hL : qL.Valid) (hR : qR.Valid) (hu : qR.u < qL.u) (hp : qL.p = qR.p) {p : ℝ} (p0 : 0 < p) (h0 : duf qL qR p = 0) :
    qR.p < p ∧ qR.u < qL.u - df qL p ∧ qL.u - df qL p < qL.u := by
  have mono := duf_strictMono hL hR
  have a1 : duf qL qR qR.p < 0 := by
    unfold duf
    rw [gv_df_self hR, ← hp, gv_df_self hL]
    linarith
  have b1 : qR.p < p := by
    by_contra hc
    have := mono.monotoneOn p0.le hR.p.le (not_lt.1 hc)
    rw [h0] at this; linarith
  have c1 := df_strictMono hL hL.p.le p0.le (by rw [hp]; exact b1)
  have c2 := df_strictMono hR hR.p.le p0.le b1
  rw [gv_df_self hL] at c1
  rw [gv_df_self hR] at c2
  unfold duf at h0
  exact ⟨b1, by linarith, by linarith⟩

/-- the final state imposed by hypothesis 1 -/
theorem gv_final {q : State} (h : q.Valid) (hg : q.gamma = γ₀) {M r : ℝ} (hu : q.u = M * q.cs) (hr : 0 < r) :
    (final q r).Valid ∧ (final q r).u = M * (final q r).cs ∧ (final q r).gamma = γ₀ ∧ (final q r).cs = q.cs := by
  have h1 := h.rho; have h2 := h.p
  have e : (final q r).cs = q.cs := by
    unfold final State.initDefault State.cs
    simp only
    rw [hg]
    congr 1
    field_simp
  refine ⟨⟨by unfold final State.initDefault; simp only; positivity, by unfold final State.initDefault; simp only; positivity, gv_g⟩, ?_, rfl, e⟩
  rw [e, ← hu]; rfl

/-- the state imposed by hypothesis 2 -/
theorem gv_same {q : State} (h : q.Valid) (hg : q.gamma = γ₀) {M r : ℝ} (hM : 0 < M) (hu : q.u = M * q.cs) (hr : 1 < r) {M1 : ℝ} {q1 : State}
    (hj : samePressure q M r = .ok (M1, q1)) :
    q1.Valid ∧ q1.gamma = γ₀ ∧ q1.u = M1 * q1.cs ∧ M < M1 ∧ q1.p = q.p ∧ tt M1 γ₀ ^ (γ₀ / (γ₀ - 1)) = r * tt M γ₀ ^ (γ₀ / (γ₀ - 1)) ∧
      q1.p / q1.rho * tt M1 γ₀ = q.p / q.rho * tt M γ₀ ∧ q.rho < q1.rho ∧ q.u < q1.u := by
  have h1 := h.rho; have h2 := h.p
  obtain ⟨-, hPt, -⟩ := gv_mach h hu
  rw [hg] at hPt
  have kM : 1 ≤ tt M γ₀ ^ (γ₀ / (γ₀ - 1)) := Real.one_le_rpow (one_le_tt gv_g) (gam_exp_pos gv_g).le
  obtain ⟨K, hK⟩ : ∃ K, K = tt M γ₀ ^ (γ₀ / (γ₀ - 1)) := ⟨_, rfl⟩
  rw [← hK] at hPt kM ⊢
  unfold samePressure at hj
  rw [hPt, Py.ok_bind, Py.div_ok h2.ne', Py.ok_bind] at hj
  have ex : q.p * K * r / q.p = r * K := by field_simp
  rw [ex] at hj
  have rK : 1 < r * K := by nlinarith
  obtain ⟨m, m0, e1, e2⟩ := C02_ratio_roundtrip (r * K) γ₀ gv_g rK.le
  rw [e1, Py.ok_bind, e2] at hj
  simp only [Py.ok_bind] at hj
  rw [Py.div_ok (by positivity), Py.ok_bind, Py.div_ok h1.ne', Py.ok_bind, TtTs_Mach_ok, Py.ok_bind, TtTs_Mach_ok, Py.ok_bind] at hj
  rw [PtPs_Mach_ok gv_g] at e2
  have e2 := Except.ok.inj e2
  have t0 := tt_pos (M := M) gv_g
  have t1 := tt_pos (M := m) gv_g
  rw [Py.div_ok t1.ne', Py.ok_bind] at hj
  have ey : q.p * K * r / (r * K) = q.p := by field_simp
  rw [ey, Py.div_ok (by positivity), Py.ok_bind] at hj
  have erho : q.p / (q.p / q.rho * tt M γ₀ / tt m γ₀) = q.rho * tt m γ₀ / tt M γ₀ := by field_simp
  rw [erho, Py.div_ok (by positivity), Py.ok_bind, Py.sqrt_ok (by positivity), Py.ok_bind, Py.pure_eq] at hj
  have hj := Except.ok.inj hj
  injection hj with g1 g2
  subst g1 g2
  have hlt : M < m := by
    by_contra hc
    have hc := not_lt.1 hc
    have : tt m γ₀ ≤ tt M γ₀ := by
      unfold tt
      have : m ^ 2 ≤ M ^ 2 := by nlinarith
      nlinarith [gv_g]
    have := Real.rpow_le_rpow t1.le this (gam_exp_pos gv_g).le
    rw [e2, ← hK] at this
    nlinarith
  have htt := tt_lt_tt gv_g hM.le hlt
  have hv : (State.initDefault (q.rho * tt m γ₀ / tt M γ₀) (m * √(1.4 * q.p / (q.rho * tt m γ₀ / tt M γ₀))) q.p).Valid :=
    ⟨by simp only [State.initDefault]; positivity, h2, gv_g⟩
  have hu1 : (State.initDefault (q.rho * tt m γ₀ / tt M γ₀) (m * √(1.4 * q.p / (q.rho * tt m γ₀ / tt M γ₀))) q.p).u =
      m * (State.initDefault (q.rho * tt m γ₀ / tt M γ₀) (m * √(1.4 * q.p / (q.rho * tt m γ₀ / tt M γ₀))) q.p).cs := by
    have : (1.4 : ℝ) = γ₀ := by rw [gamma0_eq]; norm_num
    simp only [State.initDefault, State.cs]
    rw [this]
  refine ⟨hv, rfl, hu1, hlt, rfl, e2, ?_, ?_, ?_⟩
  · simp only [State.initDefault]; field_simp
  · simp only [State.initDefault]
    rw [lt_div_iff₀ t0]
    exact mul_lt_mul_of_pos_left htt h1
  · -- u² = γ p M² / (rho) and M²/tt increases
    have hu0 : 0 ≤ q.u := by rw [hu]; exact mul_nonneg hM.le h.cs_pos.le
    refine lt_of_pow_lt_pow_left₀ 2 (by rw [hu1]; exact mul_nonneg m0 hv.cs_pos.le) ?_
    rw [hu1, hu, mul_pow, mul_pow, h.cs_sq, hv.cs_sq]
    simp only [State.initDefault]
    rw [hg]
    have : M ^ 2 * tt m γ₀ < m ^ 2 * tt M γ₀ := by
      unfold tt
      nlinarith
    have g0 : 0 < γ₀ := by linarith [gv_g]
    have e : γ₀ * q.p / (q.rho * tt m γ₀ / tt M γ₀) = γ₀ * q.p / q.rho * (tt M γ₀ / tt m γ₀) := by field_simp
    rw [e]
    have : M ^ 2 < m ^ 2 * (tt M γ₀ / tt m γ₀) := by
      rw [← mul_div_assoc, lt_div_iff₀ t1]; exact this
    have := mul_lt_mul_of_pos_right this (show 0 < γ₀ * q.p / q.rho by positivity)
    linarith

/-- pieces of a run -/
theorem gv_run {nS nR : RootFinder} {α p0c r : ℝ} {o : Out} (h : run nS nR α p0c r = .ok o) :
    initial nS α p0c = .ok (o.AoAc, o.M0, o.q0) ∧ o.q1f = final o.q0 r ∧ Riemann.init nR o.q1f o.q0 = .ok o.pb1 ∧
      samePressure o.q0 o.M0 r = .ok (o.M10, o.q10) ∧ Riemann.init nR o.q10 o.q0 = .ok o.pb2 := by
  unfold run at h
  cases h1 : initial nS α p0c with
  | error e => rw [h1] at h; cases h
  | ok i =>
    rw [h1, Py.ok_bind] at h
    simp only at h
    cases h2 : Riemann.init nR (final i.2.2 r) i.2.2 with
    | error e => rw [h2] at h; cases h
    | ok pb1 =>
      rw [h2, Py.ok_bind] at h
      cases h3 : samePressure i.2.2 i.2.1 r with
      | error e => rw [h3] at h; cases h
      | ok j =>
        rw [h3, Py.ok_bind] at h
        cases h4 : Riemann.init nR j.2 i.2.2 with
        | error e => rw [h4] at h; cases h
        | ok pb2 =>
          rw [h4, Py.ok_bind, Py.pure_eq] at h
          have h := Except.ok.inj h
          subst h
          exact ⟨rfl, rfl, h2, h3, h4⟩

/-- C151 (initial state): the initial flow is that of the choked vane: the flow of Mach number `M0` has the area ratio `1/cos alpha`, and there is a
sonic flow of pressure `p0c` in the throat, with the same total temperature and total pressure and the same mass flow (area ratio times flux). -/
theorem C151_initial (nS nR : RootFinder) (hS : SoundRootFinder nS) (α p0c r : ℝ) (hα : |α| < 90) (hp : 0 < p0c) (o : Out) (h : run nS nR α p0c r = .ok o) :
    o.AoAc = 1 / Real.cos (α * (Real.pi / 180)) ∧ 0 < o.M0 ∧ Sigma_Mach o.M0 DefaultGas.gamma0 = .ok o.AoAc ∧ o.q0.Mach = .ok o.M0 ∧
    ∃ c : State, c.p = p0c ∧ c.gamma = o.q0.gamma ∧ c.Mach = .ok 1 ∧ c.Ptot = o.q0.Ptot ∧ c.rTtot = o.q0.rTtot ∧ c.massflow = o.AoAc * o.q0.massflow := by
  obtain ⟨h1, -⟩ := gv_run h
  obtain ⟨a1, a2, a3, a4, a5, a6, a7, a8⟩ := gv_initial hS hα hp h1
  obtain ⟨b1, b2, b3⟩ := gv_mach a4 a7
  have p0 := a4.p
  have t0 := tt_pos (M := o.M0) gv_g
  have t1 := tt_pos (M := 1) gv_g
  have hrho : 0 < p0c / (o.q0.p * tt o.M0 γ₀ / tt 1 γ₀) := by positivity
  obtain ⟨c, hc⟩ : ∃ c : State, c = ⟨p0c / (o.q0.p * tt o.M0 γ₀ / tt 1 γ₀), √(γ₀ * p0c / (p0c / (o.q0.p * tt o.M0 γ₀ / tt 1 γ₀))), p0c, γ₀⟩ := ⟨_, rfl⟩
  have cv : c.Valid := by subst hc; exact ⟨hrho, hp, gv_g⟩
  have cu : c.u = 1 * c.cs := by subst hc; simp [State.cs]
  have cg : c.gamma = γ₀ := by subst hc; rfl
  have cp : c.p = p0c := by subst hc; rfl
  have crho : c.rho = p0c / (o.q0.p * tt o.M0 γ₀ / tt 1 γ₀) := by subst hc; rfl
  obtain ⟨d1, d2, d3⟩ := gv_mach cv cu
  refine ⟨?_, a2, ?_, b1, c, cp, by rw [cg, a5], d1, ?_, ?_, ?_⟩
  · rw [a1]; unfold degree.cos Py.radians; rfl
  · rw [Sigma_Mach_ok gv_g a2.ne', a3]
  · rw [d2, b2, cg, a5, cp, a8]
    have k := Real.rpow_pos_of_pos t0 (γ₀ / (γ₀ - 1))
    congr 1
    field_simp
  · rw [d3, b3, cg, a5, cp, crho, a6]
    congr 1
    field_simp
  · -- squares
    have hm : 0 < o.AoAc := by
      rw [a1]; exact div_pos one_pos (gv_cos hα).1
    have l0 : 0 ≤ c.massflow := by unfold State.massflow; rw [cu, one_mul]; exact mul_nonneg cv.rho.le cv.cs_pos.le
    have l1 : 0 ≤ o.AoAc * o.q0.massflow := by
      unfold State.massflow; rw [a7]
      exact mul_nonneg hm.le (mul_nonneg a4.rho.le (mul_nonneg a2.le a4.cs_pos.le))
    refine (sq_eq_sq₀ l0 l1).1 ?_
    unfold State.massflow
    rw [cu, a7, one_mul, mul_pow, mul_pow, mul_pow, mul_pow, cv.cs_sq, a4.cs_sq, cg, a5, cp, crho, a6, ← a3]
    unfold sig
    have e72 : γ₀ / (γ₀ - 1) = 7 / 2 := by rw [gamma0_eq]; norm_num
    have e3 : (γ₀ + 1) / (2 * (γ₀ - 1)) = 3 := by rw [gamma0_eq]; norm_num
    have ex : 2 / (γ₀ + 1) * tt o.M0 γ₀ = tt o.M0 γ₀ / tt 1 γ₀ := by
      have := tt_one gv_g
      have h2 : 2 / (γ₀ + 1) = 1 / tt 1 γ₀ := by rw [eq_div_iff t1.ne']; exact this
      rw [h2]; ring
    rw [e72] at a8
    obtain ⟨x, hx⟩ : ∃ x, x = tt o.M0 γ₀ / tt 1 γ₀ := ⟨_, rfl⟩
    have x0 : 0 < x := by rw [hx]; positivity
    have ett : tt o.M0 γ₀ = x * tt 1 γ₀ := by rw [hx]; field_simp
    have hpx : o.q0.p * x ^ (7 / 2 : ℝ) = p0c := by
      rw [a8, hx, Real.div_rpow t0.le t1.le]
      have k1 := Real.rpow_pos_of_pos t0 (7 / 2)
      have k2 := Real.rpow_pos_of_pos t1 (7 / 2)
      field_simp
    have x7 : (x ^ (7 / 2 : ℝ)) ^ 2 = x ^ 7 := by
      rw [← Real.rpow_natCast, ← Real.rpow_mul x0.le, ← Real.rpow_natCast]; norm_num
    rw [ex, ← hx, e3, ett, ← hpx]
    have x3 : x ^ (3 : ℝ) = x ^ 3 := by rw [← Real.rpow_natCast]; norm_num
    rw [x3]
    obtain ⟨y, hy⟩ : ∃ y, y = x ^ (7 / 2 : ℝ) := ⟨_, rfl⟩
    have y0 : 0 < y := by rw [hy]; exact Real.rpow_pos_of_pos x0 _
    rw [← hy] at x7 ⊢
    have M1 := a2.ne'
    have g0 : γ₀ ≠ 0 := by linarith [gv_g]
    field_simp
    linear_combination x7

/-- C151 (hypothesis 1): the imposed final state has the same Mach number and total temperature, and `Ptot_ratio` times the total pressure and the mass
flow; the waves that leave it are an expansion to the left and a shock to the right: the pressure is strictly between both, the flow is accelerated, and
the Mach number behind the expansion is higher than both; as long as that Mach number is at most 1, the total temperature behind it is lower. -/
theorem C151_final (nS nR : RootFinder) (hS : SoundRootFinder nS) (hR : SoundRootFinder nR) (α p0c r : ℝ) (hα : |α| < 90) (hp : 0 < p0c) (hr : 1 < r) (o : Out)
    (h : run nS nR α p0c r = .ok o) :
    (∃ P T, o.q0.Ptot = .ok P ∧ o.q0.rTtot = .ok T ∧ o.q1f.Mach = .ok o.M0 ∧ o.q1f.Ptot = .ok (r * P) ∧ o.q1f.rTtot = .ok T ∧
      o.q1f.massflow = r * o.q0.massflow) ∧
    o.q0.p < o.pb1.pstar ∧ o.pb1.pstar < r * o.q0.p ∧ o.q0.u < o.pb1.ustar ∧ o.pb1.w3 = o.pb1.w4 ∧ o.pb1.w0 < o.pb1.w1 ∧
    ∃ m T', o.pb1.qstarL.Mach = .ok m ∧ o.M0 < m ∧ o.pb1.qstarL.rTtot = .ok T' ∧ (m ≤ 1 → ∀ T, o.q0.rTtot = .ok T → T' < T) := by
  obtain ⟨h1, h2, h3, -⟩ := gv_run h
  obtain ⟨a1, a2, a3, a4, a5, a6, a7, a8⟩ := gv_initial hS hα hp h1
  obtain ⟨b1, b2, b3⟩ := gv_mach a4 a7
  have r0 : 0 < r := by linarith
  obtain ⟨c1, c2, c3, c4⟩ := gv_final a4 a5 a7 r0
  rw [← h2] at c1 c2 c3 c4
  obtain ⟨d1, d2, d3⟩ := gv_mach c1 c2
  have p0 := a4.p
  have ep : o.q1f.p = r * o.q0.p := by rw [h2]; unfold final State.initDefault; simp only; ring
  have erho : o.q1f.rho = r * o.q0.rho := by rw [h2]; unfold final State.initDefault; simp only; ring
  have eu : o.q1f.u = o.q0.u := by rw [h2]; rfl
  have nv : NoVacuum o.q1f o.q0 := by
    unfold NoVacuum
    rw [eu, sub_self]
    have := c1.cs_pos; have := a4.cs_pos; have := c1.gamma; have := a4.gamma
    have i1 : 0 < o.q1f.gamma - 1 := by linarith
    have i2 : 0 < o.q0.gamma - 1 := by linarith
    positivity
  obtain ⟨p, pp, hd, hs⟩ := riemann_init_spec hR c1 a4 nv h3
  obtain ⟨e1, e2, e3⟩ := gv_push c1 a4 eu (by rw [ep]; nlinarith) pp hd
  obtain ⟨-, -, -, -, -, -, -, aL, aR, asL, asR, haL, -, hasL, -, -, sR, eL, -⟩ := C60_waves nR hR _ _ c1 a4 nv _ h3
  obtain ⟨-, -, jL, -⟩ := C60_jumps nR hR _ _ c1 a4 nv _ h3
  have ps : o.pb1.pstar = p := by rw [hs]; rfl
  have us : o.pb1.ustar = o.q1f.u - df o.q1f p := by rw [hs]; rfl
  have qs : o.pb1.qstarL.Valid := by rw [hs]; exact starState_valid c1 pp _
  have qu : o.pb1.qstarL.u = o.pb1.ustar := by rw [hs]; rfl
  have qg : o.pb1.qstarL.gamma = o.q1f.gamma := by rw [hs]; rfl
  rw [← ps] at e1 e2
  rw [← us] at e3
  obtain ⟨-, j2⟩ := jL e2.le
  refine ⟨⟨_, _, b2, b3, d1, ?_, ?_, ?_⟩, e1, by rw [← ep]; exact e2, e3, (sR e1).1, (eL e2).1, ?_⟩
  · rw [d2, c3, a5, ep]; congr 1; ring
  · rw [d3, c3, a5, ep, erho]
    have := a4.rho
    congr 1; field_simp
  · unfold State.massflow; rw [erho, eu]; ring
  · have s0 := qs.cs_pos
    have g1 : 0 < o.q1f.gamma - 1 := by linarith [c1.gamma]
    have cc0 := c1.cs_pos
    rw [qu] at j2
    have drop : o.pb1.qstarL.cs < o.q1f.cs := by
      have : 2 * o.pb1.qstarL.cs / (o.q1f.gamma - 1) < 2 * o.q1f.cs / (o.q1f.gamma - 1) := by linarith
      have := (div_lt_div_iff_of_pos_right g1).1 this
      linarith
    have u0 : 0 < o.q0.u := by rw [a7]; exact mul_pos a2 a4.cs_pos
    have hm : o.M0 < o.pb1.qstarL.u / o.pb1.qstarL.cs := by
      rw [lt_div_iff₀ s0, qu]
      have : o.M0 * o.pb1.qstarL.cs < o.M0 * o.q1f.cs := mul_lt_mul_of_pos_left drop a2
      have : o.M0 * o.q1f.cs = o.q0.u := by rw [c4, a7]
      linarith
    refine ⟨_, _, qs.Mach, hm, qs.rTtot, ?_⟩
    intro hm1 T hT
    have hT' : T = o.q0.p / o.q0.rho + (o.q0.gamma - 1) / (2 * o.q0.gamma) * o.q0.u ^ 2 := (Except.ok.inj (a4.rTtot.symm.trans hT)).symm
    rw [hT']
    have k1 : o.pb1.qstarL.p / o.pb1.qstarL.rho = o.pb1.qstarL.cs ^ 2 / γ₀ := by
      rw [qs.cs_sq, qg, c3]; have := qs.rho; have : γ₀ ≠ 0 := by linarith [gv_g]
      field_simp
    have k2 : o.q0.p / o.q0.rho = o.q1f.cs ^ 2 / γ₀ := by
      rw [c4, a4.cs_sq, a5]; have := a4.rho; have : γ₀ ≠ 0 := by linarith [gv_g]
      field_simp
    rw [k1, k2, qg, c3, a5, qu]
    rw [c3, gamma0_eq] at j2
    rw [qu] at hm1
    rw [div_le_one s0] at hm1
    have hM1 : o.q0.u < o.q1f.cs := by linarith
    rw [eu] at j2
    rw [gamma0_eq]
    obtain ⟨v, hv⟩ : ∃ v, v = o.pb1.ustar := ⟨_, rfl⟩
    obtain ⟨s, hs'⟩ : ∃ s, s = o.pb1.qstarL.cs := ⟨_, rfl⟩
    obtain ⟨w, hw⟩ : ∃ w, w = o.q0.u := ⟨_, rfl⟩
    obtain ⟨c, hc⟩ : ∃ c, c = o.q1f.cs := ⟨_, rfl⟩
    rw [← hv, ← hs', ← hw, ← hc] at j2
    rw [← hv, ← hs', ← hw, ← hc]
    rw [← hv, ← hs'] at hm1
    rw [← hw, ← hc] at hM1
    rw [← hv, ← hw] at e3
    have hsc : s = c - (v - w) / 5 := by norm_num at j2; linarith
    have : (v - w) * ((v + w) - (s + c)) < 0 := mul_neg_of_pos_of_neg (by linarith) (by linarith)
    have e5 : 5 * (s ^ 2 - c ^ 2) = -(v - w) * (s + c) := by
      have : 5 * (s - c) = -(v - w) := by rw [hsc]; ring
      rw [← this]; ring
    have e6 : s ^ 2 / (7 / 5) + (7 / 5 - 1) / (2 * (7 / 5)) * v ^ 2 - (c ^ 2 / (7 / 5) + (7 / 5 - 1) / (2 * (7 / 5)) * w ^ 2) =
        (v - w) * ((v + w) - (s + c)) / 7 := by
      linear_combination (1 / 7) * e5
    linarith

/-- C151 (hypothesis 2): the state of the same pressure and total temperature and `Ptot_ratio` times the total pressure has a higher Mach number, density and
velocity than the initial one; two shocks leave it: the pressure rises, and the velocity is strictly between both. -/
theorem C151_same_pressure (nS nR : RootFinder) (hS : SoundRootFinder nS) (hR : SoundRootFinder nR) (α p0c r : ℝ) (hα : |α| < 90) (hp : 0 < p0c) (hr : 1 < r) (o : Out)
    (h : run nS nR α p0c r = .ok o) :
    (∃ P T, o.q0.Ptot = .ok P ∧ o.q0.rTtot = .ok T ∧ o.q10.p = o.q0.p ∧ o.q10.Mach = .ok o.M10 ∧ o.q10.Ptot = .ok (r * P) ∧ o.q10.rTtot = .ok T) ∧
    o.M0 < o.M10 ∧ o.q0.rho < o.q10.rho ∧ o.q0.u < o.q10.u ∧
    o.q0.p < o.pb2.pstar ∧ o.q0.u < o.pb2.ustar ∧ o.pb2.ustar < o.q10.u ∧ o.pb2.w0 = o.pb2.w1 ∧ o.pb2.w3 = o.pb2.w4 := by
  obtain ⟨h1, -, -, h4, h5⟩ := gv_run h
  obtain ⟨a1, a2, a3, a4, a5, a6, a7, a8⟩ := gv_initial hS hα hp h1
  obtain ⟨b1, b2, b3⟩ := gv_mach a4 a7
  obtain ⟨c1, c2, c3, c4, c5, c6, c7, c8, c9⟩ := gv_same a4 a5 a2 a7 hr h4
  obtain ⟨d1, d2, d3⟩ := gv_mach c1 c3
  have nv : NoVacuum o.q10 o.q0 := by
    unfold NoVacuum
    have := c1.cs_pos; have := a4.cs_pos; have := c1.gamma; have := a4.gamma
    have i1 : 0 < o.q10.gamma - 1 := by linarith
    have i2 : 0 < o.q0.gamma - 1 := by linarith
    have : 0 < 2 * o.q10.cs / (o.q10.gamma - 1) + 2 * o.q0.cs / (o.q0.gamma - 1) := by positivity
    linarith
  obtain ⟨p, pp, hd, hs⟩ := riemann_init_spec hR c1 a4 nv h5
  obtain ⟨e1, e2, e3⟩ := gv_collide c1 a4 c9 c5 pp hd
  obtain ⟨-, -, -, -, -, -, -, aL, aR, asL, asR, -, -, -, -, sL, sR, -, -⟩ := C60_waves nR hR _ _ c1 a4 nv _ h5
  have ps : o.pb2.pstar = p := by rw [hs]; rfl
  have us : o.pb2.ustar = o.q10.u - df o.q10 p := by rw [hs]; rfl
  rw [← ps] at e1
  rw [← us] at e2 e3
  refine ⟨⟨_, _, b2, b3, c5, d1, ?_, ?_⟩, c4, c8, c9, e1, e2, e3, (sL (by rw [c5]; exact e1)).1, (sR e1).1⟩
  · rw [d2, c2, a5, c5, c6]; congr 1; ring
  · rw [d3, c2, a5, c7]

/-- C151: with root finders that find every root, the script runs to its end, for every vane, pressure and total pressure ratio. -/
theorem C151_runs (nS nR : RootFinder) (hS : SoundRootFinder nS) (hS' : ∀ f x0, (∃ x, f x = .ok 0) → ∃ x, nS f x0 = .ok x)
    (hR : SoundRootFinder nR) (hR' : ∀ f x0, (∃ x, f x = .ok 0) → ∃ x, nR f x0 = .ok x) (α p0c r : ℝ) (hα : |α| < 90) (hp : 0 < p0c) (hr : 1 < r) :
    ∃ o, run nS nR α p0c r = .ok o := by
  obtain ⟨k0, k1⟩ := gv_cos hα
  have hA : (1.0 : ℝ) / degree.cos α = 1 / degree.cos α := by norm_num
  have hA1 : 1 ≤ 1 / degree.cos α := by rw [le_div_iff₀ k0]; linarith
  obtain ⟨m, hm⟩ : ∃ m, MassFlow.Mach_Sigma nS (1 / degree.cos α) 0.2 γ₀ = .ok m := by
    apply hS'
    have : ∃ x, Sigma_Mach x γ₀ = .ok (1 / degree.cos α) := by
      rcases hA1.eq_or_lt with e | e
      · exact ⟨1, by rw [Sigma_Mach_ok gv_g one_ne_zero, sig_one gv_g, ← e]⟩
      · obtain ⟨x, x1, xs⟩ := exists_sup gv_g e
        exact ⟨x, by rw [Sigma_Mach_ok gv_g (by linarith), xs]⟩
    obtain ⟨x, hx⟩ := this
    refine ⟨x, ?_⟩
    unfold sigma_residual
    rw [hx, Py.ok_bind, Py.pure_eq, sub_self]
  obtain ⟨i, hi⟩ : ∃ i, initial nS α p0c = .ok i := by
    unfold initial
    rw [Py.div_ok k0.ne', Py.ok_bind, hA, hm, Py.ok_bind, PtPs_Mach_ok gv_g, Py.ok_bind, PtPs_Mach_ok gv_g, Py.ok_bind]
    have k1 : 0 < tt m γ₀ ^ (γ₀ / (γ₀ - 1)) := Real.rpow_pos_of_pos (tt_pos gv_g) _
    have k0 : 0 < tt (1.0 : ℝ) γ₀ ^ (γ₀ / (γ₀ - 1)) := Real.rpow_pos_of_pos (tt_pos gv_g) _
    rw [Py.div_ok k1.ne', Py.ok_bind, Py.div_ok (by norm_num), Py.ok_bind, Py.sqrt_ok (by positivity), Py.ok_bind, Py.pure_eq]
    exact ⟨_, rfl⟩
  obtain ⟨A, M, q⟩ := i
  obtain ⟨a1, a2, a3, a4, a5, a6, a7, a8⟩ := gv_initial hS hα hp hi
  obtain ⟨c1, c2, c3, c4⟩ := gv_final a4 a5 a7 (show 0 < r by linarith)
  have pos : ∀ {q : State}, q.Valid → 0 < 2 * q.cs / (q.gamma - 1) := fun {q} h => by
    have := h.cs_pos; have : 0 < q.gamma - 1 := by linarith [h.gamma]
    positivity
  obtain ⟨pb1, h1⟩ := C59_constructs nR hR hR' (final q r) q c1 a4 (by rw [c3, a5]) (by
    unfold NoVacuum
    rw [show (final q r).u = q.u from rfl, sub_self]
    linarith [pos c1, pos a4])
  obtain ⟨j, hj⟩ : ∃ j, samePressure q M r = .ok j := by
    have q1 := a4.rho; have q2 := a4.p
    obtain ⟨-, hPt, -⟩ := gv_mach a4 a7
    rw [a5] at hPt
    have kM : 1 ≤ tt M γ₀ ^ (γ₀ / (γ₀ - 1)) := Real.one_le_rpow (one_le_tt gv_g) (gam_exp_pos gv_g).le
    unfold samePressure
    rw [hPt, Py.ok_bind, Py.div_ok q2.ne', Py.ok_bind]
    have ex : q.p * tt M γ₀ ^ (γ₀ / (γ₀ - 1)) * r / q.p = r * tt M γ₀ ^ (γ₀ / (γ₀ - 1)) := by field_simp
    rw [ex]
    obtain ⟨m, m0, e1, e2⟩ := C02_ratio_roundtrip (r * tt M γ₀ ^ (γ₀ / (γ₀ - 1))) γ₀ gv_g (by nlinarith)
    rw [e1, Py.ok_bind, e2]
    simp only [Py.ok_bind]
    have t0 := tt_pos (M := M) gv_g
    have t1 := tt_pos (M := m) gv_g
    rw [Py.div_ok (by positivity), Py.ok_bind, Py.div_ok q1.ne', Py.ok_bind, TtTs_Mach_ok, Py.ok_bind, TtTs_Mach_ok, Py.ok_bind,
      Py.div_ok t1.ne', Py.ok_bind, Py.div_ok (by positivity), Py.ok_bind, Py.div_ok (by positivity), Py.ok_bind, Py.sqrt_ok (by positivity), Py.ok_bind, Py.pure_eq]
    exact ⟨_, rfl⟩
  obtain ⟨M1, q1⟩ := j
  obtain ⟨d1, d2, d3, d4, d5, d6, d7, d8, d9⟩ := gv_same a4 a5 a2 a7 hr hj
  obtain ⟨pb2, h2⟩ := C59_constructs nR hR hR' q1 q d1 a4 (by rw [d2, a5]) (by
    unfold NoVacuum
    linarith [pos d1, pos a4])
  refine ⟨⟨A, M, q, final q r, pb1, M1, q1, pb2⟩, ?_⟩
  unfold run
  rw [hi, Py.ok_bind]
  simp only
  rw [h1, Py.ok_bind, hj, Py.ok_bind, h2, Py.ok_bind, Py.pure_eq]

/-- the numbers of the script: 50 degrees, 1000 hPa, ratio 1.4 -/
example : ∃ (nS nR : RootFinder) (o : Out), SoundRootFinder nS ∧ SoundRootFinder nR ∧ run nS nR 50 1e5 1.4 = .ok o ∧ |(50 : ℝ)| < 90 ∧ o.q0.u < o.pb1.ustar := by
  obtain ⟨nf, h1, h2⟩ := exists_soundRootFinder
  have ha : |(50 : ℝ)| < 90 := by rw [abs_of_pos] <;> norm_num
  obtain ⟨o, ho⟩ := C151_runs nf nf h1 h2 h1 h2 50 1e5 1.4 ha (by norm_num) (by norm_num)
  exact ⟨nf, nf, o, h1, h1, ho, ha, (C151_final nf nf h1 h1 50 1e5 1.4 ha (by norm_num) (by norm_num) o ho).2.2.2.1⟩

end Aerokit.Props
