import Verif.Model.Shocktube
import Verif.Lemmas.Engine
import Verif.Props.Riemann
import Verif.Props.GuideVane

/-! # Property C162 : the shock tube notebook: the waves -/

namespace Aerokit.Props
open Spec Shocktube Model1D Riemann Unsteady1D
open MassFlow (RootFinder)

/-! ### Riemann problems of converging states, any two gases -/

theorem st_novac {qL qR : State} (hL : qL.Valid) (hR : qR.Valid) (hu : qR.u ≤ qL.u) : NoVacuum qL qR := by
  have := hL.cs_pos; have := hR.cs_pos
  have h1 : 0 < qL.gamma - 1 := by linarith [hL.gamma]
  have h2 : 0 < qR.gamma - 1 := by linarith [hR.gamma]
  have : 0 < 2 * qL.cs / (qL.gamma - 1) := by positivity
  have : 0 < 2 * qR.cs / (qR.gamma - 1) := by positivity
  unfold NoVacuum; linarith

theorem st_estimate {qL qR : State} (hL : qL.Valid) (hR : qR.Valid) (hu : qR.u ≤ qL.u) : ∃ p0, pstar_estimate_expansion qL qR = .ok p0 := by
  have hgl := hL.gamma; have hgr := hR.gamma
  have cL := hL.cs_pos; have cR := hR.cs_pos
  have e1 : (0 : ℝ) < 1 / 2 * (qL.gamma + qR.gamma) := by linarith
  have e2 : (0 : ℝ) < 1 / 2 * (1 / 2 * (qL.gamma + qR.gamma) - 1) := by linarith
  have hn : 0 < qL.cs + qR.cs - 1 / 2 * (1 / 2 * (qL.gamma + qR.gamma) - 1) * (qR.u - qL.u) := by nlinarith
  have wL := Real.rpow_pos_of_pos hL.p (1 / 2 * (1 / 2 * (qL.gamma + qR.gamma) - 1) / (1 / 2 * (qL.gamma + qR.gamma)))
  have wR := Real.rpow_pos_of_pos hR.p (1 / 2 * (1 / 2 * (qL.gamma + qR.gamma) - 1) / (1 / 2 * (qL.gamma + qR.gamma)))
  unfold pstar_estimate_expansion
  simp only []
  lits
  rw [hL.asound, Py.ok_bind, hR.asound, Py.ok_bind, Py.div_ok e1.ne', Py.ok_bind, Py.pow_ok _ hL.p, Py.ok_bind, Py.div_ok wL.ne', Py.ok_bind,
    Py.pow_ok _ hR.p, Py.ok_bind, Py.div_ok wR.ne', Py.ok_bind, Py.div_ok (by positivity), Py.ok_bind, Py.div_ok e2.ne', Py.ok_bind,
    Py.pow_ok _ (by positivity)]
  exact ⟨_, rfl⟩

/-- the constructor succeeds, in closed form -/
theorem st_init {newton : RootFinder} (hn : SoundRootFinder newton) (hc : ∀ f x0, (∃ x, f x = .ok 0) → ∃ x, newton f x0 = .ok x)
    {qL qR : State} (hL : qL.Valid) (hR : qR.Valid) (hu : qR.u ≤ qL.u) :
    ∃ p, 0 < p ∧ duf qL qR p = 0 ∧ Riemann.init newton qL qR = .ok (solPb qL qR p) := by
  obtain ⟨p0, h0⟩ := st_estimate hL hR hu
  obtain ⟨p, hp, hr⟩ := (duf_root hL hR).2 (st_novac hL hR hu)
  have hr' : du qL qR p = .ok 0 := by rw [du_ok hL hR hp.le, hr]
  obtain ⟨p', hp'⟩ := hc (du qL qR) p0 ⟨p, hr'⟩
  have := C59_unique qL qR hL hR p' p (hn _ _ _ hp') hr'
  subst this
  refine ⟨p', hp, hr, ?_⟩
  unfold Riemann.init
  rw [h0, Py.ok_bind, hp', Py.ok_bind, afterSolve_ok hL hR hp hr]

/-! ### the run in closed form -/

/-- the three initial states -/
noncomputable def stQ20 (P r T : ℝ) : State := ⟨P * r / (r_air * T), 0.0, P * r, gam_air⟩
noncomputable def stQ10 (P T : ℝ) : State := ⟨P / (r_air * T), 0.0, P, gam_air⟩
noncomputable def stQ00 (P T : ℝ) : State := ⟨P / (r_He * T), 0.0, P, gam_He⟩

theorem st_rair : 0 < r_air := by unfold r_air; norm_num
theorem st_rHe : 0 < r_He := by unfold r_He; norm_num
theorem st_v20 {P r T : ℝ} (hP : 0 < P) (hr : 1 < r) (hT : 0 < T) : (stQ20 P r T).Valid := by
  have := st_rair
  have h0 : 0 < r := by linarith
  exact ⟨by show 0 < P * r / (r_air * T); positivity, by show 0 < P * r; positivity, by show 1 < gam_air; unfold gam_air; norm_num⟩
theorem st_v10 {P T : ℝ} (hP : 0 < P) (hT : 0 < T) : (stQ10 P T).Valid := by
  have := st_rair
  exact ⟨by show 0 < P / (r_air * T); positivity, hP, by show 1 < gam_air; unfold gam_air; norm_num⟩
theorem st_v00 {P T : ℝ} (hP : 0 < P) (hT : 0 < T) : (stQ00 P T).Valid := by
  have := st_rHe
  exact ⟨by show 0 < P / (r_He * T); positivity, hP, by show 1 < gam_He; unfold gam_He; norm_num⟩

/-- facts about the four problems -/
structure StWaves (P r T : ℝ) (b1 b2 bw b3 : Pb) : Prop where
  e1 : ∃ p, 0 < p ∧ duf (stQ20 P r T) (stQ10 P T) p = 0 ∧ b1 = solPb (stQ20 P r T) (stQ10 P T) p
  v11 : State.Valid b1.qstarR
  v21 : State.Valid b1.qstarL
  l1 : P < b1.pstar ∧ b1.pstar < P * r ∧ 0 < b1.ustar
  e2 : ∃ p, 0 < p ∧ duf b1.qstarR (stQ00 P T) p = 0 ∧ b2 = solPb b1.qstarR (stQ00 P T) p
  v12 : State.Valid b2.qstarL
  v01 : State.Valid b2.qstarR
  l2 : P < b2.pstar ∧ 0 < b2.ustar
  ew : ∃ p, 0 < p ∧ duf b2.qstarR b2.qstarR.copysymmetric p = 0 ∧ bw = solPb b2.qstarR b2.qstarR.copysymmetric p
  v02 : State.Valid bw.qstarL
  lw : b2.pstar < bw.pstar ∧ bw.ustar = 0 ∧ bw.w0 < 0
  e3 : ∃ p, 0 < p ∧ duf b2.qstarL bw.qstarL p = 0 ∧ b3 = solPb b2.qstarL bw.qstarL p
  l3 : b2.pstar < b3.pstar ∧ b3.ustar < b2.ustar

theorem st_f1 {P r T : ℝ} (hP : 0 < P) (hr : 1 < r) (hT : 0 < T) {p : ℝ} (p0 : 0 < p) (h : duf (stQ20 P r T) (stQ10 P T) p = 0) :
    P < p ∧ p < P * r ∧ 0 < (stQ20 P r T).u - df (stQ20 P r T) p := by
  have h2 := st_v20 hP hr hT; have h1 := st_v10 hP hT
  have := gv_push h2 h1 rfl (show P < P * r by nlinarith) p0 h
  refine ⟨this.1, this.2.1, ?_⟩
  have := this.2.2
  change 0.0 < _ at this
  norm_num at this ⊢
  exact this

theorem st_f2 {P T : ℝ} (hP : 0 < P) (hT : 0 < T) {q : State} (hq : q.Valid) (hu : 0 < q.u) (hp : P < q.p) {p : ℝ} (p0 : 0 < p)
    (h : duf q (stQ00 P T) p = 0) : P < p ∧ 0 < q.u - df q p := by
  have h0 := st_v00 hP hT
  have a : duf q (stQ00 P T) P < 0 := by
    have := df_strictMono hq hP.le hq.p.le hp
    rw [gv_df_self hq] at this
    unfold duf
    rw [show df (stQ00 P T) P = 0 from gv_df_self h0]
    have e : (stQ00 P T).u = 0 := by show (0.0 : ℝ) = 0; norm_num
    linarith
  have b : P < p := by
    by_contra hc
    have := (duf_strictMono hq h0).monotoneOn p0.le hP.le (not_lt.1 hc)
    rw [h] at this; linarith
  refine ⟨b, ?_⟩
  have := df_strictMono h0 hP.le p0.le b
  rw [show df (stQ00 P T) P = 0 from gv_df_self h0] at this
  have e : (stQ00 P T).u = 0 := by show (0.0 : ℝ) = 0; norm_num
  unfold duf at h
  linarith

theorem st_fw {q : UState} (hq : q.Valid) (hu : 0 < q.u) {p : ℝ} (p0 : 0 < p) (h : duf q q.copysymmetric p = 0) :
    q.p < p ∧ q.u - df q p = 0 ∧ (solPb q q.copysymmetric p).w0 < 0 := by
  have hm : State.Valid q.copysymmetric := ⟨hq.rho, hq.p, hq.gamma⟩
  obtain ⟨a, b, c⟩ := gv_collide hq hm (show -q.u < q.u by linarith) rfl p0 h
  have e : df q.copysymmetric p = df q p := rfl
  have e2 : q.copysymmetric.u = -q.u := rfl
  have e0 : q.u - df q p = 0 := by unfold duf at h; rw [e, e2] at h; linarith
  refine ⟨a, e0, ?_⟩
  have i := inner_pos hq p0 (q.u - df q p)
  have w := (width hq p0 (q.u - df q p)).1
  show q.u - outer q p < 0
  linarith

theorem st_f3 {q s : State} (hq : q.Valid) (hs : s.Valid) (hu : 0 < q.u) (hs0 : s.u = 0) (hp : q.p < s.p) {p : ℝ} (p0 : 0 < p)
    (h : duf q s p = 0) : q.p < p ∧ q.u - df q p < q.u := by
  have a : duf q s q.p < 0 := by
    have := df_strictMono hs hq.p.le hs.p.le hp
    rw [gv_df_self hs] at this
    unfold duf
    rw [gv_df_self hq]
    linarith
  have b : q.p < p := by
    by_contra hc
    have := (duf_strictMono hq hs).monotoneOn p0.le hq.p.le (not_lt.1 hc)
    rw [h] at this; linarith
  refine ⟨b, ?_⟩
  have := df_strictMono hq hq.p.le p0.le b
  rw [gv_df_self hq] at this
  linarith

/-- the four problems, from their constructors -/
theorem st_waves {newton : RootFinder} (hn : SoundRootFinder newton) {P r T : ℝ} (hP : 0 < P) (hr : 1 < r) (hT : 0 < T) {b1 b2 bw b3 : Pb}
    (h1 : Riemann.init newton (stQ20 P r T) (stQ10 P T) = .ok b1) (h2 : Riemann.init newton b1.qstarR (stQ00 P T) = .ok b2)
    (hw : Riemann.init newton b2.qstarR b2.qstarR.copysymmetric = .ok bw) (h3 : Riemann.init newton b2.qstarL bw.qstarL = .ok b3) :
    StWaves P r T b1 b2 bw b3 := by
  have v20 := st_v20 hP hr hT; have v10 := st_v10 hP hT; have v00 := st_v00 hP hT
  obtain ⟨p1, p10, r1, rfl⟩ := riemann_init_spec hn v20 v10 (st_novac v20 v10 le_rfl) h1
  have f1 := st_f1 hP hr hT p10 r1
  have v11 : State.Valid (solPb (stQ20 P r T) (stQ10 P T) p1).qstarR := starState_valid v10 p10 _
  have v21 : State.Valid (solPb (stQ20 P r T) (stQ10 P T) p1).qstarL := starState_valid v20 p10 _
  have z : (stQ00 P T).u = 0 := by show (0.0 : ℝ) = 0; norm_num
  obtain ⟨p2, p20, r2, rfl⟩ := riemann_init_spec hn v11 v00 (st_novac v11 v00 (by rw [z]; exact f1.2.2.le)) h2
  have f2 := st_f2 hP hT v11 f1.2.2 f1.1 p20 r2
  have v12 : State.Valid (solPb (solPb (stQ20 P r T) (stQ10 P T) p1).qstarR (stQ00 P T) p2).qstarL := starState_valid v11 p20 _
  have v01 : State.Valid (solPb (solPb (stQ20 P r T) (stQ10 P T) p1).qstarR (stQ00 P T) p2).qstarR := starState_valid v00 p20 _
  set b2 := solPb (solPb (stQ20 P r T) (stQ10 P T) p1).qstarR (stQ00 P T) p2 with hb2
  have u01 : 0 < b2.qstarR.u := f2.2
  have vm : State.Valid b2.qstarR.copysymmetric := ⟨v01.rho, v01.p, v01.gamma⟩
  obtain ⟨pw, pw0, rw', rfl⟩ := riemann_init_spec hn v01 vm (st_novac v01 vm (show -b2.qstarR.u ≤ b2.qstarR.u by linarith)) hw
  have fw := st_fw v01 u01 pw0 rw'
  have v02 : State.Valid (solPb b2.qstarR b2.qstarR.copysymmetric pw).qstarL := starState_valid v01 pw0 _
  have z2 : (solPb b2.qstarR b2.qstarR.copysymmetric pw).qstarL.u = 0 := fw.2.1
  have u12 : 0 < b2.qstarL.u := f2.2
  obtain ⟨p3, p30, r3, rfl⟩ := riemann_init_spec hn v12 v02 (st_novac v12 v02 (by rw [z2]; exact u12.le)) h3
  have f3 := st_f3 v12 v02 u12 z2 (show p2 < pw from fw.1) p30 r3
  exact ⟨⟨p1, p10, r1, rfl⟩, v11, v21, f1, ⟨p2, p20, r2, rfl⟩, v12, v01, f2, ⟨pw, pw0, rw', rfl⟩, v02, fw, ⟨p3, p30, r3, rfl⟩, f3⟩

/-- what the notebook computes -/
structure StRun (newton : RootFinder) (P r T : ℝ) (o : Out) : Prop where
  q20 : o.q20 = stQ20 P r T
  q10 : o.q10 = stQ10 P T
  q00 : o.q00 = stQ00 P T
  h1 : Riemann.init newton (stQ20 P r T) (stQ10 P T) = .ok o.pb1
  h2 : Riemann.init newton o.pb1.qstarR (stQ00 P T) = .ok o.pb2
  hw : Riemann.init newton o.pb2.qstarR o.pb2.qstarR.copysymmetric = .ok o.pbw
  h3 : Riemann.init newton o.pb2.qstarL o.pbw.qstarL = .ok o.pb3
  waves : StWaves P r T o.pb1 o.pb2 o.pbw o.pb3
  ratio1 : o.ratio1 = o.pb1.pstar / P
  mach1 : o.mach1 = o.pb1.w4 / (stQ10 P T).cs
  ratio2 : o.ratio2 = o.pb2.pstar / P
  ratioW : o.ratioW = o.pbw.pstar / o.pb2.pstar
  machW : o.machW = o.pbw.w0 / o.pb2.qstarR.cs
  t1 : o.t_shock_int = 5 / 2 / o.pb1.w4
  t2 : o.t_shock_wall = 1 / 2 / o.pb2.w4 + o.t_shock_int
  t3 : o.t_reshock = (-(1 / 2) + o.t_shock_wall * o.pbw.w0 - o.t_shock_int * o.pb2.ustar) / (o.pbw.w0 - o.pb2.ustar)
  x3 : o.x_reshock = 5 / 2 + o.pb2.ustar * (o.t_reshock - o.t_shock_int)
  tm : o.t_max = 6 / 5 * o.t_reshock

/-- speeds of the transmitted shocks -/
theorem StWaves.w4 {P r T : ℝ} {b1 b2 bw b3 : Pb} (h : StWaves P r T b1 b2 bw b3) (hP : 0 < P) (hr : 1 < r) (hT : 0 < T) :
    (stQ10 P T).cs < b1.w4 ∧ b1.ustar < b1.w4 ∧ (stQ00 P T).cs < b2.w4 ∧ b2.ustar < b2.w4 := by
  have v20 := st_v20 hP hr hT; have v10 := st_v10 hP hT; have v00 := st_v00 hP hT
  obtain ⟨p1, p10, r1, e1⟩ := h.e1
  obtain ⟨p2, p20, r2, e2⟩ := h.e2
  have l1 := h.l1; have l2 := h.l2
  have g1 : (stQ10 P T).u = 0 := by show (0.0 : ℝ) = 0; norm_num
  have g0 : (stQ00 P T).u = 0 := by show (0.0 : ℝ) = 0; norm_num
  have a1 : P < p1 := by have := l1.1; rw [e1] at this; exact this
  have a2 : P < p2 := by have := l2.1; rw [e2] at this; exact this
  have w1 := (width v10 p10 b1.ustar).1
  have w2 := (width v00 p20 b2.ustar).1
  have i1 := inner_pos v10 p10 b1.ustar
  have i2 := inner_pos v00 p20 b2.ustar
  have k1 : b1.w4 = outer (stQ10 P T) p1 := by rw [e1]; show (stQ10 P T).u + _ = _; rw [g1, zero_add]
  have k2 : b2.w4 = outer (stQ00 P T) p2 := by rw [e2]; show (stQ00 P T).u + _ = _; rw [g0, zero_add]
  have u1 : b1.ustar = df (stQ10 P T) p1 := by rw [e1]; show _ - _ = _; unfold duf at r1; linarith
  have u2 : b2.ustar = df (stQ00 P T) p2 := by rw [e2]; show _ - _ = _; unfold duf at r2; linarith
  refine ⟨?_, by linarith, ?_, by linarith⟩
  · rw [k1]; unfold outer; rw [if_pos (show p1 > (stQ10 P T).p from a1)]; exact cs_lt_SS v10 a1
  · rw [k2]; unfold outer; rw [if_pos (show p2 > (stQ00 P T).p from a2)]; exact cs_lt_SS v00 a2

/-- everything after the four constructors -/
theorem st_tail {newton : RootFinder} {P r T : ℝ} (hP : 0 < P) (hr : 1 < r) (hT : 0 < T) {b1 b2 bw b3 : Pb}
    (h1 : Riemann.init newton (stQ20 P r T) (stQ10 P T) = .ok b1) (h2 : Riemann.init newton b1.qstarR (stQ00 P T) = .ok b2)
    (hw : Riemann.init newton b2.qstarR b2.qstarR.copysymmetric = .ok bw) (h3 : Riemann.init newton b2.qstarL bw.qstarL = .ok b3)
    (W : StWaves P r T b1 b2 bw b3) : ∃ o, Shocktube.run newton P r T = .ok o ∧ StRun newton P r T o ∧ o.pb1 = b1 ∧ o.pb2 = b2 ∧ o.pbw = bw ∧ o.pb3 = b3 := by
  have ra := st_rair; have rh := st_rHe
  have v10 := st_v10 hP hT; have v00 := st_v00 hP hT
  obtain ⟨c1, c2, c3, c4⟩ := W.w4 hP hr hT
  have := v10.cs_pos; have := v00.cs_pos
  have w1 : b1.right_fastest ≠ 0 := by show b1.w4 ≠ 0; linarith
  have w2 : b2.right_fastest ≠ 0 := by show b2.w4 ≠ 0; linarith
  have l2 := W.l2; have lw := W.lw
  have d : bw.left_fastest - b2.qstarL.u ≠ 0 := by
    have : b2.qstarL.u = b2.ustar := by obtain ⟨p, _, _, e⟩ := W.e2; rw [e]; rfl
    rw [this]; show bw.w0 - b2.ustar ≠ 0; linarith
  have n1 : r_air * T ≠ 0 := by positivity
  have n2 : r_He * T ≠ 0 := by positivity
  have m10 : P ≠ 0 := hP.ne'
  have E : Shocktube.run newton P r T = .ok
      { q20 := stQ20 P r T, q10 := stQ10 P T, q00 := stQ00 P T, pb1 := b1, pb2 := b2, pbw := bw, pb3 := b3,
        ratio1 := b1.qstarR.p / P, mach1 := b1.w4 / (stQ10 P T).cs,
        ratio2 := b2.qstarR.p / P, ratioW := bw.qstarL.p / b2.qstarR.p, machW := bw.w0 / b2.qstarR.cs,
        t_shock_int := x_int / b1.w4, t_shock_wall := (x_Rwall - x_int) / b2.w4 + x_int / b1.w4,
        x_reshock := x_int + b2.qstarL.u * ((-x_Rwall + x_int + ((x_Rwall - x_int) / b2.w4 + x_int / b1.w4) * bw.w0 - x_int / b1.w4 * b2.qstarL.u) / (bw.w0 - b2.qstarL.u) - x_int / b1.w4),
        t_reshock := (-x_Rwall + x_int + ((x_Rwall - x_int) / b2.w4 + x_int / b1.w4) * bw.w0 - x_int / b1.w4 * b2.qstarL.u) / (bw.w0 - b2.qstarL.u),
        t_max := 1.2 * ((-x_Rwall + x_int + ((x_Rwall - x_int) / b2.w4 + x_int / b1.w4) * bw.w0 - x_int / b1.w4 * b2.qstarL.u) / (bw.w0 - b2.qstarL.u)) } := by
    unfold Shocktube.run
    rw [Py.div_ok n1, Py.ok_bind, Py.div_ok n1, Py.ok_bind]
    simp only []
    rw [show (⟨P * r / (r_air * T), 0.0, P * r, gam_air⟩ : UState) = stQ20 P r T from rfl, show (⟨P / (r_air * T), 0.0, P, gam_air⟩ : UState) = stQ10 P T from rfl,
      h1, Py.ok_bind, Py.div_ok m10, Py.ok_bind, v10.asound, Py.ok_bind, Py.div_ok v10.cs_pos.ne', Py.ok_bind, Py.div_ok n2, Py.ok_bind]
    rw [show (⟨P / (r_He * T), 0.0, P, gam_He⟩ : UState) = stQ00 P T from rfl, h2, Py.ok_bind, Py.div_ok m10, Py.ok_bind, hw, Py.ok_bind, Py.div_ok W.v01.p.ne', Py.ok_bind, W.v01.asound,
      Py.ok_bind, Py.div_ok W.v01.cs_pos.ne', Py.ok_bind, h3, Py.ok_bind, Py.div_ok w1, Py.ok_bind, Py.div_ok w2, Py.ok_bind]
    unfold xt_intersect
    rw [Py.div_ok d]
    rfl
  refine ⟨_, E, ?_, rfl, rfl, rfl, rfl⟩
  have u12 : b2.qstarL.u = b2.ustar := by obtain ⟨p, _, _, e⟩ := W.e2; rw [e]; rfl
  have s1 : b1.qstarR.p = b1.pstar := by obtain ⟨p, _, _, e⟩ := W.e1; rw [e]; rfl
  have s2 : b2.qstarR.p = b2.pstar := by obtain ⟨p, _, _, e⟩ := W.e2; rw [e]; rfl
  have s3 : bw.qstarL.p = bw.pstar := by obtain ⟨p, _, _, e⟩ := W.ew; rw [e]; rfl
  refine ⟨rfl, rfl, rfl, h1, h2, hw, h3, W, ?_, rfl, ?_, ?_, rfl, ?_, ?_, ?_, ?_, ?_⟩
  · simp only [s1]
  · simp only [s2]
  · simp only [s2, s3]
  · simp only [x_int]; norm_num
  · simp only [x_int, x_Rwall]; norm_num
  · simp only [x_int, x_Rwall, u12]; norm_num
  · simp only [x_int, x_Rwall, u12]; norm_num
  · norm_num

theorem st_run {newton : RootFinder} (hn : SoundRootFinder newton) {P r T : ℝ} (hP : 0 < P) (hr : 1 < r) (hT : 0 < T) {o : Out}
    (h : Shocktube.run newton P r T = .ok o) : StRun newton P r T o := by
  have ra := st_rair; have rh := st_rHe
  have n1 : r_air * T ≠ 0 := by positivity
  have n2 : r_He * T ≠ 0 := by positivity
  have h' := h
  unfold Shocktube.run at h'
  rw [Py.div_ok n1, Py.ok_bind, Py.div_ok n1, Py.ok_bind] at h'
  simp only [] at h'
  rw [show (⟨P * r / (r_air * T), 0.0, P * r, gam_air⟩ : UState) = stQ20 P r T from rfl, show (⟨P / (r_air * T), 0.0, P, gam_air⟩ : UState) = stQ10 P T from rfl] at h'
  obtain ⟨b1, h1, h'⟩ := Py.bind_inv h'
  obtain ⟨_, _, h'⟩ := Py.bind_inv h'
  obtain ⟨_, _, h'⟩ := Py.bind_inv h'
  obtain ⟨_, _, h'⟩ := Py.bind_inv h'
  rw [Py.div_ok n2, Py.ok_bind] at h'
  rw [show (⟨P / (r_He * T), 0.0, P, gam_He⟩ : UState) = stQ00 P T from rfl] at h'
  obtain ⟨b2, h2, h'⟩ := Py.bind_inv h'
  obtain ⟨_, _, h'⟩ := Py.bind_inv h'
  obtain ⟨bw, hw, h'⟩ := Py.bind_inv h'
  obtain ⟨_, _, h'⟩ := Py.bind_inv h'
  obtain ⟨_, _, h'⟩ := Py.bind_inv h'
  obtain ⟨_, _, h'⟩ := Py.bind_inv h'
  obtain ⟨b3, h3, h'⟩ := Py.bind_inv h'
  obtain ⟨o', E, R, _⟩ := st_tail hP hr hT h1 h2 hw h3 (st_waves hn hP hr hT h1 h2 hw h3)
  rw [h] at E
  cases Except.ok.inj E
  exact R

end Aerokit.Props
