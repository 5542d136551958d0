import Verif.Props.Shocktube
import Verif.Lemmas.ShockWave

/-! # Property C162 : the shock tube notebook: shocks, times and positions -/

namespace Aerokit.Props
open Spec Shocktube Model1D Riemann Unsteady1D ShockWave
open MassFlow (RootFinder)

/-- the pressure ratio of a shock and its Mach number -/
theorem st_psr {q : State} (h : q.Valid) {p : ℝ} (hp : 0 < p) : psr (SS q p / q.cs) q.gamma = p / q.p := by
  have h1 := h.rho; have h2 := h.p; have h3 := h.g0; have hg := h.gamma
  have e1 : q.cs ^ 2 = q.gamma * q.p / q.rho := Real.sq_sqrt (by positivity)
  unfold psr
  rw [div_pow, SS_sq h hp, e1]
  unfold KK
  have : q.gamma + 1 ≠ 0 := by linarith
  field_simp
  ring

theorem st_psr_mono {M N γ : ℝ} (hγ : 1 < γ) (h : M ^ 2 < N ^ 2) : psr M γ < psr N γ := by
  unfold psr
  have : 0 < 2 * γ / (γ + 1) := by positivity
  nlinarith

theorem st_u0 (P T : ℝ) : (stQ10 P T).u = 0 ∧ (stQ00 P T).u = 0 := by
  constructor <;> (show (0.0 : ℝ) = 0; norm_num)

/-- fields of the solutions -/
theorem StWaves.fields {P r T : ℝ} {b1 b2 bw b3 : Pb} (h : StWaves P r T b1 b2 bw b3) :
    (b1.qstarL.u = b1.ustar ∧ b1.qstarR.u = b1.ustar ∧ b1.qstarL.p = b1.pstar ∧ b1.qstarR.p = b1.pstar ∧ b1.qstarL.gamma = gam_air ∧ b1.qstarR.gamma = gam_air) ∧
    (b2.qstarL.u = b2.ustar ∧ b2.qstarR.u = b2.ustar ∧ b2.qstarL.p = b2.pstar ∧ b2.qstarR.p = b2.pstar ∧ b2.qstarL.gamma = gam_air ∧ b2.qstarR.gamma = gam_He) ∧
    (bw.qstarL.u = bw.ustar ∧ bw.qstarL.p = bw.pstar ∧ bw.qstarL.gamma = gam_He) ∧
    (b3.qstarL.u = b3.ustar ∧ b3.qstarR.u = b3.ustar ∧ b3.qstarL.p = b3.pstar ∧ b3.qstarR.p = b3.pstar) := by
  obtain ⟨p1, _, _, e1⟩ := h.e1
  obtain ⟨p2, _, _, e2⟩ := h.e2
  obtain ⟨p3, _, _, e3⟩ := h.e3
  obtain ⟨pw, _, _, ew⟩ := h.ew
  have a1 : b1.qstarR.gamma = gam_air := by rw [e1]; rfl
  have a2 : b2.qstarR.gamma = gam_He := by rw [e2]; rfl
  refine ⟨⟨by rw [e1]; rfl, by rw [e1]; rfl, by rw [e1]; rfl, by rw [e1]; rfl, by rw [e1]; rfl, a1⟩,
    ⟨by rw [e2]; rfl, by rw [e2]; rfl, by rw [e2]; rfl, by rw [e2]; rfl, ?_, a2⟩, ⟨by rw [ew]; rfl, by rw [ew]; rfl, ?_⟩,
    by rw [e3]; rfl, by rw [e3]; rfl, by rw [e3]; rfl, by rw [e3]; rfl⟩
  · rw [e2]; exact a1
  · rw [ew]; exact a2

/-- helium yields more than air: the same overpressure sets it in faster motion -/
theorem st_light {P T : ℝ} (hP : 0 < P) (hT : 0 < T) {p : ℝ} (hp : P < p) : df (stQ10 P T) p < df (stQ00 P T) p := by
  have v1 := st_v10 hP hT; have v0 := st_v00 hP hT
  have p0 : 0 < p := by linarith
  unfold df
  rw [if_pos (show p > (stQ10 P T).p from hp), if_pos (show p > (stQ00 P T).p from hp)]
  unfold dus
  have s1 := SS_pos v1 p0; have s0 := SS_pos v0 p0
  have r1 := v1.rho; have r0 := v0.rho
  have q1 := SS_sq v1 p0; have q0 := SS_sq v0 p0
  have key : (stQ00 P T).rho * SS (stQ00 P T) p < (stQ10 P T).rho * SS (stQ10 P T) p := by
    apply lt_of_pow_lt_pow_left₀ 2 (by positivity)
    rw [mul_pow, mul_pow, q1, q0]
    have e0 : (stQ00 P T).rho ^ 2 * (KK (stQ00 P T) p / (2 * (stQ00 P T).rho)) = (stQ00 P T).rho * KK (stQ00 P T) p / 2 := by field_simp
    have e1 : (stQ10 P T).rho ^ 2 * (KK (stQ10 P T) p / (2 * (stQ10 P T).rho)) = (stQ10 P T).rho * KK (stQ10 P T) p / 2 := by field_simp
    rw [e0, e1]
    show P / (r_He * T) * ((gam_He + 1) * p + (gam_He - 1) * P) / 2 < P / (r_air * T) * ((gam_air + 1) * p + (gam_air - 1) * P) / 2
    have ex : P / (r_He * T) * ((gam_He + 1) * p + (gam_He - 1) * P) / 2 = P / T * (((gam_He + 1) * p + (gam_He - 1) * P) / (2 * r_He)) := by
      have := st_rHe; field_simp
    have ey : P / (r_air * T) * ((gam_air + 1) * p + (gam_air - 1) * P) / 2 = P / T * (((gam_air + 1) * p + (gam_air - 1) * P) / (2 * r_air)) := by
      have := st_rair; field_simp
    rw [ex, ey]
    apply mul_lt_mul_of_pos_left _ (by positivity)
    unfold r_He r_air gam_He gam_air
    norm_num
    rw [div_lt_div_iff₀ (by norm_num) (by norm_num)]
    linarith
  show (p - P) / _ < (p - P) / _
  apply div_lt_div_of_pos_left (by linarith) (by positivity) key

/-- the transmitted shock is weaker and the interface is accelerated -/
theorem StWaves.light {P r T : ℝ} {b1 b2 bw b3 : Pb} (h : StWaves P r T b1 b2 bw b3) (hP : 0 < P) (hr : 1 < r) (hT : 0 < T) :
    b2.pstar < b1.pstar ∧ b1.ustar < b2.ustar := by
  have v20 := st_v20 hP hr hT; have v10 := st_v10 hP hT; have v00 := st_v00 hP hT
  have F := h.fields
  obtain ⟨g1, g0⟩ := st_u0 P T
  obtain ⟨p1, p10, r1, e1⟩ := h.e1
  obtain ⟨p2, p20, r2, e2⟩ := h.e2
  have P1 : b1.pstar = p1 := by rw [e1]; rfl
  have P2 : b2.pstar = p2 := by rw [e2]; rfl
  have U1 : b1.ustar = df (stQ10 P T) p1 := by rw [e1]; show _ - _ = _; unfold duf at r1; linarith
  have U2 : b2.ustar = b1.qstarR.u - df b1.qstarR p2 := by rw [e2]; rfl
  have hp : P < p1 := by have := h.l1.1; rwa [P1] at this
  have L := st_light hP hT hp
  have Q : b1.qstarR.p = p1 := by rw [F.1.2.2.2.1, P1]
  have S : df b1.qstarR p1 = 0 := by rw [← Q]; exact gv_df_self h.v11
  have pos : 0 < duf b1.qstarR (stQ00 P T) p1 := by
    unfold duf; rw [S, g0, F.1.2.1, U1]; linarith
  have lt : p2 < p1 := by
    by_contra hc
    have := (duf_strictMono h.v11 v00).monotoneOn p10.le p20.le (not_lt.1 hc)
    rw [r2] at this; linarith
  refine ⟨by rw [P1, P2]; exact lt, ?_⟩
  rw [U2, F.1.2.1]
  have := df_strictMono h.v11 p20.le p10.le lt
  rw [S] at this
  linarith

/-! ### C162 -/

/-- C162: for every solver that finds a root whenever there is one, every initial pressure and temperature and every pressure ratio above one,
the computing cells of the notebook run to the end. -/
theorem C162_runs (newton : RootFinder) (hn : SoundRootFinder newton) (hc : ∀ f x0, (∃ x, f x = .ok 0) → ∃ x, newton f x0 = .ok x)
    (Pinit Pratio Tisoth : ℝ) (hP : 0 < Pinit) (hr : 1 < Pratio) (hT : 0 < Tisoth) : ∃ o, Shocktube.run newton Pinit Pratio Tisoth = .ok o := by
  have v20 := st_v20 hP hr hT; have v10 := st_v10 hP hT; have v00 := st_v00 hP hT
  obtain ⟨g1, g0⟩ := st_u0 Pinit Tisoth
  obtain ⟨p1, p10, r1, h1⟩ := st_init hn hc v20 v10 le_rfl
  have f1 := st_f1 hP hr hT p10 r1
  have v11 : State.Valid (solPb (stQ20 Pinit Pratio Tisoth) (stQ10 Pinit Tisoth) p1).qstarR := starState_valid v10 p10 _
  obtain ⟨p2, p20, r2, h2⟩ := st_init hn hc v11 v00 (by rw [g0]; exact f1.2.2.le)
  have f2 := st_f2 hP hT v11 f1.2.2 f1.1 p20 r2
  set b2 := solPb (solPb (stQ20 Pinit Pratio Tisoth) (stQ10 Pinit Tisoth) p1).qstarR (stQ00 Pinit Tisoth) p2 with hb2
  have v12 : State.Valid b2.qstarL := starState_valid v11 p20 _
  have v01 : State.Valid b2.qstarR := starState_valid v00 p20 _
  have u01 : 0 < b2.qstarR.u := f2.2
  have u12 : 0 < b2.qstarL.u := f2.2
  have vm : State.Valid b2.qstarR.copysymmetric := ⟨v01.rho, v01.p, v01.gamma⟩
  obtain ⟨pw, pw0, rw', hw⟩ := st_init hn hc v01 vm (show -b2.qstarR.u ≤ b2.qstarR.u by linarith)
  have fw := st_fw v01 u01 pw0 rw'
  have v02 : State.Valid (solPb b2.qstarR b2.qstarR.copysymmetric pw).qstarL := starState_valid v01 pw0 _
  have z2 : (solPb b2.qstarR b2.qstarR.copysymmetric pw).qstarL.u = 0 := fw.2.1
  obtain ⟨p3, p30, r3, h3⟩ := st_init hn hc v12 v02 (by rw [z2]; exact u12.le)
  obtain ⟨o, E, _⟩ := st_tail hP hr hT h1 h2 hw h3 (st_waves hn hP hr hT h1 h2 hw h3)
  exact ⟨o, E⟩

example : ∃ (newton : RootFinder) (o : Out), SoundRootFinder newton ∧ Shocktube.run newton 1e5 2.38 293.15 = .ok o := by
  obtain ⟨n, h1, h2⟩ := exists_soundRootFinder
  obtain ⟨o, h⟩ := C162_runs n h1 h2 1e5 2.38 293.15 (by norm_num) (by norm_num) (by norm_num)
  exact ⟨n, o, h1, h⟩

section
variable (newton : RootFinder) (hn : SoundRootFinder newton) (Pinit Pratio Tisoth : ℝ) (hP : 0 < Pinit) (hr : 1 < Pratio) (hT : 0 < Tisoth)
  (o : Out) (h : Shocktube.run newton Pinit Pratio Tisoth = .ok o)
include hn hP hr hT h

/-- C162, shock generation: between the two initial pressures, the driven gas is set in motion by a shock, and the driver gas is expanded
isentropically to the same pressure and velocity. -/
theorem C162_shock : o.q10.p < o.q11.p ∧ o.q11.p < o.q20.p ∧ 0 < o.q11.u ∧ o.q21.u = o.q11.u ∧ o.q21.p = o.q11.p ∧
    MovingShock o.pb1.right_fastest o.q10 o.q11 ∧ (flow o.q21).entropyFn o.q20.gamma = (flow o.q20).entropyFn o.q20.gamma ∧
    o.q21.u + 2 * o.q21.cs / (o.q20.gamma - 1) = o.q20.u + 2 * o.q20.cs / (o.q20.gamma - 1) := by
  have R := st_run hn hP hr hT h
  have v20 := st_v20 hP hr hT; have v10 := st_v10 hP hT
  have J := C60_jumps newton hn _ _ v20 v10 (st_novac v20 v10 le_rfl) _ R.h1
  have F := R.waves.fields
  have l := R.waves.l1
  have i := J.2.2.1 l.2.1.le
  refine ⟨?_, ?_, ?_, ?_, ?_, ?_, ?_, ?_⟩
  · rw [R.q10]; show Pinit < o.pb1.qstarR.p; rw [F.1.2.2.2.1]; exact l.1
  · rw [R.q20]; show o.pb1.qstarR.p < Pinit * Pratio; rw [F.1.2.2.2.1]; exact l.2.1
  · show 0 < o.pb1.qstarR.u; rw [F.1.2.1]; exact l.2.2
  · show o.pb1.qstarL.u = o.pb1.qstarR.u; rw [F.1.1, F.1.2.1]
  · show o.pb1.qstarL.p = o.pb1.qstarR.p; rw [F.1.2.2.1, F.1.2.2.2.1]
  · rw [R.q10]; exact J.2.1 l.1
  · rw [R.q20]; exact i.1
  · rw [R.q20]; exact i.2

/-- C162, shock and interface: a shock is transmitted into the helium; it is weaker than the incident one, and the interface moves faster than
the shocked air did, which is therefore expanded isentropically. -/
theorem C162_interface : o.q00.p < o.q01.p ∧ o.q01.p < o.q11.p ∧ o.q11.u < o.q01.u ∧ o.q12.u = o.q01.u ∧ o.q12.p = o.q01.p ∧
    MovingShock o.pb2.right_fastest o.q00 o.q01 ∧ (flow o.q12).entropyFn o.q11.gamma = (flow o.q11).entropyFn o.q11.gamma ∧
    o.q12.u + 2 * o.q12.cs / (o.q11.gamma - 1) = o.q11.u + 2 * o.q11.cs / (o.q11.gamma - 1) := by
  have R := st_run hn hP hr hT h
  have W := R.waves
  have v00 := st_v00 hP hT
  have F := W.fields
  have l := W.l2; have l1 := W.l1
  have LL := W.light hP hr hT
  have J := C60_jumps newton hn _ _ W.v11 v00 (st_novac W.v11 v00 (by rw [(st_u0 Pinit Tisoth).2, F.1.2.1]; exact l1.2.2.le)) _ R.h2
  have i := J.2.2.1 (by rw [F.1.2.2.2.1]; exact LL.1.le)
  refine ⟨?_, ?_, ?_, ?_, ?_, ?_, i.1, i.2⟩
  · rw [R.q00]; show Pinit < o.pb2.qstarR.p; rw [F.2.1.2.2.2.1]; exact l.1
  · show o.pb2.qstarR.p < o.pb1.qstarR.p; rw [F.2.1.2.2.2.1, F.1.2.2.2.1]; exact LL.1
  · show o.pb1.qstarR.u < o.pb2.qstarR.u; rw [F.2.1.2.1, F.1.2.1]; exact LL.2
  · show o.pb2.qstarL.u = o.pb2.qstarR.u; rw [F.2.1.1, F.2.1.2.1]
  · show o.pb2.qstarL.p = o.pb2.qstarR.p; rw [F.2.1.2.2.1, F.2.1.2.2.2.1]
  · rw [R.q00]; exact J.2.1 l.1

/-- C162, reflection on the wall and second interaction: the helium is brought to rest by a shock moving to the left; then a shock moving to the
left, relative to the gas ahead of it, enters the air and slows the interface down. -/
theorem C162_wall : o.q02.u = 0 ∧ o.q01.p < o.q02.p ∧ o.pbw.left_fastest < 0 ∧ MovingShock o.pbw.left_fastest o.q01 o.q02 ∧
    o.q12.p < o.q13.p ∧ o.q13.u < o.q12.u ∧ o.q03.u = o.q13.u ∧ o.q03.p = o.q13.p ∧ MovingShock o.pb3.left_fastest o.q12 o.q13 := by
  have R := st_run hn hP hr hT h
  have W := R.waves
  have F := W.fields
  have l := W.lw; have l2 := W.l2; have l3 := W.l3
  have u01 : 0 < o.pb2.qstarR.u := by rw [F.2.1.2.1]; exact l2.2
  have vm : State.Valid o.pb2.qstarR.copysymmetric := ⟨W.v01.rho, W.v01.p, W.v01.gamma⟩
  have z : o.pbw.qstarL.u = 0 := by rw [F.2.2.1.1]; exact l.2.1
  have J := C60_jumps newton hn _ _ W.v01 vm (st_novac W.v01 vm (show -o.pb2.qstarR.u ≤ o.pb2.qstarR.u by linarith)) _ R.hw
  have K := C60_jumps newton hn _ _ W.v12 W.v02 (st_novac W.v12 W.v02 (by rw [z, F.2.1.1]; exact l2.2.le)) _ R.h3
  refine ⟨z, ?_, l.2.2, J.1 (by rw [F.2.1.2.2.2.1]; exact l.1), ?_, ?_, ?_, ?_, K.1 (by rw [F.2.1.2.2.1]; exact l3.1)⟩
  · show o.pb2.qstarR.p < o.pbw.qstarL.p; rw [F.2.1.2.2.2.1, F.2.2.1.2.1]; exact l.1
  · show o.pb2.qstarL.p < o.pb3.qstarL.p; rw [F.2.1.2.2.1, F.2.2.2.2.2.1]; exact l3.1
  · show o.pb3.qstarL.u < o.pb2.qstarL.u; rw [F.2.1.1, F.2.2.2.1]; exact l3.2
  · show o.pb3.qstarR.u = o.pb3.qstarL.u; rw [F.2.2.2.1, F.2.2.2.2.1]
  · show o.pb3.qstarR.p = o.pb3.qstarL.p; rw [F.2.2.2.2.2.1, F.2.2.2.2.2.2]

/-- C162, printed numbers: the compression ratios are those of the states, and the shock Mach number printed for the incident shock is above one
and gives the printed compression ratio. -/
theorem C162_mach : o.ratio1 = o.q11.p / o.q10.p ∧ o.ratio2 = o.q01.p / o.q00.p ∧ o.ratioW = o.q02.p / o.q01.p ∧ 1 < o.mach1 ∧
    Ps_ratio o.mach1 o.q10.gamma = .ok o.ratio1 := by
  have R := st_run hn hP hr hT h
  have W := R.waves
  have F := W.fields
  have v10 := st_v10 hP hT
  have w4 := (W.w4 hP hr hT).1
  have c := v10.cs_pos
  refine ⟨?_, ?_, ?_, ?_, ?_⟩
  · rw [R.ratio1, R.q10]; show _ = o.pb1.qstarR.p / Pinit; rw [F.1.2.2.2.1]
  · rw [R.ratio2, R.q00]; show _ = o.pb2.qstarR.p / Pinit; rw [F.2.1.2.2.2.1]
  · rw [R.ratioW]; show _ = o.pbw.qstarL.p / o.pb2.qstarR.p; rw [F.2.1.2.2.2.1, F.2.2.1.2.1]
  · rw [R.mach1, lt_div_iff₀ c]; linarith
  · rw [R.q10, Ps_ratio_ok v10.gamma, R.mach1, R.ratio1]
    obtain ⟨p1, p10, r1, e1⟩ := W.e1
    have P1 : o.pb1.pstar = p1 := by rw [e1]; rfl
    have k : o.pb1.w4 = SS (stQ10 Pinit Tisoth) p1 := by
      rw [e1]; show (stQ10 Pinit Tisoth).u + outer _ p1 = _
      unfold outer
      rw [(st_u0 Pinit Tisoth).1, zero_add, if_pos (show p1 > (stQ10 Pinit Tisoth).p by rw [← P1]; exact W.l1.1)]
    rw [k, P1, st_psr v10 p10]; rfl

/-- C162 (false for the printed Mach number of the reflected shock): it is the velocity of the shock over the speed of sound, negative and without
the velocity of the gas ahead of the shock; the compression ratio printed on the line above is that of a larger Mach number, the one of the shock
relative to the gas. -/
theorem C162_mach_false : o.machW < 0 ∧ (∃ v, Ps_ratio o.machW o.q01.gamma = .ok v ∧ v < o.ratioW) ∧
    ∃ M, M = (o.q01.u - o.pbw.left_fastest) / o.q01.cs ∧ 1 < M ∧ -o.machW < M ∧ Ps_ratio M o.q01.gamma = .ok o.ratioW := by
  have R := st_run hn hP hr hT h
  have W := R.waves
  have F := W.fields
  obtain ⟨pw, pw0, rw', ew⟩ := W.ew
  have Pw : o.pbw.pstar = pw := by rw [ew]; rfl
  have c := W.v01.cs_pos
  have hgt : pw > o.pb2.qstarR.p := by rw [F.2.1.2.2.2.1, ← Pw]; exact W.lw.1
  have k : o.pbw.w0 = o.pb2.qstarR.u - SS o.pb2.qstarR pw := by
    rw [ew]; show o.pb2.qstarR.u - outer _ pw = _
    unfold outer; rw [if_pos hgt]
  have u01 : 0 < o.pb2.qstarR.u := by rw [F.2.1.2.1]; exact W.l2.2
  have lw := W.lw.2.2
  have fast := cs_lt_SS W.v01 hgt
  have eM : (o.q01.u - o.pbw.left_fastest) / o.q01.cs = SS o.pb2.qstarR pw / State.cs o.pb2.qstarR := by
    show (o.pb2.qstarR.u - o.pbw.w0) / State.cs o.pb2.qstarR = _
    rw [k, sub_sub_cancel]
  have g : o.q01.gamma = o.pb2.qstarR.gamma := rfl
  have pr : psr (SS o.pb2.qstarR pw / State.cs o.pb2.qstarR) o.pb2.qstarR.gamma = o.ratioW := by
    rw [st_psr W.v01 pw0, R.ratioW, Pw, F.2.1.2.2.2.1]
  have m0 : o.machW < 0 := by rw [R.machW]; exact div_neg_of_neg_of_pos lw c
  have mM : -o.machW < SS o.pb2.qstarR pw / State.cs o.pb2.qstarR := by
    rw [R.machW, ← neg_div]
    apply div_lt_div_of_pos_right _ c
    linarith
  refine ⟨m0, ⟨_, Ps_ratio_ok W.v01.gamma, ?_⟩, _, rfl, ?_, ?_, ?_⟩
  · rw [← pr, g]
    apply st_psr_mono W.v01.gamma
    nlinarith
  · rw [eM, lt_div_iff₀ c]; linarith
  · rw [eM]; exact mM
  · rw [eM, g, Ps_ratio_ok W.v01.gamma, pr]

/-- C162, positions of the interactions: the incident shock meets the interface at `x = 2.5`, the transmitted one meets the wall at `x = 3`, and
the reflected one meets the moving interface between the two; the interactions follow each other, each one lies on the trajectories of the two waves
that meet, and the air that was behind the first shock has not reached the interface yet. -/
theorem C162_times : 0 < o.t_shock_int ∧ o.t_shock_int < o.t_shock_wall ∧ o.t_shock_wall < o.t_reshock ∧ o.t_reshock < o.t_max ∧
    o.pb1.right_fastest * o.t_shock_int = 2.5 ∧ 2.5 + o.pb2.right_fastest * (o.t_shock_wall - o.t_shock_int) = 3 ∧
    o.x_reshock = 2.5 + o.q12.u * (o.t_reshock - o.t_shock_int) ∧ o.x_reshock = 3 + o.pbw.left_fastest * (o.t_reshock - o.t_shock_wall) ∧
    2.5 < o.x_reshock ∧ o.x_reshock < 3 ∧ o.q21.u * o.t_reshock < o.x_reshock := by
  have R := st_run hn hP hr hT h
  have W := R.waves
  have F := W.fields
  obtain ⟨c1, c2, c3, c4⟩ := W.w4 hP hr hT
  have a1 := (st_v10 hP hT).cs_pos; have a0 := (st_v00 hP hT).cs_pos
  have u1 := W.l1.2.2; have u2 := W.l2.2; have w := W.lw.2.2
  have L := (W.light hP hr hT).2
  have T1 := R.t1; have T2 := R.t2; have T3 := R.t3; have X3 := R.x3
  have hu : o.q12.u = o.pb2.ustar := F.2.1.1
  have hu1 : o.q21.u = o.pb1.ustar := F.1.1
  have hw1 : o.pb1.right_fastest = o.pb1.w4 := rfl
  have hw2 : o.pb2.right_fastest = o.pb2.w4 := rfl
  have hww : o.pbw.left_fastest = o.pbw.w0 := rfl
  rw [hu, hu1, hw1, hw2, hww]
  generalize o.pb1.w4 = s1 at *
  generalize o.pb2.w4 = s2 at *
  generalize o.pbw.w0 = sw at *
  generalize o.pb1.ustar = v1 at *
  generalize o.pb2.ustar = v2 at *
  generalize o.t_shock_int = t1 at *
  generalize o.t_shock_wall = t2 at *
  have p1 : 0 < s1 := by linarith
  have p2 : 0 < s2 := by linarith
  have q1 : s1 * t1 = 5 / 2 := by rw [T1]; field_simp
  have q2 : s2 * (t2 - t1) = 1 / 2 := by rw [T2]; field_simp; ring
  have t10 : 0 < t1 := by rw [T1]; positivity
  have t21 : 0 < t2 - t1 := by
    have : t2 - t1 = 1 / 2 / s2 := by rw [T2]; ring
    rw [this]; positivity
  have dne : sw - v2 ≠ 0 := (show sw - v2 < 0 by linarith).ne
  have q3 : o.t_reshock * (sw - v2) = -(1 / 2) + t2 * sw - t1 * v2 := by rw [T3]; field_simp
  have x2 : o.x_reshock = 3 + sw * (o.t_reshock - t2) := by rw [X3]; linarith
  have e2 : (o.t_reshock - t2) * (v2 - sw) = 1 / 2 - v2 * (t2 - t1) := by linarith
  have r2 : 0 < 1 / 2 - v2 * (t2 - t1) := by
    have := mul_lt_mul_of_pos_right c4 t21
    linarith
  have t32 : 0 < o.t_reshock - t2 := by
    by_contra hc
    have : (o.t_reshock - t2) * (v2 - sw) ≤ 0 := mul_nonpos_of_nonpos_of_nonneg (not_lt.1 hc) (by linarith)
    linarith
  have t30 : 0 < o.t_reshock := by linarith
  have b1 : v1 * t1 < 5 / 2 := by
    have := mul_lt_mul_of_pos_right c2 t10
    linarith
  have b2 : v1 * (o.t_reshock - t1) < v2 * (o.t_reshock - t1) := mul_lt_mul_of_pos_right L (by linarith)
  have b3 : 0 < v2 * (o.t_reshock - t1) := mul_pos (by linarith) (by linarith)
  have b4 : sw * (o.t_reshock - t2) < 0 := mul_neg_of_neg_of_pos w t32
  norm_num
  exact ⟨t10, by linarith, by linarith, by rw [R.tm]; linarith, q1, by linarith, X3, x2, by linarith, by linarith, by linarith⟩

end

end Aerokit.Props
