import Verif.Props.Shocktube3

/-! # Property C162 : the shock tube notebook: the second interaction with the interface -/

namespace Aerokit.Props
open Spec Shocktube Model1D Riemann Unsteady1D ShockWave
open MassFlow (RootFinder)

theorem st_poly {t : ℝ} (ht : 0 ≤ t) :
    (33 / 50 * (7 / 2 + t) ^ 2 - 51 / 25 * (7 / 2 + t) - 1) ^ 2 * (12 / 5 * (7 / 2 + t) + 2 / 5) ≤
    2871 / 20780 * (5 / 2 + t) ^ 2 * (2 / 3) * (6 * (7 / 2 + t) + 1) * (66 / 25 * ((7 / 2 + t) ^ 2 + 6 * (7 / 2 + t)) + (6 * (7 / 2 + t) + 1)) := by
  rw [← sub_nonneg]
  ring_nf
  positivity

/-- a shock transmitted from air (pressure ratio `z`) into helium (`w`) is not too weak -/
theorem st_alg {z w : ℝ} (hz : 1 < z) (hw : 1 < w) (hv : 2871 / 20780 * (z - 1) ^ 2 * (8 / 3 * w + 2 / 3) < (w - 1) ^ 2 * (12 / 5 * z + 2 / 5)) :
    33 / 50 * (z * (z + 6)) < w * (6 * z + 1) := by
  by_contra hc
  have hc := not_lt.1 hc
  have h6 : 0 < 6 * z + 1 := by linarith
  set B := 33 / 50 * (z * (z + 6)) / (6 * z + 1) with hB
  have hwB : w ≤ B := by rw [hB, le_div_iff₀ h6]; exact hc
  have mono : (w - 1) ^ 2 * (4 * B + 1) ≤ (B - 1) ^ 2 * (4 * w + 1) := by
    have a0 : 0 < w - 1 := by linarith
    have ba : 0 ≤ B - w := by linarith
    have b0 : 0 < B - 1 := by linarith
    have : (B - 1) ^ 2 * (4 * w + 1) - (w - 1) ^ 2 * (4 * B + 1) = (B - w) * (4 * (w - 1) * (B - 1) + 5 * (B - 1 + (w - 1))) := by ring
    have : 0 ≤ (B - w) * (4 * (w - 1) * (B - 1) + 5 * (B - 1 + (w - 1))) := by positivity
    linarith
  have hB0 : 0 < 4 * B + 1 := by linarith
  have hw0 : 0 < 4 * w + 1 := by linarith
  have s1 : 2871 / 20780 * (z - 1) ^ 2 * (2 / 3) * (4 * B + 1) * (4 * w + 1) < (B - 1) ^ 2 * (12 / 5 * z + 2 / 5) * (4 * w + 1) := by
    have := mul_lt_mul_of_pos_right hv hB0
    have := mul_le_mul_of_nonneg_right mono (show 0 ≤ 12 / 5 * z + 2 / 5 by linarith)
    linarith
  have s2 := lt_of_mul_lt_mul_right s1 hw0.le
  have eB : B * (6 * z + 1) = 33 / 50 * (z * (z + 6)) := by rw [hB]; field_simp
  have s3 := mul_lt_mul_of_pos_right s2 (show 0 < (6 * z + 1) ^ 2 by positivity)
  have e1 : (B - 1) ^ 2 * (12 / 5 * z + 2 / 5) * (6 * z + 1) ^ 2 = (33 / 50 * z ^ 2 - 51 / 25 * z - 1) ^ 2 * (12 / 5 * z + 2 / 5) := by
    have : (B - 1) * (6 * z + 1) = 33 / 50 * z ^ 2 - 51 / 25 * z - 1 := by rw [sub_mul, eB]; ring
    rw [← this]; ring
  have e2 : 2871 / 20780 * (z - 1) ^ 2 * (2 / 3) * (4 * B + 1) * (6 * z + 1) ^ 2 =
      2871 / 20780 * (z - 1) ^ 2 * (2 / 3) * (6 * z + 1) * (66 / 25 * (z ^ 2 + 6 * z) + (6 * z + 1)) := by
    have : (4 * B + 1) * (6 * z + 1) = 66 / 25 * (z ^ 2 + 6 * z) + (6 * z + 1) := by rw [add_mul, mul_assoc, eB]; ring
    rw [← this]; ring
  rw [e1, e2] at s3
  have hz35 : 7 / 2 ≤ z := by
    by_contra hlt
    have hlt := not_le.1 hlt
    have : 0 < (B - 1) * (6 * z + 1) := mul_pos (by linarith) h6
    have : (B - 1) * (6 * z + 1) = 33 / 50 * z ^ 2 - 51 / 25 * z - 1 := by rw [sub_mul, eB]; ring
    nlinarith
  have p := st_poly (t := z - 7 / 2) (by linarith)
  rw [show 7 / 2 + (z - 7 / 2) = z by ring, show 5 / 2 + (z - 7 / 2) = z - 1 by ring] at p
  linarith

theorem st_gHe : gam_He = 5 / 3 := by unfold gam_He; norm_num

/-- square of the velocity jump of a shock -/
theorem st_dus_sq {q : State} (h : q.Valid) {p : ℝ} (hp : 0 < p) : dus q p ^ 2 * (q.rho * KK q p) = 2 * (p - q.p) ^ 2 := by
  have := h.rho; have s := SS_pos h hp; have k := KK_pos h hp
  unfold dus
  rw [div_pow, mul_pow, SS_sq h hp]
  field_simp

/-- the expanded shocked air stays much denser than the shocked helium -/
theorem StWaves.dense {P r T : ℝ} {b1 b2 bw b3 : Pb} (h : StWaves P r T b1 b2 bw b3) (hP : 0 < P) (hr : 1 < r) (hT : 0 < T) :
    25 / 21 * b2.qstarR.rho < b2.qstarL.rho := by
  have v10 := st_v10 hP hT; have v00 := st_v00 hP hT
  have F := h.fields
  have L := h.light hP hr hT
  obtain ⟨g1, g0⟩ := st_u0 P T
  obtain ⟨p1, p10, r1, e1⟩ := h.e1
  obtain ⟨p2, p20, r2, e2⟩ := h.e2
  have P1 : b1.pstar = p1 := by rw [e1]; rfl
  have P2 : b2.pstar = p2 := by rw [e2]; rfl
  have hp1 : P < p1 := by rw [← P1]; exact h.l1.1
  have hp2 : P < p2 := by rw [← P2]; exact h.l2.1
  have h21 : p2 < p1 := by rw [← P1, ← P2]; exact L.1
  have U1 : b1.ustar = dus (stQ10 P T) p1 := by
    have : b1.ustar = df (stQ10 P T) p1 := by rw [e1]; show _ - _ = _; unfold duf at r1; linarith
    rw [this]; unfold df; rw [if_pos (show p1 > (stQ10 P T).p from hp1)]
  have U2 : b2.ustar = dus (stQ00 P T) p2 := by
    have : b2.ustar = df (stQ00 P T) p2 := by rw [e2]; show _ - _ = _; unfold duf at r2; linarith
    rw [this]; unfold df; rw [if_pos (show p2 > (stQ00 P T).p from hp2)]
  have q1 := st_dus_sq v10 p10
  have q2 := st_dus_sq v00 p20
  rw [← U1] at q1
  rw [← U2] at q2
  -- densities
  have d0 : (stQ00 P T).rho = 2871 / 20780 * (stQ10 P T).rho := by
    show P / (r_He * T) = 2871 / 20780 * (P / (r_air * T))
    unfold r_He r_air
    field_simp
    norm_num
  have ra := v10.rho
  have k1 : KK (stQ10 P T) p1 = P * (12 / 5 * (p1 / P) + 2 / 5) := by
    show (gam_air + 1) * p1 + (gam_air - 1) * P = _
    unfold gam_air; field_simp; ring
  have k2 : KK (stQ00 P T) p2 = P * (8 / 3 * (p2 / P) + 2 / 3) := by
    show (gam_He + 1) * p2 + (gam_He - 1) * P = _
    rw [st_gHe]; field_simp; ring
  have z1 : 1 < p1 / P := by rw [lt_div_iff₀ hP]; linarith
  have z2 : 1 < p2 / P := by rw [lt_div_iff₀ hP]; linarith
  have x1 : p1 = p1 / P * P := by field_simp
  have x2 : p2 = p2 / P * P := by field_simp
  set z := p1 / P with hz
  set w := p2 / P with hw
  have usq : b1.ustar ^ 2 < b2.ustar ^ 2 := by
    exact pow_lt_pow_left₀ L.2 h.l1.2.2.le (by norm_num)
  have hv : 2871 / 20780 * (z - 1) ^ 2 * (8 / 3 * w + 2 / 3) < (w - 1) ^ 2 * (12 / 5 * z + 2 / 5) := by
    rw [k1] at q1
    rw [k2, d0] at q2
    change _ = 2 * (p1 - P) ^ 2 at q1
    change _ = 2 * (p2 - P) ^ 2 at q2
    have y1 : b1.ustar ^ 2 * ((stQ10 P T).rho * (12 / 5 * z + 2 / 5)) = 2 * P * (z - 1) ^ 2 := by
      have : P * (b1.ustar ^ 2 * ((stQ10 P T).rho * (12 / 5 * z + 2 / 5))) = P * (2 * P * (z - 1) ^ 2) := by
        rw [x1] at q1; linear_combination q1
      exact mul_left_cancel₀ hP.ne' this
    have y2 : b2.ustar ^ 2 * (2871 / 20780 * (stQ10 P T).rho * (8 / 3 * w + 2 / 3)) = 2 * P * (w - 1) ^ 2 := by
      have : P * (b2.ustar ^ 2 * (2871 / 20780 * (stQ10 P T).rho * (8 / 3 * w + 2 / 3))) = P * (2 * P * (w - 1) ^ 2) := by
        rw [x2] at q2; linear_combination q2
      exact mul_left_cancel₀ hP.ne' this
    have a1 : 0 < 12 / 5 * z + 2 / 5 := by linarith
    have a2 : 0 < 8 / 3 * w + 2 / 3 := by linarith
    have c := mul_lt_mul_of_pos_right usq (show 0 < 2871 / 20780 * (stQ10 P T).rho * (8 / 3 * w + 2 / 3) * (12 / 5 * z + 2 / 5) by positivity)
    have l : b1.ustar ^ 2 * (2871 / 20780 * (stQ10 P T).rho * (8 / 3 * w + 2 / 3) * (12 / 5 * z + 2 / 5)) =
        2871 / 20780 * (8 / 3 * w + 2 / 3) * (2 * P * (z - 1) ^ 2) := by rw [← y1]; ring
    have m : b2.ustar ^ 2 * (2871 / 20780 * (stQ10 P T).rho * (8 / 3 * w + 2 / 3) * (12 / 5 * z + 2 / 5)) =
        2 * P * (w - 1) ^ 2 * (12 / 5 * z + 2 / 5) := by rw [← y2]; ring
    rw [l, m] at c
    have : 2 * P * (2871 / 20780 * (z - 1) ^ 2 * (8 / 3 * w + 2 / 3)) < 2 * P * ((w - 1) ^ 2 * (12 / 5 * z + 2 / 5)) := by linarith
    exact lt_of_mul_lt_mul_left this (by positivity)
  have A := st_alg z1 z2 hv
  -- left star density
  have D12 : b2.qstarL.rho = b1.qstarR.rho * (p2 / p1) ^ (1 / b1.qstarR.gamma) := by
    rw [e2]
    show (if p2 > b1.qstarR.p then rhs b1.qstarR p2 else rhi b1.qstarR p2) = _
    rw [if_neg (by rw [F.1.2.2.2.1, P1]; exact not_lt.2 h21.le)]
    unfold rhi
    rw [F.1.2.2.2.1, P1]
  have D11 : b1.qstarR.rho = (stQ10 P T).rho * ((6 * z + 1) / (z + 6)) := by
    rw [e1]
    show (if p1 > (stQ10 P T).p then rhs (stQ10 P T) p1 else rhi (stQ10 P T) p1) = _
    rw [if_pos (show p1 > (stQ10 P T).p from hp1)]
    unfold rhs
    congr 1
    rw [k1]
    have : LL (stQ10 P T) p1 = P * (2 / 5 * z + 12 / 5) := by
      show (gam_air - 1) * p1 + (gam_air + 1) * P = _
      rw [x1]; unfold gam_air; ring
    rw [this, mul_div_mul_left _ _ hP.ne']
    rw [div_eq_div_iff (by linarith) (by linarith)]
    ring
  have D01 : b2.qstarR.rho < 4 * (stQ00 P T).rho := by
    rw [e2]
    show (if p2 > (stQ00 P T).p then rhs (stQ00 P T) p2 else rhi (stQ00 P T) p2) < _
    rw [if_pos (show p2 > (stQ00 P T).p from hp2)]
    unfold rhs
    have LP := LL_pos v00 p20
    have : KK (stQ00 P T) p2 / LL (stQ00 P T) p2 < 4 := by
      rw [div_lt_iff₀ LP]
      show (gam_He + 1) * p2 + (gam_He - 1) * P < 4 * ((gam_He - 1) * p2 + (gam_He + 1) * P)
      unfold gam_He; norm_num; linarith
    have := mul_lt_mul_of_pos_left this v00.rho
    linarith
  have R : p2 / p1 = w / z := by rw [hw, hz]; field_simp
  have pw : w / z ≤ (p2 / p1) ^ (1 / b1.qstarR.gamma) := by
    rw [R]
    have e : 1 / b1.qstarR.gamma = 5 / 7 := by rw [F.1.2.2.2.2.2]; unfold gam_air; norm_num
    rw [e]
    have l : w / z ≤ 1 := by rw [← R, div_le_one p10]; exact h21.le
    have b : 0 < w / z := by positivity
    calc w / z = (w / z) ^ (1 : ℝ) := (Real.rpow_one _).symm
      _ ≤ (w / z) ^ ((5 : ℝ) / 7) := Real.rpow_le_rpow_of_exponent_ge b l (by norm_num)
  have B : 33 / 50 < (6 * z + 1) / (z + 6) * (w / z) := by
    rw [div_mul_div_comm, lt_div_iff₀ (by positivity)]
    linarith
  have pos : 0 < (stQ10 P T).rho * ((6 * z + 1) / (z + 6)) := by positivity
  rw [D12, D11]
  calc 25 / 21 * b2.qstarR.rho < 25 / 21 * (4 * (2871 / 20780 * (stQ10 P T).rho)) := by rw [d0] at D01; linarith
    _ < (stQ10 P T).rho * (33 / 50) := by linarith
    _ < (stQ10 P T).rho * ((6 * z + 1) / (z + 6) * (w / z)) := mul_lt_mul_of_pos_left B ra
    _ = (stQ10 P T).rho * ((6 * z + 1) / (z + 6)) * (w / z) := by ring
    _ ≤ _ := mul_le_mul_of_nonneg_left pw pos.le

/-- C162, second interaction with the interface: air is heavier than helium, so a shock is sent back into the helium too, and the interface goes on
moving to the right, slower than before. -/
theorem C162_reshock (newton : RootFinder) (hn : SoundRootFinder newton) (Pinit Pratio Tisoth : ℝ) (hP : 0 < Pinit) (hr : 1 < Pratio) (hT : 0 < Tisoth)
    (o : Out) (h : Shocktube.run newton Pinit Pratio Tisoth = .ok o) :
    o.q01.rho < o.q12.rho ∧ o.q02.p < o.q03.p ∧ 0 < o.q13.u ∧ o.q13.u < o.q12.u ∧ MovingShock o.pb3.right_fastest o.q02 o.q03 := by
  have R := st_run hn hP hr hT h
  have W := R.waves
  have F := W.fields
  have dn := W.dense hP hr hT
  have l := W.lw; have l2 := W.l2; have l3 := W.l3
  have z : o.pbw.qstarL.u = 0 := by rw [F.2.2.1.1]; exact l.2.1
  have K := C60_jumps newton hn _ _ W.v12 W.v02 (st_novac W.v12 W.v02 (by rw [z, F.2.1.1]; exact l2.2.le)) _ R.h3
  obtain ⟨pw, pw0, rw', ew⟩ := W.ew
  obtain ⟨p3, p30, r3, e3⟩ := W.e3
  have Pw : o.pbw.pstar = pw := by rw [ew]; rfl
  have P3 : o.pb3.pstar = p3 := by rw [e3]; rfl
  have QL : o.pb2.qstarL.p = o.pb2.pstar := F.2.1.2.2.1
  have QR : o.pb2.qstarR.p = o.pb2.pstar := F.2.1.2.2.2.1
  have hw : o.pb2.pstar < pw := by rw [← Pw]; exact l.1
  have p2 : 0 < o.pb2.pstar := by rw [← QL]; exact W.v12.p
  have Uw : o.pb2.ustar = df o.pb2.qstarR pw := by
    have a := l.2.1
    rw [ew] at a
    change o.pb2.qstarR.u - df o.pb2.qstarR pw = 0 at a
    rw [F.2.1.2.1] at a
    linarith
  have ρ0 := W.v01.rho
  have lt : df o.pb2.qstarL pw < df o.pb2.qstarR pw := by
    unfold df
    rw [if_pos (show pw > o.pb2.qstarL.p by rw [QL]; exact hw), if_pos (show pw > o.pb2.qstarR.p by rw [QR]; exact hw)]
    have s1 := st_dus_sq W.v12 pw0
    have s0 := st_dus_sq W.v01 pw0
    have kL : KK o.pb2.qstarL pw = 12 / 5 * pw + 2 / 5 * o.pb2.pstar := by
      unfold KK; rw [QL, F.2.1.2.2.2.2.1]; unfold gam_air; ring
    have kR : KK o.pb2.qstarR pw = 8 / 3 * pw + 2 / 3 * o.pb2.pstar := by
      unfold KK; rw [QR, F.2.1.2.2.2.2.2, st_gHe]; ring
    have S0 := SS_pos W.v01 pw0
    have n0 : 0 < dus o.pb2.qstarR pw := by
      unfold dus; apply div_pos _ (by positivity); rw [QR]; linarith
    have big : o.pb2.qstarR.rho * KK o.pb2.qstarR pw < o.pb2.qstarL.rho * KK o.pb2.qstarL pw := by
      rw [kL, kR]
      have a : 0 < 12 / 5 * pw + 2 / 5 * o.pb2.pstar := by linarith
      have := mul_lt_mul_of_pos_right dn a
      have b : 8 / 3 * pw + 2 / 3 * o.pb2.pstar ≤ 25 / 21 * (12 / 5 * pw + 2 / 5 * o.pb2.pstar) := by linarith
      have := mul_le_mul_of_nonneg_left b ρ0.le
      linarith
    have k0 := KK_pos W.v01 pw0
    rw [QL] at s1
    rw [QR] at s0
    by_contra hc
    have hc := not_lt.1 hc
    have sq : dus o.pb2.qstarR pw ^ 2 ≤ dus o.pb2.qstarL pw ^ 2 := by
      apply pow_le_pow_left₀ n0.le hc
    have a := mul_le_mul_of_nonneg_right sq (show 0 ≤ o.pb2.qstarL.rho * KK o.pb2.qstarL pw by
      have := W.v12.rho; have := KK_pos W.v12 pw0; positivity)
    have b := mul_lt_mul_of_pos_left big (show 0 < dus o.pb2.qstarR pw ^ 2 by positivity)
    linarith
  have Q02 : o.pbw.qstarL.p = pw := by rw [F.2.2.1.2.1, Pw]
  have S : df o.pbw.qstarL pw = 0 := by rw [← Q02]; exact gv_df_self W.v02
  have neg : duf o.pb2.qstarL o.pbw.qstarL pw < 0 := by
    unfold duf; rw [S, z, F.2.1.1, Uw]; linarith
  have h3w : pw < p3 := by
    by_contra hc
    have := (duf_strictMono W.v12 W.v02).monotoneOn p30.le pw0.le (not_lt.1 hc)
    rw [r3] at this; linarith
  have u3 : o.pb3.ustar = df o.pbw.qstarL p3 := by
    rw [e3]; show _ - _ = _; unfold duf at r3; rw [z] at r3; linarith
  have pos := df_strictMono W.v02 pw0.le p30.le h3w
  rw [S] at pos
  refine ⟨?_, ?_, ?_, ?_, K.2.1 (by rw [Q02, P3]; exact h3w)⟩
  · show o.pb2.qstarR.rho < o.pb2.qstarL.rho; linarith
  · show o.pbw.qstarL.p < o.pb3.qstarR.p; rw [Q02, F.2.2.2.2.2.2, P3]; exact h3w
  · show 0 < o.pb3.qstarL.u; rw [F.2.2.2.1, u3]; exact pos
  · show o.pb3.qstarL.u < o.pb2.qstarL.u; rw [F.2.1.1, F.2.2.2.1]; exact l3.2

/-- C162, drawn trajectories after the second interaction: the interface ends to the right of the interaction, but short of the point it would have
reached at its previous velocity; the shock sent into the air moves away from it to the left, and ends on its left. -/
theorem C162_ends (newton : RootFinder) (hn : SoundRootFinder newton) (Pinit Pratio Tisoth : ℝ) (hP : 0 < Pinit) (hr : 1 < Pratio)
    (hT : 0 < Tisoth) (o : Out) (h : Shocktube.run newton Pinit Pratio Tisoth = .ok o) :
    o.x_reshock < o.x_interface_end ∧ o.x_interface_end < 2.5 + o.q12.u * (o.t_max - o.t_shock_int) ∧ o.x_shock_end < o.x_interface_end := by
  obtain ⟨-, -, u0, u1, -⟩ := C162_reshock newton hn Pinit Pratio Tisoth hP hr hT o h
  obtain ⟨-, -, -, t4, -, -, hx, -⟩ := C162_times newton hn Pinit Pratio Tisoth hP hr hT o h
  obtain ⟨-, -, -, -, hp, -, -, -, -, m1, m2, -⟩ := C162_wall newton hn Pinit Pratio Tisoth hP hr hT o h
  have W := (st_run hn hP hr hT h).waves
  obtain ⟨p3, p30, r3, e3⟩ := W.e3
  have v13 : State.Valid o.q13 := by
    show State.Valid o.pb3.qstarL
    rw [e3]; exact starState_valid W.v12 p30 _
  have hρ := v13.rho
  have hd : 0 < o.t_max - o.t_reshock := by linarith
  have a := mul_pos u0 hd
  have b := mul_lt_mul_of_pos_right u1 hd
  have hw : o.pb3.left_fastest < o.q13.u := by
    unfold Spec.Flow.massFlux inFrame at m1
    obtain ⟨m2, -⟩ : _ ∧ True := ⟨m2, trivial⟩
    unfold Spec.Flow.momentumFlux inFrame at m2
    simp only [] at m1 m2
    generalize o.pb3.left_fastest = w at *
    have e : o.q13.p - o.q12.p = o.q13.rho * (o.q13.u - w) * (o.q12.u - o.q13.u) := by
      have : o.q12.rho * (o.q12.u - w) ^ 2 = o.q13.rho * (o.q13.u - w) * (o.q12.u - w) := by rw [← m1]; ring
      rw [this] at m2
      linarith [show o.q13.rho * (o.q13.u - w) ^ 2 = o.q13.rho * (o.q13.u - w) * (o.q13.u - w) by ring,
        show o.q13.rho * (o.q13.u - w) * (o.q12.u - o.q13.u) = o.q13.rho * (o.q13.u - w) * (o.q12.u - w) - o.q13.rho * (o.q13.u - w) * (o.q13.u - w) by ring]
    by_contra hc
    have k := mul_nonneg hρ.le (sub_nonneg.2 (not_lt.1 hc))
    have k2 := mul_nonneg k (sub_nonneg.2 u1.le)
    linarith [show o.q13.rho * (w - o.q13.u) * (o.q12.u - o.q13.u) = -(o.q13.rho * (o.q13.u - w) * (o.q12.u - o.q13.u)) by ring]
  have d := mul_lt_mul_of_pos_right hw hd
  unfold Out.x_interface_end Out.x_shock_end
  refine ⟨by linarith, by rw [hx]; linarith, by linarith⟩

end Aerokit.Props
