import Verif.Props.Shocktube2

/-! # Property C162 : the shock tube notebook: the drawn expansion -/

namespace Aerokit.Props
open Spec Shocktube Model1D Riemann Unsteady1D ShockWave
open MassFlow (RootFinder)

theorem st_cs {P r T : ℝ} (hP : 0 < P) (hr : 1 < r) (hT : 0 < T) : (stQ20 P r T).cs = (stQ10 P T).cs := by
  have := st_rair
  have h0 : 0 < r := by linarith
  unfold State.cs
  congr 1
  show gam_air * (P * r) / (P * r / (r_air * T)) = gam_air * P / (P / (r_air * T))
  field_simp

/-- pressure ratio of the shock behind which the velocity is `5/6` of the speed of sound ahead of it -/
noncomputable def stZ : ℝ := (19 + 7 * √5) / 12

theorem stZ_eq : 36 * stZ ^ 2 - 114 * stZ + 29 = 0 ∧ 1 < stZ := by
  have h5 : √5 ^ 2 = 5 := Real.sq_sqrt (by norm_num)
  have h0 := Real.sqrt_nonneg 5
  unfold stZ
  exact ⟨by linear_combination (49 / 4) * h5, by linarith⟩

theorem st_dfz {P T : ℝ} (hP : 0 < P) (hT : 0 < T) : df (stQ10 P T) (stZ * P) = 5 / 6 * (stQ10 P T).cs := by
  have v1 := st_v10 hP hT
  obtain ⟨hz, hz1⟩ := stZ_eq
  have p0 : 0 < stZ * P := by positivity
  have s1 := SS_pos v1 p0
  have q1 := SS_sq v1 p0
  have c := v1.cs_pos
  have r1 := v1.rho
  have c2 : (stQ10 P T).cs ^ 2 = 7 / 5 * P / (stQ10 P T).rho := by
    have := v1.g0; have := v1.p
    unfold State.cs
    rw [Real.sq_sqrt (by positivity)]
    show gam_air * P / _ = _
    unfold gam_air; norm_num
  have kk : KK (stQ10 P T) (stZ * P) = P * (12 / 5 * stZ + 2 / 5) := by
    show (gam_air + 1) * (stZ * P) + (gam_air - 1) * P = _
    unfold gam_air; ring
  unfold df
  rw [if_pos (show stZ * P > (stQ10 P T).p from show P < stZ * P by nlinarith)]
  unfold dus
  rw [div_eq_iff (by positivity)]
  show stZ * P - P = _
  apply (sq_eq_sq₀ (by nlinarith) (by positivity)).1
  rw [mul_pow, mul_pow, mul_pow, q1, c2, kk]
  field_simp
  linear_combination 2 * hz

theorem st_due {P r T : ℝ} (hP : 0 < P) (hr : 1 < r) (hT : 0 < T) : df (stQ20 P r T) ((5 / 6) ^ 7 * (P * r)) = -(5 / 6 * (stQ20 P r T).cs) := by
  have h0 : 0 < r := by linarith
  have hPr : 0 < P * r := by positivity
  unfold df
  rw [if_neg (show ¬ (5 / 6 : ℝ) ^ 7 * (P * r) > (stQ20 P r T).p by show ¬ (5 / 6 : ℝ) ^ 7 * (P * r) > P * r; norm_num; linarith)]
  unfold due
  show 2 * _ / (gam_air - 1) * (((5 / 6) ^ 7 * (P * r) / (P * r)) ^ ((gam_air - 1) / (2 * gam_air)) - 1) = _
  rw [mul_div_cancel_right₀ _ hPr.ne']
  have e : (gam_air - 1) / (2 * gam_air) = 1 / 7 := by unfold gam_air; norm_num
  have e2 : (((5 : ℝ) / 6) ^ 7) ^ ((1 : ℝ) / 7) = 5 / 6 := by
    rw [← Real.rpow_natCast, ← Real.rpow_mul (by norm_num)]; norm_num
  rw [e, e2]
  unfold gam_air
  ring

section
variable (newton : RootFinder) (hn : SoundRootFinder newton) (Pinit Pratio Tisoth : ℝ) (hP : 0 < Pinit) (hr : 1 < Pratio) (hT : 0 < Tisoth)
  (o : Out) (h : Shocktube.run newton Pinit Pratio Tisoth = .ok o)
include hn hP hr hT h

/-- sign of the speed of the tail of the expansion -/
theorem st_tail_sign : o.q21.left_acoustic = .ok (6 / 5 * o.q21.u - o.q20.cs) ∧ State.Valid o.q21 ∧ State.Valid o.q20 ∧ o.q20.u = 0 ∧
    o.q21.u + 5 * o.q21.cs = 5 * o.q20.cs ∧
    (6 / 5 * o.q21.u - o.q20.cs < 0 ↔ Pratio < stZ * (6 / 5) ^ 7) ∧ (0 < 6 / 5 * o.q21.u - o.q20.cs ↔ stZ * (6 / 5) ^ 7 < Pratio) := by
  have R := st_run hn hP hr hT h
  have W := R.waves
  have F := W.fields
  have v20 := st_v20 hP hr hT; have v10 := st_v10 hP hT
  have S := (C162_shock newton hn Pinit Pratio Tisoth hP hr hT o h).2.2.2.2.2.2.2
  have z : (stQ20 Pinit Pratio Tisoth).u = 0 := by show (0.0 : ℝ) = 0; norm_num
  have z1 := (st_u0 Pinit Tisoth).1
  have g : o.q20.gamma = 7 / 5 := by rw [R.q20]; show gam_air = _; unfold gam_air; norm_num
  have vq : State.Valid o.q20 := by rw [R.q20]; exact v20
  have z' : o.q20.u = 0 := by rw [R.q20]; exact z
  have inv : o.q21.u + 5 * o.q21.cs = 5 * o.q20.cs := by
    rw [g, z'] at S
    norm_num at S
    linarith
  refine ⟨?_, W.v21, vq, z', inv, ?_⟩
  · rw [State.Valid.left_acoustic (show State.Valid o.q21 from W.v21)]
    congr 1
    show o.q21.u - o.q21.cs = _
    linarith
  obtain ⟨p1, p10, r1, e1⟩ := W.e1
  have h0 : 0 < Pratio := by linarith
  have hPr : 0 < Pinit * Pratio := by positivity
  have hz := stZ_eq.2
  have U : o.q21.u = -df (stQ20 Pinit Pratio Tisoth) p1 := by
    show o.pb1.qstarL.u = _
    rw [F.1.1, e1]; show _ - _ = _; rw [z]; ring
  have pc0 : (0 : ℝ) < (5 / 6) ^ 7 * (Pinit * Pratio) := by positivity
  have pz0 : 0 < stZ * Pinit := by positivity
  have ec := st_due hP hr hT
  have ez := st_dfz hP hT
  have A := st_cs hP hr hT
  have D : duf (stQ20 Pinit Pratio Tisoth) (stQ10 Pinit Tisoth) ((5 / 6) ^ 7 * (Pinit * Pratio)) =
      df (stQ10 Pinit Tisoth) ((5 / 6) ^ 7 * (Pinit * Pratio)) - df (stQ10 Pinit Tisoth) (stZ * Pinit) := by
    unfold duf; rw [ec, ez, A, z, z1]; ring
  have M2 := df_strictMono v20
  have M1 := df_strictMono v10
  have M := duf_strictMono v20 v10
  have i1 := M2.lt_iff_lt (a := p1) (b := (5 / 6) ^ 7 * (Pinit * Pratio)) p10.le pc0.le
  have i2 := M2.lt_iff_lt (b := p1) (a := (5 / 6) ^ 7 * (Pinit * Pratio)) pc0.le p10.le
  have j1 := M.lt_iff_lt (a := p1) (b := (5 / 6) ^ 7 * (Pinit * Pratio)) p10.le pc0.le
  have j2 := M.lt_iff_lt (b := p1) (a := (5 / 6) ^ 7 * (Pinit * Pratio)) pc0.le p10.le
  have k1 := M1.lt_iff_lt (a := stZ * Pinit) (b := (5 / 6) ^ 7 * (Pinit * Pratio)) pz0.le pc0.le
  have k2 := M1.lt_iff_lt (b := stZ * Pinit) (a := (5 / 6) ^ 7 * (Pinit * Pratio)) pc0.le pz0.le
  rw [r1, D] at j1 j2
  have c1 : stZ * Pinit < (5 / 6) ^ 7 * (Pinit * Pratio) ↔ stZ * (6 / 5) ^ 7 < Pratio := by
    have : (5 / 6) ^ 7 * (Pinit * Pratio) - stZ * Pinit = (5 / 6) ^ 7 * Pinit * (Pratio - stZ * (6 / 5) ^ 7) := by ring
    have k : (0 : ℝ) < (5 / 6) ^ 7 * Pinit := by positivity
    constructor <;> intro hh
    · by_contra hc
      have : (5 / 6) ^ 7 * Pinit * (Pratio - stZ * (6 / 5) ^ 7) ≤ 0 := mul_nonpos_of_nonneg_of_nonpos k.le (by linarith)
      linarith
    · have : 0 < (5 / 6) ^ 7 * Pinit * (Pratio - stZ * (6 / 5) ^ 7) := mul_pos k (by linarith)
      linarith
  have c2 : (5 / 6) ^ 7 * (Pinit * Pratio) < stZ * Pinit ↔ Pratio < stZ * (6 / 5) ^ 7 := by
    have : (5 / 6) ^ 7 * (Pinit * Pratio) - stZ * Pinit = (5 / 6) ^ 7 * Pinit * (Pratio - stZ * (6 / 5) ^ 7) := by ring
    have k : (0 : ℝ) < (5 / 6) ^ 7 * Pinit := by positivity
    constructor <;> intro hh
    · by_contra hc
      have : 0 ≤ (5 / 6) ^ 7 * Pinit * (Pratio - stZ * (6 / 5) ^ 7) := mul_nonneg k.le (by linarith)
      linarith
    · have : (5 / 6) ^ 7 * Pinit * (Pratio - stZ * (6 / 5) ^ 7) < 0 := mul_neg_of_pos_of_neg k (by linarith)
      linarith
  rw [R.q20, U]
  rw [ec] at i1 i2
  constructor
  · rw [← c2, ← k2]
    have : 6 / 5 * -df (stQ20 Pinit Pratio Tisoth) p1 - (stQ20 Pinit Pratio Tisoth).cs < 0 ↔
        -(5 / 6 * (stQ20 Pinit Pratio Tisoth).cs) < df (stQ20 Pinit Pratio Tisoth) p1 := by
      constructor <;> intro hh <;> linarith
    rw [this, i2, ← j2, sub_neg]
  · rw [← c1, ← k1]
    have : 0 < 6 / 5 * -df (stQ20 Pinit Pratio Tisoth) p1 - (stQ20 Pinit Pratio Tisoth).cs ↔
        df (stQ20 Pinit Pratio Tisoth) p1 < -(5 / 6 * (stQ20 Pinit Pratio Tisoth).cs) := by
      constructor <;> intro hh <;> linarith
    rw [this, i1, ← j1, sub_pos]

/-- C162 (partial: only for pressure ratios below `10.35`): the head of the expansion reaches the left wall at the positive time `t_exp_wall`,
travelling in the driver gas at rest, and the drawn end of its tail is a later time on the same wall. -/
theorem C162_tail_partial (hs : Pratio < (19 + 7 * √5) / 12 * (6 / 5) ^ 7) : ∃ t t' w w', o.t_exp_wall = .ok t ∧ o.t_tail = .ok t' ∧
    o.q20.left_acoustic = .ok w ∧ o.q21.left_acoustic = .ok w' ∧ 0 < t ∧ t < t' ∧ w * t = -1 ∧ w' * t' = -1 := by
  obtain ⟨a, v21, v20, z, inv, i1, i2⟩ := st_tail_sign newton hn Pinit Pratio Tisoth hP hr hT o h
  have u := (C162_shock newton hn Pinit Pratio Tisoth hP hr hT o h)
  have u0 : 0 < o.q21.u := by rw [u.2.2.2.1]; exact u.2.2.1
  have n := i1.2 hs
  have c := v20.cs_pos
  have b : o.q20.left_acoustic = .ok (-o.q20.cs) := by rw [State.Valid.left_acoustic v20, z]; simp
  have x : x_Lwall = -1 := by unfold x_Lwall; norm_num
  refine ⟨x_Lwall / -o.q20.cs, x_Lwall / (6 / 5 * o.q21.u - o.q20.cs), _, _, ?_, ?_, b, a, ?_, ?_, ?_, ?_⟩
  · unfold Out.t_exp_wall; rw [b, Py.ok_bind, Py.div_ok (by linarith [c] : (-o.q20.cs) < 0).ne]
  · unfold Out.t_tail; rw [a, Py.ok_bind, Py.div_ok n.ne]
  · rw [x]; exact div_pos_of_neg_of_neg (by norm_num) (by linarith)
  · rw [x, neg_div_neg_eq, ← neg_div_neg_eq (-1), neg_neg]
    apply div_lt_div_of_pos_left one_pos (by linarith) (by linarith)
  · rw [x]; field_simp
  · rw [x]; exact mul_div_cancel₀ _ n.ne

/-- C162 (false for the drawn tail of the expansion): from a pressure ratio of about `10.35` on, the expanded driver gas flows away from the left
wall at the speed of sound or faster; the tail never reaches the wall, and the time drawn for it is negative, or a division by zero. -/
theorem C162_tail_false : ((19 + 7 * √5) / 12 * (6 / 5) ^ 7 < Pratio → ∃ t, o.t_tail = .ok t ∧ t < 0) ∧
    (Pratio = (19 + 7 * √5) / 12 * (6 / 5) ^ 7 → o.t_tail = .error .nonFinite) := by
  obtain ⟨a, v21, v20, z, inv, i1, i2⟩ := st_tail_sign newton hn Pinit Pratio Tisoth hP hr hT o h
  have x : x_Lwall = -1 := by unfold x_Lwall; norm_num
  refine ⟨fun hs => ?_, fun hs => ?_⟩
  · have n := i2.2 hs
    refine ⟨x_Lwall / (6 / 5 * o.q21.u - o.q20.cs), ?_, ?_⟩
    · unfold Out.t_tail; rw [a, Py.ok_bind, Py.div_ok n.ne']
    · rw [x]; exact div_neg_of_neg_of_pos (by norm_num) n
  · have e : 6 / 5 * o.q21.u - o.q20.cs = 0 := by
      apply le_antisymm
      · by_contra hc; exact absurd (i2.1 (not_le.1 hc)) (by unfold stZ; rw [hs]; exact lt_irrefl _)
      · by_contra hc; exact absurd (i1.1 (not_le.1 hc)) (by unfold stZ; rw [hs]; exact lt_irrefl _)
    unfold Out.t_tail; rw [a, Py.ok_bind, e, Py.div_err]

/-- C162 (false for the drawn reflected expansion): it leaves the wall at the speed of a wave of the expanded gas, `q21.right_acoustic()`; but the
first reflected wave leaves the wall into the driver gas at rest, and the drawn line is ahead of it from the start. -/
theorem C162_expansion_false : ∃ c a t x, o.q21.right_acoustic = .ok c ∧ o.q20.right_acoustic = .ok a ∧ o.t_exp_wall = .ok t ∧ o.x_reflected = .ok x ∧
    0 < a ∧ a < c ∧ a * t = 1 ∧ x = -1 + c * (o.t_max - t) ∧ (t < o.t_max → -1 + a * (o.t_max - t) < x) := by
  obtain ⟨_, v21, v20, z, inv, i1, i2⟩ := st_tail_sign newton hn Pinit Pratio Tisoth hP hr hT o h
  have u := (C162_shock newton hn Pinit Pratio Tisoth hP hr hT o h)
  have u0 : 0 < o.q21.u := by rw [u.2.2.2.1]; exact u.2.2.1
  have c := v20.cs_pos
  have b : o.q20.left_acoustic = .ok (-o.q20.cs) := by rw [State.Valid.left_acoustic v20, z]; simp
  have x : x_Lwall = -1 := by unfold x_Lwall; norm_num
  have et : o.t_exp_wall = .ok (1 / o.q20.cs) := by
    unfold Out.t_exp_wall; rw [b, Py.ok_bind, Py.div_ok (by linarith [c] : (-o.q20.cs) < 0).ne, x, neg_div_neg_eq]
  have er : o.q21.right_acoustic = .ok (o.q21.u + o.q21.cs) := State.Valid.right_acoustic v21
  have lt : o.q20.cs < o.q21.u + o.q21.cs := by linarith
  refine ⟨_, o.q20.cs, _, -1 + (o.q21.u + o.q21.cs) * (o.t_max - 1 / o.q20.cs), er, ?_, et, ?_, c, lt, by field_simp, rfl, fun ht => ?_⟩
  · rw [State.Valid.right_acoustic v20, z, zero_add]
  · unfold Out.x_reflected; rw [er, Py.ok_bind, et, Py.ok_bind, x]; rfl
  · have := mul_lt_mul_of_pos_right lt (show 0 < o.t_max - 1 / o.q20.cs by linarith)
    linarith

end

/-- the pressure ratio of the notebook is below the limit, which is between 10.3 and 10.4 -/
example : (2.38 : ℝ) < (19 + 7 * √5) / 12 * (6 / 5) ^ 7 ∧ 10.3 < (19 + 7 * √5) / 12 * (6 / 5 : ℝ) ^ 7 ∧ (19 + 7 * √5) / 12 * (6 / 5 : ℝ) ^ 7 < 10.4 := by
  have h1 : (2.236 : ℝ) < √5 := Real.lt_sqrt_of_sq_lt (by norm_num)
  have h2 : √5 < 2.237 := by rw [Real.sqrt_lt' (by norm_num)]; norm_num
  norm_num at h1 h2 ⊢
  exact ⟨by linarith, by linarith, by linarith⟩

end Aerokit.Props
