import Verif.Lemmas.RK4

/-! Expansion of explicit Runge-Kutta methods up to order five, in the coordinates of the seventeen elementary differentials of at most five
factors (used by C131). -/

namespace Aerokit.Ode
open Set

set_option maxSynthPendingDepth 5

variable {E F H : Type} [NormedAddCommGroup E] [NormedSpace ℝ E] [NormedAddCommGroup F] [NormedSpace ℝ F] [NormedAddCommGroup H] [NormedSpace ℝ H]

/-! ### Terms of order `hⁿ`, uniformly in the starting point -/

def Small (n : ℕ) (f : E → ℝ → F) : Prop := ∃ K, 0 ≤ K ∧ ∀ y h, 0 ≤ h → h ≤ 1 → ‖f y h‖ ≤ K * h ^ n

namespace Small
variable {n m : ℕ} {f g : E → ℝ → F}

theorem add (hf : Small n f) (hg : Small n g) : Small n (fun y h => f y h + g y h) := by
  obtain ⟨K, k0, hK⟩ := hf
  obtain ⟨L, l0, hL⟩ := hg
  refine ⟨K + L, by positivity, fun y h h0 h1 => (norm_add_le _ _).trans ?_⟩
  have := hK y h h0 h1
  have := hL y h h0 h1
  linarith

theorem smul (c : ℝ) (hf : Small n f) : Small n (fun y h => c • f y h) := by
  obtain ⟨K, k0, hK⟩ := hf
  refine ⟨|c| * K, by positivity, fun y h h0 h1 => ?_⟩
  rw [norm_smul, Real.norm_eq_abs, mul_assoc]
  exact mul_le_mul_of_nonneg_left (hK y h h0 h1) (abs_nonneg _)

theorem mono (hf : Small n f) (hmn : m ≤ n) : Small m f := by
  obtain ⟨K, k0, hK⟩ := hf
  exact ⟨K, k0, fun y h h0 h1 => (hK y h h0 h1).trans (mul_le_mul_of_nonneg_left (pow_le_pow_of_le_one h0 h1 hmn) k0)⟩

theorem hpow (m : ℕ) (hf : Small n f) : Small (n + m) (fun y h => h ^ m • f y h) := by
  obtain ⟨K, k0, hK⟩ := hf
  refine ⟨K, k0, fun y h h0 h1 => ?_⟩
  rw [norm_smul, Real.norm_of_nonneg (by positivity), pow_add]
  have := hK y h h0 h1
  calc h ^ m * ‖f y h‖ ≤ h ^ m * (K * h ^ n) := by gcongr
    _ = _ := by ring

theorem congr (hf : Small n f) (e : ∀ y h, g y h = f y h) : Small n g := by
  have : g = f := by funext y h; exact e y h
  rw [this]; exact hf

theorem app {Φ : E → ℝ → F →L[ℝ] H} (hΦ : Small n Φ) (hf : Small m f) : Small (n + m) (fun y h => Φ y h (f y h)) := by
  obtain ⟨K, k0, hK⟩ := hΦ
  obtain ⟨L, l0, hL⟩ := hf
  refine ⟨K * L, by positivity, fun y h h0 h1 => ?_⟩
  refine ((Φ y h).le_opNorm _).trans ?_
  have := hK y h h0 h1
  have := hL y h h0 h1
  calc ‖Φ y h‖ * ‖f y h‖ ≤ (K * h ^ n) * (L * h ^ m) := by gcongr
    _ = _ := by ring

theorem const {c : E → F} {M : ℝ} (hc : ∀ y, ‖c y‖ ≤ M) : Small 0 (fun y _ => c y) :=
  ⟨M, (norm_nonneg _).trans (hc 0), fun y h _ _ => by simpa using hc y⟩

end Small

/-- five times differentiable: the fourth derivative is Lipschitz -/
structure Smooth5 (G : E → E) (A : E → E →L[ℝ] E) (B : E → E →L[ℝ] E →L[ℝ] E) (C : E → E →L[ℝ] E →L[ℝ] E →L[ℝ] E)
    (D : E → E →L[ℝ] E →L[ℝ] E →L[ℝ] E →L[ℝ] E) (M : ℝ) : Prop extends Smooth4 G A B C D M where
  lD : ∀ y z, ‖D y - D z‖ ≤ M * ‖y - z‖

namespace Smooth5
variable {G : E → E} {A : E → E →L[ℝ] E} {B : E → E →L[ℝ] E →L[ℝ] E} {C : E → E →L[ℝ] E →L[ℝ] E →L[ℝ] E}
    {D : E → E →L[ℝ] E →L[ℝ] E →L[ℝ] E →L[ℝ] E} {M : ℝ}

theorem symC1 (S : Smooth5 G A B C D M) (y u v w : E) : C y u v w = C y v u w := by
  have := second_derivative_symmetric S.dA (S.dB y) u v
  rw [this]

theorem symC2 (S : Smooth5 G A B C D M) (y u v w : E) : C y u v w = C y u w v := by
  have h1 : HasFDerivAt (fun z => B z v w) ((ContinuousLinearMap.apply ℝ E w).comp ((ContinuousLinearMap.apply ℝ (E →L[ℝ] E) v).comp (C y))) y :=
    (ContinuousLinearMap.apply ℝ E w).hasFDerivAt.comp y ((ContinuousLinearMap.apply ℝ (E →L[ℝ] E) v).hasFDerivAt.comp y (S.dB y))
  have h2 : HasFDerivAt (fun z => B z w v) ((ContinuousLinearMap.apply ℝ E v).comp ((ContinuousLinearMap.apply ℝ (E →L[ℝ] E) w).comp (C y))) y :=
    (ContinuousLinearMap.apply ℝ E v).hasFDerivAt.comp y ((ContinuousLinearMap.apply ℝ (E →L[ℝ] E) w).hasFDerivAt.comp y (S.dB y))
  have e : (fun z => B z v w) = fun z => B z w v := by funext z; exact S.symm z v w
  rw [e] at h1
  have := congrArg (fun L => L u) (h1.unique h2)
  simpa using this

/-- Taylor formula of `G`, one order further -/
theorem taylor5 (S : Smooth5 G A B C D M) (y d : E) :
    ‖G (y + d) - (G y + A y d + (1 / 2 : ℝ) • B y d d + (1 / 6 : ℝ) • C y d d d + (1 / 24 : ℝ) • D y d d d d)‖ ≤ M * ‖d‖ ^ 5 := by
  have hM := S.M0
  have hl : ∀ s : ℝ, HasDerivAt (fun s : ℝ => y + s • d) d s := fun s => by
    simpa using ((hasDerivAt_id s).smul_const d).const_add y
  obtain ⟨w, hw⟩ : ∃ w, w = D y d d d d := ⟨_, rfl⟩
  obtain ⟨g, hgd⟩ : ∃ g : ℕ → ℝ → E, g = fun k s => match k with
    | 0 => G (y + s • d) - (s ^ 4 / 24) • w
    | 1 => A (y + s • d) d - (s ^ 3 / 6) • w
    | 2 => B (y + s • d) d d - (s ^ 2 / 2) • w
    | 3 => C (y + s • d) d d d - s • w
    | _ => D (y + s • d) d d d d - w := ⟨_, rfl⟩
  have hp : ∀ (n : ℕ) (r s : ℝ), HasDerivAt (fun s : ℝ => (s ^ (n + 1) / r) • w) (((n + 1 : ℕ) * s ^ n / r) • w) s := fun n r s =>
    ((hasDerivAt_pow (n + 1) s).div_const r).smul_const w
  have h := taylor_curve (h := 1) (K := M * ‖d‖ ^ 5) 4 g ?_ ?_ 1 ⟨zero_le_one, le_rfl⟩
  · subst hgd
    simp only [Finset.sum_range_succ, Finset.sum_range_zero, Nat.factorial, one_smul, zero_smul, add_zero] at h
    norm_num at h
    rw [hw] at h
    have e : G (y + d) - (G y + A y d + (1 / 2 : ℝ) • B y d d + (1 / 6 : ℝ) • C y d d d + (1 / 24 : ℝ) • D y d d d d) =
      G (y + d) - (1 / 24 : ℝ) • D y d d d d - (G y + A y d + (1 / 2 : ℝ) • B y d d + (1 / 6 : ℝ) • C y d d d) := by abel
    rw [e]
    refine h.trans ?_
    have : 0 ≤ M * ‖d‖ ^ 5 := by positivity
    linarith
  · intro k hk s _
    refine HasDerivAt.hasDerivWithinAt ?_
    subst hgd
    have d0 := (S.dG (y + s • d)).comp_hasDerivAt s (hl s)
    have d1 := app_const (φ := fun s => A (y + s • d)) d ((S.dA (y + s • d)).comp_hasDerivAt s (hl s))
    have d2 := app_const (φ := fun s => B (y + s • d) d) d (app_const (φ := fun s => B (y + s • d)) d ((S.dB (y + s • d)).comp_hasDerivAt s (hl s)))
    have d3 := app_const (φ := fun s => C (y + s • d) d d) d (app_const (φ := fun s => C (y + s • d) d) d
      (app_const (φ := fun s => C (y + s • d)) d ((S.dC (y + s • d)).comp_hasDerivAt s (hl s))))
    rcases k with _ | _ | _ | _ | k
    · refine (d0.sub (hp 3 24 s)).congr_deriv ?_
      show _ - _ = _ - _
      congr 2
      norm_num; ring
    · refine (d1.sub (hp 2 6 s)).congr_deriv ?_
      show _ - _ = _ - _
      congr 2
      norm_num; ring
    · refine (d2.sub (hp 1 2 s)).congr_deriv ?_
      show _ - _ = _ - _
      congr 2
      norm_num
    · refine (d3.sub ((hasDerivAt_id s).smul_const w)).congr_deriv ?_
      show _ - _ = _ - _
      rw [one_smul]
    · omega
  · intro s hs
    subst hgd
    show ‖D (y + s • d) d d d d - w‖ ≤ _
    have e : D (y + s • d) d d d d - w = (D (y + s • d) - D y) d d d d := by rw [hw]; rfl
    rw [e]
    have n1 : ‖D (y + s • d) - D y‖ ≤ M * ‖d‖ := by
      refine (S.lD _ _).trans ?_
      rw [add_sub_cancel_left, norm_smul, Real.norm_of_nonneg hs.1]
      have := norm_nonneg d
      have := hs.2
      have : s * ‖d‖ ≤ ‖d‖ := by nlinarith
      gcongr
    have n2 := ((D (y + s • d) - D y) d d d).le_of_opNorm_le (((D (y + s • d) - D y) d d).le_of_opNorm_le
      (((D (y + s • d) - D y) d).le_of_opNorm_le ((D (y + s • d) - D y).le_of_opNorm_le n1 d) d) d) d
    refine n2.trans (le_of_eq ?_)
    ring

variable {a1 a2 a3 a4 : E → E} {e : E → ℝ → E}

/-- expansion of one stage up to `h⁵` -/
theorem stage5 (S : Smooth5 G A B C D M) (m1 : Small 0 (fun y (_ : ℝ) => a1 y)) (m2 : Small 0 (fun y (_ : ℝ) => a2 y))
    (m3 : Small 0 (fun y (_ : ℝ) => a3 y)) (m4 : Small 0 (fun y (_ : ℝ) => a4 y)) (me : Small 5 e) :
    Small 5 (fun y h => G (y + (h • a1 y + h ^ 2 • a2 y + h ^ 3 • a3 y + h ^ 4 • a4 y + e y h)) -
      (G y + h • A y (a1 y) + h ^ 2 • (A y (a2 y) + (1 / 2 : ℝ) • B y (a1 y) (a1 y)) +
        h ^ 3 • (A y (a3 y) + B y (a1 y) (a2 y) + (1 / 6 : ℝ) • C y (a1 y) (a1 y) (a1 y)) +
        h ^ 4 • (A y (a4 y) + B y (a1 y) (a3 y) + (1 / 2 : ℝ) • B y (a2 y) (a2 y) + (1 / 2 : ℝ) • C y (a1 y) (a1 y) (a2 y) +
          (1 / 24 : ℝ) • D y (a1 y) (a1 y) (a1 y) (a1 y)))) := by
  have hM := S.M0
  have SB : Small 0 (fun y (_ : ℝ) => B y) := Small.const S.bB
  have SC : Small 0 (fun y (_ : ℝ) => C y) := Small.const S.bC
  have SD : Small 0 (fun y (_ : ℝ) => D y) := Small.const S.bD
  obtain ⟨p, hp⟩ : ∃ p : E → ℝ → E, p = fun y h => h ^ 1 • a1 y := ⟨_, rfl⟩
  obtain ⟨q, hq⟩ : ∃ p : E → ℝ → E, p = fun y h => h ^ 2 • a2 y := ⟨_, rfl⟩
  obtain ⟨r, hr⟩ : ∃ p : E → ℝ → E, p = fun y h => h ^ 3 • a3 y := ⟨_, rfl⟩
  obtain ⟨t, ht⟩ : ∃ p : E → ℝ → E, p = fun y h => h ^ 4 • a4 y := ⟨_, rfl⟩
  have mp : Small 1 p := by rw [hp]; exact m1.hpow 1
  have mq : Small 2 q := by rw [hq]; exact m2.hpow 2
  have mr : Small 3 r := by rw [hr]; exact m3.hpow 3
  have mt : Small 4 t := by rw [ht]; exact m4.hpow 4
  obtain ⟨Rt, hRt⟩ : ∃ p : E → ℝ → E, p = fun y h => r y h + t y h := ⟨_, rfl⟩
  obtain ⟨Q, hQ⟩ : ∃ p : E → ℝ → E, p = fun y h => q y h + Rt y h := ⟨_, rfl⟩
  obtain ⟨P, hP⟩ : ∃ P : E → ℝ → E, P = fun y h => p y h + Q y h := ⟨_, rfl⟩
  have mRt : Small 3 Rt := by rw [hRt]; exact mr.add (mt.mono (by norm_num))
  have mQ : Small 2 Q := by rw [hQ]; exact mq.add (mRt.mono (by norm_num))
  have mP : Small 1 P := by rw [hP]; exact mp.add (mQ.mono (by norm_num))
  have e1 : Small 5 (fun y h => G (y + (P y h + e y h)) - G (y + P y h)) := by
    obtain ⟨K, k0, hK⟩ := me
    refine ⟨M * K, by positivity, fun y h h0 h1 => (S.lip _ _).trans ?_⟩
    rw [show y + (P y h + e y h) - (y + P y h) = e y h by abel, mul_assoc]
    exact mul_le_mul_of_nonneg_left (hK y h h0 h1) hM
  have e2 : Small 5 (fun y h => G (y + P y h) - (G y + A y (P y h) + (1 / 2 : ℝ) • B y (P y h) (P y h) + (1 / 6 : ℝ) • C y (P y h) (P y h) (P y h) +
      (1 / 24 : ℝ) • D y (P y h) (P y h) (P y h) (P y h))) := by
    obtain ⟨K, k0, hK⟩ := mP
    refine ⟨M * K ^ 5, by positivity, fun y h h0 h1 => (S.taylor5 _ _).trans ?_⟩
    have := hK y h h0 h1
    calc M * ‖P y h‖ ^ 5 ≤ M * (K * h ^ 1) ^ 5 := by gcongr
      _ = _ := by ring
  have e3 : Small 5 (fun y h => (1 / 2 : ℝ) • (B y (q y h) (Rt y h) + B y (Rt y h) (q y h) + B y (Rt y h) (Rt y h)) + B y (p y h) (t y h)) := by
    refine Small.add (Small.smul _ (Small.add (Small.add ?_ ?_) ?_)) ?_
    · exact ((SB.app mq).app mRt).mono (by norm_num)
    · exact ((SB.app mRt).app mq).mono (by norm_num)
    · exact ((SB.app mRt).app mRt).mono (by norm_num)
    · exact ((SB.app mp).app mt).mono (by norm_num)
  have e4 : Small 5 (fun y h => (1 / 6 : ℝ) • (C y (Q y h) (Q y h) (P y h) + C y (Q y h) (p y h) (Q y h) + C y (p y h) (Q y h) (Q y h)) +
      (1 / 2 : ℝ) • C y (p y h) (p y h) (Rt y h)) := by
    refine Small.add (Small.smul _ (Small.add (Small.add ?_ ?_) ?_)) (Small.smul _ ?_)
    · exact (((SC.app mQ).app mQ).app mP).mono (by norm_num)
    · exact (((SC.app mQ).app mp).app mQ).mono (by norm_num)
    · exact (((SC.app mp).app mQ).app mQ).mono (by norm_num)
    · exact (((SC.app mp).app mp).app mRt).mono (by norm_num)
  have e5 : Small 5 (fun y h => (1 / 24 : ℝ) • (D y (Q y h) (P y h) (P y h) (P y h) + D y (p y h) (Q y h) (P y h) (P y h) +
      D y (p y h) (p y h) (Q y h) (P y h) + D y (p y h) (p y h) (p y h) (Q y h))) := by
    refine Small.smul _ (Small.add (Small.add (Small.add ?_ ?_) ?_) ?_)
    · exact ((((SD.app mQ).app mP).app mP).app mP).mono (by norm_num)
    · exact ((((SD.app mp).app mQ).app mP).app mP).mono (by norm_num)
    · exact ((((SD.app mp).app mp).app mQ).app mP).mono (by norm_num)
    · exact ((((SD.app mp).app mp).app mp).app mQ).mono (by norm_num)
  refine ((((e1.add e2).add e3).add e4).add e5).congr fun y h => ?_
  have kP : P y h = h • a1 y + h ^ 2 • a2 y + h ^ 3 • a3 y + h ^ 4 • a4 y := by
    rw [hP, hQ, hRt, hp, hq, hr, ht]; simp only [pow_one]; abel
  have kA : A y (P y h) = h • A y (a1 y) + h ^ 2 • A y (a2 y) + h ^ 3 • A y (a3 y) + h ^ 4 • A y (a4 y) := by
    rw [kP]; simp only [map_add, map_smul]
  have kB : (1 / 2 : ℝ) • B y (P y h) (P y h) = h ^ 2 • (1 / 2 : ℝ) • B y (a1 y) (a1 y) + h ^ 3 • B y (a1 y) (a2 y) +
      h ^ 4 • (B y (a1 y) (a3 y) + (1 / 2 : ℝ) • B y (a2 y) (a2 y)) +
      ((1 / 2 : ℝ) • (B y (q y h) (Rt y h) + B y (Rt y h) (q y h) + B y (Rt y h) (Rt y h)) + B y (p y h) (t y h)) := by
    have z1 : P y h = p y h + (q y h + Rt y h) := by rw [hP, hQ]
    have z2 : B y (P y h) (P y h) = B y (p y h) (p y h) + (B y (p y h) (q y h) + B y (q y h) (p y h)) +
        (B y (p y h) (Rt y h) + B y (Rt y h) (p y h)) + B y (q y h) (q y h) +
        (B y (q y h) (Rt y h) + B y (Rt y h) (q y h) + B y (Rt y h) (Rt y h)) := by
      rw [z1]; simp only [map_add, ContinuousLinearMap.add_apply]; abel
    have z3 : B y (p y h) (Rt y h) = h ^ 4 • B y (a1 y) (a3 y) + B y (p y h) (t y h) := by
      rw [hRt]; simp only [map_add]
      rw [hp, hr]; simp only [map_smul, ContinuousLinearMap.smul_apply, smul_smul]
      congr 2; ring
    have z4 : B y (p y h) (p y h) = h ^ 2 • B y (a1 y) (a1 y) := by
      rw [hp]; simp only [map_smul, ContinuousLinearMap.smul_apply, smul_smul]; congr 1; ring
    have z5 : B y (p y h) (q y h) = h ^ 3 • B y (a1 y) (a2 y) := by
      rw [hp, hq]; simp only [map_smul, ContinuousLinearMap.smul_apply, smul_smul]; congr 1; ring
    have z6 : B y (q y h) (q y h) = h ^ 4 • B y (a2 y) (a2 y) := by
      rw [hq]; simp only [map_smul, ContinuousLinearMap.smul_apply, smul_smul]; congr 1; ring
    rw [z2, S.symm y (q y h) (p y h), S.symm y (Rt y h) (p y h), z3, z4, z5, z6]
    module
  have kC : (1 / 6 : ℝ) • C y (P y h) (P y h) (P y h) = h ^ 3 • (1 / 6 : ℝ) • C y (a1 y) (a1 y) (a1 y) +
      h ^ 4 • (1 / 2 : ℝ) • C y (a1 y) (a1 y) (a2 y) +
      ((1 / 6 : ℝ) • (C y (Q y h) (Q y h) (P y h) + C y (Q y h) (p y h) (Q y h) + C y (p y h) (Q y h) (Q y h)) +
        (1 / 2 : ℝ) • C y (p y h) (p y h) (Rt y h)) := by
    have z1 : P y h = p y h + Q y h := by rw [hP]
    have z2 : C y (P y h) (P y h) (P y h) = C y (p y h) (p y h) (p y h) + C y (p y h) (p y h) (Q y h) + C y (p y h) (Q y h) (p y h) +
        C y (Q y h) (p y h) (p y h) + (C y (Q y h) (Q y h) (P y h) + C y (Q y h) (p y h) (Q y h) + C y (p y h) (Q y h) (Q y h)) := by
      rw [z1]; simp only [map_add, ContinuousLinearMap.add_apply]; abel
    have z3 : C y (p y h) (p y h) (Q y h) = h ^ 4 • C y (a1 y) (a1 y) (a2 y) + C y (p y h) (p y h) (Rt y h) := by
      rw [hQ]; simp only [map_add]
      rw [hp, hq]; simp only [map_smul, ContinuousLinearMap.smul_apply, smul_smul]
      congr 2; ring
    have z4 : C y (p y h) (p y h) (p y h) = h ^ 3 • C y (a1 y) (a1 y) (a1 y) := by
      rw [hp]; simp only [map_smul, ContinuousLinearMap.smul_apply, smul_smul]; congr 1; ring
    rw [z2, S.symC1 y (Q y h) (p y h) (p y h), S.symC2 y (p y h) (Q y h) (p y h), z3, z4]
    module
  have kD : (1 / 24 : ℝ) • D y (P y h) (P y h) (P y h) (P y h) = h ^ 4 • (1 / 24 : ℝ) • D y (a1 y) (a1 y) (a1 y) (a1 y) +
      (1 / 24 : ℝ) • (D y (Q y h) (P y h) (P y h) (P y h) + D y (p y h) (Q y h) (P y h) (P y h) +
      D y (p y h) (p y h) (Q y h) (P y h) + D y (p y h) (p y h) (p y h) (Q y h)) := by
    have z1 : P y h = p y h + Q y h := by rw [hP]
    have t1 : D y (P y h) (P y h) (P y h) (P y h) = D y (p y h) (P y h) (P y h) (P y h) + D y (Q y h) (P y h) (P y h) (P y h) := by
      conv_lhs => rw [show D y (P y h) = D y (p y h) + D y (Q y h) by rw [z1, map_add]]
      rfl
    have t2 : D y (p y h) (P y h) (P y h) (P y h) = D y (p y h) (p y h) (P y h) (P y h) + D y (p y h) (Q y h) (P y h) (P y h) := by
      conv_lhs => rw [show D y (p y h) (P y h) = D y (p y h) (p y h) + D y (p y h) (Q y h) by rw [z1, map_add]]
      rfl
    have t3 : D y (p y h) (p y h) (P y h) (P y h) = D y (p y h) (p y h) (p y h) (P y h) + D y (p y h) (p y h) (Q y h) (P y h) := by
      conv_lhs => rw [show D y (p y h) (p y h) (P y h) = D y (p y h) (p y h) (p y h) + D y (p y h) (p y h) (Q y h) by rw [z1, map_add]]
      rfl
    have t4 : D y (p y h) (p y h) (p y h) (P y h) = D y (p y h) (p y h) (p y h) (p y h) + D y (p y h) (p y h) (p y h) (Q y h) := by
      conv_lhs => rw [z1, map_add]
    have t5 : D y (p y h) (p y h) (p y h) (p y h) = h ^ 4 • D y (a1 y) (a1 y) (a1 y) (a1 y) := by
      rw [hp]; simp only [map_smul, ContinuousLinearMap.smul_apply, smul_smul]; congr 1; ring
    rw [t1, t2, t3, t4, t5]
    module
  rw [← kP, kA, kB, kC, kD]
  module

end Smooth5

/-! ### Coordinates -/

/-- coefficients of the seventeen elementary differentials: `f`; `f'f`; `f'f'f`, `f''ff`; … -/
@[ext] structure Tree where
  (f a aa b aaa ab ba c aaaa aab aba ac baa bb b2 ca d : ℝ)

/-- the vector with these coefficients -/
noncomputable def Tree.val (G : E → E) (A : E → E →L[ℝ] E) (B : E → E →L[ℝ] E →L[ℝ] E) (C : E → E →L[ℝ] E →L[ℝ] E →L[ℝ] E)
    (D : E → E →L[ℝ] E →L[ℝ] E →L[ℝ] E →L[ℝ] E) (q : Tree) (y : E) (h : ℝ) : E :=
  q.f • G y + h • q.a • A y (G y) + h ^ 2 • (q.aa • A y (A y (G y)) + q.b • B y (G y) (G y)) +
  h ^ 3 • (q.aaa • A y (A y (A y (G y))) + q.ab • A y (B y (G y) (G y)) + q.ba • B y (G y) (A y (G y)) + q.c • C y (G y) (G y) (G y)) +
  h ^ 4 • (q.aaaa • A y (A y (A y (A y (G y)))) + q.aab • A y (A y (B y (G y) (G y))) + q.aba • A y (B y (G y) (A y (G y))) +
    q.ac • A y (C y (G y) (G y) (G y)) + q.baa • B y (G y) (A y (A y (G y))) + q.bb • B y (G y) (B y (G y) (G y)) +
    q.b2 • B y (A y (G y)) (A y (G y)) + q.ca • C y (G y) (G y) (A y (G y)) + q.d • D y (G y) (G y) (G y) (G y))

/-- `q + c r` -/
noncomputable def Tree.lin (q : Tree) (c : ℝ) (r : Tree) : Tree :=
  ⟨q.f + c * r.f, q.a + c * r.a, q.aa + c * r.aa, q.b + c * r.b, q.aaa + c * r.aaa, q.ab + c * r.ab, q.ba + c * r.ba, q.c + c * r.c,
    q.aaaa + c * r.aaaa, q.aab + c * r.aab, q.aba + c * r.aba, q.ac + c * r.ac, q.baa + c * r.baa, q.bb + c * r.bb, q.b2 + c * r.b2,
    q.ca + c * r.ca, q.d + c * r.d⟩

/-- coefficients of `G (y + h s)` from those of `s` -/
noncomputable def Tree.stage (s : Tree) : Tree :=
  ⟨1, s.f, s.a, s.f ^ 2 / 2, s.aa, s.b, s.f * s.a, s.f ^ 3 / 6, s.aaa, s.ab, s.ba, s.c, s.f * s.aa, s.f * s.b, s.a ^ 2 / 2,
    s.f ^ 2 * s.a / 2, s.f ^ 4 / 24⟩

def Tree.zero : Tree := ⟨0, 0, 0, 0, 0, 0, 0, 0, 0, 0, 0, 0, 0, 0, 0, 0, 0⟩

/-- coefficients of `(y (h) - y (0)) / h` of the exact solution -/
noncomputable def Tree.exact : Tree :=
  ⟨1, 1 / 2, 1 / 6, 1 / 6, 1 / 24, 1 / 24, 1 / 8, 1 / 24, 1 / 120, 1 / 120, 1 / 40, 1 / 120, 1 / 30, 1 / 30, 1 / 40, 1 / 20, 1 / 120⟩

namespace Smooth5
variable {G : E → E} {A : E → E →L[ℝ] E} {B : E → E →L[ℝ] E →L[ℝ] E} {C : E → E →L[ℝ] E →L[ℝ] E →L[ℝ] E}
    {D : E → E →L[ℝ] E →L[ℝ] E →L[ℝ] E →L[ℝ] E} {M : ℝ}

/-- `k` has these coefficients up to `h⁵` -/
def Ex (_ : Smooth5 G A B C D M) (k : E → ℝ → E) (q : Tree) : Prop := Small 5 (fun y h => k y h - q.val G A B C D y h)

theorem Ex.lin (S : Smooth5 G A B C D M) {k l : E → ℝ → E} {q r : Tree} (hk : S.Ex k q) (c : ℝ) (hl : S.Ex l r) :
    S.Ex (fun y h => k y h + c • l y h) (q.lin c r) := by
  refine (Small.add hk (Small.smul c hl)).congr fun y h => ?_
  unfold Tree.val Tree.lin
  module

theorem Ex.zero (S : Smooth5 G A B C D M) : S.Ex (fun _ _ => 0) Tree.zero := by
  refine ⟨0, le_rfl, fun y h _ _ => ?_⟩
  unfold Tree.val Tree.zero
  simp

theorem Ex.stage (S : Smooth5 G A B C D M) {s : E → ℝ → E} {q : Tree} (hs : S.Ex s q) :
    S.Ex (fun y h => G (y + h • s y h)) q.stage := by
  have SG : Small 0 (fun y (_ : ℝ) => G y) := Small.const S.bG
  have SA : Small 0 (fun y (_ : ℝ) => A y) := Small.const S.bA
  have SB : Small 0 (fun y (_ : ℝ) => B y) := Small.const S.bB
  have SC : Small 0 (fun y (_ : ℝ) => C y) := Small.const S.bC
  have SD : Small 0 (fun y (_ : ℝ) => D y) := Small.const S.bD
  have Sa := SA.app SG
  have Sb := (SB.app SG).app SG
  have Saa := SA.app Sa
  have Sba := (SB.app SG).app Sa
  have Sc := ((SC.app SG).app SG).app SG
  have Sab := SA.app Sb
  have Saaa := SA.app Saa
  have S4 := (((((((((SA.app Saaa).smul q.aaaa).add ((SA.app Sab).smul q.aab)).add ((SA.app Sba).smul q.aba)).add ((SA.app Sc).smul q.ac)).add
    (((SB.app SG).app Saa).smul q.baa)).add (((SB.app SG).app Sb).smul q.bb)).add (((SB.app Sa).app Sa).smul q.b2)).add
    ((((SC.app SG).app SG).app Sa).smul q.ca)).add (((((SD.app SG).app SG).app SG).app SG).smul q.d)
  have key := S.stage5 (a1 := fun y => q.f • G y) (a2 := fun y => q.a • A y (G y)) (a3 := fun y => q.aa • A y (A y (G y)) + q.b • B y (G y) (G y))
    (a4 := fun y => q.aaa • A y (A y (A y (G y))) + q.ab • A y (B y (G y) (G y)) + q.ba • B y (G y) (A y (G y)) + q.c • C y (G y) (G y) (G y))
    (e := fun y h => h ^ 1 • (s y h - q.val G A B C D y h) + h ^ 5 • (q.aaaa • A y (A y (A y (A y (G y)))) + q.aab • A y (A y (B y (G y) (G y))) +
      q.aba • A y (B y (G y) (A y (G y))) + q.ac • A y (C y (G y) (G y) (G y)) + q.baa • B y (G y) (A y (A y (G y))) +
      q.bb • B y (G y) (B y (G y) (G y)) + q.b2 • B y (A y (G y)) (A y (G y)) + q.ca • C y (G y) (G y) (A y (G y)) + q.d • D y (G y) (G y) (G y) (G y)))
    (SG.smul _) (Sa.smul _) ((Saa.smul _).add (Sb.smul _)) ((((Saaa.smul _).add (Sab.smul _)).add (Sba.smul _)).add (Sc.smul _))
    (((Small.hpow 1 hs).mono (by norm_num)).add (S4.hpow 5))
  refine key.congr fun y h => ?_
  have e1 : h • s y h = h • q.f • G y + h ^ 2 • q.a • A y (G y) + h ^ 3 • (q.aa • A y (A y (G y)) + q.b • B y (G y) (G y)) +
      h ^ 4 • (q.aaa • A y (A y (A y (G y))) + q.ab • A y (B y (G y) (G y)) + q.ba • B y (G y) (A y (G y)) + q.c • C y (G y) (G y) (G y)) +
      (h ^ 1 • (s y h - q.val G A B C D y h) + h ^ 5 • (q.aaaa • A y (A y (A y (A y (G y)))) + q.aab • A y (A y (B y (G y) (G y))) +
      q.aba • A y (B y (G y) (A y (G y))) + q.ac • A y (C y (G y) (G y) (G y)) + q.baa • B y (G y) (A y (A y (G y))) +
      q.bb • B y (G y) (B y (G y) (G y)) + q.b2 • B y (A y (G y)) (A y (G y)) + q.ca • C y (G y) (G y) (A y (G y)) + q.d • D y (G y) (G y) (G y) (G y))) := by
    unfold Tree.val
    module
  rw [← e1]
  congr 1
  unfold Tree.val Tree.stage
  simp only [map_add, map_smul, ContinuousLinearMap.smul_apply, one_smul]
  module

end Smooth5
end Aerokit.Ode
