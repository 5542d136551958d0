import Verif.Lemmas.RKTrees

/-! The Cash-Karp stages of `_rkf45` and the exact solution, up to order five (used by C131). -/

namespace Aerokit.Ode
open Set

set_option maxSynthPendingDepth 5

variable {E F H : Type} [NormedAddCommGroup E] [NormedSpace ℝ E] [NormedAddCommGroup F] [NormedSpace ℝ F] [NormedAddCommGroup H] [NormedSpace ℝ H]

/-! ### Stages of an autonomous system -/

section
variable (G : E → E) (y : E) (h : ℝ)
def ck1 : E := G (y + h • 0)
noncomputable def ck2 : E := G (y + h • (0 + (1 / 5 : ℝ) • ck1 G y h))
noncomputable def ck3 : E := G (y + h • (0 + (3 / 40 : ℝ) • ck1 G y h + (9 / 40 : ℝ) • ck2 G y h))
noncomputable def ck4 : E := G (y + h • (0 + (3 / 10 : ℝ) • ck1 G y h + (-9 / 10 : ℝ) • ck2 G y h + (6 / 5 : ℝ) • ck3 G y h))
noncomputable def ck5 : E := G (y + h • (0 + (-11 / 54 : ℝ) • ck1 G y h + (5 / 2 : ℝ) • ck2 G y h + (-70 / 27 : ℝ) • ck3 G y h + (35 / 27 : ℝ) • ck4 G y h))
noncomputable def ck6 : E := G (y + h • (0 + (1631 / 55296 : ℝ) • ck1 G y h + (175 / 512 : ℝ) • ck2 G y h + (575 / 13824 : ℝ) • ck3 G y h +
  (44275 / 110592 : ℝ) • ck4 G y h + (253 / 4096 : ℝ) • ck5 G y h))
/-- slope of the step -/
noncomputable def ckSlope : E := 0 + (37 / 378 : ℝ) • ck1 G y h + (0 : ℝ) • ck2 G y h + (250 / 621 : ℝ) • ck3 G y h + (125 / 594 : ℝ) • ck4 G y h +
  (0 : ℝ) • ck5 G y h + (512 / 1771 : ℝ) • ck6 G y h
/-- slope of the error estimate -/
noncomputable def ckEst : E := 0 + (37 / 378 - 2825 / 27648 : ℝ) • ck1 G y h + (0 : ℝ) • ck2 G y h + (250 / 621 - 18575 / 48384 : ℝ) • ck3 G y h +
  (125 / 594 - 13525 / 55296 : ℝ) • ck4 G y h + (-277 / 14336 : ℝ) • ck5 G y h + (512 / 1771 - 1 / 4 : ℝ) • ck6 G y h
end

namespace Smooth5
variable {G : E → E} {A : E → E →L[ℝ] E} {B : E → E →L[ℝ] E →L[ℝ] E} {C : E → E →L[ℝ] E →L[ℝ] E →L[ℝ] E}
    {D : E → E →L[ℝ] E →L[ℝ] E →L[ℝ] E →L[ℝ] E} {M : ℝ}

theorem Ex.cast {S : Smooth5 G A B C D M} {k : E → ℝ → E} {q r : Tree} (hk : S.Ex k q) (e : q = r) : S.Ex k r := e ▸ hk

theorem ex_ck1 (S : Smooth5 G A B C D M) : S.Ex (ck1 G) ⟨1, 0, 0, 0, 0, 0, 0, 0, 0, 0, 0, 0, 0, 0, 0, 0, 0⟩ := by
  refine (Ex.stage S (Ex.zero S)).cast ?_
  unfold Tree.stage Tree.zero
  ext <;> norm_num

theorem ex_ck2 (S : Smooth5 G A B C D M) : S.Ex (ck2 G)
    ⟨1, 1 / 5, 0, 1 / 50, 0, 0, 0, 1 / 750, 0, 0, 0, 0, 0, 0, 0, 0, 1 / 15000⟩ := by
  refine (Ex.stage S (Ex.lin S (Ex.zero S) (1 / 5) S.ex_ck1)).cast ?_
  unfold Tree.stage Tree.zero
  simp only [Tree.lin]
  ext <;> norm_num

theorem ex_ck3 (S : Smooth5 G A B C D M) : S.Ex (ck3 G)
    ⟨1, 3 / 10, 9 / 200, 9 / 200, 0, 9 / 2000, 27 / 2000, 9 / 2000, 0, 0, 0, 3 / 10000, 0, 27 / 20000, 81 / 80000, 81 / 40000, 27 / 80000⟩ := by
  refine (Ex.stage S (Ex.lin S (Ex.lin S (Ex.zero S) (3 / 40) S.ex_ck1) (9 / 40) S.ex_ck2)).cast ?_
  unfold Tree.stage Tree.zero
  simp only [Tree.lin]
  ext <;> norm_num

theorem ex_ck4 (S : Smooth5 G A B C D M) : S.Ex (ck4 G)
    ⟨1, 3 / 5, 9 / 50, 9 / 50, 27 / 500, 9 / 250, 27 / 250, 9 / 250, 0, 27 / 5000, 81 / 5000, 21 / 5000, 81 / 2500, 27 / 1250, 81 / 5000, 81 / 2500, 27 / 5000⟩ := by
  refine (Ex.stage S (Ex.lin S (Ex.lin S (Ex.lin S (Ex.zero S) (3 / 10) S.ex_ck1) (-9 / 10) S.ex_ck2) (6 / 5) S.ex_ck3)).cast ?_
  unfold Tree.stage Tree.zero
  simp only [Tree.lin]
  ext <;> norm_num

theorem ex_ck5 (S : Smooth5 G A B C D M) : S.Ex (ck5 G)
    ⟨1, 1, 1 / 2, 1 / 2, 7 / 60, 1 / 6, 1 / 2, 1 / 6, 7 / 100, 7 / 200, 21 / 200, 23 / 600, 7 / 60, 1 / 6, 1 / 8, 1 / 4, 1 / 24⟩ := by
  refine (Ex.stage S (Ex.lin S (Ex.lin S (Ex.lin S (Ex.lin S (Ex.zero S) (-11 / 54) S.ex_ck1) (5 / 2) S.ex_ck2) (-70 / 27) S.ex_ck3) (35 / 27) S.ex_ck4)).cast ?_
  unfold Tree.stage Tree.zero
  simp only [Tree.lin]
  ext <;> norm_num

theorem ex_ck6 (S : Smooth5 G A B C D M) : S.Ex (ck6 G)
    ⟨1, 7 / 8, 49 / 128, 49 / 128, 161 / 1536, 343 / 3072, 343 / 1024, 343 / 3072, 1771 / 61440, 3059 / 122880, 3059 / 40960, 623 / 24576, 1127 / 12288, 2401 / 24576, 2401 / 32768, 2401 / 16384, 2401 / 98304⟩ := by
  refine (Ex.stage S (Ex.lin S (Ex.lin S (Ex.lin S (Ex.lin S (Ex.lin S (Ex.zero S) (1631 / 55296) S.ex_ck1) (175 / 512) S.ex_ck2) (575 / 13824) S.ex_ck3) (44275 / 110592) S.ex_ck4) (253 / 4096) S.ex_ck5)).cast ?_
  unfold Tree.stage Tree.zero
  simp only [Tree.lin]
  ext <;> norm_num

/-- the seventeen order conditions -/
theorem ex_slope (S : Smooth5 G A B C D M) : S.Ex (ckSlope G) Tree.exact := by
  refine (Ex.lin S (Ex.lin S (Ex.lin S (Ex.lin S (Ex.lin S (Ex.lin S (Ex.zero S) (37 / 378) S.ex_ck1) (0) S.ex_ck2) (250 / 621) S.ex_ck3) (125 / 594) S.ex_ck4) (0) S.ex_ck5) (512 / 1771) S.ex_ck6).cast ?_
  unfold Tree.zero Tree.exact
  simp only [Tree.lin]
  ext <;> norm_num

theorem ex_est (S : Smooth5 G A B C D M) : S.Ex (ckEst G)
    ⟨0, 0, 0, 0, 0, 0, 0, 0, -277 / 1228800, 277 / 2457600, 277 / 819200, 277 / 2457600, 277 / 1228800, -277 / 2457600, -277 / 3276800, -277 / 1638400, -277 / 9830400⟩ := by
  refine (Ex.lin S (Ex.lin S (Ex.lin S (Ex.lin S (Ex.lin S (Ex.lin S (Ex.zero S) (37 / 378 - 2825 / 27648) S.ex_ck1) (0) S.ex_ck2) (250 / 621 - 18575 / 48384) S.ex_ck3) (125 / 594 - 13525 / 55296) S.ex_ck4) (-277 / 14336) S.ex_ck5) (512 / 1771 - 1 / 4) S.ex_ck6).cast ?_
  unfold Tree.zero
  simp only [Tree.lin]
  ext <;> norm_num


/-- the error estimate is of order `h⁵` -/
theorem est_small (S : Smooth5 G A B C D M) : Small 4 (ckEst G) := by
  have SG : Small 0 (fun y (_ : ℝ) => G y) := Small.const S.bG
  have SA : Small 0 (fun y (_ : ℝ) => A y) := Small.const S.bA
  have SB : Small 0 (fun y (_ : ℝ) => B y) := Small.const S.bB
  have SC : Small 0 (fun y (_ : ℝ) => C y) := Small.const S.bC
  have SD : Small 0 (fun y (_ : ℝ) => D y) := Small.const S.bD
  have Sa := SA.app SG
  have Sb := (SB.app SG).app SG
  have Saa := SA.app Sa
  have Sba := (SB.app SG).app Sa
  have Sc := ((SC.app SG).app SG).app SG
  have Sab := SA.app Sb
  have Saaa := SA.app Saa
  have S4 : ∀ q : Tree, Small 0 (fun y (_ : ℝ) => q.aaaa • A y (A y (A y (A y (G y)))) + q.aab • A y (A y (B y (G y) (G y))) +
      q.aba • A y (B y (G y) (A y (G y))) + q.ac • A y (C y (G y) (G y) (G y)) + q.baa • B y (G y) (A y (A y (G y))) +
      q.bb • B y (G y) (B y (G y) (G y)) + q.b2 • B y (A y (G y)) (A y (G y)) + q.ca • C y (G y) (G y) (A y (G y)) + q.d • D y (G y) (G y) (G y) (G y)) :=
    fun q => (((((((((SA.app Saaa).smul q.aaaa).add ((SA.app Sab).smul q.aab)).add ((SA.app Sba).smul q.aba)).add ((SA.app Sc).smul q.ac)).add
      (((SB.app SG).app Saa).smul q.baa)).add (((SB.app SG).app Sb).smul q.bb)).add (((SB.app Sa).app Sa).smul q.b2)).add
      ((((SC.app SG).app SG).app Sa).smul q.ca)).add (((((SD.app SG).app SG).app SG).app SG).smul q.d)
  have := (Small.mono S.ex_est (show 4 ≤ 5 by norm_num)).add ((S4 ⟨0, 0, 0, 0, 0, 0, 0, 0, -277 / 1228800, 277 / 2457600, 277 / 819200, 277 / 2457600, 277 / 1228800, -277 / 2457600, -277 / 3276800, -277 / 1638400, -277 / 9830400⟩).hpow 4)
  refine Small.congr (this.mono (by norm_num)) fun y h => ?_
  simp only [Tree.val]
  module

end Smooth5
/-! ### The exact solution -/

/-- bounded and Lipschitz -/
def LB (f : E → F) : Prop := ∃ K, 0 ≤ K ∧ (∀ y, ‖f y‖ ≤ K) ∧ ∀ y z, ‖f y - f z‖ ≤ K * ‖y - z‖

theorem LB.add {f g : E → F} (hf : LB f) (hg : LB g) : LB (fun y => f y + g y) := by
  obtain ⟨K, k0, bf, lf⟩ := hf
  obtain ⟨L, l0, bg, lg⟩ := hg
  refine ⟨K + L, by positivity, fun y => (norm_add_le _ _).trans (add_le_add (bf y) (bg y)), fun y z => ?_⟩
  rw [add_sub_add_comm, add_mul]
  exact (norm_add_le _ _).trans (add_le_add (lf y z) (lg y z))

theorem LB.smul {f : E → F} (c : ℝ) (hf : LB f) : LB (fun y => c • f y) := by
  obtain ⟨K, k0, bf, lf⟩ := hf
  refine ⟨|c| * K, by positivity, fun y => ?_, fun y z => ?_⟩
  · rw [norm_smul, Real.norm_eq_abs]; exact mul_le_mul_of_nonneg_left (bf y) (abs_nonneg _)
  · rw [← smul_sub, norm_smul, Real.norm_eq_abs, mul_assoc]; exact mul_le_mul_of_nonneg_left (lf y z) (abs_nonneg _)

theorem LB.app {Φ : E → F →L[ℝ] H} {f : E → F} (hΦ : LB Φ) (hf : LB f) : LB (fun y => Φ y (f y)) := by
  obtain ⟨K, k0, bf, lf⟩ := hΦ
  obtain ⟨L, l0, bg, lg⟩ := hf
  refine ⟨K * L + K * L, by positivity, fun y => ?_, fun y z => ?_⟩
  · refine ((Φ y).le_opNorm _).trans ?_
    have := bf y
    have := bg y
    have : ‖Φ y‖ * ‖f y‖ ≤ K * L := by gcongr
    have : 0 ≤ K * L := by positivity
    linarith
  · have e : Φ y (f y) - Φ z (f z) = (Φ y - Φ z) (f y) + Φ z (f y - f z) := by
      rw [map_sub, ContinuousLinearMap.sub_apply]; abel
    rw [e]
    refine (norm_add_le _ _).trans ?_
    have h1 : ‖(Φ y - Φ z) (f y)‖ ≤ (K * ‖y - z‖) * L := (ContinuousLinearMap.le_opNorm _ _).trans (by
      have := lf y z
      have := bg y
      gcongr)
    have h2 : ‖Φ z (f y - f z)‖ ≤ K * (L * ‖y - z‖) := (ContinuousLinearMap.le_opNorm _ _).trans (by
      have := bf z
      have := lg y z
      gcongr)
    linarith

theorem LB.of_deriv {f : E → F} {f' : E → E →L[ℝ] F} {M : ℝ} (hf : ∀ y, HasFDerivAt f (f' y) y) (b : ∀ y, ‖f y‖ ≤ M) (b' : ∀ y, ‖f' y‖ ≤ M) : LB f :=
  ⟨M, (norm_nonneg _).trans (b 0), b, fun y z =>
    Convex.norm_image_sub_le_of_norm_hasFDerivWithin_le (s := univ) (fun x _ => (hf x).hasFDerivWithinAt) (fun x _ => b' x) convex_univ
      (mem_univ _) (mem_univ _)⟩

namespace Smooth5
variable {G : E → E} {A : E → E →L[ℝ] E} {B : E → E →L[ℝ] E →L[ℝ] E} {C : E → E →L[ℝ] E →L[ℝ] E →L[ℝ] E}
    {D : E → E →L[ℝ] E →L[ℝ] E →L[ℝ] E →L[ℝ] E} {M : ℝ}

/-- fifth derivative of a solution -/
noncomputable def fifth (G : E → E) (A : E → E →L[ℝ] E) (B : E → E →L[ℝ] E →L[ℝ] E) (C : E → E →L[ℝ] E →L[ℝ] E →L[ℝ] E)
    (D : E → E →L[ℝ] E →L[ℝ] E →L[ℝ] E →L[ℝ] E) (y : E) : E :=
  (1:ℝ) • A y (A y (A y (A y (G y)))) + (1:ℝ) • A y (A y (B y (G y) (G y))) +
      (3:ℝ) • A y (B y (G y) (A y (G y))) + (1:ℝ) • A y (C y (G y) (G y) (G y)) + (4:ℝ) • B y (G y) (A y (A y (G y))) +
      (4:ℝ) • B y (G y) (B y (G y) (G y)) + (3:ℝ) • B y (A y (G y)) (A y (G y)) + (6:ℝ) • C y (G y) (G y) (A y (G y)) + (1:ℝ) • D y (G y) (G y) (G y) (G y)

theorem fifth_lb (S : Smooth5 G A B C D M) : LB (fifth G A B C D) := by
  have SG : LB G := LB.of_deriv S.dG S.bG S.bA
  have SA : LB A := LB.of_deriv S.dA S.bA S.bB
  have SB : LB B := LB.of_deriv S.dB S.bB S.bC
  have SC : LB C := LB.of_deriv S.dC S.bC S.bD
  have SD : LB D := ⟨M, S.M0, S.bD, S.lD⟩
  have Sa := SA.app SG
  have Sb := (SB.app SG).app SG
  have Saa := SA.app Sa
  have Sba := (SB.app SG).app Sa
  have Sc := ((SC.app SG).app SG).app SG
  have Sab := SA.app Sb
  have Saaa := SA.app Saa
  exact (((((((((SA.app Saaa).smul _).add ((SA.app Sab).smul _)).add ((SA.app Sba).smul _)).add ((SA.app Sc).smul _)).add
      (((SB.app SG).app Saa).smul _)).add (((SB.app SG).app Sb).smul _)).add (((SB.app Sa).app Sa).smul _)).add
      ((((SC.app SG).app SG).app Sa).smul _)).add (((((SD.app SG).app SG).app SG).app SG).smul _)

/-- Taylor expansion of an exact solution -/
theorem sol_expansion5 (S : Smooth5 G A B C D M) : ∃ K, 0 ≤ K ∧ ∀ (y : ℝ → E) (h : ℝ), 0 ≤ h →
    (∀ s ∈ Icc 0 h, HasDerivWithinAt y (G (y s)) (Icc 0 h) s) → ‖y h - (y 0 + h • Tree.exact.val G A B C D (y 0) h)‖ ≤ K * h ^ 6 := by
  obtain ⟨L, hL0, -, hL⟩ := S.fifth_lb
  have hM := S.M0
  refine ⟨L * M, by positivity, fun y h h0 hy => ?_⟩
  let f : ℝ → E := fun t => G (y t)
  let a : ℝ → E := fun t => A (y t) (f t)
  let b : ℝ → E := fun t => B (y t) (f t) (f t)
  let aa : ℝ → E := fun t => A (y t) (a t)
  have df : ∀ s ∈ Icc 0 h, HasDerivWithinAt f (a s) (Icc 0 h) s := fun s hs => (S.curve (hy s hs)).1
  have da : ∀ s ∈ Icc 0 h, HasDerivWithinAt a (b s + aa s) (Icc 0 h) s := fun s hs => (S.curve (hy s hs)).2.1 (df s hs)
  have db : ∀ s ∈ Icc 0 h, HasDerivWithinAt b (C (y s) (f s) (f s) (f s) + B (y s) (a s) (f s) + B (y s) (f s) (a s)) (Icc 0 h) s :=
    fun s hs => (S.curve (hy s hs)).2.2.1 (df s hs) (df s hs)
  have daa : ∀ s ∈ Icc 0 h, HasDerivWithinAt aa (B (y s) (f s) (a s) + A (y s) (b s + aa s)) (Icc 0 h) s :=
    fun s hs => (S.curve (hy s hs)).2.1 (da s hs)
  let g4 : ℝ → E := fun t => C (y t) (f t) (f t) (f t) + (3:ℝ) • B (y t) (f t) (a t) + A (y t) (b t) + A (y t) (aa t)
  let g5 : ℝ → E := fun t => fifth G A B C D (y t)
  have d3 : ∀ s ∈ Icc 0 h, HasDerivWithinAt (fun s => b s + aa s) (g4 s) (Icc 0 h) s := by
    intro s hs
    refine ((db s hs).add (daa s hs)).congr_deriv ?_
    show _ = C (y s) (f s) (f s) (f s) + (3:ℝ) • B (y s) (f s) (a s) + A (y s) (b s) + A (y s) (aa s)
    rw [S.symm (y s) (a s) (f s), map_add]
    module
  have d4 : ∀ s ∈ Icc 0 h, HasDerivWithinAt g4 (g5 s) (Icc 0 h) s := by
    intro s hs
    obtain ⟨-, cA, cB, cC⟩ := S.curve (hy s hs)
    refine ((((cC (df s hs) (df s hs) (df s hs)).add ((cB (df s hs) (da s hs)).const_smul (3:ℝ))).add (cA (db s hs))).add (cA (daa s hs))).congr_deriv ?_
    show _ = fifth G A B C D (y s)
    rw [S.symm (y s) (a s) (f s), S.symC1 (y s) (a s) (f s) (f s), S.symC2 (y s) (f s) (a s) (f s)]
    unfold fifth
    simp only [map_add]
    show _ = (1:ℝ) • A (y s) (A (y s) (aa s)) + (1:ℝ) • A (y s) (A (y s) (b s)) + (3:ℝ) • A (y s) (B (y s) (f s) (a s)) +
      (1:ℝ) • A (y s) (C (y s) (f s) (f s) (f s)) + (4:ℝ) • B (y s) (f s) (aa s) + (4:ℝ) • B (y s) (f s) (b s) + (3:ℝ) • B (y s) (a s) (a s) +
      (6:ℝ) • C (y s) (f s) (f s) (a s) + (1:ℝ) • D (y s) (f s) (f s) (f s) (f s)
    module
  have ny : ∀ s ∈ Icc 0 h, ‖y s - y 0‖ ≤ M * s := by
    intro s hs
    have := taylor_curve (h := h) (K := M) 1 (fun k t => match k with | 0 => y t | _ => f t) (by
      intro k hk s hs
      obtain rfl : k = 0 := by omega
      exact hy s hs) (fun s _ => S.bG _) s hs
    simpa using this
  obtain ⟨w, hw⟩ : ∃ w, w = g5 0 := ⟨_, rfl⟩
  obtain ⟨g, hgd⟩ : ∃ g : ℕ → ℝ → E, g = fun k s => match k with
    | 0 => y s - (s ^ 5 / 120) • w
    | 1 => f s - (s ^ 4 / 24) • w
    | 2 => a s - (s ^ 3 / 6) • w
    | 3 => b s + aa s - (s ^ 2 / 2) • w
    | 4 => g4 s - s • w
    | _ => g5 s - w := ⟨_, rfl⟩
  have hp : ∀ (n : ℕ) (r s : ℝ), HasDerivWithinAt (fun s : ℝ => (s ^ (n + 1) / r) • w) (((n + 1 : ℕ) * s ^ n / r) • w) (Icc 0 h) s := fun n r s =>
    (((hasDerivAt_pow (n + 1) s).div_const r).smul_const w).hasDerivWithinAt
  have key := taylor_curve (h := h) (K := L * M * h) 5 g ?_ ?_ h ⟨h0, le_rfl⟩
  · subst hgd
    simp only [Finset.sum_range_succ, Finset.sum_range_zero, Nat.factorial] at key
    norm_num at key
    have e : y h - (y 0 + h • Tree.exact.val G A B C D (y 0) h) = y h - (h ^ 5 / 120) • w -
        (y 0 + h • f 0 + (h ^ 2 / 2) • a 0 + (h ^ 3 / 6) • (b 0 + aa 0) + (h ^ 4 / 24) • g4 0) := by
      rw [hw]
      show _ = y h - (h ^ 5 / 120) • fifth G A B C D (y 0) - (y 0 + h • G (y 0) + (h ^ 2 / 2) • A (y 0) (G (y 0)) +
        (h ^ 3 / 6) • (B (y 0) (G (y 0)) (G (y 0)) + A (y 0) (A (y 0) (G (y 0)))) +
        (h ^ 4 / 24) • (C (y 0) (G (y 0)) (G (y 0)) (G (y 0)) + (3:ℝ) • B (y 0) (G (y 0)) (A (y 0) (G (y 0))) +
          A (y 0) (B (y 0) (G (y 0)) (G (y 0))) + A (y 0) (A (y 0) (A (y 0) (G (y 0))))))
      unfold Tree.val Tree.exact fifth
      module
    rw [e]
    refine le_trans (le_of_eq ?_) (key.trans ?_)
    · congr 2
      rw [smul_add]
    · have : 0 ≤ L * M * h ^ 6 := by positivity
      calc L * M * h * h ^ 5 / 120 = L * M * h ^ 6 / 120 := by ring
        _ ≤ L * M * h ^ 6 := by linarith
  · intro k hk s hs
    subst hgd
    rcases k with _ | _ | _ | _ | _ | k
    · refine ((hy s hs).sub (hp 4 120 s)).congr_deriv ?_
      show _ - _ = _ - _
      congr 2
      norm_num; ring
    · refine ((df s hs).sub (hp 3 24 s)).congr_deriv ?_
      show _ - _ = _ - _
      congr 2
      norm_num; ring
    · refine ((da s hs).sub (hp 2 6 s)).congr_deriv ?_
      show _ - _ = _ - _
      congr 2
      norm_num; ring
    · refine ((d3 s hs).sub (hp 1 2 s)).congr_deriv ?_
      show _ - _ = _ - _
      congr 2
      norm_num
    · refine ((d4 s hs).sub ((hasDerivAt_id s).smul_const w).hasDerivWithinAt).congr_deriv ?_
      show _ - _ = _ - _
      rw [one_smul]
    · omega
  · intro s hs
    subst hgd
    show ‖g5 s - w‖ ≤ _
    rw [hw]
    refine (hL _ _).trans ?_
    rw [mul_assoc]
    refine mul_le_mul_of_nonneg_left ((ny s hs).trans ?_) hL0
    exact mul_le_mul_of_nonneg_left hs.2 hM

/-- the local error of one Cash-Karp step is of sixth order -/
theorem ck_local_error (S : Smooth5 G A B C D M) : ∃ K, 0 ≤ K ∧ ∀ (y : ℝ → E) (h : ℝ), 0 ≤ h → h ≤ 1 →
    (∀ s ∈ Icc 0 h, HasDerivWithinAt y (G (y s)) (Icc 0 h) s) → ‖y h - (y 0 + h • ckSlope G (y 0) h)‖ ≤ K * h ^ 6 := by
  obtain ⟨K, hK, h1⟩ := S.ex_slope
  obtain ⟨L, hL, h2⟩ := S.sol_expansion5
  refine ⟨L + K, by positivity, fun y h h0 h1' hy => ?_⟩
  have e1 := h2 y h h0 hy
  have e2 := h1 (y 0) h h0 h1'
  have e : y h - (y 0 + h • ckSlope G (y 0) h) = (y h - (y 0 + h • Tree.exact.val G A B C D (y 0) h)) -
    h • (ckSlope G (y 0) h - Tree.exact.val G A B C D (y 0) h) := by module
  rw [e]
  refine (norm_sub_le _ _).trans ?_
  rw [norm_smul, Real.norm_of_nonneg h0]
  have : h * ‖ckSlope G (y 0) h - Tree.exact.val G A B C D (y 0) h‖ ≤ h * (K * h ^ 5) := mul_le_mul_of_nonneg_left e2 h0
  calc _ ≤ L * h ^ 6 + h * (K * h ^ 5) := add_le_add e1 this
    _ = _ := by ring

end Smooth5
end Aerokit.Ode
