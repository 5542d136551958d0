import Mathlib.Analysis.Complex.ExponentialBounds
import Verif.Lemmas.OldPM

/-!
# C96: convergence of the search of `old_Mach_PrandtlMeyer`

`secant_solve` started at 2 with 19 iterations.
-/

namespace Aerokit.Props
open Real Supersonic IterativeSolve
open ScipyNewton (chord Slopes left_turn right_turn)

theorem old_pm_fun {γ r : ℝ} (hγ : 1 < γ) {x : ℝ} (hx : 1 ≤ x) : PrandtlMeyer_Mach x γ = .ok (180 / π * (pmr γ x - pmr γ r) + pmDeg γ r) := by
  rw [PM_ok hγ (by nlinarith), show Py.degrees (pmRad (pmC γ) √(x ^ 2 - 1)) = pmDeg γ x from rfl, pmDeg_eq_pmr, pmDeg_eq_pmr]
  congr 1; ring

theorem old_pm_first {γ r : ℝ} (hγ : 1 < γ) : secant_run (fun m => PrandtlMeyer_Mach m γ) (pmDeg γ r) 2.0 defaultTol =
    secantLoop (fun m => PrandtlMeyer_Mach m γ) (pmDeg γ r) defaultTol 18 (999/500) (180 / π * (pmr γ (999/500) - pmr γ r) + pmDeg γ r)
      (chord (999/500) 2 (pmr γ (999/500) - pmr γ r) (pmr γ 2 - pmr γ r)) := by
  have hK : 180 / π ≠ 0 := by have := Real.pi_pos; positivity
  have hlt := pmr_lt hγ (M := 999/500) (N := 2) (by norm_num) (by norm_num)
  unfold secant_run
  rw [show (2.0 : ℝ) = 2 by norm_num, show (2 * 0.999 : ℝ) = 999/500 by norm_num]
  simp only []
  rw [old_pm_fun (r := r) hγ (by norm_num), Py.ok_bind, show itmax - 1 = 18 + 1 from rfl]
  refine (is_turn (f := fun m => PrandtlMeyer_Mach m γ) (F := fun z => pmr γ z - pmr γ r) hK (old_pm_fun hγ (by norm_num)) (by intro e; linarith)
    (by unfold defaultTol; rw [max_lt_iff]; constructor <;> norm_num [abs_of_pos])).trans ?_
  rw [chord_symm (by intro e; linarith)]

theorem old_pm_value {γ M w : ℝ} (hγ : 1 < γ) (hM : 1 ≤ M) (hw : PrandtlMeyer_Mach M γ = Except.ok w) : w = pmDeg γ M := by
  rw [PM_ok hγ (by nlinarith)] at hw; exact (Except.ok.inj hw).symm

theorem old_pm_eq {γ w : ℝ} {res : SecantResult} (h : secant_run (fun m => PrandtlMeyer_Mach m γ) w 2.0 defaultTol = .ok res) : old_Mach_PrandtlMeyer w γ = .ok res.x := by
  unfold old_Mach_PrandtlMeyer secant_solve
  rw [h, Py.ok_bind, Py.pure_eq]

theorem theta_small {M : ℝ} (h1 : 2 ≤ M) (h2 : M ≤ 450) {N : ℕ} (hN : (N : ℝ) = 4181) : M * (1 - 999/500 / M) ^ N ≤ defaultTol := by
  have r0 : 0 < M := by linarith
  have hθ : 0 ≤ 1 - 999/500 / M := by rw [sub_nonneg, div_le_one r0]; linarith
  have q1 : 1 - 999/500 / M ≤ rexp (-(999/500 / M)) := by have := Real.add_one_le_exp (-(999/500 / M)); linarith
  have q2 : (1 - 999/500 / M) ^ N ≤ rexp (-(999/500 / M)) ^ N := pow_le_pow_left₀ hθ q1 _
  have q3 : rexp (-(999/500 / M)) ^ N ≤ rexp (-18) := by
    rw [← Real.exp_nat_mul, hN]
    apply Real.exp_le_exp.2
    have : 999/500 / (450:ℝ) ≤ 999/500 / M := div_le_div_of_nonneg_left (by norm_num) r0 h2
    linarith
  have q4 : rexp (-18) ≤ (10/27) ^ 18 := by
    have : rexp (-18) = rexp (-1) ^ 18 := by rw [← Real.exp_nat_mul]; norm_num
    rw [this]
    refine pow_le_pow_left₀ (Real.exp_pos _).le ?_ _
    rw [Real.exp_neg, inv_le_comm₀ (Real.exp_pos _) (by norm_num)]
    have := Real.exp_one_gt_d9
    norm_num at this ⊢; linarith
  calc M * (1 - 999/500 / M) ^ N ≤ 450 * (10/27) ^ 18 := mul_le_mul h2 (q2.trans (q3.trans q4)) (pow_nonneg hθ _) (by norm_num)
    _ ≤ defaultTol := by unfold defaultTol; norm_num

/-- C96 (`old_Mach_PrandtlMeyer`), convergence: for the turning angle of any Mach number from 2 to 450, and any
gamma of at least 1.11, the search stops by itself (no warning), without overshooting, at a Mach number whose error is at
most `10⁻⁵ M/1.998` times the result. -/
theorem C96_prandtlMeyer_converges (M γ w : ℝ) (hγ : 1.11 ≤ γ) (h1 : 2 ≤ M) (h2 : M ≤ 450) (hw : PrandtlMeyer_Mach M γ = Except.ok w) :
    ∃ res, secant_run (fun m => PrandtlMeyer_Mach m γ) w 2.0 defaultTol = Except.ok res ∧ res.warned = false ∧
      old_Mach_PrandtlMeyer w γ = Except.ok res.x ∧ 2 ≤ res.x ∧ res.x ≤ M ∧ M - res.x ≤ 0.00001 * (M / 1.998) * res.x := by
  have g1 : 1 < γ := lt_of_lt_of_le (by norm_num) hγ
  obtain ⟨res, w', k1, k2, k3, k4, -⟩ := C96_prandtlMeyer_partial M γ w hγ h1 hw
  refine ⟨res, k1, ?_⟩
  obtain rfl := old_pm_value g1 (by linarith) hw
  obtain ⟨F, hF⟩ : ∃ F : ℝ → ℝ, F = fun x => pmr γ x - pmr γ M := ⟨_, rfl⟩
  have hFx : ∀ x, F x = pmr γ x - pmr γ M := fun x => by rw [hF]
  have hK : 180 / π ≠ 0 := by have := Real.pi_pos; positivity
  obtain ⟨F0, hlt, conc, el, -⟩ := pm_left_facts_from (a := 999/500) (by norm_num) hγ hFx
  have m0 : (999/500 : ℝ) ∈ Set.Icc (999/500) M := ⟨le_rfl, by linarith⟩
  have m1 : (2 : ℝ) ∈ Set.Icc (999/500) M := ⟨by norm_num, h1⟩
  obtain ⟨c, hc, c1, c2, c3, -⟩ := left_turn (by norm_num) F0 hlt conc el _ _ m0 m1 (by norm_num)
  have r0 : 0 < M := by linarith
  have hθ : 0 ≤ 1 - 999/500 / M := by rw [sub_nonneg, div_le_one r0]; linarith
  have hrθ : M * (1 - 999/500 / M) = M - 999/500 := by field_simp
  have hrun := old_pm_first (γ := γ) (r := M) g1
  rw [← hFx, ← hFx, ← hc] at hrun
  obtain ⟨m, e1, e2, e3⟩ := is_left (tol := defaultTol) (w := pmDeg γ M) (by norm_num) F0 hK (f := fun m => PrandtlMeyer_Mach m γ)
    (fun x hx => by rw [old_pm_fun (r := M) g1 (by linarith [hx.1]), hFx]) hlt conc el hθ (by unfold defaultTol; norm_num) 17 2 (999/500) c m0 ⟨by linarith, c2⟩ (by linarith)
    (by rw [show Nat.fib 2 = 1 from rfl, pow_one, hrθ])
    (by
      rw [show Nat.fib (2 + 1) = 2 from rfl]
      refine le_of_mul_le_mul_left ?_ r0
      have : M * (M * (1 - 999/500 / M) ^ 2) = (M - 999/500) ^ 2 := by rw [← hrθ]; ring
      rw [this]
      nlinarith)
    (by nlinarith)
    (theta_small h1 h2 (by rw [show Nat.fib (2 + 17) = 4181 by decide +kernel]; norm_num))
  rw [hrun] at k1
  have e4 : res = ⟨m, false⟩ := Except.ok.inj (k1.symm.trans e1)
  rw [e4] at k2 k3 k4 ⊢
  refine ⟨rfl, k2, k3, k4, ?_⟩
  simp only [] at k3 ⊢
  have m2 := e2.1
  have mm : max defaultTol (defaultTol * |m|) = defaultTol * m := by
    rw [abs_of_pos (by linarith), max_eq_right]
    unfold defaultTol; linarith
  rw [mm] at e3
  unfold defaultTol at e3
  norm_num at e3 ⊢
  have : 1/100000 * (M * (500/999)) * m = (M * (1/100000 * m)) * (500/999) := by ring
  linarith

example : ∃ w res, PrandtlMeyer_Mach 10 1.4 = Except.ok w ∧ secant_run (fun m => PrandtlMeyer_Mach m 1.4) w 2.0 defaultTol = Except.ok res ∧ res.warned = false := by
  have h := PM_ok (M := 10) (γ := 1.4) (by norm_num) (by norm_num)
  obtain ⟨res, k1, k2, -⟩ := C96_prandtlMeyer_converges 10 1.4 _ (by norm_num) (by norm_num) (by norm_num) h
  exact ⟨_, res, h, k1, k2⟩

/-! ## beyond: the iterations run out -/

theorem mass_le {m : ℝ} (hm : 1 ≤ m) : m ^ 2 * sl m ≤ 5 := by
  have h0 : 0 < m ^ 2 := by positivity
  have : sl m ≤ 5 / m ^ 2 := by
    refine sl_le hm (by positivity) ?_
    rw [div_pow, div_mul_eq_mul_div, le_div_iff₀ (by positivity)]
    nlinarith [sq_nonneg (m ^ 2)]
  rw [le_div_iff₀ h0] at this; linarith

theorem mass_ge {m : ℝ} (hm : 999/500 ≤ m) : 19/10 ≤ m ^ 2 * sl m := by
  have h1 := pm_mass_mono (γ := 7/5) (by norm_num) (by norm_num : (1:ℝ) ≤ 999/500) hm
  have h2 : (0.48 : ℝ) ≤ sl (999/500) := le_sl (by norm_num) (by norm_num) (by norm_num)
  unfold sl at h2 ⊢
  norm_num at h2 h1
  linarith

theorem far_step {r x y c : ℝ} (hx : 999/500 ≤ x) (hxy : x < y) (hyr : y < r) (hc : (c - y) * (pra y - pra x) = (pra r - pra y) * (y - x)) : c - y ≤ 264/100 * x := by
  have x0 : 0 < x := by linarith
  have y0 : 0 < y := by linarith
  have r0 : 0 < r := by linarith
  obtain ⟨u, u1, u2, u3⟩ := pmr_cauchy (γ := 7/5) (by norm_num) (by linarith : (1:ℝ) ≤ x) hxy
  obtain ⟨v, v1, v2, v3⟩ := pmr_cauchy (γ := 7/5) (by norm_num) (by linarith : (1:ℝ) ≤ y) hyr
  have hu := mass_ge (m := u) (by linarith)
  have hv := mass_le (m := v) (by linarith)
  unfold pra at hc
  unfold sl at hu hv
  obtain ⟨U, hU⟩ : ∃ U, U = u ^ 2 * pmSlope (7/5) u := ⟨_, rfl⟩
  obtain ⟨V, hV⟩ : ∃ V, V = v ^ 2 * pmSlope (7/5) v := ⟨_, rfl⟩
  rw [← hU] at hu u3
  rw [← hV] at hv v3
  have key : (c - y) * U * r = V * (r - y) * x := by
    have h : ((c - y) * U * r) * (y * (y - x)) = (V * (r - y) * x) * (y * (y - x)) := by
      calc ((c - y) * U * r) * (y * (y - x)) = (c - y) * (U * (y - x)) * (r * y) := by ring
        _ = (c - y) * (pmr (7/5) y - pmr (7/5) x) * (x * y) * (r * y) := by rw [← u3]; ring
        _ = ((pmr (7/5) r - pmr (7/5) y) * (y * r)) * (y - x) * (x * y) := by rw [hc]; ring
        _ = _ := by rw [v3]; ring
    exact mul_right_cancel₀ (mul_ne_zero y0.ne' (by linarith)) h
  by_contra hn
  push Not at hn
  have h1 : 264/100 * x * (19/10) * r < (c - y) * U * r := by
    refine mul_lt_mul_of_pos_right ?_ r0
    have : 264/100 * x * (19/10) ≤ 264/100 * x * U := mul_le_mul_of_nonneg_left hu (by positivity)
    have : 264/100 * x * U < (c - y) * U := mul_lt_mul_of_pos_right hn (by linarith)
    linarith
  have h2 : V * (r - y) * x ≤ 5 * r * x := by
    refine mul_le_mul_of_nonneg_right ?_ x0.le
    calc V * (r - y) ≤ 5 * (r - y) := mul_le_mul_of_nonneg_right hv (by linarith)
      _ ≤ 5 * r := by linarith
  have : 0 < x * r := mul_pos x0 r0
  nlinarith

theorem far_loop {r : ℝ} : ∀ (k : ℕ) (x y P : ℝ), 999/500 ≤ x → 17/16 * x ≤ y → y ≤ 4 * x → x ≤ P → y ≤ 11/5 * P → (11/5) ^ (k + 1) * P ≤ r / 2 →
    ∃ m, secantLoop (fun m => PrandtlMeyer_Mach m (7/5)) (pmDeg (7/5) r) defaultTol k x (180 / π * (pra x - pra r) + pmDeg (7/5) r) y = .ok ⟨m, true⟩ ∧ m ≤ (11/5) ^ (k + 1) * P := by
  have hK : 180 / π ≠ 0 := by have := Real.pi_pos; positivity
  intro k
  induction k with
  | zero =>
    intro x y P h1 h2 h3 h4 h5 h6
    exact ⟨y, rfl, by simpa using h5⟩
  | succ k ih =>
    intro x y P h1 h2 h3 h4 h5 h6
    have P0 : 0 < P := by linarith
    have hxy : x < y := by linarith
    have hp : (11/5 : ℝ) * P ≤ (11/5) ^ (k + 1 + 1) * P := by
      refine mul_le_mul_of_nonneg_right ?_ P0.le
      have : (1:ℝ) ≤ (11/5) ^ (k + 1) := one_le_pow₀ (by norm_num)
      rw [pow_succ]; linarith
    have hyr : y ≤ r / 2 := h5.trans (hp.trans h6)
    have hne := pra_lt (a := x) (b := y) (by linarith) hxy
    obtain ⟨F0, hlt, conc, el, -⟩ := pm_left_facts_from (γ := 7/5) (r := r) (a := 999/500) (by norm_num) (by norm_num) (F := fun x => pra x - pra r) (fun x => rfl)
    obtain ⟨c, hc, c1, c2, c3, -, c5⟩ := left_turn (F := fun x => pra x - pra r) (r := r) (by norm_num) F0 hlt conc el x y ⟨h1, by linarith⟩ ⟨by linarith, by linarith⟩ hxy
    have hstep : c - y ≤ 264/100 * x := by
      refine far_step (r := r) h1 hxy (by linarith) ?_
      linarith
    have hlow : x / 2 ≤ c - y := by
      have r0 : 0 < r := by linarith
      have : r * (x / 2) ≤ r * (c - y) := by nlinarith
      exact le_of_mul_le_mul_left this r0
    rw [is_turn (f := fun m => PrandtlMeyer_Mach m (7/5)) (F := fun x => pra x - pra r) hK (old_pm_fun (by norm_num) (by linarith)) (by intro e; linarith)
      (by
        rw [abs_of_pos (by linarith), abs_of_pos (by linarith), max_lt_iff]
        unfold defaultTol
        constructor <;> norm_num <;> linarith), ← hc]
    obtain ⟨m, e1, e2⟩ := ih y c (11/5 * P) (by linarith) (by linarith) (by linarith) h5 (by linarith) (by rw [pow_succ] at h6; linarith)
    exact ⟨m, e1, by rw [pow_succ]; linarith⟩

/-- C96 (`old_Mach_PrandtlMeyer`), false for hypersonic Mach numbers: beyond `10⁸` the search exhausts its
iterations, prints its warning and returns less than half of the Mach number. -/
theorem C96_prandtlMeyer_hypersonic_false (M : ℝ) (h1 : 10 ^ 8 ≤ M) : ∃ w res, PrandtlMeyer_Mach M 1.4 = Except.ok w ∧
    secant_run (fun m => PrandtlMeyer_Mach m 1.4) w 2.0 defaultTol = Except.ok res ∧ res.warned = true ∧
    old_Mach_PrandtlMeyer w 1.4 = Except.ok res.x ∧ res.x < M / 2 := by
  have hg : (1.4 : ℝ) = 7/5 := by norm_num
  rw [hg]
  have g1 : (1:ℝ) < 7/5 := by norm_num
  refine ⟨pmDeg (7/5) M, ?_⟩
  have hw : PrandtlMeyer_Mach M (7/5) = .ok (pmDeg (7/5) M) := PM_ok g1 (by nlinarith)
  obtain ⟨F0, hlt, conc, el, -⟩ := pm_left_facts_from (γ := 7/5) (r := M) (a := 999/500) (by norm_num) (by norm_num) (F := fun x => pra x - pra M) (fun x => rfl)
  obtain ⟨c, hc, c1, c2, c3, -, c5⟩ := left_turn (F := fun x => pra x - pra M) (r := M) (by norm_num) F0 hlt conc el (999/500) 2 ⟨le_rfl, by linarith⟩ ⟨by norm_num, by linarith⟩ (by norm_num)
  have hstep : c - 2 ≤ 264/100 * (999/500) := by
    refine far_step (r := M) le_rfl (by norm_num) (by linarith) ?_
    linarith
  have hlow : (999/500) / 2 ≤ c - 2 := by nlinarith
  obtain ⟨m, e1, e2⟩ := far_loop (r := M) 18 (999/500) c (22/5) le_rfl (by linarith) (by linarith) (by norm_num) (by linarith) (by norm_num; linarith)
  have hrun := old_pm_first (γ := 7/5) (r := M) g1
  change _ = secantLoop _ _ _ _ _ (180 / π * (pra (999/500) - pra M) + _) (chord _ _ (pra _ - pra M) (pra _ - pra M)) at hrun
  rw [← hc, e1] at hrun
  refine ⟨⟨m, true⟩, hw, hrun, rfl, old_pm_eq hrun, ?_⟩
  norm_num at e2
  simp only []
  linarith

end Aerokit.Props
