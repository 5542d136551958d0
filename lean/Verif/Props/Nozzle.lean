import Verif.Lemmas.Nozzle
import Verif.Lemmas.DevMax

/-! # Properties C65–C66 : the functions of `aerokit/instance/nozzle.py` -/

namespace Aerokit.Props
open Isentropic MassFlow ShockWave Nozzle Spec
open DefaultGas (gamma0)

/-- C65: the three choking pressure ratios are ordered, and above 1 (for a root finder that returns
roots on the branch of its guess). -/
theorem C65_ordered (newton : RootFinder) (hb : BranchRootFinder newton) (A a b c : ℝ) (hA : 1 < A)
    (ha : NPR_choked_subsonic newton A = .ok a) (hs : NPR_shock_at_exit newton A = .ok b)
    (hc : NPR_choked_supersonic newton A = .ok c) : 1 < a ∧ a < b ∧ b < c := by
  have hl : NPR_Ms_list newton A = .ok (⟨a, b, c, (MachSub_Sigma newton A gamma0).toOption.getD 0,
      Real.sqrt (mn2 ((MachSup_Sigma newton A gamma0).toOption.getD 0) gamma0),
      (MachSup_Sigma newton A gamma0).toOption.getD 0⟩ : Limits) := by
    unfold NPR_choked_subsonic at ha
    unfold NPR_shock_at_exit at hs
    unfold NPR_choked_supersonic at hc
    unfold NPR_Ms_list
    cases e1 : MachSub_Sigma newton A gamma0 with
    | error e => rw [e1] at ha; cases ha
    | ok ms =>
    cases e2 : MachSup_Sigma newton A gamma0 with
    | error e => rw [e2] at hc; cases hc
    | ok mp =>
    rw [e1, Py.ok_bind] at ha
    rw [e2, Py.ok_bind] at hs hc
    obtain ⟨b1, b2⟩ := MachSup_branch hb one_lt_gamma0 g3 hA.le e2
    rw [downstream_Mn_ok one_lt_gamma0 (dom_of_one_le one_lt_gamma0 b1), Py.ok_bind] at hs
    rw [Py.ok_bind, ha, Py.ok_bind, Py.ok_bind,
      downstream_Mn_ok one_lt_gamma0 (dom_of_one_le one_lt_gamma0 b1), Py.ok_bind]
    cases e3 : PtPs_Mach (Real.sqrt (mn2 mp gamma0)) gamma0 with
    | error e => rw [e3] at hs; cases hs
    | ok p =>
    rw [e3, Py.ok_bind] at hs
    cases e4 : Pi_ratio mp gamma0 with
    | error e => rw [e4] at hs; cases hs
    | ok r =>
    rw [e4, Py.ok_bind] at hs
    rw [Py.ok_bind, Py.ok_bind, hs, Py.ok_bind, hc]
    rfl
  exact (limits_spec hb hA hl).ordered one_lt_gamma0

/-- the functions return when the root finder finds the existing roots (non-vacuity, for every A > 1) -/
theorem limits_total {newton : RootFinder} (hb : BranchRootFinder newton)
    (hc : ∀ f x0, (∃ x, f x = .ok 0 ∧ (x0 ≤ 1 → x ≤ 1) ∧ (1 ≤ x0 → 1 ≤ x)) → ∃ x, newton f x0 = .ok x)
    {A : ℝ} (hA : 1 < A) : ∃ l, NPR_Ms_list newton A = .ok l := by
  have hg := one_lt_gamma0
  obtain ⟨m, m0, m1, ms⟩ := exists_sub hg hA
  obtain ⟨n, n1, ns⟩ := exists_sup hg hA
  have r1 : sigma_residual A gamma0 m = .ok 0 := by
    unfold sigma_residual; rw [Sigma_Mach_ok hg m0.ne', Py.ok_bind, ms]; simp
  have r2 : sigma_residual A gamma0 n = .ok 0 := by
    unfold sigma_residual; rw [Sigma_Mach_ok hg (by linarith), Py.ok_bind, ns]; simp
  have hpos : 0 < (1 - 1 / A) * (4 * (gamma0 - 1) / (3 - gamma0)) := by
    apply mul_pos
    · rw [sub_pos, div_lt_one (by linarith)]; exact hA
    · apply div_pos
      · linarith
      · linarith [g3]
  have hpos2 : 0 < (A - 1) * (4 * (gamma0 - 1) / (3 - gamma0)) := by
    apply mul_pos
    · linarith
    · apply div_pos
      · linarith
      · linarith [g3]
  have e1 : ∃ x, MachSub_Sigma newton A gamma0 = .ok x := by
    unfold MachSub_Sigma Mach_Sigma
    rw [MachSub_init_ok hA.le hg g3, Py.ok_bind]
    apply hc
    refine ⟨m, r1, fun _ => m1.le, fun h => ?_⟩
    have := Real.sqrt_pos.2 hpos
    linarith
  have e2 : ∃ x, MachSup_Sigma newton A gamma0 = .ok x := by
    unfold MachSup_Sigma Mach_Sigma
    rw [MachSup_init_ok hA.le hg g3, Py.ok_bind]
    apply hc
    refine ⟨n, r2, fun h => ?_, fun _ => n1.le⟩
    have := Real.sqrt_pos.2 hpos2
    linarith
  obtain ⟨x, e1⟩ := e1
  obtain ⟨y, e2⟩ := e2
  obtain ⟨b1, b2⟩ := MachSup_branch hb hg g3 hA.le e2
  have hd := dom_of_one_le hg b1
  unfold NPR_Ms_list Pi_ratio
  rw [e1, Py.ok_bind, PtPs_ppt hg, Py.ok_bind, e2, Py.ok_bind, downstream_Mn_ok hg hd, Py.ok_bind, PtPs_ppt hg,
    Py.ok_bind, Pt_ratio_ok_default b1, Py.ok_bind, Py.div_ok (ptr_pos hg hd).ne', Py.ok_bind, PtPs_ppt hg]
  exact ⟨_, rfl⟩

/-- non-vacuity of C65 -/
example : ∃ (newton : RootFinder) (a b c : ℝ), BranchRootFinder newton ∧ (1:ℝ) < 2 ∧
    NPR_choked_subsonic newton 2 = .ok a ∧ NPR_shock_at_exit newton 2 = .ok b ∧
    NPR_choked_supersonic newton 2 = .ok c := by
  obtain ⟨nf, _, hb, hc⟩ := exists_branchRootFinder
  obtain ⟨l, hl⟩ := limits_total hb hc (A := 2) (by norm_num)
  refine ⟨nf, l.NPR0, l.NPRsw, l.NPR1, hb, by norm_num, ?_⟩
  unfold NPR_Ms_list at hl
  unfold NPR_choked_subsonic NPR_shock_at_exit NPR_choked_supersonic
  cases e1 : MachSub_Sigma nf 2 gamma0 with
  | error e => rw [e1] at hl; cases hl
  | ok ms =>
  rw [e1, Py.ok_bind, PtPs_ppt one_lt_gamma0, Py.ok_bind] at hl
  cases e2 : MachSup_Sigma nf 2 gamma0 with
  | error e => rw [e2] at hl; cases hl
  | ok mp =>
  rw [e2, Py.ok_bind] at hl
  obtain ⟨b1, b2⟩ := MachSup_branch hb one_lt_gamma0 g3 (by norm_num) e2
  have hd := dom_of_one_le one_lt_gamma0 b1
  unfold Pi_ratio at hl ⊢
  rw [downstream_Mn_ok one_lt_gamma0 hd, Py.ok_bind, PtPs_ppt one_lt_gamma0, Py.ok_bind,
    Pt_ratio_ok_default b1, Py.ok_bind, Py.div_ok (ptr_pos one_lt_gamma0 hd).ne', Py.ok_bind, PtPs_ppt one_lt_gamma0,
    Py.ok_bind] at hl
  have := Except.ok.inj hl
  rw [← this, Py.ok_bind, PtPs_ppt one_lt_gamma0, Py.ok_bind, downstream_Mn_ok one_lt_gamma0 hd, Py.ok_bind,
    PtPs_ppt one_lt_gamma0, Py.ok_bind, Pt_ratio_ok_default b1, Py.ok_bind,
    Py.div_ok (ptr_pos one_lt_gamma0 hd).ne', Py.ok_bind, PtPs_ppt one_lt_gamma0]
  exact ⟨rfl, rfl, rfl⟩

/-- C66 (partial: the default gas has not been changed since import): between the two limits the exit
Mach number of `Ms_from_AsAc_NPR` is subsonic, above the choked-subsonic one, not above the
downstream Mach number of a shock at the exit, and conserves the mass flow of the sonic throat:
exit section × exit total pressure × flux at `Ms` = throat flux.  It is the only Mach number that does. -/
theorem C66_mass_partial (newton : RootFinder) (hb : BranchRootFinder newton) (A n Ms r r' : ℝ) (l : Limits) (hA : 1 < A)
    (hl : NPR_Ms_list newton A = .ok l) (h0 : l.NPR0 ≤ n) (h1 : n ≤ l.NPRsw)
    (h : Ms_from_AsAc_NPR newton gamma0 A n = .ok Ms) :
    l.Msub ≤ Ms ∧ Ms ≤ l.Msh ∧ l.Msh < 1 ∧ 0 < Ms ∧
    (n = l.NPR0 → Ms = l.Msub) ∧ (n = l.NPRsw → Ms = l.Msh) ∧
    ∃ w1, WeightMassFlow 1 r gamma0 = .ok w1 ∧ ∀ M, 0 < M → ∃ wM pM, WeightMassFlow M r' gamma0 = .ok wM ∧
      PtPs_Mach M gamma0 = .ok pM ∧ (A * (pM / n) * wM = w1 ↔ M = Ms) := by
  have hg := one_lt_gamma0
  have H := limits_spec hb hA hl
  have hA0 : 0 < A := by linarith
  obtain ⟨o1, o2, o3⟩ := H.ordered hg
  have hn : 0 < n := by linarith
  unfold Ms_from_AsAc_NPR at h
  rw [hl, Py.ok_bind, if_neg (not_lt.2 h0), if_neg (not_lt.2 h1), msd_ok hg hA0] at h
  have hM := Except.ok.inj h
  have hs0 : msd gamma0 A l.NPR0 = l.Msub := msd_eq hg H.sub0 (H.NPR0_eq hg)
  have hs1 : msd gamma0 A l.NPRsw = l.Msh := msd_eq hg (H.sh_pos hg) (H.NPRsw_eq hg)
  have hp := msd_pos hg hA0 hn
  refine ⟨?_, ?_, H.sh_lt hg, hM ▸ hp, ?_, ?_, ?_⟩
  · rw [← hM, ← hs0]
    rcases h0.eq_or_lt with e | e
    · rw [e]
    · exact (msd_lt hg hA0 (by linarith) e).le
  · rw [← hM, ← hs1]
    rcases h1.eq_or_lt with e | e
    · rw [e]
    · exact (msd_lt hg hA0 hn e).le
  · rintro rfl; rw [← hM, hs0]
  · rintro rfl; rw [← hM, hs1]
  · obtain ⟨w1, _, hw1, _, hw1p, _, _⟩ := C05_sigma_is_massflow_ratio 1 r r' gamma0 hg one_pos
    refine ⟨w1, hw1, ?_⟩
    intro M hMp
    obtain ⟨w1', wM, hw1', hwM, _, hwMp, hsg⟩ := C05_sigma_is_massflow_ratio M r r' gamma0 hg hMp
    rw [hw1] at hw1'; cases hw1'
    refine ⟨wM, _, hwM, PtPs_ppt hg, ?_⟩
    rw [Sigma_Mach_ok hg hMp.ne'] at hsg
    have hsg := Except.ok.inj hsg
    have hpp := ppt_pos (M := M) hg
    have e : (A * (ppt M gamma0 / n) * wM = w1) ↔ n / A = ppt M gamma0 / sig M gamma0 := by
      rw [hsg]
      constructor
      · intro h; rw [← h]; field_simp
      · intro h; field_simp at h ⊢; linarith
    rw [e, ← hM]
    constructor
    · intro h; exact (msd_eq hg hMp h).symm
    · intro h; rw [h]; exact (msd_flux hg hA0 hn).symm

/-- C66: outside of these limits: fully subsonic flow with exit pressure ratio `NPR` (continuous with
the previous regime: it gives `Msub` at `NPR0`), or fully supersonic flow with the exit area ratio. -/
theorem C66_other_regimes (newton : RootFinder) (hb : BranchRootFinder newton) (dg A n : ℝ) (l : Limits) (hA : 1 < A)
    (hl : NPR_Ms_list newton A = .ok l) (hn : 1 ≤ n) :
    (n < l.NPR0 → ∃ Ms, Ms_from_AsAc_NPR newton dg A n = .ok Ms ∧ 0 ≤ Ms ∧ Ms < l.Msub ∧ PtPs_Mach Ms gamma0 = .ok n) ∧
    (l.NPRsw < n → Ms_from_AsAc_NPR newton dg A n = .ok l.Msup ∧ 1 < l.Msup ∧ Sigma_Mach l.Msup gamma0 = .ok A) ∧
    Mach_PtPs l.NPR0 gamma0 = .ok l.Msub := by
  have hg := one_lt_gamma0
  have H := limits_spec hb hA hl
  obtain ⟨o1, o2, o3⟩ := H.ordered hg
  have hroot : ∀ M, 0 ≤ M → Mach_PtPs (ppt M gamma0) gamma0 = .ok M := by
    intro M hM
    have h1 : 1 ≤ ppt M gamma0 := Real.one_le_rpow (one_le_tt hg) (gam_exp_pos hg).le
    rw [Mach_PtPs_ok hg h1]
    unfold ppt
    rw [rpow_rpow_cancel hg (tt_pos hg).le, sqrt_tt hg hM]
  refine ⟨?_, ?_, by rw [H.h0]; exact hroot _ H.sub0.le⟩
  · intro h
    unfold Ms_from_AsAc_NPR
    rw [hl, Py.ok_bind, if_pos h, Mach_PtPs_ok hg hn]
    have ht : 1 ≤ n ^ ((gamma0 - 1) / gamma0) := Real.one_le_rpow hn (div_nonneg (by linarith) (by linarith))
    have hval : PtPs_Mach (Real.sqrt ((n ^ ((gamma0 - 1) / gamma0) - 1) * 2 / (gamma0 - 1))) gamma0 = .ok n := by
      rw [PtPs_ppt hg]; unfold ppt
      rw [tt_sqrt hg ht, rpow_rpow_cancel' hg (by linarith)]
    refine ⟨_, rfl, Real.sqrt_nonneg _, ?_, hval⟩
    by_contra hc
    push Not at hc
    rw [PtPs_ppt hg] at hval
    have hval := Except.ok.inj hval
    rw [← hval, H.h0] at h
    rcases hc.eq_or_lt with e | e
    · rw [← e] at h; exact lt_irrefl _ h
    · have := ppt_lt hg H.sub0.le e; linarith
  · intro h
    unfold Ms_from_AsAc_NPR
    rw [hl, Py.ok_bind, if_neg (by linarith), if_pos h]
    exact ⟨rfl, H.sup1, by rw [Sigma_Mach_ok hg (by linarith [H.sup1]), H.hsup]⟩

/-- C66 (partial: default gas not changed): the Mach number of the adapted jet is a continuous function of the
pressure ratio across all four regimes. -/
theorem C66_adapted_continuous_partial (newton : RootFinder) (hb : BranchRootFinder newton) (A : ℝ) (l : Limits)
    (hA : 1 < A) (hl : NPR_Ms_list newton A = .ok l) :
    ∃ f : ℝ → ℝ, Continuous f ∧ ∀ n, 1 ≤ n → Madapt_from_AsAc_NPR newton gamma0 A n = .ok (f n) := by
  have hg := one_lt_gamma0
  have hg1 : 0 < gamma0 - 1 := by linarith
  have hg0 : 0 < gamma0 := by linarith
  have H := limits_spec hb hA hl
  have hA0 : 0 < A := by linarith
  obtain ⟨o1, o2, o3⟩ := H.ordered hg
  obtain ⟨γ, hγe⟩ : ∃ γ, γ = gamma0 := ⟨_, rfl⟩
  rw [← hγe] at hg hg1 hg0 H
  -- the pieces
  obtain ⟨a, ha⟩ : ∃ a : ℝ → ℝ, a = fun n => Real.sqrt ((n ^ ((γ - 1) / γ) - 1) * 2 / (γ - 1)) := ⟨_, rfl⟩
  obtain ⟨N, hN⟩ : ∃ N : ℝ → ℝ, N = fun n => Real.sqrt (1 + (l.NPR1 / n - 1) * (γ + 1) / (2 * γ)) := ⟨_, rfl⟩
  obtain ⟨g, hgd⟩ : ∃ g : ℝ → ℝ, g = fun n =>
    Real.sqrt ((tt l.Msup γ * rhr (N n) γ * n / l.NPR1 - 1) * 2 / (γ - 1)) := ⟨_, rfl⟩
  have hroot : ∀ M, 0 ≤ M → Real.sqrt ((tt M γ - 1) * 2 / (γ - 1)) = M := fun M hM => sqrt_tt hg hM
  have ca : Continuous a := by
    rw [ha]
    have : Continuous fun n : ℝ => n ^ ((γ - 1) / γ) :=
      Real.continuous_rpow_const (div_nonneg hg1.le hg0.le)
    fun_prop
  have cm : Continuous (msd γ A) := by
    unfold msd
    fun_prop
  have cN : ContinuousOn N (Set.Ioi 0) := by
    rw [hN]
    apply ContinuousOn.sqrt
    apply ContinuousOn.add continuousOn_const
    apply ContinuousOn.div_const
    apply ContinuousOn.mul _ continuousOn_const
    apply ContinuousOn.sub _ continuousOn_const
    exact ContinuousOn.div continuousOn_const continuousOn_id fun x hx => (ne_of_gt hx)
  have hNPR1 : 0 < l.NPR1 := by linarith
  have cg : ContinuousOn g (Set.Ioi 0) := by
    rw [hgd]
    have cr : Continuous fun x => rhr x γ := by
      unfold rhr
      exact Continuous.div (by fun_prop) (by fun_prop) fun x => (rho_den_pos hg).ne'
    apply ContinuousOn.sqrt
    apply ContinuousOn.div_const
    apply ContinuousOn.mul _ continuousOn_const
    apply ContinuousOn.sub _ continuousOn_const
    apply ContinuousOn.div_const
    apply ContinuousOn.mul _ continuousOn_id
    exact ContinuousOn.mul continuousOn_const (cr.comp_continuousOn cN)
  have cgc : Continuous fun n => g (max l.NPRsw (min n l.NPR1)) := by
    apply cg.comp_continuous (by fun_prop)
    intro n
    exact lt_of_lt_of_le (by linarith : 0 < l.NPRsw) (le_max_left _ _)
  -- values at the junctions
  have a0 : a l.NPR0 = l.Msub := by
    rw [ha, H.h0]
    show Real.sqrt ((ppt l.Msub γ ^ ((γ - 1) / γ) - 1) * 2 / (γ - 1)) = _
    unfold ppt
    rw [rpow_rpow_cancel hg (tt_pos hg).le, hroot _ H.sub0.le]
  have m0 : msd γ A l.NPR0 = l.Msub := msd_eq hg H.sub0 (H.NPR0_eq hg)
  have msw : msd γ A l.NPRsw = l.Msh := msd_eq hg (H.sh_pos hg) (H.NPRsw_eq hg)
  have hd := dom_of_one_le hg H.sup1.le
  have Nval : ∀ x : ℝ, 0 ≤ x → ∀ n, l.NPR1 / n = psr x γ → N n = x := by
    intro x hx n hn
    rw [hN]
    show Real.sqrt (1 + (l.NPR1 / n - 1) * (γ + 1) / (2 * γ)) = x
    rw [hn]
    have : 1 + (psr x γ - 1) * (γ + 1) / (2 * γ) = x ^ 2 := by
      unfold psr
      have : γ + 1 ≠ 0 := by linarith
      field_simp; ring
    rw [this, Real.sqrt_sq hx]
  have hpsw : l.NPR1 / l.NPRsw = psr l.Msup γ := by
    rw [H.sw_eq hg, H.h1]
    have := ppt_pos (M := l.Msup) hg
    have := psr_pos hg hd
    field_simp
  have gsw : g l.NPRsw = l.Msh := by
    rw [hgd]
    show Real.sqrt ((tt l.Msup γ * rhr (N l.NPRsw) γ * l.NPRsw / l.NPR1 - 1) * 2 / (γ - 1)) = _
    rw [Nval l.Msup (by linarith [H.sup1]) _ hpsw]
    have e : tt l.Msup γ * rhr l.Msup γ * l.NPRsw / l.NPR1 = tt l.Msh γ := by
      rw [H.hsh, tt_mn2 hg (by linarith [H.sup1]) hd, ← hpsw]
      have : l.NPRsw ≠ 0 := by linarith
      field_simp
    rw [e, hroot _ (H.sh_pos hg).le]
  have g1 : g l.NPR1 = l.Msup := by
    rw [hgd]
    show Real.sqrt ((tt l.Msup γ * rhr (N l.NPR1) γ * l.NPR1 / l.NPR1 - 1) * 2 / (γ - 1)) = _
    have hp1 : psr 1 γ = 1 := by unfold psr; ring
    have hr1 : rhr 1 γ = 1 := by
      unfold rhr
      rw [one_pow, mul_one, mul_one, div_eq_one_iff_eq (by linarith)]; ring
    rw [Nval 1 zero_le_one _ (by rw [hp1, div_self hNPR1.ne']), hr1, mul_one, mul_div_cancel_right₀ _ hNPR1.ne',
      hroot _ (by linarith [H.sup1])]
  have a1 : a l.NPR1 = l.Msup := by
    rw [ha, H.h1]
    show Real.sqrt ((ppt l.Msup γ ^ ((γ - 1) / γ) - 1) * 2 / (γ - 1)) = _
    unfold ppt
    rw [rpow_rpow_cancel hg (tt_pos hg).le, hroot _ (by linarith [H.sup1])]
  refine ⟨fun n => a (min n l.NPR0) + (msd γ A (max l.NPR0 (min n l.NPRsw)) - l.Msub)
    + (g (max l.NPRsw (min n l.NPR1)) - l.Msh) + (a (max l.NPR1 n) - l.Msup), ?_, ?_⟩
  · have c1 : Continuous fun n => a (min n l.NPR0) := ca.comp (by fun_prop)
    have c2 : Continuous fun n => msd γ A (max l.NPR0 (min n l.NPRsw)) := cm.comp (by fun_prop)
    have c3 : Continuous fun n => a (max l.NPR1 n) := ca.comp (by fun_prop)
    exact ((c1.add (c2.sub continuous_const)).add (cgc.sub continuous_const)).add (c3.sub continuous_const)
  · intro n hn
    unfold Madapt_from_AsAc_NPR
    rw [hl, Py.ok_bind, ← hγe]
    have hMa : Mach_PtPs n γ = .ok (a n) := by rw [Mach_PtPs_ok hg hn, ha]
    by_cases q1 : n < l.NPR0
    · rw [if_pos q1, hMa]
      congr 1
      show a n = a (min n l.NPR0) + (msd γ A (max l.NPR0 (min n l.NPRsw)) - l.Msub)
        + (g (max l.NPRsw (min n l.NPR1)) - l.Msh) + (a (max l.NPR1 n) - l.Msup)
      rw [min_eq_left q1.le, min_eq_left (by linarith : n ≤ l.NPRsw), max_eq_left q1.le, m0,
        min_eq_left (by linarith : n ≤ l.NPR1), max_eq_left (by linarith : n ≤ l.NPRsw), gsw,
        max_eq_left (by linarith : n ≤ l.NPR1), a1]
      ring
    rw [if_neg q1]
    push Not at q1
    by_cases q2 : n > l.NPR1
    · rw [if_pos q2, hMa]
      congr 1
      show a n = a (min n l.NPR0) + (msd γ A (max l.NPR0 (min n l.NPRsw)) - l.Msub)
        + (g (max l.NPRsw (min n l.NPR1)) - l.Msh) + (a (max l.NPR1 n) - l.Msup)
      rw [min_eq_right q1, a0, min_eq_right (by linarith : l.NPRsw ≤ n), max_eq_right (by linarith : l.NPR0 ≤ l.NPRsw), msw,
        min_eq_right (by linarith : l.NPR1 ≤ n), max_eq_right (by linarith : l.NPRsw ≤ l.NPR1), g1,
        max_eq_right (by linarith : l.NPR1 ≤ n)]
      have := msw
      ring
    rw [if_neg q2]
    push Not at q2
    by_cases q3 : n > l.NPRsw
    · have hn0 : 0 < n := by linarith
      rw [if_pos q3, Py.div_ok hn0.ne', Py.ok_bind]
      have hr1 : 1 ≤ l.NPR1 / n := by rw [one_le_div hn0]; exact q2
      have hr2 : l.NPR1 / n < psr l.Msup γ := by
        rw [← hpsw]
        exact div_lt_div_of_pos_left hNPR1 (by linarith) q3
      have hin : 1 ≤ 1 + (l.NPR1 / n - 1) * (γ + 1) / (2 * γ) := by
        have : 0 ≤ (l.NPR1 / n - 1) * (γ + 1) / (2 * γ) := by
          apply div_nonneg _ (by linarith)
          exact mul_nonneg (by linarith) (by linarith)
        linarith
      have hMn : Mn_Ps_ratio (l.NPR1 / n) γ = .ok (N n) := by
        unfold Mn_Ps_ratio
        lits
        rw [Py.div_ok (by linarith), Py.ok_bind, Py.sqrt_ok (by linarith), hN]
      have hN1 : 1 ≤ N n := by
        rw [hN]; show 1 ≤ Real.sqrt _
        rw [Real.one_le_sqrt]; exact hin
      have hNsq : N n ^ 2 = 1 + (l.NPR1 / n - 1) * (γ + 1) / (2 * γ) := by
        rw [hN]; exact Real.sq_sqrt (by linarith)
      have hps : psr (N n) γ = l.NPR1 / n := by
        unfold psr; rw [hNsq]
        have : γ + 1 ≠ 0 := by linarith
        field_simp; ring
      have hNM : N n < l.Msup := by
        by_contra hc
        push Not at hc
        have : psr l.Msup γ ≤ psr (N n) γ := by
          unfold psr
          have : 0 ≤ 2 * γ / (γ + 1) := by apply div_nonneg <;> linarith
          have : l.Msup ^ 2 ≤ N n ^ 2 := pow_le_pow_left₀ (by linarith [H.sup1]) hc 2
          nlinarith
        rw [hps] at this; linarith
      obtain ⟨M2, θ, hM2, hM2p, _, _, _, _, htt⟩ := downstreamMach_ok hg hN1 hNM hMn
      rw [hM2]
      congr 1
      show M2 = a (min n l.NPR0) + (msd γ A (max l.NPR0 (min n l.NPRsw)) - l.Msub)
        + (g (max l.NPRsw (min n l.NPR1)) - l.Msh) + (a (max l.NPR1 n) - l.Msup)
      rw [min_eq_right q1, a0, min_eq_right q3.le, max_eq_right (by linarith : l.NPR0 ≤ l.NPRsw), msw,
        min_eq_left q2, max_eq_right q3.le, max_eq_left q2, a1]
      have hgn : g n = M2 := by
        rw [hgd]
        show Real.sqrt ((tt l.Msup γ * rhr (N n) γ * n / l.NPR1 - 1) * 2 / (γ - 1)) = M2
        have e : tt l.Msup γ * rhr (N n) γ * n / l.NPR1 = tt M2 γ := by
          rw [← htt, hps]
          have := rhr_pos hg (by linarith : N n ≠ 0)
          field_simp
        rw [e, hroot _ hM2p.le]
      rw [hgn]; ring
    · rw [if_neg q3]
      push Not at q3
      rw [msd_ok hg hA0]
      congr 1
      show msd γ A n = a (min n l.NPR0) + (msd γ A (max l.NPR0 (min n l.NPRsw)) - l.Msub)
        + (g (max l.NPRsw (min n l.NPR1)) - l.Msh) + (a (max l.NPR1 n) - l.Msup)
      rw [min_eq_right q1, a0, min_eq_left q3, max_eq_right q1, min_eq_left (by linarith : n ≤ l.NPR1),
        max_eq_left q3, gsw, max_eq_left q2, a1]
      ring

/-- C66 is false once the default gas is changed (as the module docstring tells the user to do):
`Ms_from_AsAc_NPR` reads the current `defg._gamma` (here 3) while the limits use the value captured at
import; for every area ratio the exit Mach number at `NPR0` is not the choked-subsonic one. -/
theorem C66_false (newton : RootFinder) (hb : BranchRootFinder newton) (A : ℝ) (l : Limits)
    (hA : 1 < A) (hl : NPR_Ms_list newton A = .ok l) :
    ∃ Ms, Ms_from_AsAc_NPR newton 3 A l.NPR0 = .ok Ms ∧ Ms ≠ l.Msub := by
  have hg := one_lt_gamma0
  have H := limits_spec hb hA hl
  obtain ⟨o1, o2, o3⟩ := H.ordered hg
  have h3 : (1:ℝ) < 3 := by norm_num
  unfold Ms_from_AsAc_NPR
  rw [hl, Py.ok_bind, if_neg (lt_irrefl _), if_neg (by linarith), msd_ok h3 (by linarith)]
  refine ⟨_, rfl, fun he => ?_⟩
  have e1 := kk_msd (γ := 3) (A := A) (n := l.NPR0) h3
  have e2 := flux_sq hg H.sub0
  rw [he] at e1
  rw [← H.NPR0_eq hg] at e2
  have k3 : kc 3 = 2 := by
    unfold kc
    norm_num
  have k1 : kc gamma0 = 1.728 := by
    unfold kc
    rw [gamma0_eq]
    rw [show (7 / 5 + 1 : ℝ) / (2 * (7 / 5 - 1)) = (3 : ℕ) by norm_num, Real.rpow_natCast]
    norm_num
  rw [k3] at e1
  rw [k1] at e2
  have hq : 0 < l.NPR0 / A := div_pos (by linarith) (by linarith)
  have hm := H.sub0
  unfold kk tt at e1 e2
  rw [gamma0_eq] at e2
  have : (l.NPR0 / A / 2) ^ 2 < (l.NPR0 / A / 1.728) ^ 2 := by
    apply pow_lt_pow_left₀ _ (by positivity) (by norm_num)
    exact div_lt_div_of_pos_left hq (by norm_num) (by norm_num)
  rw [← e1, e2] at this
  have hm2 : 0 < l.Msub ^ 2 := by positivity
  nlinarith

/-- non-vacuity of the hypotheses of C66: there is a solver, an area ratio, and limits -/
example : ∃ (newton : RootFinder) (l : Limits), BranchRootFinder newton ∧ (1:ℝ) < 2 ∧ NPR_Ms_list newton 2 = .ok l ∧
    ∃ n Ms, l.NPR0 ≤ n ∧ n ≤ l.NPRsw ∧ Ms_from_AsAc_NPR newton gamma0 2 n = .ok Ms := by
  obtain ⟨nf, _, hb, hc⟩ := exists_branchRootFinder
  obtain ⟨l, hl⟩ := limits_total hb hc (A := 2) (by norm_num)
  have H := limits_spec hb (by norm_num) hl
  obtain ⟨o1, o2, o3⟩ := H.ordered one_lt_gamma0
  refine ⟨nf, l, hb, by norm_num, hl, (l.NPR0 + l.NPRsw) / 2, msd gamma0 2 ((l.NPR0 + l.NPRsw) / 2), by linarith, by linarith, ?_⟩
  unfold Ms_from_AsAc_NPR
  rw [hl, Py.ok_bind, if_neg (by linarith), if_neg (by linarith), msd_ok one_lt_gamma0 (by norm_num)]

end Aerokit.Props
