import Verif.Props.NozzleObj

/-! # Concrete nozzles: the hypotheses of C67–C69 are satisfiable, and the failure of C69 is reached

The nozzle has sections `[A, 1, A]` or `[A, 1, B, A]` with `A = Sigma(3)`, `B = Sigma(1.5)` (default gas). -/

namespace Aerokit.Props
open Isentropic MassFlow ShockWave Nozzle Spec ListPy IterativeSolve
open DefaultGas (gamma0)

/-- completeness of a root finder on the branch of the guess -/
def CompleteRF (nf : RootFinder) : Prop :=
  ∀ f x0, (∃ x, f x = .ok 0 ∧ (x0 ≤ 1 → x ≤ 1) ∧ (1 ≤ x0 → 1 ≤ x)) → ∃ x, nf f x0 = .ok x

theorem residual_of_sig {m σ γ : ℝ} (hg : 1 < γ) (hm : 0 < m) (h : sig m γ = σ) : sigma_residual σ γ m = .ok 0 := by
  unfold sigma_residual; rw [Sigma_Mach_ok hg hm.ne', Py.ok_bind, h]; simp

theorem MachSub_total {nf : RootFinder} (hb : BranchRootFinder nf) (hc : CompleteRF nf) {m γ : ℝ} (hg : 1 < γ) (h3 : γ < 3)
    (h0 : 0 < m) (h1 : m ≤ 1) : MachSub_Sigma nf (sig m γ) γ = .ok m := by
  have hs : 1 ≤ sig m γ := one_le_sig hg h0
  have hex : ∃ x, MachSub_Sigma nf (sig m γ) γ = .ok x := by
    unfold MachSub_Sigma Mach_Sigma
    rw [MachSub_init_ok hs hg h3, Py.ok_bind]
    apply hc
    refine ⟨m, residual_of_sig hg h0 rfl, fun _ => h1, fun h => ?_⟩
    rcases h1.eq_or_lt with e | e
    · exact e.ge
    · have hs1 := one_lt_sig_sub hg h0 e
      have : 0 < (1 - 1 / sig m γ) * (4 * (γ - 1) / (3 - γ)) := by
        apply mul_pos
        · rw [sub_pos, div_lt_one (by linarith)]; exact hs1
        · apply div_pos <;> linarith
      have := Real.sqrt_pos.2 this
      linarith
  obtain ⟨x, hx⟩ := hex
  obtain ⟨a0, a1, a2⟩ := MachSub_branch hb hg h3 hs hx
  rw [hx, (sig_strictAnti hg).injOn ⟨a0, a1⟩ ⟨h0, h1⟩ a2]

theorem MachSup_total {nf : RootFinder} (hb : BranchRootFinder nf) (hc : CompleteRF nf) {m γ : ℝ} (hg : 1 < γ) (h3 : γ < 3)
    (h1 : 1 ≤ m) : MachSup_Sigma nf (sig m γ) γ = .ok m := by
  have h0 : 0 < m := by linarith
  have hs : 1 ≤ sig m γ := one_le_sig hg h0
  have hex : ∃ x, MachSup_Sigma nf (sig m γ) γ = .ok x := by
    unfold MachSup_Sigma Mach_Sigma
    rw [MachSup_init_ok hs hg h3, Py.ok_bind]
    apply hc
    refine ⟨m, residual_of_sig hg h0 rfl, fun h => ?_, fun _ => h1⟩
    rcases h1.eq_or_lt with e | e
    · exact e.ge
    · have hs1 := one_lt_sig_sup hg e
      have : 0 < (sig m γ - 1) * (4 * (γ - 1) / (3 - γ)) := by
        apply mul_pos
        · linarith
        · apply div_pos <;> linarith
      have := Real.sqrt_pos.2 this
      linarith
  obtain ⟨x, hx⟩ := hex
  obtain ⟨a1, a2⟩ := MachSup_branch hb hg h3 hs hx
  rw [hx, (sig_strictMono hg).injOn (Set.mem_Ici.2 a1) (Set.mem_Ici.2 h1) a2]

/-- the secant search of `Mn_Pi_ratio` is exact when the answer is its starting point 1.5 -/
theorem Mn_Pi_ratio_15 : Mn_Pi_ratio (ptr 1.5 gamma0) gamma0 = .ok 1.5 := by
  have hg := one_lt_gamma0
  have hlt : ptr 1.5 gamma0 < 1 := by
    rw [← ptr_one hg]
    exact ptr_strictAnti hg (Set.mem_Ici.2 le_rfl) (Set.mem_Ici.2 (by norm_num)) (by norm_num)
  have hne : ptr 1.4985 gamma0 - ptr 1.5 gamma0 ≠ 0 := by
    have : ptr 1.5 gamma0 < ptr 1.4985 gamma0 :=
      ptr_strictAnti hg (Set.mem_Ici.2 (by norm_num)) (Set.mem_Ici.2 (by norm_num)) (by norm_num)
    linarith
  unfold Mn_Pi_ratio Mn_Pt_ratio
  rw [if_neg (by linarith)]
  unfold secant_solve secant_run
  simp only []
  rw [Pt_ratio_ok_default (by norm_num), Py.ok_bind]
  have hx : (1.5 : ℝ) * 0.999 = 1.4985 := by norm_num
  have h20 : itmax - 1 = 18 + 1 := rfl
  rw [hx, h20]
  unfold secantLoop
  rw [if_pos]
  swap
  · unfold defaultTol; norm_num [abs_of_neg, abs_of_pos]
  rw [Pt_ratio_ok_default (by norm_num), Py.ok_bind, Py.div_ok hne, Py.ok_bind]
  have hnext : (1.4985 : ℝ) + (1.4985 - 1.5) / (ptr 1.4985 gamma0 - ptr 1.5 gamma0) * (ptr 1.5 gamma0 - ptr 1.4985 gamma0)
      = 1.5 := by
    have : ptr 1.5 gamma0 - ptr 1.4985 gamma0 = -(ptr 1.4985 gamma0 - ptr 1.5 gamma0) := by ring
    rw [this, mul_neg, div_mul_cancel₀ _ hne]
    norm_num
  simp only []
  rw [hnext]
  unfold secantLoop
  rw [if_pos]
  swap
  · unfold defaultTol; norm_num [abs_of_neg, abs_of_pos]
  have hne' : ptr 1.5 gamma0 - ptr 1.4985 gamma0 ≠ 0 := by
    rw [← neg_sub]; exact neg_ne_zero.2 hne
  rw [Pt_ratio_ok_default (by norm_num), Py.ok_bind, Py.div_ok hne', Py.ok_bind]
  simp only [sub_self, mul_zero, add_zero]
  unfold secantLoop
  rw [if_neg]
  · rfl
  · unfold defaultTol; norm_num

theorem npMin_eq {l : List ℝ} {m : ℝ} (h1 : m ∈ l) (h2 : ∀ x ∈ l, m ≤ x) : npMin l = .ok m := by
  cases l with
  | nil => simp at h1
  | cons a xs =>
    have : npMin (a :: xs) = .ok (xs.foldl min a) := rfl
    obtain ⟨k1, k2⟩ := npMin_spec this
    rw [this, le_antisymm (k2 m h1) (h2 _ k1)]

/-- a nozzle without NPR exists for every section law with a solvable exit ratio -/
theorem reachable_new {nf : RootFinder} {sec : List ℝ} {γ : ℝ} {g : Geometry} {l : Limits} (hg : geometry sec none = .ok g)
    (hl : NPR_Ms_list nf g.AsoAc = .ok l) : Reachable nf sec none γ ⟨γ, g, l, 1, 1, none, none, none⟩ := by
  refine .new DefaultGas.init (DefaultGas.save_default DefaultGas.init) none 1 1 _ ?_
  unfold Nozzle.new initBody
  rw [hg]
  simp only []
  rw [hl]
  rfl

/-- the geometry of a section law with smallest section 1 at index `it` -/
theorem geometry_of {sec : List ℝ} {A : ℝ} {it : ℕ} (hA : 0 < A) (hlast : sec.getLast? = some A) (h1 : (1:ℝ) ∈ sec)
    (hge : ∀ s ∈ sec, (1:ℝ) ≤ s) (hfm : FirstMin sec it) : geometry sec none = .ok ⟨A, sec, it⟩ := by
  unfold geometry
  have e1 : last sec = .ok A := by unfold last; rw [hlast]
  rw [e1, npMin_eq h1 hge]
  simp only [Py.ok_bind]
  rw [Py.div_ok one_ne_zero, Py.ok_bind, div_one,
    mapM_of_forall (g := fun s => s) (fun a _ => by rw [Py.div_ok hA.ne']; congr 1; field_simp), Py.ok_bind]
  have : (sec.map fun s => s).map abs = sec := by
    rw [List.map_map]
    conv_rhs => rw [← List.map_id sec]
    apply List.map_congr_left
    intro a ha
    exact abs_of_pos (by linarith [hge a ha])
  rw [this, argmin_of hfm, Py.ok_bind, List.map_id']
  rfl

/-- parameters of the shock-at-Mach-1.5 case: exit Mach number and pressure ratio -/
theorem shock15 {A : ℝ} {l : Limits} (H : IsLimits gamma0 A l) (h3 : l.Msup = 3) :
    ∃ Ms n, 0 < Ms ∧ Ms < 1 ∧ sig Ms gamma0 = A * ptr 1.5 gamma0 ∧ msd gamma0 A n = Ms ∧ ppt Ms gamma0 / n = ptr 1.5 gamma0 ∧
      l.NPR0 < n ∧ n < l.NPRsw := by
  have hg := one_lt_gamma0
  have hA := H.A_pos hg
  have hA0 : 0 < A := by linarith
  have hd15 : dom 1.5 gamma0 := dom_of_one_le hg (by norm_num)
  have p15 := ptr_pos hg hd15
  have hlt1 : ptr 1.5 gamma0 < 1 := by
    rw [← ptr_one hg]
    exact ptr_strictAnti hg (Set.mem_Ici.2 le_rfl) (Set.mem_Ici.2 (by norm_num)) (by norm_num)
  have hgt3 : ptr 3 gamma0 < ptr 1.5 gamma0 :=
    ptr_strictAnti hg (Set.mem_Ici.2 (by norm_num)) (Set.mem_Ici.2 (by norm_num)) (by norm_num)
  have hsh := H.sig_sh hg
  rw [h3] at hsh
  have hshlt : sig l.Msh gamma0 < A * ptr 1.5 gamma0 := by rw [hsh]; exact mul_lt_mul_of_pos_left hgt3 hA0
  have h1 : 1 < A * ptr 1.5 gamma0 := lt_trans (one_lt_sig_sub hg (H.sh_pos hg) (H.sh_lt hg)) hshlt
  obtain ⟨Ms, m0, m1, hs⟩ := exists_sub hg h1
  have hsp := sig_pos hg m0
  have hpp := ppt_pos (M := Ms) hg
  have e : A * (ppt Ms gamma0 / sig Ms gamma0) / A = ppt Ms gamma0 / sig Ms gamma0 := mul_div_cancel_left₀ _ hA0.ne'
  refine ⟨Ms, A * (ppt Ms gamma0 / sig Ms gamma0), m0, m1, hs, msd_eq hg m0 e, ?_, ?_, ?_⟩
  · have : ppt Ms gamma0 / (A * (ppt Ms gamma0 / sig Ms gamma0)) = sig Ms gamma0 / A := by field_simp
    rw [this, hs, mul_div_cancel_left₀ _ hA0.ne']
  · have hlt : l.Msub < Ms := by
      by_contra hc
      push Not at hc
      have := (sig_strictAnti hg).antitoneOn ⟨m0, m1.le⟩ ⟨H.sub0, H.sub1.le⟩ hc
      rw [H.hsub, hs] at this
      nlinarith
    have := flux_lt hg H.sub0 hlt
    rw [← H.NPR0_eq hg, ← e] at this
    exact (div_lt_div_iff_of_pos_right hA0).1 this
  · have hlt : Ms < l.Msh := by
      by_contra hc
      push Not at hc
      have := (sig_strictAnti hg).antitoneOn ⟨H.sh_pos hg, (H.sh_lt hg).le⟩ ⟨m0, m1.le⟩ hc
      rw [hs] at this
      linarith
    have := flux_lt hg m0 hlt
    rw [← H.NPRsw_eq hg, ← e] at this
    exact (div_lt_div_iff_of_pos_right hA0).1 this

/-- limits of the nozzle of exit ratio `Sigma(3)` -/
theorem limits3 {nf : RootFinder} (hb : BranchRootFinder nf) (hc : CompleteRF nf) :
    ∃ l, NPR_Ms_list nf (sig 3 gamma0) = .ok l ∧ IsLimits gamma0 (sig 3 gamma0) l ∧ l.Msup = 3 := by
  have hg := one_lt_gamma0
  have hA := one_lt_sig_sup hg (by norm_num : (1:ℝ) < 3)
  obtain ⟨l, hl⟩ := limits_total hb hc hA
  have H := limits_spec hb hA hl
  refine ⟨l, hl, H, ?_⟩
  exact (sig_strictMono hg).injOn (Set.mem_Ici.2 H.sup1.le) (Set.mem_Ici.2 (by norm_num)) H.hsup

theorem firstMin3 {A : ℝ} (hA : 1 < A) : FirstMin [A, 1, A] 1 := by
  refine ⟨1, rfl, ?_, ?_⟩
  · intro j w hw
    match j with
    | 0 => simp at hw; linarith
    | 1 => simp at hw; linarith
    | 2 => simp at hw; linarith
    | j + 3 => simp at hw
  · intro j w hj hw
    match j with
    | 0 => simp at hw; linarith

/-- C69 fails on a real case: there are a solver that finds every root, a section law `[A, 1, A]`, and a pressure
ratio strictly between `NPR0` and `NPRsw` (shock of Mach number 1.5 in the diffuser) for which the nozzle object is built
but `set_NPR` raises. -/
theorem C69_false_witness : ∃ (nf : RootFinder) (sec : List ℝ) (z : Noz) (n : ℝ), BranchRootFinder nf ∧ CompleteRF nf ∧
    (∀ s ∈ sec, 0 < s) ∧ Reachable nf sec none gamma0 z ∧ 1 < z.geo.AsoAc ∧ z.lim.NPR0 < n ∧ n < z.lim.NPRsw ∧
    ∀ z', set_NPR nf gamma0 z n ≠ .ok z' := by
  have hg := one_lt_gamma0
  obtain ⟨nf, _, hb, hc⟩ := exists_branchRootFinder
  obtain ⟨l, hl, H, hsup⟩ := limits3 hb hc
  obtain ⟨A, hAe⟩ : ∃ A, A = sig 3 gamma0 := ⟨_, rfl⟩
  rw [← hAe] at hl H
  have hA := H.A_pos hg
  have hA0 : 0 < A := by linarith
  obtain ⟨Ms, n, m0, m1, hs, hmsd, hloss, hn0, hn1⟩ := shock15 H hsup
  have hgeo : geometry [A, 1, A] none = .ok ⟨A, [A, 1, A], 1⟩ := by
    apply geometry_of hA0 rfl (by simp) _ (firstMin3 hA)
    intro s hs
    simp at hs
    rcases hs with h | h | h <;> linarith
  have hpos : ∀ s ∈ [A, 1, A], 0 < s := by
    intro s hs
    simp at hs
    rcases hs with h | h | h <;> linarith
  have hR := reachable_new (nf := nf) (γ := gamma0) hgeo hl
  refine ⟨nf, [A, 1, A], _, n, hb, hc, hpos, hR, hA, hn0, hn1, ?_⟩
  have hsub : MachSub_Sigma nf A gamma0 = .ok l.Msub := by
    have := MachSub_total hb hc hg g3 H.sub0 H.sub1.le
    rwa [H.hsub] at this
  have h1 : MachSub_Sigma nf 1 gamma0 = .ok 1 := by
    have := MachSub_total hb hc hg g3 one_pos le_rfl
    rwa [sig_one hg] at this
  have hs3 : MachSup_Sigma nf A gamma0 = .ok 3 := by
    have := MachSup_total hb hc hg g3 (by norm_num : (1:ℝ) ≤ 3)
    rwa [← hAe] at this
  have hM0 : choked_M nf ⟨gamma0, ⟨A, [A, 1, A], 1⟩, l, 1, 1, none, none, none⟩ = .ok [l.Msub, 1, 3] := by
    unfold choked_M vec
    simp [hsub, h1, hs3]
  have hMs : Ms_from_AsAc_NPR nf gamma0 A n = .ok Ms := by
    unfold Ms_from_AsAc_NPR
    rw [hl, Py.ok_bind, if_neg (by linarith), if_neg (by linarith), msd_ok hg hA0, hmsd]
  refine C69_false_shock_at_throat nf hb _ hpos n _ hR hA hn0 hn1 _ hM0 Ms (ppt Ms gamma0) 1.5 hMs (PtPs_ppt hg)
    (by rw [hloss]; exact Mn_Pi_ratio_15) ?_
  have hm := H.sub1
  have hmp := H.sub0
  refine ⟨0.5, ?_, ?_, ?_⟩
  · simp; norm_num [abs_of_neg]
  · intro j w hw
    match j with
    | 0 =>
      simp at hw
      rw [← hw, abs_sub_comm, abs_of_pos (by linarith)]; linarith
    | 1 => simp at hw; rw [← hw]; norm_num [abs_of_neg]
    | 2 => simp at hw; rw [← hw]; norm_num [abs_of_pos]
    | j + 3 => simp at hw
  · intro j w hj hw
    match j with
    | 0 =>
      simp at hw
      rw [← hw, abs_sub_comm, abs_of_pos (by linarith)]; linarith

/-- non-vacuity of `C69_subsonic_partial` and of the supersonic theorems: the nozzle `[A, 1, A]` -/
theorem nozzle_runs : ∃ (nf : RootFinder) (sec : List ℝ) (z z' z'' : Noz) (n : ℝ), BranchRootFinder nf ∧ (∀ s ∈ sec, 0 < s) ∧
    Reachable nf sec none gamma0 z ∧ 1 < z.geo.AsoAc ∧ 1 < n ∧ n < z.lim.NPR0 ∧ set_NPR nf gamma0 z n = .ok z' ∧
    z.lim.NPR0 ≤ z.lim.NPRsw ∧ set_NPR nf gamma0 z z.lim.NPRsw = .ok z'' := by
  have hg := one_lt_gamma0
  obtain ⟨nf, _, hb, hc⟩ := exists_branchRootFinder
  obtain ⟨l, hl, H, hsup⟩ := limits3 hb hc
  obtain ⟨A, hAe⟩ : ∃ A, A = sig 3 gamma0 := ⟨_, rfl⟩
  rw [← hAe] at hl H
  have hA := H.A_pos hg
  have hA0 : 0 < A := by linarith
  obtain ⟨o1, o2, o3⟩ := H.ordered hg
  have hgeo : geometry [A, 1, A] none = .ok ⟨A, [A, 1, A], 1⟩ := by
    apply geometry_of hA0 rfl (by simp) _ (firstMin3 hA)
    intro s hs
    simp at hs
    rcases hs with h | h | h <;> linarith
  have hpos : ∀ s ∈ [A, 1, A], 0 < s := by
    intro s hs
    simp at hs
    rcases hs with h | h | h <;> linarith
  have hR := reachable_new (nf := nf) (γ := gamma0) hgeo hl
  -- subsonic: exit Mach number Msub/2
  have hm0 : 0 < l.Msub / 2 := by linarith [H.sub0]
  have hm1 : l.Msub / 2 < l.Msub := by linarith [H.sub0]
  have hMs : Mach_PtPs (ppt (l.Msub / 2) gamma0) gamma0 = .ok (l.Msub / 2) := by
    rw [Mach_PtPs_ok hg (one_lt_ppt hg hm0).le]
    unfold ppt
    rw [rpow_rpow_cancel hg (tt_pos hg).le, sqrt_tt hg hm0.le]
  have hsA : A < sig (l.Msub / 2) gamma0 := by
    rw [← H.hsub]
    exact sig_strictAnti hg ⟨hm0, by linarith [H.sub1]⟩ ⟨H.sub0, H.sub1.le⟩ hm1
  obtain ⟨m', m'0, m'1, hm'⟩ := exists_sub hg (show 1 < 1 / A * sig (l.Msub / 2) gamma0 by
    rw [one_div, ← div_eq_inv_mul, lt_div_iff₀ hA0, one_mul]; exact hsA)
  have f1 : MachSub_Sigma nf (A / A * sig (l.Msub / 2) gamma0) gamma0 = .ok (l.Msub / 2) := by
    rw [div_self hA0.ne', one_mul]
    exact MachSub_total hb hc hg g3 hm0 (by linarith [H.sub1])
  have f2 : MachSub_Sigma nf (1 / A * sig (l.Msub / 2) gamma0) gamma0 = .ok m' := by
    rw [← hm']
    exact MachSub_total hb hc hg g3 m'0 m'1.le
  have hsub : MachSub_Sigma nf A gamma0 = .ok l.Msub := by
    have := MachSub_total hb hc hg g3 H.sub0 H.sub1.le
    rwa [H.hsub] at this
  have h1 : MachSub_Sigma nf 1 gamma0 = .ok 1 := by
    have := MachSub_total hb hc hg g3 one_pos le_rfl
    rwa [sig_one hg] at this
  have hs3 : MachSup_Sigma nf A gamma0 = .ok 3 := by
    have := MachSup_total hb hc hg g3 (by norm_num : (1:ℝ) ≤ 3)
    rwa [← hAe] at this
  have hd : ∀ p m, Py.div p (ppt m gamma0) = .ok (p / ppt m gamma0) := fun p m => Py.div_ok (ppt_pos hg).ne'
  have s1 : ∃ z', set_NPR nf gamma0 ⟨gamma0, ⟨A, [A, 1, A], 1⟩, l, 1, 1, none, none, none⟩ (ppt (l.Msub / 2) gamma0)
      = .ok z' := by
    unfold set_NPR
    rw [if_pos (by rw [H.h0]; exact ppt_lt hg hm0.le hm1)]
    unfold set_NPR_subsonic vec staticP
    simp only []
    rw [hMs, Py.ok_bind, Sigma_Mach_ok hg hm0.ne', Py.ok_bind]
    have dA : Py.div A A = .ok (A / A) := Py.div_ok hA0.ne'
    have d1 : Py.div 1 A = .ok (1 / A) := Py.div_ok hA0.ne'
    have f2' := f2
    rw [one_div] at f2'
    simp [dA, d1, f1, f2, f2', PtPs_ppt hg, hd]
  have s2 : ∃ z', set_NPR nf gamma0 ⟨gamma0, ⟨A, [A, 1, A], 1⟩, l, 1, 1, none, none, none⟩ l.NPRsw = .ok z' := by
    unfold set_NPR
    rw [if_neg (by show ¬ l.NPRsw < l.NPR0; linarith)]
    have hM0 : choked_M nf ⟨gamma0, ⟨A, [A, 1, A], 1⟩, l, 1, 1, none, none, none⟩ = .ok [l.Msub, 1, 3] := by
      unfold choked_M vec
      simp [hsub, h1, hs3]
    rw [hM0, Py.ok_bind]
    simp only []
    rw [if_neg (lt_irrefl _)]
    unfold staticP
    simp [PtPs_ppt hg, hd]
  obtain ⟨z', s1⟩ := s1
  obtain ⟨z'', s2⟩ := s2
  exact ⟨nf, [A, 1, A], _, z', z'', _, hb, hpos, hR, hA, one_lt_ppt hg hm0, by show _ < l.NPR0; rw [H.h0]; exact ppt_lt hg hm0.le hm1,
    s1, by show l.NPR0 ≤ l.NPRsw; linarith, s2⟩

/-- non-vacuity of `C69_shock_partial`: with the extra point `B = Sigma(1.5)` the same shock is computed -/
example : ∃ (nf : RootFinder) (sec : List ℝ) (z z' : Noz) (n : ℝ), BranchRootFinder nf ∧ (∀ s ∈ sec, 0 < s) ∧
    Reachable nf sec none gamma0 z ∧ 1 < z.geo.AsoAc ∧ z.lim.NPR0 ≤ n ∧ n < z.lim.NPRsw ∧ set_NPR nf gamma0 z n = .ok z' := by
  have hg := one_lt_gamma0
  obtain ⟨nf, _, hb, hc⟩ := exists_branchRootFinder
  obtain ⟨l, hl, H, hsup⟩ := limits3 hb hc
  obtain ⟨A, hAe⟩ : ∃ A, A = sig 3 gamma0 := ⟨_, rfl⟩
  rw [← hAe] at hl H
  have hA := H.A_pos hg
  have hA0 : 0 < A := by linarith
  obtain ⟨B, hBe⟩ : ∃ B, B = sig 1.5 gamma0 := ⟨_, rfl⟩
  have hB : 1 < B := by rw [hBe]; exact one_lt_sig_sup hg (by norm_num)
  obtain ⟨Ms, n, m0, m1, hs, hmsd, hloss, hn0, hn1⟩ := shock15 H hsup
  have hgeo : geometry [A, 1, B, A] none = .ok ⟨A, [A, 1, B, A], 1⟩ := by
    apply geometry_of hA0 rfl (by simp)
    · intro s hs
      simp at hs
      rcases hs with h | h | h | h <;> linarith
    · refine ⟨1, rfl, ?_, ?_⟩
      · intro j w hw
        match j with
        | 0 => simp at hw; linarith
        | 1 => simp at hw; linarith
        | 2 => simp at hw; linarith
        | 3 => simp at hw; linarith
        | j + 4 => simp at hw
      · intro j w hj hw
        match j with
        | 0 => simp at hw; linarith
  have hpos : ∀ s ∈ [A, 1, B, A], 0 < s := by
    intro s hs
    simp at hs
    rcases hs with h | h | h | h <;> linarith
  have hR := reachable_new (nf := nf) (γ := gamma0) hgeo hl
  have hsub : MachSub_Sigma nf A gamma0 = .ok l.Msub := by
    have := MachSub_total hb hc hg g3 H.sub0 H.sub1.le
    rwa [H.hsub] at this
  have h1 : MachSub_Sigma nf 1 gamma0 = .ok 1 := by
    have := MachSub_total hb hc hg g3 one_pos le_rfl
    rwa [sig_one hg] at this
  have hs3 : MachSup_Sigma nf A gamma0 = .ok 3 := by
    have := MachSup_total hb hc hg g3 (by norm_num : (1:ℝ) ≤ 3)
    rwa [← hAe] at this
  have hs15 : MachSup_Sigma nf B gamma0 = .ok 1.5 := by
    have := MachSup_total hb hc hg g3 (by norm_num : (1:ℝ) ≤ 1.5)
    rwa [← hBe] at this
  have hMs : Ms_from_AsAc_NPR nf gamma0 A n = .ok Ms := by
    unfold Ms_from_AsAc_NPR
    rw [hl, Py.ok_bind, if_neg (by linarith), if_neg (by linarith), msd_ok hg hA0, hmsd]
  have hd15 : dom 1.5 gamma0 := dom_of_one_le hg (by norm_num)
  have hmn := Real.sqrt_pos.2 (mn2_pos hg hd15)
  have hmn1 : Real.sqrt (mn2 1.5 gamma0) < 1 := by
    rw [Real.sqrt_lt' one_pos]
    unfold mn2
    rw [gamma0_eq]; norm_num
  have f1 : MachSub_Sigma nf (B * (A * ptr 1.5 gamma0) / A) gamma0 = .ok (Real.sqrt (mn2 1.5 gamma0)) := by
    have e : B * (A * ptr 1.5 gamma0) / A = sig (Real.sqrt (mn2 1.5 gamma0)) gamma0 := by
      rw [sig_shock hg (by norm_num), hBe]; field_simp
    rw [e]
    exact MachSub_total hb hc hg g3 hmn hmn1.le
  have f2 : MachSub_Sigma nf (A * (A * ptr 1.5 gamma0) / A) gamma0 = .ok Ms := by
    have e : A * (A * ptr 1.5 gamma0) / A = sig Ms gamma0 := by rw [hs]; field_simp
    rw [e]
    exact MachSub_total hb hc hg g3 m0 m1.le
  have hd : ∀ p m, Py.div p (ppt m gamma0) = .ok (p / ppt m gamma0) := fun p m => Py.div_ok (ppt_pos hg).ne'
  have hn : 0 < n := by linarith [(H.ordered hg).1]
  have s1 : ∃ z', set_NPR nf gamma0 ⟨gamma0, ⟨A, [A, 1, B, A], 1⟩, l, 1, 1, none, none, none⟩ n = .ok z' := by
    unfold set_NPR
    rw [if_neg (by show ¬ n < l.NPR0; linarith)]
    have hM0 : choked_M nf ⟨gamma0, ⟨A, [A, 1, B, A], 1⟩, l, 1, 1, none, none, none⟩ = .ok [l.Msub, 1, 1.5, 3] := by
      unfold choked_M vec
      simp [hsub, h1, hs3, hs15]
    rw [hM0, Py.ok_bind]
    simp only []
    rw [if_pos hn1, hMs, Py.ok_bind, PtPs_ppt hg, Py.ok_bind, Py.div_ok hn.ne', Py.ok_bind, hloss, Mn_Pi_ratio_15, Py.ok_bind]
    have hfm : FirstMin ([l.Msub, 1, 1.5, 3].map fun m => |m - 1.5|) 2 := by
      have hm := H.sub1
      have hmp := H.sub0
      refine ⟨0, ?_, ?_, ?_⟩
      · simp
      · intro j w hw
        obtain ⟨a, _, ha⟩ := List.mem_map.1 (List.mem_of_getElem? hw)
        rw [← ha]; exact abs_nonneg _
      · intro j w hj hw
        match j with
        | 0 =>
          simp at hw
          rw [← hw, abs_sub_comm, abs_of_pos (by linarith)]; linarith
        | 1 => simp at hw; rw [← hw]; norm_num [abs_of_neg]
    rw [argmin_of hfm, Py.ok_bind, Sigma_Mach_ok hg m0.ne', Py.ok_bind, hs]
    unfold vec staticP
    have dA : ∀ x, Py.div x A = .ok (x / A) := fun x => Py.div_ok hA0.ne'
    simp [dA, f1, f2, PtPs_ppt hg, hd]
  obtain ⟨z', s1⟩ := s1
  exact ⟨nf, _, _, z', n, hb, hpos, hR, hA, hn0.le, hn1, s1⟩

end Aerokit.Props
