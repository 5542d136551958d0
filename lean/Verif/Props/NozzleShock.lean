import Verif.Props.NozzleWitness
import Verif.Props.SecantUses

/-! # Property C118 : position of the shock in the diffuser (`Ms_from_AsAc_NPR`, `nozzle.set_NPR`) -/

namespace Aerokit.Props
open Isentropic MassFlow ShockWave Nozzle Spec ListPy
open DefaultGas (gamma0)

/-- what is known of the exit Mach number in the shock regime -/
theorem shock_exit {newton : RootFinder} (hb : BranchRootFinder newton) {A n Ms : ℝ} {l : Limits} (hA : 1 < A)
    (hl : NPR_Ms_list newton A = .ok l) (h0 : l.NPR0 ≤ n) (h1 : n ≤ l.NPRsw)
    (h : Ms_from_AsAc_NPR newton gamma0 A n = .ok Ms) :
    0 < n ∧ 0 < Ms ∧ Ms < 1 ∧ l.Msub ≤ Ms ∧ Ms ≤ l.Msh ∧ Ms = msd gamma0 A n ∧
      sig Ms gamma0 = A * (ppt Ms gamma0 / n) := by
  have hg := one_lt_gamma0
  have H := limits_spec hb hA hl
  have hA0 : 0 < A := by linarith
  have hn : 0 < n := by linarith [(H.ordered hg).1]
  obtain ⟨b1, b2, b3, b4, -, -, -⟩ := C66_mass_partial newton hb A n Ms 0 0 l hA hl h0 h1 h
  have hMsv : Ms = msd gamma0 A n := by
    unfold Ms_from_AsAc_NPR at h
    rw [hl, Py.ok_bind, if_neg (not_lt.2 h0), if_neg (not_lt.2 h1), msd_ok hg hA0] at h
    exact (Except.ok.inj h).symm
  have hflux := msd_flux hg hA0 hn
  rw [← hMsv] at hflux
  have hsp := sig_pos hg b4
  have hpp := ppt_pos (M := Ms) hg
  refine ⟨hn, b4, lt_of_le_of_lt b2 b3, b1, b2, hMsv, ?_⟩
  field_simp at hflux ⊢
  linarith

theorem ptr_continuous (b : ℝ) : ContinuousOn (fun M => ptr M gamma0) (Set.Icc 1 b) := by
  have : ContinuousOn ptExp (Set.Icc 1 b) := fun x hx => (hasDerivAt_ptExp hx.1).continuousAt.continuousWithinAt
  exact this.congr fun x hx => by rw [ptr_eq_exp hx.1]; rfl

/-- C118: for every pressure ratio of the shock regime there is exactly one Mach number `Mx` of the supersonic part of the
diffuser for which a normal shock has the total pressure loss of the flow (exit total pressure `pr/n`, `pr` the pressure
ratio of the exit Mach number `Ms`).  The shock stands at the section of area ratio `Sigma(Mx)`, between the throat and the
exit; the Mach number behind it is the one of the subsonic flow which the code computes in the same section with that loss. -/
theorem C118_position (newton : RootFinder) (hb : BranchRootFinder newton) (A n Ms pr : ℝ) (l : Limits) (hA : 1 < A)
    (hl : NPR_Ms_list newton A = .ok l) (h0 : l.NPR0 ≤ n) (h1 : n ≤ l.NPRsw)
    (h : Ms_from_AsAc_NPR newton gamma0 A n = .ok Ms) (hpr : PtPs_Mach Ms gamma0 = .ok pr) :
    (∃! Mx, 1 ≤ Mx ∧ Pt_ratio Mx gamma0 = .ok (pr / n)) ∧
    ∀ Mx, 1 ≤ Mx → Pt_ratio Mx gamma0 = .ok (pr / n) →
      Mx ≤ l.Msup ∧ (n = l.NPR0 → Mx = 1) ∧ (n = l.NPRsw → Mx = l.Msup) ∧
      ∃ σ m2, Sigma_Mach Mx gamma0 = .ok σ ∧ 1 ≤ σ ∧ σ ≤ A ∧ downstream_Mn Mx gamma0 = .ok m2 ∧ 0 < m2 ∧ m2 ≤ 1 ∧
        Sigma_Mach m2 gamma0 = .ok (σ * (pr / n)) ∧ Sigma_Mach Ms gamma0 = .ok (A * (pr / n)) := by
  have hg := one_lt_gamma0
  have H := limits_spec hb hA hl
  obtain ⟨hn, b4, hMs1, b1, b2, hMsv, hs⟩ := shock_exit hb hA hl h0 h1 h
  have hA0 : 0 < A := by linarith
  rw [PtPs_ppt hg] at hpr
  have hpr := Except.ok.inj hpr
  rw [hpr] at hs
  have anti := ptr_strictAnti hg
  have hle1 : pr / n ≤ 1 := by
    have := (sig_strictAnti hg).antitoneOn ⟨H.sub0, H.sub1.le⟩ ⟨b4, hMs1.le⟩ b1
    simp only [hs, H.hsub] at this
    by_contra hc
    push Not at hc
    nlinarith
  have hge : ptr l.Msup gamma0 ≤ pr / n := by
    have := (sig_strictAnti hg).antitoneOn ⟨b4, hMs1.le⟩ ⟨H.sh_pos hg, (H.sh_lt hg).le⟩ b2
    simp only [hs, H.sig_sh hg] at this
    exact le_of_mul_le_mul_left this hA0
  have e0 : n = l.NPR0 → pr / n = 1 := by
    intro e
    have : Ms = l.Msub := by rw [hMsv, e]; exact msd_eq hg H.sub0 (H.NPR0_eq hg)
    rw [this, H.hsub] at hs
    exact (mul_left_cancel₀ hA0.ne' (by linarith : A * 1 = A * (pr / n))).symm
  have esw : n = l.NPRsw → pr / n = ptr l.Msup gamma0 := by
    intro e
    have : Ms = l.Msh := by rw [hMsv, e]; exact msd_eq hg (H.sh_pos hg) (H.NPRsw_eq hg)
    rw [this, H.sig_sh hg] at hs
    exact (mul_left_cancel₀ hA0.ne' hs).symm
  have inv : ∀ Mx, 1 ≤ Mx → Pt_ratio Mx gamma0 = .ok (pr / n) → ptr Mx gamma0 = pr / n := by
    intro Mx hx e
    rw [Pt_ratio_ok_default hx] at e
    exact Except.ok.inj e
  have inj : ∀ a b, 1 ≤ a → 1 ≤ b → ptr a gamma0 = ptr b gamma0 → a = b := fun a b ha hb' e =>
    anti.injOn (Set.mem_Ici.2 ha) (Set.mem_Ici.2 hb') e
  refine ⟨?_, ?_⟩
  · obtain ⟨Mx, hx, ex⟩ := intermediate_value_Icc' H.sup1.le (ptr_continuous l.Msup)
      (show pr / n ∈ Set.Icc (ptr l.Msup gamma0) (ptr 1 gamma0) from ⟨hge, by rw [ptr_one hg]; exact hle1⟩)
    refine ⟨Mx, ⟨hx.1, by rw [Pt_ratio_ok_default hx.1]; exact congrArg _ ex⟩, ?_⟩
    rintro y ⟨hy, ey⟩
    exact inj _ _ hy hx.1 ((inv y hy ey).trans ex.symm)
  · intro Mx hx e
    have hp := inv Mx hx e
    have hle : Mx ≤ l.Msup := by
      by_contra hc
      push Not at hc
      have := anti (Set.mem_Ici.2 H.sup1.le) (Set.mem_Ici.2 hx) hc
      simp only at this
      linarith
    have hd := dom_of_one_le hg hx
    have hm := Real.sqrt_pos.2 (mn2_pos hg hd)
    have hσ1 : 1 ≤ sig Mx gamma0 := by
      have := (sig_strictMono hg).monotoneOn (Set.mem_Ici.2 le_rfl) (Set.mem_Ici.2 hx) hx
      simpa only [sig_one hg] using this
    have hσA : sig Mx gamma0 ≤ A := by
      have := (sig_strictMono hg).monotoneOn (Set.mem_Ici.2 hx) (Set.mem_Ici.2 H.sup1.le) hle
      simpa only [H.hsup] using this
    refine ⟨hle, fun e => inj _ _ hx le_rfl (by rw [hp, e0 e, ptr_one hg]),
      fun e => inj _ _ hx H.sup1.le (by rw [hp, esw e]), sig Mx gamma0, _, Sigma_Mach_ok hg (by linarith), hσ1, hσA,
      downstream_Mn_ok hg hd, hm, ?_, ?_, ?_⟩
    · rw [Real.sqrt_le_left one_pos.le, one_pow]
      unfold mn2
      have hx2 : 1 ≤ Mx ^ 2 := by nlinarith only [hx]
      rw [div_le_one (by nlinarith only [hx2, hg])]
      nlinarith only [hx2, hg]
    · rw [Sigma_Mach_ok hg hm.ne', sig_shock hg hx, hp]
    · rw [Sigma_Mach_ok hg b4.ne', hs]

/-- C118: when the pressure ratio increases the shock moves downstream and gets stronger: larger upstream Mach number, larger
section, lower total pressure behind it. -/
theorem C118_moves (newton : RootFinder) (hb : BranchRootFinder newton) (A n n' Ms Ms' pr pr' Mx Mx' σ σ' : ℝ) (l : Limits)
    (hA : 1 < A) (hl : NPR_Ms_list newton A = .ok l) (h0 : l.NPR0 ≤ n) (hnn : n < n') (h1 : n' ≤ l.NPRsw)
    (h : Ms_from_AsAc_NPR newton gamma0 A n = .ok Ms) (hpr : PtPs_Mach Ms gamma0 = .ok pr)
    (h' : Ms_from_AsAc_NPR newton gamma0 A n' = .ok Ms') (hpr' : PtPs_Mach Ms' gamma0 = .ok pr')
    (hx : 1 ≤ Mx) (ex : Pt_ratio Mx gamma0 = .ok (pr / n)) (hx' : 1 ≤ Mx') (ex' : Pt_ratio Mx' gamma0 = .ok (pr' / n'))
    (hσ : Sigma_Mach Mx gamma0 = .ok σ) (hσ' : Sigma_Mach Mx' gamma0 = .ok σ') :
    Ms < Ms' ∧ pr' / n' < pr / n ∧ Mx < Mx' ∧ σ < σ' := by
  have hg := one_lt_gamma0
  obtain ⟨hn, b4, hMs1, b1, b2, hMsv, hs⟩ := shock_exit hb hA hl h0 (hnn.le.trans h1) h
  obtain ⟨hn', b4', hMs1', b1', b2', hMsv', hs'⟩ := shock_exit hb hA hl (h0.trans hnn.le) h1 h'
  have hA0 : 0 < A := by linarith
  rw [PtPs_ppt hg] at hpr hpr'
  rw [Except.ok.inj hpr] at hs
  rw [Except.ok.inj hpr'] at hs'
  have k1 : Ms < Ms' := by rw [hMsv, hMsv']; exact msd_lt hg hA0 hn hnn
  have k2 : pr' / n' < pr / n := by
    have := sig_strictAnti hg ⟨b4, hMs1.le⟩ ⟨b4', hMs1'.le⟩ k1
    simp only [hs, hs'] at this
    exact lt_of_mul_lt_mul_left this hA0.le
  rw [Pt_ratio_ok_default hx] at ex
  rw [Pt_ratio_ok_default hx'] at ex'
  have ex := Except.ok.inj ex
  have ex' := Except.ok.inj ex'
  have k3 : Mx < Mx' := by
    by_contra hc
    push Not at hc
    have := (ptr_strictAnti hg).antitoneOn (Set.mem_Ici.2 hx') (Set.mem_Ici.2 hx) hc
    simp only [ex, ex'] at this
    linarith
  rw [Sigma_Mach_ok hg (by linarith)] at hσ hσ'
  refine ⟨k1, k2, k3, ?_⟩
  rw [← Except.ok.inj hσ, ← Except.ok.inj hσ']
  exact sig_strictMono hg (Set.mem_Ici.2 hx) (Set.mem_Ici.2 hx') k3

/-- C118 (partial: `Msh` is what the inversion `Mn_Pi_ratio` returned for the loss: see C96 for its accuracy; default
gamma): the profiles computed by `set_NPR` in the shock regime switch at an index `ish`, at which the choked isentropic
Mach number (`C0`, the one of every section, supersonic after the throat) is the closest to `Msh` (the first such index).
In a diffuser whose sections do not decrease, the points before it have Mach numbers up to `Msh`, the points after it have
Mach numbers from `Msh` on (unless they have the section of `ish`). -/
theorem C118_index_partial (newton : RootFinder) (hb : BranchRootFinder newton) (sec : List ℝ)
    (hpos : ∀ s ∈ sec, 0 < s) (n : ℝ) (z z' : Noz) (hz : Reachable newton sec none gamma0 z)
    (h0 : z.lim.NPR0 ≤ n) (h1 : n < z.lim.NPRsw) (h : set_NPR newton gamma0 z n = .ok z') :
    ∃ Ms pr Msh M Pt smin, ∃ (C0 : List ℝ) (ish : ℕ), Ms_from_AsAc_NPR newton gamma0 z.geo.AsoAc n = .ok Ms ∧
      PtPs_Mach Ms gamma0 = .ok pr ∧ Mn_Pi_ratio (pr / n) gamma0 = .ok Msh ∧ z'.Mach = .ok M ∧ z'.Ptot = .ok Pt ∧
      smin ∈ sec ∧ (∀ s ∈ sec, smin ≤ s) ∧ C0.length = sec.length ∧
      (∀ (i : ℕ) (s m : ℝ), sec[i]? = some s → C0[i]? = some m → Sigma_Mach m gamma0 = .ok (s / smin) ∧
        (i ≤ z.geo.ithroat → 0 < m ∧ m ≤ 1) ∧ (z.geo.ithroat < i → 1 ≤ m)) ∧
      (∃ c, C0[ish]? = some c ∧ (∀ (j : ℕ) (m : ℝ), C0[j]? = some m → |c - Msh| ≤ |m - Msh| ∧ (j < ish → |c - Msh| < |m - Msh|)) ∧
        ((∀ (i j : ℕ) (s t : ℝ), z.geo.ithroat < i → i ≤ j → sec[i]? = some s → sec[j]? = some t → s ≤ t) →
          ∀ (j : ℕ) (m : ℝ), z.geo.ithroat < j → C0[j]? = some m → (j < ish → m ≤ Msh) ∧ (ish < j → Msh ≤ m ∨ m = c))) ∧
      (∀ (i : ℕ) (m : ℝ), M[i]? = some m → i < ish → C0[i]? = some m) ∧
      (∀ (i : ℕ) (p : ℝ), Pt[i]? = some p → (i < ish → p = 1) ∧ (ish ≤ i → p = pr / n)) := by
  have hg := one_lt_gamma0
  obtain ⟨e1, e2, e3⟩ := hz.spec
  obtain ⟨smin, ex, m1, m2, hex, hAe, hax, hfm, hthr⟩ := geometry_spec hpos e2
  have hm0 := hpos smin m1
  cases set_NPR_cases h with
  | sub Ms s0 M' Ps' hn' h1 h2 h3 h4 hz' => linarith
  | sup M0 Ps hn hn' h0 h1 hz => linarith
  | shock M0 Ms pr Msh s ish tail Ps' hn hn' hc hMs h2 hne h3 h4 h5 h6 h7 hz' =>
    obtain ⟨c1, c2, c3⟩ := choked_spec hc
    rw [e1] at c3
    have hlen : z.geo.AxoAc.length = sec.length := by rw [hax, List.length_map]
    obtain ⟨v, hv, hmin, hfirst⟩ := h4
    have hish : ish < M0.length := by
      have := (List.getElem?_eq_some_iff.1 hv).1
      rwa [List.length_map] at this
    have ltk : (M0.take ish).length = ish := by rw [List.length_take]; omega
    have hchar : ∀ (i : ℕ) (sc m : ℝ), sec[i]? = some sc → M0[i]? = some m → sig m gamma0 = sc / smin ∧ 0 < m ∧
        (i ≤ z.geo.ithroat → m ≤ 1) ∧ (z.geo.ithroat < i → 1 ≤ m) := by
      intro i sc m hsc hm
      have ha : z.geo.AxoAc[i]? = some (sc / smin) := by rw [hax, List.getElem?_map, hsc]; rfl
      have hge : 1 ≤ sc / smin := by rw [one_le_div hm0]; exact m2 sc (List.mem_of_getElem? hsc)
      obtain ⟨k1, k2⟩ := c3 i _ m ha hm
      rcases le_or_gt i z.geo.ithroat with hi | hi
      · obtain ⟨a0, a1, a2⟩ := MachSub_branch hb hg g3 hge (k1 hi)
        exact ⟨a2, a0, fun _ => a1, fun h => by omega⟩
      · obtain ⟨a1, a2⟩ := MachSup_branch hb hg g3 hge (k2 hi)
        exact ⟨a2, by linarith, fun h => by omega, fun _ => a1⟩
    obtain ⟨c, hcc⟩ : ∃ c, M0[ish]? = some c := ⟨_, List.getElem?_eq_getElem hish⟩
    have hvc : v = |c - Msh| := by
      rw [List.getElem?_map, hcc] at hv
      exact (Option.some.inj hv).symm
    have hcl : ∀ (j : ℕ) (m : ℝ), M0[j]? = some m → |c - Msh| ≤ |m - Msh| ∧ (j < ish → |c - Msh| < |m - Msh|) := by
      intro j m hm
      have hj : (M0.map fun m => |m - Msh|)[j]? = some |m - Msh| := by rw [List.getElem?_map, hm]; rfl
      exact ⟨hvc ▸ hmin j _ hj, fun hlt => hvc ▸ hfirst j _ hlt hj⟩
    have getsec : ∀ j, j < M0.length → ∃ t, sec[j]? = some t := fun j hj =>
      ⟨_, List.getElem?_eq_getElem (by rw [← hlen, ← c1]; exact hj)⟩
    refine ⟨Ms, pr, Msh, _, _, smin, M0, ish, hMs, h2, h3, by rw [hz']; rfl, by rw [hz']; rfl, m1, m2, by rw [c1, hlen],
      ?_, ⟨c, hcc, hcl, ?_⟩, ?_, ?_⟩
    · intro i sc m hsc hm
      obtain ⟨a, b, d, e⟩ := hchar i sc m hsc hm
      exact ⟨by rw [Sigma_Mach_ok hg b.ne', a], fun hi => ⟨b, d hi⟩, e⟩
    · intro hinc j m hj hm
      have hjl : j < M0.length := (List.getElem?_eq_some_iff.1 hm).1
      obtain ⟨t, ht⟩ := getsec j hjl
      obtain ⟨si, hsi⟩ := getsec ish hish
      obtain ⟨a, b, d, e⟩ := hchar j t m ht hm
      obtain ⟨a', b', d', e'⟩ := hchar ish si c hsi hcc
      have mono : ∀ {x y p q : ℝ}, 1 ≤ x → 1 ≤ y → p ≤ q → sig x gamma0 = p / smin → sig y gamma0 = q / smin → x ≤ y := by
        intro x y p q hx hy hpq ex ey
        by_contra hcon
        push Not at hcon
        have := sig_strictMono hg (Set.mem_Ici.2 hy) (Set.mem_Ici.2 hx) hcon
        simp only [ex, ey] at this
        have := (div_lt_div_iff_of_pos_right hm0).1 this
        linarith
      constructor
      · intro hlt
        have hmc : m ≤ c := mono (e hj) (e' (by omega)) (hinc j ish t si hj hlt.le ht hsi) a a'
        have := (hcl j m hm).2 hlt
        by_contra hcon
        push Not at hcon
        rw [abs_of_pos (by linarith), abs_of_pos (by linarith)] at this
        linarith
      · intro hlt
        have hmc : c ≤ m := by
          rcases le_or_gt ish z.geo.ithroat with hi | hi
          · exact (d' hi).trans (e hj)
          · exact mono (e' hi) (e hj) (hinc ish j si t hi hlt.le hsi ht) a' a
        rcases le_or_gt Msh m with k | k
        · exact .inl k
        · refine .inr (le_antisymm ?_ hmc)
          have := (hcl j m hm).1
          rw [abs_of_neg (by linarith), abs_of_neg (by linarith)] at this
          linarith
    · intro i m hm hi
      rwa [List.getElem?_append_left (by rw [ltk]; exact hi), List.getElem?_take_of_lt hi] at hm
    · intro i p hp
      have lP : ((z.geo.AxoAc.map fun _ => (1 : ℝ)).take ish).length = ish := by
        rw [List.length_take, List.length_map]; omega
      constructor
      · intro hi
        rw [List.getElem?_append_left (by rw [lP]; exact hi), List.getElem?_take_of_lt hi, List.getElem?_map] at hp
        cases ha : z.geo.AxoAc[i]? with
        | none => rw [ha] at hp; cases hp
        | some a => rw [ha] at hp; exact (Option.some.inj hp).symm
      · intro hi
        rw [List.getElem?_append_right (by rw [lP]; exact hi), List.getElem?_map] at hp
        cases ha : ((z.geo.AxoAc.map fun _ => (1 : ℝ)).drop ish)[i - ((z.geo.AxoAc.map fun _ => (1 : ℝ)).take ish).length]? with
        | none => rw [ha] at hp; cases hp
        | some a => rw [ha] at hp; exact (Option.some.inj hp).symm

/-- non-vacuity of `C118_index_partial`: example of `C69_shock_partial` (`Props/NozzleWitness.lean`).  Non-vacuity of
`C118_position` and `C118_moves`: area ratio 2, both ends of the shock regime. -/
example : ∃ (nf : RootFinder) (l : Limits) (Ms Ms' pr pr' : ℝ), BranchRootFinder nf ∧ NPR_Ms_list nf 2 = .ok l ∧ l.NPR0 < l.NPRsw ∧
    Ms_from_AsAc_NPR nf gamma0 2 l.NPR0 = .ok Ms ∧ PtPs_Mach Ms gamma0 = .ok pr ∧
    Ms_from_AsAc_NPR nf gamma0 2 l.NPRsw = .ok Ms' ∧ PtPs_Mach Ms' gamma0 = .ok pr' := by
  have hg := one_lt_gamma0
  obtain ⟨nf, _, hb, hc⟩ := exists_branchRootFinder
  obtain ⟨l, hl⟩ := limits_total hb hc (by norm_num : (1:ℝ) < 2)
  have H := limits_spec hb (by norm_num : (1:ℝ) < 2) hl
  obtain ⟨o1, o2, o3⟩ := H.ordered hg
  refine ⟨nf, l, msd gamma0 2 l.NPR0, msd gamma0 2 l.NPRsw, _, _, hb, hl, o2, ?_, PtPs_ppt hg, ?_, PtPs_ppt hg⟩
  · unfold Ms_from_AsAc_NPR
    rw [hl, Py.ok_bind, if_neg (lt_irrefl _), if_neg (not_lt.2 o2.le), msd_ok hg two_pos]
  · unfold Ms_from_AsAc_NPR
    rw [hl, Py.ok_bind, if_neg (not_lt.2 o2.le), if_neg (lt_irrefl _), msd_ok hg two_pos]

end Aerokit.Props
