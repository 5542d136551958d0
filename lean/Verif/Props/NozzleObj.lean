import Verif.Lemmas.NozzleObj
import Verif.Props.Nozzle

/-! # Properties C67–C69 : the class `nozzle` of `aerokit/instance/nozzle.py` -/

namespace Aerokit.Props
open Isentropic MassFlow ShockWave Nozzle Spec ListPy
open DefaultGas (gamma0)

/-! ### C67: gamma -/

/-- C67 (partial: only the choking profile): with any `gamma` accepted by the area-ratio solver, at
pressure ratios beyond the shock-at-exit one the Mach number profile has the area ratio of the section law
FOR THAT gamma, subsonic up to the throat and supersonic after it. -/
theorem C67_choked_profile_partial (newton : RootFinder) (hb : BranchRootFinder newton) (sec : List ℝ)
    (hpos : ∀ s ∈ sec, 0 < s) (gamma dg n : ℝ) (hg : 1 < gamma) (hg3 : gamma < 3) (z z' : Noz)
    (hz : Reachable newton sec none gamma z) (h0 : z.lim.NPR0 ≤ n) (h1 : z.lim.NPRsw ≤ n)
    (h : set_NPR newton dg z n = .ok z') :
    ∃ M smin, z'.Mach = .ok M ∧ smin ∈ sec ∧ (∀ s ∈ sec, smin ≤ s) ∧
      ∀ (i : ℕ) (s m : ℝ), sec[i]? = some s → M[i]? = some m → Sigma_Mach m gamma = .ok (s / smin) ∧
        (i ≤ z.geo.ithroat → m ≤ 1) ∧ (z.geo.ithroat < i → 1 ≤ m) := by
  obtain ⟨e1, e2, e3⟩ := hz.spec
  obtain ⟨smin, ex, m1, m2, hex, hA, hax, hfm, hthr⟩ := geometry_spec hpos e2
  have hm0 := hpos smin m1
  cases set_NPR_cases h with
  | sub Ms s0 M Ps hn _ _ _ _ _ => linarith
  | shock M0 Ms pr Msh s ish tail Ps hn hn' _ _ _ _ _ _ _ _ _ _ => linarith
  | sup M0 Ps hn hn' hc _ hz' =>
    obtain ⟨c1, c2, c3⟩ := choked_spec hc
    refine ⟨M0, smin, by rw [hz']; rfl, m1, m2, ?_⟩
    intro i s m hs hm
    have ha : z.geo.AxoAc[i]? = some (s / smin) := by rw [hax, List.getElem?_map, hs]; rfl
    have hge : 1 ≤ s / smin := by rw [one_le_div hm0]; exact m2 s (List.mem_of_getElem? hs)
    obtain ⟨k1, k2⟩ := c3 i _ m ha hm
    rw [e1] at k1 k2
    rcases le_or_gt i z.geo.ithroat with hi | hi
    · obtain ⟨a0, a1, a2⟩ := MachSub_branch hb hg hg3 hge (k1 hi)
      exact ⟨by rw [Sigma_Mach_ok hg a0.ne', a2], fun _ => a1, fun h => by omega⟩
    · obtain ⟨a1, a2⟩ := MachSup_branch hb hg hg3 hge (k2 hi)
      exact ⟨by rw [Sigma_Mach_ok hg (by linarith), a2], fun h => by omega, fun _ => a1⟩

/-- C67 is false: the regime limits of a nozzle do not depend on `gamma` at all ... -/
theorem C67_limits_ignore_gamma_false (newton : RootFinder) (sec : List ℝ) (a : Option ℝ) (g1 g2 : ℝ) (z1 z2 : Noz)
    (h1 : Reachable newton sec a g1 z1) (h2 : Reachable newton sec a g2 z2) : z1.lim = z2.lim := by
  obtain ⟨_, a2, a3⟩ := h1.spec
  obtain ⟨_, b2, b3⟩ := h2.spec
  rw [a2] at b2
  rw [← Except.ok.inj b2, a3] at b3
  exact Except.ok.inj b3

/-- ... and for the monatomic gas `gamma = 5/3` and a nozzle of exit area ratio 169/128 whose
choked-subsonic exit Mach number is 1/2, `NPR0` is not the total over static pressure ratio at Mach 1/2. -/
theorem C67_false (newton : RootFinder) (hb : BranchRootFinder newton) (sec : List ℝ) (hpos : ∀ s ∈ sec, 0 < s)
    (z : Noz) (hz : Reachable newton sec none (5 / 3) z) (hA : z.geo.AsoAc = 169 / 128) :
    Sigma_Mach (1 / 2) (5 / 3) = .ok (169 / 128) ∧ ∃ v, PtPs_Mach (1 / 2) (5 / 3) = .ok v ∧ z.lim.NPR0 < v := by
  obtain ⟨_, _, e3⟩ := hz.spec
  rw [hA] at e3
  have hg53 : (1:ℝ) < 5 / 3 := by norm_num
  have H := limits_spec hb (by norm_num) e3
  constructor
  · rw [Sigma_Mach_ok hg53 (by norm_num)]
    congr 1
    unfold sig tt
    rw [show ((5 / 3 : ℝ) + 1) / (2 * (5 / 3 - 1)) = (2 : ℕ) by norm_num, Real.rpow_natCast]
    norm_num
  · refine ⟨_, PtPs_ppt hg53, ?_⟩
    have hg := one_lt_gamma0
    -- Msub < 0.52
    have hm : z.lim.Msub < 13 / 25 := by
      by_contra hc
      push Not at hc
      have : sig z.lim.Msub gamma0 ≤ sig (13 / 25) gamma0 :=
        (sig_strictAnti hg).antitoneOn ⟨by norm_num, by norm_num⟩ ⟨H.sub0, H.sub1.le⟩ hc
      rw [H.hsub] at this
      unfold sig tt at this
      rw [gamma0_eq, show ((7 / 5 : ℝ) + 1) / (2 * (7 / 5 - 1)) = (3 : ℕ) by norm_num, Real.rpow_natCast] at this
      norm_num at this
    rw [H.h0]
    have h1 := ppt_lt hg H.sub0.le hm
    refine h1.trans ?_
    -- compare squares: tt(.52)^7 < (13/12)^5
    have e1 : ppt (13 / 25) gamma0 ^ 2 = (6588 / 6250 : ℝ) ^ 7 := by
      unfold ppt tt
      rw [gamma0_eq, ← Real.rpow_natCast, ← Real.rpow_mul (by norm_num),
        show (7 / 5 : ℝ) / (7 / 5 - 1) * (2 : ℕ) = (7 : ℕ) by norm_num, Real.rpow_natCast]
      norm_num
    have e2 : ppt (1 / 2) (5 / 3) ^ 2 = (13 / 12 : ℝ) ^ 5 := by
      unfold ppt tt
      rw [← Real.rpow_natCast, ← Real.rpow_mul (by norm_num),
        show (5 / 3 : ℝ) / (5 / 3 - 1) * (2 : ℕ) = (5 : ℕ) by norm_num, Real.rpow_natCast]
      norm_num
    refine lt_of_pow_lt_pow_left₀ 2 (ppt_pos hg53).le ?_
    rw [e1, e2]
    norm_num

/-! ### C68: side effects on the default gas -/

/-- C68 (partial): building a nozzle, successfully or not, never changes the CURRENT gas constants. -/
theorem C68_current_partial (newton : RootFinder) (s : DefaultGas.State) (sec : List ℝ) (a : Option ℝ) (gamma : ℝ)
    (npr : Option ℝ) (r sc : ℝ) :
    (Nozzle.new newton s sec a gamma npr r sc).1.gamma = s.gamma ∧ (Nozzle.new newton s sec a gamma npr r sc).1.r = s.r := by
  unfold Nozzle.new
  split
  · exact ⟨rfl, rfl⟩
  · simp only []
    split
    · exact ⟨rfl, rfl⟩
    · split
      · rename_i h
        cases h
        exact ⟨rfl, rfl⟩
      · exact ⟨rfl, rfl⟩

/-- C68 is false: the slot used by `save_default`/`restore_default` is overwritten, so a user's own saved
gas is lost: after save, change, build a nozzle, `restore_default()` no longer gives back the saved gamma. -/
theorem C68_false (newton : RootFinder) (s : DefaultGas.State) (g : ℝ) (sec : List ℝ) (a : Option ℝ) (gamma : ℝ)
    (npr : Option ℝ) (r sc : ℝ) (hgeo : ∃ geo, geometry sec a = .ok geo) (hne : g ≠ s.gamma) :
    let before := DefaultGas.set_gamma (DefaultGas.save_default s) g
    let after := (Nozzle.new newton before sec a gamma npr r sc).1
    (∃ t, DefaultGas.restore_default before = .ok t ∧ t.gamma = s.gamma) ∧
    (∃ t, DefaultGas.restore_default after = .ok t ∧ t.gamma = g ∧ t.gamma ≠ s.gamma) := by
  obtain ⟨geo, hgeo⟩ := hgeo
  refine ⟨⟨_, rfl, rfl⟩, ?_⟩
  unfold Nozzle.new
  rw [hgeo]
  simp only []
  cases initBody newton (DefaultGas.save_default (DefaultGas.set_gamma (DefaultGas.save_default s) g)).gamma gamma geo npr r sc with
  | error e => exact ⟨_, rfl, rfl, hne⟩
  | ok z => exact ⟨_, rfl, rfl, hne⟩

example : ∃ geo, geometry [2, 1, 3] none = .ok geo := by
  unfold geometry
  have h1 : last [2, 1, 3] = .ok 3 := rfl
  have h2 : npMin [2, 1, 3] = .ok 1 := by
    unfold npMin
    congr 1
    norm_num
  rw [h1, h2]
  simp only [Py.ok_bind]
  rw [Py.div_ok (by norm_num), Py.ok_bind]
  rw [mapM_of_forall (g := fun s => s * (3 / 1) / 3) (fun a _ => Py.div_ok (by norm_num)), Py.ok_bind]
  exact ⟨_, rfl⟩

/-! ### C69: profiles -/

/-- C69: geometry.  The area ratios are relative to the smallest section, the exit ratio is the last one, and
the throat is the first point of smallest section. -/
theorem C69_geometry (sec : List ℝ) (hpos : ∀ s ∈ sec, 0 < s) (newton : RootFinder) (gamma : ℝ) (z : Noz)
    (hz : Reachable newton sec none gamma z) :
    ∃ smin exit, (∀ s ∈ sec, smin ≤ s) ∧ sec[sec.length - 1]? = some exit ∧ z.geo.AsoAc = exit / smin ∧
      z.geo.AxoAc = sec.map (fun s => s / smin) ∧ sec[z.geo.ithroat]? = some smin ∧
      ∀ (j : ℕ) (s : ℝ), j < z.geo.ithroat → sec[j]? = some s → smin < s := by
  obtain ⟨_, e2, _⟩ := hz.spec
  obtain ⟨smin, ex, _, m2, hex, hA, hax, ⟨v, v1, _, v3⟩, hthr⟩ := geometry_spec hpos e2
  refine ⟨smin, ex, m2, hex, hA, hax, hthr, ?_⟩
  intro j s hj hs
  rw [hthr] at v1
  cases v1
  exact v3 j s hj hs

/-- C69: after `set_NPR`, whatever the section law, the profiles have the length of the section law, and
`Ps = Ptot / PtPs(Mach)` at every point (with the nozzle's gamma below `NPR0`, the default one above). -/
theorem C69_shape (newton : RootFinder) (dg n : ℝ) (z z' : Noz) (h : set_NPR newton dg z n = .ok z') :
    ∃ M Ps Pt, z'.Mach = .ok M ∧ z'.getPs = .ok Ps ∧ z'.Ptot = .ok Pt ∧
      M.length = z.geo.AxoAc.length ∧ Ps.length = z.geo.AxoAc.length ∧ Pt.length = z.geo.AxoAc.length ∧
      ∀ (i : ℕ) (p m q : ℝ), Pt[i]? = some p → M[i]? = some m → Ps[i]? = some q →
        ∃ r, PtPs_Mach m (if n < z.lim.NPR0 then z.gamma else gamma0) = .ok r ∧ q * r = p := by
  cases set_NPR_cases h with
  | sub Ms s0 M Ps hn h1 h2 h3 h4 hz =>
    have lM := h3.length_eq
    obtain ⟨l1, l2⟩ := staticP_spec (by rw [List.length_map]; exact lM) h4
    refine ⟨M, Ps, _, by rw [hz]; rfl, by rw [hz]; rfl, by rw [hz]; rfl, lM.symm, by rw [l1, lM], by rw [List.length_map], ?_⟩
    intro i p m q hp hm hq
    obtain ⟨r, a, b, c⟩ := l2 i p m q hp hm hq
    rw [if_pos hn]
    exact ⟨r, a, by rw [c]; field_simp⟩
  | shock M0 Ms pr Msh s ish tail Ps hn hn' h0 h1 h2 hne h3 h4 h5 h6 h7 hz =>
    obtain ⟨c1, c2, c3⟩ := choked_spec h0
    have lt := h6.length_eq
    have hish : ish < z.geo.AxoAc.length := by
      obtain ⟨v, hv, _⟩ := h4
      have := List.getElem?_eq_some_iff.1 hv
      obtain ⟨hh, _⟩ := this
      rw [List.length_map, c1] at hh; exact hh
    have lM : (M0.take ish ++ tail).length = z.geo.AxoAc.length := by
      rw [List.length_append, List.length_take, ← lt, List.length_drop]; omega
    have lP : ((z.geo.AxoAc.map fun _ => (1 : ℝ)).take ish ++
          ((z.geo.AxoAc.map fun _ => (1 : ℝ)).drop ish).map fun _ => pr / n).length = z.geo.AxoAc.length := by
      rw [List.length_append, List.length_take, List.length_map, List.length_map, List.length_drop, List.length_map]; omega
    obtain ⟨l1, l2⟩ := staticP_spec (by rw [lP, lM]) h7
    refine ⟨_, Ps, _, by rw [hz]; rfl, by rw [hz]; rfl, by rw [hz]; rfl, lM, by rw [l1, lM], lP, ?_⟩
    intro i p m q hp hm hq
    obtain ⟨r, a, b, c⟩ := l2 i p m q hp hm hq
    rw [if_neg (not_lt.2 hn)]
    exact ⟨r, a, by rw [c]; field_simp⟩
  | sup M0 Ps hn hn' h0 h1 hz =>
    obtain ⟨c1, c2, c3⟩ := choked_spec h0
    obtain ⟨l1, l2⟩ := staticP_spec (by rw [List.length_map, c1]) h1
    refine ⟨M0, Ps, _, by rw [hz]; rfl, by rw [hz]; rfl, by rw [hz]; rfl, c1, by rw [l1, c1], by rw [List.length_map], ?_⟩
    intro i p m q hp hm hq
    obtain ⟨r, a, b, c⟩ := l2 i p m q hp hm hq
    rw [if_neg (not_lt.2 hn)]
    exact ⟨r, a, by rw [c]; field_simp⟩

theorem inv_mul_ppt {m r γ q : ℝ} (hg : 1 < γ) (hr : PtPs_Mach m γ = .ok r) (hq : q * r = 1) : q = 1 / ppt m γ := by
  rw [PtPs_ppt hg] at hr
  have := Except.ok.inj hr
  rw [← this] at hq
  exact eq_one_div_of_mul_eq_one_left hq

/-- C69 (partial: default gamma), subsonic regime: the flow is subsonic everywhere, total pressure is uniform, every
point has the mass flow of the exit (`Sigma(M_i)/Sigma(M_exit)` is the ratio of sections), and the exit has the
requested pressure ratio. -/
theorem C69_subsonic_partial (newton : RootFinder) (hb : BranchRootFinder newton) (sec : List ℝ)
    (hpos : ∀ s ∈ sec, 0 < s) (dg n : ℝ) (z z' : Noz) (hz : Reachable newton sec none gamma0 z)
    (hA : 1 < z.geo.AsoAc) (hn : 1 < n) (h0 : n < z.lim.NPR0) (h : set_NPR newton dg z n = .ok z') :
    ∃ Ms M Ps Pt exit, z'.Mach = .ok M ∧ z'.getPs = .ok Ps ∧ z'.Ptot = .ok Pt ∧ sec[sec.length - 1]? = some exit ∧
      (∀ p ∈ Pt, p = 1) ∧ PtPs_Mach Ms gamma0 = .ok n ∧ M[sec.length - 1]? = some Ms ∧
      Ps[sec.length - 1]? = some (1 / n) ∧
      ∀ (i : ℕ) (s m : ℝ), sec[i]? = some s → M[i]? = some m → 0 < m ∧ m < 1 ∧
        ∃ si se, Sigma_Mach m gamma0 = .ok si ∧ Sigma_Mach Ms gamma0 = .ok se ∧ si * exit = se * s := by
  have hg := one_lt_gamma0
  obtain ⟨e1, e2, e3⟩ := hz.spec
  obtain ⟨smin, ex, m1, m2, hex, hAe, hax, hfm, hthr⟩ := geometry_spec hpos e2
  have hm0 := hpos smin m1
  have hex0 := hpos ex (List.mem_of_getElem? hex)
  have H := limits_spec hb hA e3
  obtain ⟨M, Ps, Pt, g1, g2, g3', l1, l2, l3, hps⟩ := C69_shape newton dg n z z' h
  cases set_NPR_cases h with
  | shock M0 Ms pr Msh s ish tail Ps hn hn' h0 h1 h2 hne h3 h4 h5 h6 h7 hz => linarith
  | sup M0 Ps hn hn' h0 h1 hz => linarith
  | sub Ms s0 M' Ps' hn' h1 h2 h3 h4 hz' =>
    have hM' : M' = M := by rw [hz'] at g1; exact Except.ok.inj g1
    have hPt : Pt = z.geo.AxoAc.map fun _ => (1 : ℝ) := by rw [hz'] at g3'; exact (Except.ok.inj g3').symm
    subst hM'
    rw [e1] at h1 h3
    have hMs := h1
    rw [Mach_PtPs_ok hg hn.le] at h1
    have hMs' := Except.ok.inj h1
    have hpp : ppt Ms gamma0 = n := by
      have ht : 1 ≤ n ^ ((gamma0 - 1) / gamma0) := Real.one_le_rpow hn.le (div_nonneg (by linarith) (by linarith))
      rw [← hMs']; unfold ppt
      rw [tt_sqrt hg ht, rpow_rpow_cancel' hg (by linarith)]
    have hMs0 : 0 < Ms := by
      rcases (hMs' ▸ Real.sqrt_nonneg _ : 0 ≤ Ms).eq_or_lt with h | h
      · rw [← h, ppt_zero] at hpp; linarith
      · exact h
    have hMslt : Ms < z.lim.Msub := by
      by_contra hc
      push Not at hc
      rw [← hpp, H.h0] at h0
      rcases hc.eq_or_lt with e | e
      · rw [e] at h0; exact lt_irrefl _ h0
      · have := ppt_lt hg H.sub0.le e; linarith
    have hMs1 : Ms < 1 := hMslt.trans H.sub1
    rw [Sigma_Mach_ok hg hMs0.ne'] at h2
    have hs0 := Except.ok.inj h2
    have hsA : z.geo.AsoAc < s0 := by
      rw [← hs0, ← H.hsub]
      exact sig_strictAnti hg ⟨hMs0, hMs1.le⟩ ⟨H.sub0, H.sub1.le⟩ hMslt
    have hpt : ∀ (i : ℕ) (s m : ℝ), sec[i]? = some s → M'[i]? = some m → 0 < m ∧ m < 1 ∧ sig m gamma0 = s / ex * s0 := by
      intro i s m hs hm
      have ha : z.geo.AxoAc[i]? = some (s / smin) := by rw [hax, List.getElem?_map, hs]; rfl
      have := forall₂_get? h3 ha hm
      rw [Py.div_ok (by linarith), Py.ok_bind] at this
      have hsge := m2 s (List.mem_of_getElem? hs)
      have hσ : 1 < s / smin / z.geo.AsoAc * s0 := by
        have h1 : 1 ≤ s / smin := by rw [one_le_div hm0]; exact hsge
        have h2 : 1 < s0 / z.geo.AsoAc := by rw [one_lt_div (by linarith)]; exact hsA
        calc (1:ℝ) < s0 / z.geo.AsoAc := h2
          _ ≤ s / smin * (s0 / z.geo.AsoAc) := le_mul_of_one_le_left (by linarith) h1
          _ = _ := by ring
      obtain ⟨a0, a1, a2⟩ := MachSub_branch hb hg g3 hσ.le this
      refine ⟨a0, sub_lt_one hg hσ a1 a2, ?_⟩
      rw [a2, hAe]; field_simp
    have hlast : ∃ m, M'[sec.length - 1]? = some m := by
      have : sec.length - 1 < M'.length := by
        rw [l1, hax, List.length_map]
        have := List.getElem?_eq_some_iff.1 hex
        exact this.1
      exact ⟨_, List.getElem?_eq_getElem this⟩
    obtain ⟨me, hme⟩ := hlast
    obtain ⟨q0, q1, q2⟩ := hpt _ _ _ hex hme
    have hmeq : me = Ms := by
      rw [div_self hex0.ne', one_mul, ← hs0] at q2
      exact (sig_strictAnti hg).injOn ⟨q0, q1.le⟩ ⟨hMs0, hMs1.le⟩ q2
    have hPsl : ∃ q, Ps[sec.length - 1]? = some q := by
      have : sec.length - 1 < Ps.length := by
        rw [l2, hax, List.length_map]
        exact (List.getElem?_eq_some_iff.1 hex).1
      exact ⟨_, List.getElem?_eq_getElem this⟩
    obtain ⟨q, hq⟩ := hPsl
    have hPtl : Pt[sec.length - 1]? = some 1 := by
      rw [hPt, hax, List.getElem?_map, List.getElem?_map, hex]; rfl
    obtain ⟨r, r1, r2⟩ := hps _ _ _ _ hPtl hme hq
    rw [if_pos hn', e1] at r1
    have hqv := inv_mul_ppt hg r1 r2
    refine ⟨Ms, M', Ps, Pt, ex, g1, g2, g3', hex, ?_, by rw [PtPs_ppt hg, hpp], by rw [hme, hmeq], ?_, ?_⟩
    · intro p hp
      rw [hPt] at hp
      simp at hp
      exact hp.2
    · rw [hq, hqv, hmeq, hpp]
    · intro i s m hs hm
      obtain ⟨a0, a1, a2⟩ := hpt i s m hs hm
      refine ⟨a0, a1, _, _, Sigma_Mach_ok hg a0.ne', Sigma_Mach_ok hg hMs0.ne', ?_⟩
      rw [a2, ← hs0]; field_simp

/-- C69 (partial: default gamma; and `set_NPR` must have returned, see `C69_false_shock_at_throat`),
shock in the diffuser: there is a shock index after which the total pressure is the loss computed from the exit Mach
number and the flow is subsonic with the mass flow of the throat; before it the flow is the choked isentropic one. The
exit Mach number is the one of `Ms_from_AsAc_NPR` and the exit static pressure is the requested one. -/
theorem C69_shock_partial (newton : RootFinder) (hb : BranchRootFinder newton) (sec : List ℝ)
    (hpos : ∀ s ∈ sec, 0 < s) (n : ℝ) (z z' : Noz) (hz : Reachable newton sec none gamma0 z)
    (hA : 1 < z.geo.AsoAc) (h0 : z.lim.NPR0 ≤ n) (h1 : n < z.lim.NPRsw) (h : set_NPR newton gamma0 z n = .ok z') :
    ∃ Ms M Ps Pt smin exit, ∃ (loss : ℝ) (ish : ℕ), z'.Mach = .ok M ∧ z'.getPs = .ok Ps ∧ z'.Ptot = .ok Pt ∧
      Ms_from_AsAc_NPR newton gamma0 z.geo.AsoAc n = .ok Ms ∧
      (∀ s ∈ sec, smin ≤ s) ∧ smin ∈ sec ∧ sec[sec.length - 1]? = some exit ∧ ish < sec.length ∧
      M[sec.length - 1]? = some Ms ∧ Ps[sec.length - 1]? = some (1 / n) ∧ 0 < loss ∧ loss ≤ 1 ∧
      (∀ (i : ℕ) (p : ℝ), Pt[i]? = some p → (i < ish → p = 1) ∧ (ish ≤ i → p = loss)) ∧
      ∀ (i : ℕ) (s m : ℝ), sec[i]? = some s → M[i]? = some m →
        (i < ish → Sigma_Mach m gamma0 = .ok (s / smin) ∧ (i ≤ z.geo.ithroat → m ≤ 1) ∧ (z.geo.ithroat < i → 1 ≤ m)) ∧
        (ish ≤ i → 0 < m ∧ m ≤ 1 ∧ Sigma_Mach m gamma0 = .ok (s / smin * loss)) := by
  have hg := one_lt_gamma0
  obtain ⟨e1, e2, e3⟩ := hz.spec
  obtain ⟨smin, ex, m1, m2, hex, hAe, hax, hfm, hthr⟩ := geometry_spec hpos e2
  have hm0 := hpos smin m1
  have hex0 := hpos ex (List.mem_of_getElem? hex)
  have hA0 : 0 < z.geo.AsoAc := by linarith
  have H := limits_spec hb hA e3
  obtain ⟨o1, o2, o3⟩ := H.ordered hg
  have hn0 : 0 < n := by linarith
  obtain ⟨M, Ps, Pt, g1, g2, g3', l1, l2, l3, hps⟩ := C69_shape newton gamma0 n z z' h
  cases set_NPR_cases h with
  | sub Ms s0 M' Ps' hn' h1 h2 h3 h4 hz' => linarith
  | sup M0 Ps hn hn' h0 h1 hz => linarith
  | shock M0 Ms pr Msh s ish tail Ps' hn hn' hc hMs h2 hne h3 h4 h5 h6 h7 hz' =>
    have hMM : M0.take ish ++ tail = M := by rw [hz'] at g1; exact Except.ok.inj g1
    have hPt := by rw [hz'] at g3'; exact (Except.ok.inj g3')
    obtain ⟨c1, c2, c3⟩ := choked_spec hc
    rw [e1] at c3
    obtain ⟨b1, b2, b3, b4, -, -, -⟩ := C66_mass_partial newton hb z.geo.AsoAc n Ms 0 0 z.lim hA e3 h0 h1.le hMs
    have hMsv : Ms = msd gamma0 z.geo.AsoAc n := by
      unfold Ms_from_AsAc_NPR at hMs
      rw [e3, Py.ok_bind, if_neg (not_lt.2 h0), if_neg (not_lt.2 h1.le), msd_ok hg hA0] at hMs
      exact (Except.ok.inj hMs).symm
    rw [PtPs_ppt hg] at h2
    have hpr := Except.ok.inj h2
    rw [Sigma_Mach_ok hg b4.ne'] at h5
    have hs := Except.ok.inj h5
    have hflux := msd_flux hg hA0 hn0
    rw [← hMsv] at hflux
    have hsp := sig_pos hg b4
    have hpp := ppt_pos (M := Ms) hg
    have hloss : s / z.geo.AsoAc = pr / n := by
      rw [← hpr, ← hs]
      field_simp at hflux ⊢
      linarith
    have hlossp : 0 < pr / n := by rw [← hpr]; positivity
    have hMs1 : Ms < 1 := lt_of_le_of_lt b2 b3
    have hish : ish < z.geo.AxoAc.length := by
      obtain ⟨v, hv, _⟩ := h4
      obtain ⟨hh, _⟩ := List.getElem?_eq_some_iff.1 hv
      rw [List.length_map, c1] at hh; exact hh
    have hlen : z.geo.AxoAc.length = sec.length := by rw [hax, List.length_map]
    have ltk : (M0.take ish).length = ish := by rw [List.length_take, c1]; omega
    have hpts : ∀ (i : ℕ) (p : ℝ), Pt[i]? = some p → (i < ish → p = 1) ∧ (ish ≤ i → p = pr / n) := by
      intro i p hp
      rw [← hPt] at hp
      have lP : ((z.geo.AxoAc.map fun _ => (1 : ℝ)).take ish).length = ish := by
        rw [List.length_take, List.length_map]; omega
      constructor
      · intro hi
        rw [List.getElem?_append_left (by rw [lP]; exact hi), List.getElem?_take_of_lt hi, List.getElem?_map] at hp
        cases ha : z.geo.AxoAc[i]? with
        | none => rw [ha] at hp; cases hp
        | some a => rw [ha] at hp; exact (Option.some.inj hp).symm
      · intro hi
        rw [List.getElem?_append_right (by rw [lP]; exact hi), List.getElem?_map] at hp
        cases ha : ((z.geo.AxoAc.map fun _ => (1 : ℝ)).drop ish)[i - ((z.geo.AxoAc.map fun _ => (1 : ℝ)).take ish).length]? with
        | none => rw [ha] at hp; cases hp
        | some a => rw [ha] at hp; exact (Option.some.inj hp).symm
    have hdown : ∀ (i : ℕ) (sc m : ℝ), sec[i]? = some sc → M[i]? = some m → ish ≤ i →
        ∃ σ, σ = sc / smin * (pr / n) ∧ MachSub_Sigma newton σ gamma0 = .ok m := by
      intro i sc m hsc hm hi
      rw [← hMM, List.getElem?_append_right (by rw [ltk]; exact hi), ltk] at hm
      have ha : (z.geo.AxoAc.drop ish)[i - ish]? = some (sc / smin) := by
        rw [List.getElem?_drop, show ish + (i - ish) = i by omega, hax, List.getElem?_map, hsc]; rfl
      have := forall₂_get? h6 ha hm
      rw [Py.div_ok hA0.ne', Py.ok_bind, mul_div_assoc, hloss] at this
      exact ⟨_, rfl, this⟩
    have hsub : ∀ (i : ℕ) (sc m : ℝ), sec[i]? = some sc → M[i]? = some m → ish ≤ i →
        0 < m ∧ m ≤ 1 ∧ sig m gamma0 = sc / smin * (pr / n) := by
      intro i sc m hsc hm hi
      obtain ⟨σ, hσ, hms⟩ := hdown i sc m hsc hm hi
      rw [← hσ]
      rcases lt_or_ge σ 1 with hlt | hge
      · -- the solver cannot even start: NaN guess
        exfalso
        have hσ0 : 0 < σ := by rw [hσ]; have := hpos sc (List.mem_of_getElem? hsc); positivity
        unfold MachSub_Sigma MachSub_sigma_init at hms
        simp only [l1_0] at hms
        rw [Py.div_ok hσ0.ne', Py.ok_bind, Py.div_ok, Py.ok_bind, Py.sqrt_err] at hms
        · cases hms
        · apply mul_neg_of_neg_of_pos
          · rw [sub_neg, lt_div_iff₀ hσ0]; linarith
          · rw [gamma0_eq]; norm_num
        · rw [gamma0_eq]; norm_num
      · exact MachSub_branch hb hg g3 hge hms
    have hgetM : ∃ m, M[sec.length - 1]? = some m := by
      have : sec.length - 1 < M.length := by rw [l1, hlen]; exact (List.getElem?_eq_some_iff.1 hex).1
      exact ⟨_, List.getElem?_eq_getElem this⟩
    obtain ⟨me, hme⟩ := hgetM
    have hile : ish ≤ sec.length - 1 := by omega
    obtain ⟨q0, q1, q2⟩ := hsub _ _ _ hex hme hile
    have hmeq : me = Ms := by
      rw [← hAe, ← hloss, mul_div_cancel₀ _ hA0.ne', ← hs] at q2
      exact (sig_strictAnti hg).injOn ⟨q0, q1⟩ ⟨b4, hMs1.le⟩ q2
    have hgetP : ∃ q, Ps[sec.length - 1]? = some q := by
      have : sec.length - 1 < Ps.length := by rw [l2, hlen]; exact (List.getElem?_eq_some_iff.1 hex).1
      exact ⟨_, List.getElem?_eq_getElem this⟩
    obtain ⟨q, hq⟩ := hgetP
    have hgetPt : ∃ p, Pt[sec.length - 1]? = some p := by
      have : sec.length - 1 < Pt.length := by rw [l3, hlen]; exact (List.getElem?_eq_some_iff.1 hex).1
      exact ⟨_, List.getElem?_eq_getElem this⟩
    obtain ⟨p, hp⟩ := hgetPt
    have hpv := (hpts _ _ hp).2 hile
    obtain ⟨r, r1, r2⟩ := hps _ _ _ _ hp hme hq
    rw [if_neg (not_lt.2 h0), PtPs_ppt hg] at r1
    have hr := Except.ok.inj r1
    refine ⟨Ms, M, Ps, Pt, smin, ex, pr / n, ish, g1, g2, g3', hMs, m2, m1, hex, by omega, by rw [hme, hmeq], ?_, hlossp, ?_,
      hpts, ?_⟩
    · rw [hq]
      congr 1
      rw [hpv, ← hr, hmeq, ← hpr] at r2
      field_simp at r2 ⊢
      linarith
    · -- loss ≤ 1: sig(Ms) ≤ sig(Msub) = A
      rw [← hloss, div_le_one hA0, ← hs, ← H.hsub]
      exact (sig_strictAnti hg).antitoneOn ⟨H.sub0, H.sub1.le⟩ ⟨b4, hMs1.le⟩ b1
    · intro i sc m hsc hm
      constructor
      · intro hi
        have ha : z.geo.AxoAc[i]? = some (sc / smin) := by rw [hax, List.getElem?_map, hsc]; rfl
        have hge : 1 ≤ sc / smin := by rw [one_le_div hm0]; exact m2 sc (List.mem_of_getElem? hsc)
        have hm' : M0[i]? = some m := by
          rw [← hMM, List.getElem?_append_left (by rw [ltk]; exact hi), List.getElem?_take_of_lt hi] at hm
          exact hm
        obtain ⟨k1, k2⟩ := c3 i _ m ha hm'
        rcases le_or_gt i z.geo.ithroat with hi | hi
        · obtain ⟨a0, a1, a2⟩ := MachSub_branch hb hg g3 hge (k1 hi)
          exact ⟨by rw [Sigma_Mach_ok hg a0.ne', a2], fun _ => a1, fun h => by omega⟩
        · obtain ⟨a1, a2⟩ := MachSup_branch hb hg g3 hge (k2 hi)
          exact ⟨by rw [Sigma_Mach_ok hg (by linarith), a2], fun h => by omega, fun _ => a1⟩
      · intro hi
        obtain ⟨a0, a1, a2⟩ := hsub i sc m hsc hm hi
        exact ⟨a0, a1, by rw [Sigma_Mach_ok hg a0.ne', a2]⟩

/-- C69, supersonic regime (NPR at least the shock-at-exit one): total pressure is 1 everywhere (the Mach number
profile is given by `C67_choked_profile_partial`). -/
theorem C69_supersonic_total_pressure (newton : RootFinder) (dg n : ℝ) (z z' : Noz)
    (h0 : z.lim.NPR0 ≤ n) (h1 : z.lim.NPRsw ≤ n) (h : set_NPR newton dg z n = .ok z') :
    ∃ Pt, z'.Ptot = .ok Pt ∧ ∀ p ∈ Pt, p = 1 := by
  cases set_NPR_cases h with
  | sub Ms s0 M Ps hn _ _ _ _ _ => linarith
  | shock M0 Ms pr Msh s ish tail Ps hn hn' _ _ _ _ _ _ _ _ _ _ => linarith
  | sup M0 Ps hn hn' hc _ hz' =>
    refine ⟨_, by rw [hz']; rfl, ?_⟩
    intro p hp
    simp at hp
    exact hp.2

/-- C69 is false for a convergent nozzle (throat at the exit): no choked flow can be computed, `set_NPR` raises for
every pressure ratio from `NPR0` on. -/
theorem C69_false_convergent (newton : RootFinder) (dg n : ℝ) (z : Noz) (hthr : z.geo.ithroat + 1 = z.geo.AxoAc.length)
    (h0 : z.lim.NPR0 ≤ n) : ∀ z', set_NPR newton dg z n ≠ .ok z' := by
  intro z' h
  cases set_NPR_cases h with
  | sub Ms s0 M Ps hn _ _ _ _ _ => linarith
  | shock M0 Ms pr Msh s ish tail Ps hn hn' hc _ _ _ _ _ _ _ _ _ => have := (choked_spec hc).2.1; omega
  | sup M0 Ps hn hn' hc _ hz' => have := (choked_spec hc).2.1; omega

/-- C69 is false when the shock stands near the throat: if the point whose Mach number is closest to the shock Mach
number is the throat (or any point where the area ratio is below 1/loss), `set_NPR` cannot return a profile. -/
theorem C69_false_shock_at_throat (newton : RootFinder) (hb : BranchRootFinder newton) (sec : List ℝ)
    (hpos : ∀ s ∈ sec, 0 < s) (n : ℝ) (z : Noz) (hz : Reachable newton sec none gamma0 z)
    (hA : 1 < z.geo.AsoAc) (h0 : z.lim.NPR0 < n) (h1 : n < z.lim.NPRsw) (M0 : List ℝ) (hM0 : choked_M newton z = .ok M0)
    (Ms pr Msh : ℝ) (hMs : Ms_from_AsAc_NPR newton gamma0 z.geo.AsoAc n = .ok Ms) (hpr : PtPs_Mach Ms gamma0 = .ok pr)
    (hMsh : Mn_Pi_ratio (pr / n) gamma0 = .ok Msh) (hcl : FirstMin (M0.map fun m => |m - Msh|) z.geo.ithroat) :
    ∀ z', set_NPR newton gamma0 z n ≠ .ok z' := by
  intro z' h
  have hg := one_lt_gamma0
  obtain ⟨e1, e2, e3⟩ := hz.spec
  obtain ⟨smin, ex, m1, m2, hex, hAe, hax, hfm, hthr⟩ := geometry_spec hpos e2
  have hm0 := hpos smin m1
  have H := limits_spec hb hA e3
  have hA0 : 0 < z.geo.AsoAc := by linarith
  obtain ⟨o1, o2, o3⟩ := H.ordered hg
  have hn0 : 0 < n := by linarith
  cases set_NPR_cases h with
  | sub Ms s0 M' Ps' hn' h1 h2 h3 h4 hz' => linarith
  | sup M0 Ps hn hn' h0 h1 hz => linarith
  | shock M0' Ms' pr' Msh' s ish tail Ps' hn hn' hc hMs' h2 hne h3 h4 h5 h6 h7 hz' =>
    rw [hM0] at hc; cases hc
    rw [hMs] at hMs'; cases hMs'
    rw [hpr] at h2; cases h2
    rw [hMsh] at h3; cases h3
    have := firstMin_unique h4 hcl
    subst this
    obtain ⟨b1, b2, b3, b4, b5, -, -⟩ := C66_mass_partial newton hb z.geo.AsoAc n Ms 0 0 z.lim hA e3 h0.le h1.le hMs
    rw [Sigma_Mach_ok hg b4.ne'] at h5
    have hs := Except.ok.inj h5
    have hMsv : Ms = msd gamma0 z.geo.AsoAc n := by
      unfold Ms_from_AsAc_NPR at hMs
      rw [e3, Py.ok_bind, if_neg (not_lt.2 h0.le), if_neg (not_lt.2 h1.le), msd_ok hg hA0] at hMs
      exact (Except.ok.inj hMs).symm
    have hlt : z.lim.Msub < Ms := by
      rw [hMsv, ← msd_eq hg H.sub0 (H.NPR0_eq hg)]
      exact msd_lt hg hA0 (by linarith) h0
    have hsA : s < z.geo.AsoAc := by
      rw [← hs, ← H.hsub]
      exact sig_strictAnti hg ⟨H.sub0, H.sub1.le⟩ ⟨b4, (lt_of_le_of_lt b2 b3).le⟩ hlt
    have hs0 : 0 < s := by rw [← hs]; exact sig_pos hg b4
    -- the throat point
    have hlen : z.geo.ithroat < z.geo.AxoAc.length := by
      rw [hax, List.length_map]; exact (List.getElem?_eq_some_iff.1 hthr).1
    have ha : (z.geo.AxoAc.drop z.geo.ithroat)[0]? = some 1 := by
      rw [List.getElem?_drop, add_zero, hax, List.getElem?_map, hthr]
      simp [div_self hm0.ne']
    have htl : ∃ m, tail[0]? = some m := by
      have : 0 < tail.length := by rw [← h6.length_eq, List.length_drop]; omega
      exact ⟨_, List.getElem?_eq_getElem this⟩
    obtain ⟨m, hm⟩ := htl
    have := forall₂_get? h6 ha hm
    rw [Py.div_ok hA0.ne', Py.ok_bind, one_mul] at this
    have hσ0 : 0 < s / z.geo.AsoAc := by positivity
    have hσ1 : s / z.geo.AsoAc < 1 := by rw [div_lt_one hA0]; exact hsA
    unfold MachSub_Sigma MachSub_sigma_init at this
    simp only [l1_0] at this
    rw [Py.div_ok hσ0.ne', Py.ok_bind, Py.div_ok, Py.ok_bind, Py.sqrt_err] at this
    · cases this
    · apply mul_neg_of_neg_of_pos
      · rw [sub_neg, lt_div_iff₀ hσ0]; linarith
      · rw [gamma0_eq]; norm_num
    · rw [gamma0_eq]; norm_num

end Aerokit.Props
