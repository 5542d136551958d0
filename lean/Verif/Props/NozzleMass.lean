import Verif.Props.NozzleWitness
import Verif.Props.MassFlow

/-! # Property C121 : mass flow through the nozzle, choking (`nozzle.set_NPR`) -/

namespace Aerokit.Props
open Isentropic MassFlow ShockWave Nozzle Spec ListPy
open DefaultGas (gamma0)

theorem Mach_pos_of_Sigma {m v γ : ℝ} (hg : 1 < γ) (hv : 0 < v) (h : Sigma_Mach m γ = .ok v) : 0 < m ∧ sig m γ = v := by
  have hm : m ≠ 0 := by
    rintro rfl
    have h1 : γ + 1 ≠ 0 := by linarith
    have h2 : γ - 1 ≠ 0 := by linarith
    have hb : 0 < 2 / (γ + 1) * (1 + 1 / 2 * (γ - 1) * (0:ℝ) ^ 2) := by
      have : 0 < γ + 1 := by linarith
      simp; positivity
    unfold Sigma_Mach at h
    norm_num only at h
    rw [Py.div_ok h1, Py.ok_bind, Py.div_ok h2, Py.ok_bind, Py.pow_ok _ (by convert hb using 2; ring), Py.ok_bind, Py.div_err] at h
    cases h
  have h' := h
  rw [Sigma_Mach_ok hg hm] at h'
  have he := Except.ok.inj h'
  refine ⟨?_, he⟩
  rcases lt_or_gt_of_ne hm with hn | hp
  · exfalso
    rw [← he] at hv
    unfold sig at hv
    have : (0:ℝ) < (2 / (γ + 1) * tt m γ) ^ ((γ + 1) / (2 * (γ - 1))) := by
      have : 0 < γ + 1 := by linarith
      have := tt_pos (M := m) hg
      positivity
    have := div_neg_of_pos_of_neg this hn
    linarith
  · exact hp

/-- mass flow of a point in terms of its area ratio to a sonic section -/
theorem massflow_of_sigma {m v γ r : ℝ} (hg : 1 < γ) (hv : 0 < v) (h : Sigma_Mach m γ = .ok v) :
    ∃ w w1, WeightMassFlow m r γ = .ok w ∧ WeightMassFlow 1 r γ = .ok w1 ∧ 0 < w ∧ 0 < w1 ∧ v * w = w1 := by
  obtain ⟨hm, _⟩ := Mach_pos_of_Sigma hg hv h
  obtain ⟨w1, w, a, b, c, d, e⟩ := C05_sigma_is_massflow_ratio m r r γ hg hm
  rw [h] at e
  have := Except.ok.inj e
  exact ⟨w, w1, b, a, d, c, by rw [this]; field_simp⟩

/-- C121 (choked): whatever the pressure ratio from `NPR0` on (shock in the diffuser or not), the mass flow
`section · total pressure · WeightMassFlow(Mach)` is the same at every point of the computed profile, and it is the one of a
sonic flow through the smallest section with the inlet total pressure. -/
theorem C121_choked (newton : RootFinder) (hb : BranchRootFinder newton) (sec : List ℝ) (hpos : ∀ s ∈ sec, 0 < s) (n r : ℝ)
    (z z' : Noz) (hz : Reachable newton sec none gamma0 z) (hA : 1 < z.geo.AsoAc) (h0 : z.lim.NPR0 ≤ n)
    (h : set_NPR newton gamma0 z n = .ok z') :
    ∃ M Pt smin w1, z'.Mach = .ok M ∧ z'.Ptot = .ok Pt ∧ M.length = sec.length ∧ Pt.length = sec.length ∧
      smin ∈ sec ∧ (∀ s ∈ sec, smin ≤ s) ∧ WeightMassFlow 1 r gamma0 = .ok w1 ∧ 0 < w1 ∧
      ∀ (i : ℕ) (s p m : ℝ), sec[i]? = some s → Pt[i]? = some p → M[i]? = some m →
        ∃ w, WeightMassFlow m r gamma0 = .ok w ∧ s * p * w = smin * w1 := by
  have hg := one_lt_gamma0
  obtain ⟨M0, Ps0, Pt0, s1, s2, s3, l1, l2, l3, -⟩ := C69_shape newton gamma0 n z z' h
  have hlen : z.geo.AxoAc.length = sec.length := by
    obtain ⟨_, e2, _⟩ := hz.spec
    obtain ⟨smin, ex, _, _, _, _, hax, _, _⟩ := geometry_spec hpos e2
    rw [hax, List.length_map]
  obtain ⟨w1, w1', a, b, c, d, -⟩ := C05_sigma_is_massflow_ratio 1 r r gamma0 hg one_pos
  rcases lt_or_ge n z.lim.NPRsw with h1 | h1
  · obtain ⟨Ms, M, Ps, Pt, smin, ex, loss, ish, k1, k2, k3, k4, k5, k6, k7, k8, k9, k10, k11, k12, k13, k14⟩ :=
      C69_shock_partial newton hb sec hpos n z z' hz hA h0 h1 h
    have hM : M0 = M := Except.ok.inj (s1.symm.trans k1)
    have hP : Pt0 = Pt := Except.ok.inj (s3.symm.trans k3)
    refine ⟨M, Pt, smin, w1, k1, k3, by rw [← hM, l1, hlen], by rw [← hP, l3, hlen], k6, k5, a, c, ?_⟩
    intro i s p m hs hp hm
    obtain ⟨q1, q2⟩ := k14 i s m hs hm
    obtain ⟨p1, p2⟩ := k13 i p hp
    have hs0 := hpos s (List.mem_of_getElem? hs)
    have hm0 := hpos smin k6
    rcases lt_or_ge i ish with hi | hi
    · obtain ⟨w, w1'', e1, e2, e3, e4, e5⟩ := massflow_of_sigma (r := r) hg (div_pos hs0 hm0) (q1 hi).1
      rw [a] at e2
      have := Except.ok.inj e2
      refine ⟨w, e1, ?_⟩
      rw [p1 hi, this, ← e5]; field_simp
    · obtain ⟨_, _, q3⟩ := q2 hi
      obtain ⟨w, w1'', e1, e2, e3, e4, e5⟩ := massflow_of_sigma (r := r) hg (mul_pos (div_pos hs0 hm0) k11) q3
      rw [a] at e2
      have := Except.ok.inj e2
      refine ⟨w, e1, ?_⟩
      rw [p2 hi, this, ← e5]; field_simp
  · obtain ⟨M, smin, k1, k2, k3, k4⟩ := C67_choked_profile_partial newton hb sec hpos gamma0 gamma0 n hg g3 z z' hz h0 h1 h
    obtain ⟨Pt, j1, j2⟩ := C69_supersonic_total_pressure newton gamma0 n z z' h0 h1 h
    have hM : M0 = M := Except.ok.inj (s1.symm.trans k1)
    have hP : Pt0 = Pt := Except.ok.inj (s3.symm.trans j1)
    refine ⟨M, Pt, smin, w1, k1, j1, by rw [← hM, l1, hlen], by rw [← hP, l3, hlen], k2, k3, a, c, ?_⟩
    intro i s p m hs hp hm
    have hs0 := hpos s (List.mem_of_getElem? hs)
    have hm0 := hpos smin k2
    obtain ⟨w, w1'', e1, e2, e3, e4, e5⟩ := massflow_of_sigma (r := r) hg (div_pos hs0 hm0) (k4 i s m hs hm).1
    rw [a] at e2
    have := Except.ok.inj e2
    refine ⟨w, e1, ?_⟩
    rw [j2 p (List.mem_of_getElem? hp), this, ← e5]; field_simp

/-- C121 (not choked): below `NPR0` the mass flow is also the same at every point, but it is smaller than the one of the sonic
flow through the smallest section. -/
theorem C121_unchoked (newton : RootFinder) (hb : BranchRootFinder newton) (sec : List ℝ) (hpos : ∀ s ∈ sec, 0 < s) (dg n r : ℝ)
    (z z' : Noz) (hz : Reachable newton sec none gamma0 z) (hA : 1 < z.geo.AsoAc) (hn : 1 < n) (h0 : n < z.lim.NPR0)
    (h : set_NPR newton dg z n = .ok z') :
    ∃ M Pt smin exit Ms w1 we, z'.Mach = .ok M ∧ z'.Ptot = .ok Pt ∧ M.length = sec.length ∧ Pt.length = sec.length ∧
      smin ∈ sec ∧ (∀ s ∈ sec, smin ≤ s) ∧ sec[sec.length - 1]? = some exit ∧ PtPs_Mach Ms gamma0 = .ok n ∧ 0 < Ms ∧ Ms < 1 ∧
      WeightMassFlow 1 r gamma0 = .ok w1 ∧ WeightMassFlow Ms r gamma0 = .ok we ∧ 0 < we ∧
      exit * we < smin * w1 ∧
      ∀ (i : ℕ) (s p m : ℝ), sec[i]? = some s → Pt[i]? = some p → M[i]? = some m →
        ∃ w, WeightMassFlow m r gamma0 = .ok w ∧ s * p * w = exit * we := by
  have hg := one_lt_gamma0
  obtain ⟨M0, Ps0, Pt0, s1, s2, s3, l1, l2, l3, -⟩ := C69_shape newton dg n z z' h
  obtain ⟨e1, e2, e3⟩ := hz.spec
  obtain ⟨smin, ex', m1, m2, hex, hAe, hax, hfm, hthr⟩ := geometry_spec hpos e2
  have hlen : z.geo.AxoAc.length = sec.length := by rw [hax, List.length_map]
  obtain ⟨Ms, M, Ps, Pt, ex, k1, k2, k3, k4, k5, k6, k7, k8, k9⟩ := C69_subsonic_partial newton hb sec hpos dg n z z' hz hA hn h0 h
  have hM : M0 = M := Except.ok.inj (s1.symm.trans k1)
  have hP : Pt0 = Pt := Except.ok.inj (s3.symm.trans k3)
  have hxe : ex' = ex := Option.some.inj (hex.symm.trans k4)
  subst hxe
  obtain ⟨hMs0, hMs1, se', se, hse', hse, -⟩ := k9 _ _ _ k4 k7
  have hm0 := hpos smin m1
  have hex0 := hpos ex' (List.mem_of_getElem? hex)
  have hsep : 0 < se := by
    rw [Sigma_Mach_ok hg hMs0.ne'] at hse; rw [← Except.ok.inj hse]; exact sig_pos hg hMs0
  obtain ⟨we, w1, a1, a2, a3, a4, a5⟩ := massflow_of_sigma (r := r) hg hsep hse
  have pt : ∀ (i : ℕ) (s m : ℝ), sec[i]? = some s → M[i]? = some m → ∃ si w, 1 < si ∧ si * ex' = se * s ∧
      WeightMassFlow m r gamma0 = .ok w ∧ si * w = w1 := by
    intro i s m hs hm
    obtain ⟨q0, q1, si, se2, f1, f2, f3⟩ := k9 i s m hs hm
    have : se2 = se := Except.ok.inj (f2.symm.trans hse)
    subst this
    have hsi : 1 < si := by
      rw [Sigma_Mach_ok hg q0.ne'] at f1; rw [← Except.ok.inj f1, ← sig_one hg]
      exact sig_strictAnti hg ⟨q0, q1.le⟩ ⟨one_pos, le_rfl⟩ q1
    obtain ⟨w, w1', b1, b2, b3, b4, b5⟩ := massflow_of_sigma (r := r) hg (by linarith) f1
    rw [a2] at b2
    exact ⟨si, w, hsi, f3, b1, by rw [b5, Except.ok.inj b2]⟩
  refine ⟨M, Pt, smin, ex', Ms, w1, we, k1, k3, by rw [← hM, l1, hlen], by rw [← hP, l3, hlen], m1, m2, hex, k6, hMs0, hMs1, a2, a1,
    a3, ?_, ?_⟩
  · have hit := (List.getElem?_eq_some_iff.1 hthr).1
    have hlM : M.length = sec.length := by rw [← hM, l1, hlen]
    have hMt : M[z.geo.ithroat]? = some M[z.geo.ithroat] := List.getElem?_eq_getElem (by rw [hlM]; exact hit)
    obtain ⟨si, w, g1, g2, g3, g4⟩ := pt _ _ _ hthr hMt
    rw [← a5]
    -- se smin = si ex > ex
    have : ex' < se * smin := by rw [← g2]; nlinarith
    nlinarith
  · intro i s p m hs hp hm
    obtain ⟨si, w, g1, g2, g3, g4⟩ := pt i s m hs hm
    refine ⟨w, g3, ?_⟩
    rw [k5 p (List.mem_of_getElem? hp), mul_one]
    have hsi : si ≠ 0 := by linarith
    apply mul_left_cancel₀ (mul_ne_zero hsi hsep.ne')
    have e := a5
    rw [← g4] at e
    linear_combination (-(si * w * 1)) * g2 + (-(ex' * si)) * e

/-- C121: the mass flow is a nondecreasing function of the pressure ratio: it increases strictly as long as the throat is not
sonic, and no longer depends on the pressure ratio afterwards (choking). -/
theorem C121_choking (newton : RootFinder) (hb : BranchRootFinder newton) (sec : List ℝ) (hpos : ∀ s ∈ sec, 0 < s) (n n' r : ℝ)
    (z z1 z2 : Noz) (hz : Reachable newton sec none gamma0 z) (hA : 1 < z.geo.AsoAc) (hn : 1 < n) (hnn : n < n')
    (h1 : set_NPR newton gamma0 z n = .ok z1) (h2 : set_NPR newton gamma0 z n' = .ok z2) :
    ∃ M1 P1 M2 P2 : List ℝ, z1.Mach = .ok M1 ∧ z1.Ptot = .ok P1 ∧ z2.Mach = .ok M2 ∧ z2.Ptot = .ok P2 ∧
      ∀ (i j : ℕ) (s s' m p m' p' : ℝ), sec[i]? = some s → sec[j]? = some s' → M1[i]? = some m → P1[i]? = some p →
        M2[j]? = some m' → P2[j]? = some p' →
        ∃ w w', WeightMassFlow m r gamma0 = .ok w ∧ WeightMassFlow m' r gamma0 = .ok w' ∧
          (n < z.lim.NPR0 → s * p * w < s' * p' * w') ∧ (z.lim.NPR0 ≤ n → s * p * w = s' * p' * w') := by
  have hg := one_lt_gamma0
  rcases lt_or_ge n z.lim.NPR0 with c1 | c1
  · obtain ⟨M1, P1, smin, ex, Ms, w1, we, a1, a2, a3, a4, a5, a6, a7, a8, a9, a10, a11, a12, a13, a14, a15⟩ :=
      C121_unchoked newton hb sec hpos gamma0 n r z z1 hz hA hn c1 h1
    rcases lt_or_ge n' z.lim.NPR0 with c2 | c2
    · obtain ⟨M2, P2, smin', ex', Ms', w1', we', b1, b2, b3, b4, b5, b6, b7, b8, b9, b10, b11, b12, b13, b14, b15⟩ :=
        C121_unchoked newton hb sec hpos gamma0 n' r z z2 hz hA (by linarith) c2 h2
      refine ⟨M1, P1, M2, P2, a1, a2, b1, b2, ?_⟩
      intro i j s s' m p m' p' hs hs' hm hp hm' hp'
      obtain ⟨w, e1, e2⟩ := a15 i s p m hs hp hm
      obtain ⟨w', f1, f2⟩ := b15 j s' p' m' hs' hp' hm'
      refine ⟨w, w', e1, f1, fun _ => ?_, fun h => absurd h (not_le.2 c1)⟩
      rw [e2, f2]
      have hxe : ex' = ex := Option.some.inj (b7.symm.trans a7)
      subst hxe
      have hx0 := hpos ex' (List.mem_of_getElem? b7)
      rw [PtPs_ppt hg] at a8 b8
      have hlt : Ms < Ms' := by
        by_contra hc
        push Not at hc
        have := Except.ok.inj a8
        have := Except.ok.inj b8
        rcases hc.eq_or_lt with e | e
        · rw [e] at this; linarith
        · have := ppt_lt hg b9.le e; linarith
      have hsl := sig_strictAnti hg ⟨a9, a10.le⟩ ⟨b9, b10.le⟩ hlt
      obtain ⟨v, v1, g1, g2, g3, g4, g5⟩ := massflow_of_sigma (r := r) hg (sig_pos hg a9) (Sigma_Mach_ok hg a9.ne')
      obtain ⟨v', v1', k1, k2, k3, k4, k5⟩ := massflow_of_sigma (r := r) hg (sig_pos hg b9) (Sigma_Mach_ok hg b9.ne')
      have e1 : v1 = v1' := Except.ok.inj (g2.symm.trans k2)
      have e2 : v = we := Except.ok.inj (g1.symm.trans a12)
      have e3 : v' = we' := Except.ok.inj (k1.symm.trans b12)
      subst e1 e2 e3
      have hsl' : sig Ms' gamma0 < sig Ms gamma0 := hsl
      have : v < v' := by
        by_contra hc
        push Not at hc
        have : sig Ms' gamma0 * v' < sig Ms gamma0 * v :=
          mul_lt_mul hsl' hc k3 (sig_pos hg a9).le
        linarith
      exact mul_lt_mul_of_pos_left this hx0
    · obtain ⟨M2, P2, smin', w1', b1, b2, b3, b4, b5, b6, b7, b8, b9⟩ := C121_choked newton hb sec hpos n' r z z2 hz hA c2 h2
      refine ⟨M1, P1, M2, P2, a1, a2, b1, b2, ?_⟩
      intro i j s s' m p m' p' hs hs' hm hp hm' hp'
      obtain ⟨w, e1, e2⟩ := a15 i s p m hs hp hm
      obtain ⟨w', f1, f2⟩ := b9 j s' p' m' hs' hp' hm'
      refine ⟨w, w', e1, f1, fun _ => ?_, fun h => absurd h (not_le.2 c1)⟩
      rw [e2, f2]
      have : smin = smin' := le_antisymm (a6 _ b5) (b6 _ a5)
      subst this
      have : w1 = w1' := Except.ok.inj (a11.symm.trans b7)
      subst this
      exact a14
  · obtain ⟨M1, P1, smin, w1, a1, a2, a3, a4, a5, a6, a7, a8, a9⟩ := C121_choked newton hb sec hpos n r z z1 hz hA c1 h1
    obtain ⟨M2, P2, smin', w1', b1, b2, b3, b4, b5, b6, b7, b8, b9⟩ :=
      C121_choked newton hb sec hpos n' r z z2 hz hA (by linarith) h2
    refine ⟨M1, P1, M2, P2, a1, a2, b1, b2, ?_⟩
    intro i j s s' m p m' p' hs hs' hm hp hm' hp'
    obtain ⟨w, e1, e2⟩ := a9 i s p m hs hp hm
    obtain ⟨w', f1, f2⟩ := b9 j s' p' m' hs' hp' hm'
    refine ⟨w, w', e1, f1, fun h => absurd c1 (not_le.2 h), fun _ => ?_⟩
    rw [e2, f2]
    have : smin = smin' := le_antisymm (a6 _ b5) (b6 _ a5)
    have : w1 = w1' := Except.ok.inj (a7.symm.trans b7)
    subst_vars
    rfl

/-- the hypotheses are met: the nozzle `[A, 1, A]` run below `NPR0` and at `NPRsw` -/
example : ∃ (nf : RootFinder) (sec : List ℝ) (z z1 z2 : Noz) (n n' : ℝ), BranchRootFinder nf ∧ (∀ s ∈ sec, 0 < s) ∧
    Reachable nf sec none gamma0 z ∧ 1 < z.geo.AsoAc ∧ 1 < n ∧ n < z.lim.NPR0 ∧ z.lim.NPR0 ≤ n' ∧
    set_NPR nf gamma0 z n = .ok z1 ∧ set_NPR nf gamma0 z n' = .ok z2 := by
  obtain ⟨nf, sec, z, z', z'', n, h1, h2, h3, h4, h5, h6, h7, h8, h9⟩ := nozzle_runs
  exact ⟨nf, sec, z, z', z'', n, _, h1, h2, h3, h4, h5, h6, h8, h7, h9⟩

end Aerokit.Props
