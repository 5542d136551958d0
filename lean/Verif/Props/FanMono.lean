import Verif.Props.EngineMono
import Verif.Props.FanSplit

/-! # Property C157 : effect of the component efficiencies and of the turbine entry temperature on the turbofan -/

namespace Aerokit.Props
open GasGenerator Spec.Engine FanSplit

/-- an engine that is not worse runs if it has enough fuel, and its gas generator delivers not less -/
private theorem fm_core {s s' : Params} {f : Flight} (F : Feasible s f) (hO : 1 ≤ s.OPR) (hn : NotWorse s s')
    (hfuel : cp s.gam_hot s.r_hot * s'.Tt4 < s.xi_cc * s.Pci) :
    Feasible s' f ∧ ∀ g g', compute s f = .ok g → compute s' f = .ok g' →
      g.far ≤ g'.far ∧ g.Tt45 ≤ g'.Tt45 ∧ g.Pt45 ≤ g'.Pt45 ∧ (s.Tt4 < s'.Tt4 → g.far < g'.far ∧ g.Tt45 < g'.Tt45) ∧
      g'.V0 = g.V0 ∧ g'.Tt2 = g.Tt2 ∧ g.Pt2 ≤ g'.Pt2 ∧ g.Tt45 / s.Tt4 ≤ g'.Tt45 / s'.Tt4 ∧ (s'.xi_inlet = s.xi_inlet → g'.Pt4 = g.Pt4) := by
  have ht3 := tt3_anti F hn hO
  have ht3g := tt3_ge F hO
  have ht := Isentropic.tt_pos (M := f.M0) F.gc
  have c1 := cp_pos F.gc F.rc
  have c2 := cp_pos F.gh F.rh
  have key0 : f.T0 * Isentropic.tt f.M0 s.gam_cold ≤ tt3 s' f := by
    have h1 : 0 < s'.etapolCHP := lt_of_lt_of_le F.etaC hn.etaC
    have h2 : 0 < s.gam_cold := by linarith [F.gc]
    have hT := F.T0
    unfold tt3
    rw [hn.gc, hn.OPR]
    apply le_mul_of_one_le_right (by positivity)
    exact Real.one_le_rpow hO (div_nonneg (by linarith [F.gc]) (by positivity))
  obtain ⟨k1, k2, k3, k4, k5, k6⟩ := turbine_mono (K := s.xi_cc * s.Pci) (b := cp s.gam_hot s.r_hot)
    (η := s.eta_shaft) (η' := s'.eta_shaft) (T := s.Tt4) (T' := s'.Tt4)
    (x := cp s.gam_cold s.r_cold * tt3 s f) (x' := cp s.gam_cold s.r_cold * tt3 s' f)
    (Q := cp s.gam_cold s.r_cold * (tt3 s f - f.T0 * Isentropic.tt f.M0 s.gam_cold))
    (Q' := cp s.gam_cold s.r_cold * (tt3 s' f - f.T0 * Isentropic.tt f.M0 s.gam_cold))
    c2 F.Tt4 hn.Tt4 rfl rfl hfuel (mul_le_mul_of_nonneg_left ht3 c1.le) F.air (mul_nonneg c1.le (by linarith))
    (mul_le_mul_of_nonneg_left (by linarith) c1.le) F.shaft hn.shaft F.turbine
  have F' : Feasible s' f := by
    refine ⟨by rw [hn.gc]; exact F.gc, by rw [hn.gh]; exact F.gh, by rw [hn.rc]; exact F.rc, by rw [hn.rh]; exact F.rh, F.T0, F.P0,
      by rw [hn.OPR]; exact F.OPR, lt_of_lt_of_le F.etaC hn.etaC, lt_of_lt_of_le F.etaT hn.etaT, lt_of_lt_of_le F.shaft hn.shaft,
      lt_of_lt_of_le F.Tt4 hn.Tt4, lt_of_lt_of_le F.xi hn.inlet, by rw [hn.xicc]; exact F.xicc, ?_, ?_, ?_⟩
    · rw [hn.gh, hn.rh, hn.xicc, hn.Pci]; exact hfuel
    · rw [hn.gc, hn.rc, hn.xicc, hn.Pci]
      exact lt_of_le_of_lt (mul_le_mul_of_nonneg_left ht3 c1.le) F.air
    · rw [hn.gc, hn.rc, hn.gh, hn.rh, hn.xicc, hn.Pci]; exact k6
  refine ⟨F', ?_⟩
  intro g g' hg hg'
  obtain ⟨_, hz, p1, -, p2, -, p3⟩ := compute_ok F
  rw [hg] at hz; rw [← Except.ok.inj hz] at p1 p2 p3
  obtain ⟨_, hz', p1', -, p2', -, p3'⟩ := compute_ok F'
  rw [hg'] at hz'; rw [← Except.ok.inj hz'] at p1' p2' p3'
  -- the comparison of the turbojets with these gas generators
  obtain ⟨a, G, j, t, a', G', j', t', h1, h2, -, h4, h5, -, i1, i2, i3, -, -, i4⟩ :=
    C122_components ⟨s, 1, none, none⟩ ⟨s', 1, none, none⟩ f F hO hn zero_le_one le_rfl hfuel
  have eG : G = g := by
    obtain ⟨G0, J0, hu, hG0, -⟩ := tj_update_ok ⟨s, 1, none, none⟩ f F
    rw [hu] at h1
    have h1 := Except.ok.inj h1
    rw [← h1] at h2
    have h2 := Option.some.inj h2
    have : G0 = G := congrArg Prod.fst h2
    rw [← this]
    exact Except.ok.inj (hG0.symm.trans hg)
  have eG' : G' = g' := by
    obtain ⟨G0, J0, hu, hG0, -⟩ := tj_update_ok ⟨s', 1, none, none⟩ f F'
    rw [hu] at h4
    have h4 := Except.ok.inj h4
    rw [← h4] at h5
    have h5 := Option.some.inj h5
    have : G0 = G' := congrArg Prod.fst h5
    rw [← this]
    exact Except.ok.inj (hG0.symm.trans hg')
  subst eG eG'
  obtain ⟨-, -, -, -, -, -, -, -, a1, ⟨q, a2, a3⟩, a4, a5, a6, a7, a8, a9, a10, a11, a12⟩ := compute_inv hg
  obtain ⟨-, -, -, -, -, -, -, -, b1, ⟨q', b2, b3⟩, b4, b5, b6, b7, b8, b9, b10, b11, b12⟩ := compute_inv hg'
  have hqq : q' = q := by
    rw [hn.gc] at b2
    exact Except.ok.inj (b2.symm.trans a2)
  have hq0 : 0 < q := by
    rw [Isentropic.PtPs_Mach_ok F.gc] at a2
    rw [← Except.ok.inj a2]; positivity
  have hP0 := F.P0
  have hT3 : G.Tt3 = tt3 s f := by rw [a8, a6, a1]; rfl
  have hT3' : G'.Tt3 = tt3 s' f := by rw [b8, b6, b1]; rfl
  have hu1 : G.Tt45 / s.Tt4 ≤ G'.Tt45 / s'.Tt4 := by
    rw [hT3] at a10 a11
    rw [hT3', hn.gh, hn.rh, hn.gc, hn.rc, hn.xicc, hn.Pci] at b10
    rw [hT3', hn.gh, hn.rh, hn.gc, hn.rc] at b11
    rw [a6, a1, a10] at a11
    rw [b6, b1, b10, hn.gc] at b11
    have := div_le_div₀ (le_trans k3 k2) k2 F.Tt4 hn.Tt4
    rw [a11, b11, sub_div _ _ s.Tt4, sub_div _ _ s'.Tt4, div_self F.Tt4.ne', div_self F'.Tt4.ne']
    linarith
  refine ⟨i1, i2, i3, fun h => ⟨(i4 h).1, (i4 h).2.1⟩, by rw [a4, b4, hn.gc, hn.rc], by rw [b6, b1, a6, a1, hn.gc], ?_, hu1, ?_⟩
  · rw [a5, a3, b5, b3, hqq]
    exact mul_le_mul_of_nonneg_left hn.inlet (by positivity)
  · intro he
    rw [a9, a7, a5, a3, b9, b7, b5, b3, hqq, he, hn.OPR, hn.xicc]

/-- the jet of the core -/
private theorem fm_core_jet {c T T' y y' r η : ℝ} (hc : 0 ≤ c) (hT : 0 < T) (hy : 0 < y) (hy' : 0 < y') (hyy : y' ≤ y) (hy1 : y ≤ 1)
    (hr0 : 0 ≤ r) (hr1 : r ≤ 1) (hη : 0 < η)
    (hz : η = 1 ∧ T ≤ T' ∨ T * (1 - (1 - y) * r) ≤ T' * (1 - (1 - y') * r)) (hT' : 0 < T') :
    Real.sqrt (2 * c * T) * phi (y ^ (1 / η)) (1 / η) (1 - (1 - y) * r) ≤ Real.sqrt (2 * c * T') * phi (y' ^ (1 / η)) (1 / η) (1 - (1 - y') * r) := by
  have hz0 : 0 < 1 - (1 - y) * r := by nlinarith
  have hz0' : 0 < 1 - (1 - y') * r := by nlinarith
  have hq : y' ^ (1 / η) * (1 - (1 - y') * r) ^ (-(1 / η)) ≤ y ^ (1 / η) * (1 - (1 - y) * r) ^ (-(1 / η)) := by
    rw [Real.rpow_neg hz0.le, Real.rpow_neg hz0'.le, ← div_eq_mul_inv, ← div_eq_mul_inv, ← Real.div_rpow hy'.le hz0'.le, ← Real.div_rpow hy.le hz0.le]
    apply Real.rpow_le_rpow (by positivity) _ (by positivity)
    rw [div_le_div_iff₀ hz0' hz0]
    nlinarith
  have hq1 : y ^ (1 / η) * (1 - (1 - y) * r) ^ (-(1 / η)) ≤ 1 := by
    rw [Real.rpow_neg hz0.le, ← div_eq_mul_inv, ← Real.div_rpow hy.le hz0.le]
    apply Real.rpow_le_one (by positivity) _ (by positivity)
    rw [div_le_one hz0]
    nlinarith
  unfold phi
  rw [← Real.sqrt_mul (by positivity), ← Real.sqrt_mul (by positivity)]
  apply Real.sqrt_le_sqrt
  have e : ∀ a b d : ℝ, 2 * c * a * (b * d) = 2 * c * (a * b * d) := fun a b d => by ring
  rw [e, e]
  apply mul_le_mul_of_nonneg_left _ (by positivity)
  rcases hz with ⟨rfl, hTT⟩ | hz
  · have e2 : ∀ y : ℝ, 0 < 1 - (1 - y) * r → (1 - (1 - y) * r) * (1 - y ^ (1 / (1:ℝ)) * (1 - (1 - y) * r) ^ (-(1 / (1:ℝ)))) = (1 - r) * (1 - y) := by
      intro y h
      rw [div_one, Real.rpow_one, Real.rpow_neg_one]
      field_simp
      ring
    rw [mul_assoc, mul_assoc, e2 y hz0, e2 y' hz0']
    apply mul_le_mul hTT (mul_le_mul_of_nonneg_left (by linarith) (by linarith)) (mul_nonneg (by linarith) (by linarith)) hT'.le
  · exact mul_le_mul hz (by linarith) (by linarith) (by positivity)

set_option maxHeartbeats 1000000 in
/-- **C157 (partial).**  With better components (compressor, shafts, fan) or a hotter turbine inlet, everything else being the same, the turbofan still runs, burns
not less fuel, and neither jet velocity nor the thrust decreases; a hotter turbine inlet strictly increases the fuel and, if the core has a jet, the thrust.  With
a lossless low pressure turbine this is also true of a better inlet, a better high pressure turbine and a better nozzle.
Missing: these three with a lossy low pressure turbine, or with one of higher polytropic efficiency than the high pressure turbine; a better low pressure turbine. -/
theorem C157_components_partial (o o' : Turbofan.Obj) (f : Flight) (F : FanFeasible o f) (hO : 1 ≤ o.params.OPR)
    (hn : NotWorse o.params o'.params) (hx : o.xi_nozzle ≤ o'.xi_nozzle) (hb : o'.bpr = o.bpr) (hr : o'.fanpower_ratio = o.fanpower_ratio)
    (hF : o.etapolfan ≤ o'.etapolfan) (hT : o'.etapolTBP = o.etapolTBP)
    (hcase : o.etapolTBP = 1 ∨ (o.etapolTBP ≤ o.params.etapolTHP ∧ o'.params.etapolTHP = o.params.etapolTHP ∧
      o'.params.xi_inlet = o.params.xi_inlet ∧ o'.xi_nozzle = o.xi_nozzle))
    (hfuel : cp o.params.gam_hot o.params.r_hot * o'.params.Tt4 < o.params.xi_cc * o.params.Pci) :
    ∃ a g n t a' g' n' t', Turbofan.update (Turbofan.flight_conditions o f) = .ok a ∧ a.res = some (g, n) ∧ Turbofan.norm_thrust a = .ok t ∧
      Turbofan.update (Turbofan.flight_conditions o' f) = .ok a' ∧ a'.res = some (g', n') ∧ Turbofan.norm_thrust a' = .ok t' ∧
      g.far ≤ g'.far ∧ n.V9 ≤ n'.V9 ∧ n.V19 ≤ n'.V19 ∧ t ≤ t' ∧ (o.params.Tt4 < o'.params.Tt4 → g.far < g'.far ∧ (0 < n.V9 → t < t')) := by
  obtain ⟨F1, hcmp⟩ := fm_core F.core hO hn hfuel
  have hx0 := F.nozzle
  have F' : FanFeasible o' f := by
    refine ⟨F1, lt_of_lt_of_le F.nozzle hx, by rw [hT]; exact F.etaT, lt_of_lt_of_le F.etaF hF, by rw [hb]; exact F.bpr, by rw [hr]; exact F.ratio0,
      by rw [hr]; exact F.ratio1, ?_⟩
    intro g' hg'
    obtain ⟨g, hg, q1, q2, q3, q4, q5⟩ := compute_ok F.core
    obtain ⟨-, -, c3, -, -, -, c7, -, -⟩ := hcmp g g' hg hg'
    obtain ⟨p1, p2⟩ := F.press g hg
    exact ⟨p1.trans (mul_le_mul c3 hx hx0.le (by linarith)), p2.trans (mul_le_mul c7 hx hx0.le (by linarith))⟩
  obtain ⟨g, C, B, κ, hg, hC0, hC1, hB0, hB1, hκ, p1, p3, p2, p4, hB, hC, hκe, K⟩ := form o f F
  obtain ⟨g', C', B', κ', hg', hC0', hC1', hB0', hB1', hκ', p1', p3', p2', p4', hB', hC', hκe', K'⟩ := form o' f F'
  obtain ⟨c1, c2, c3, c4, c5, c6, c7, c8, c9⟩ := hcmp g g' hg hg'
  obtain ⟨_, hz, -, -, -, -, q5⟩ := compute_ok F.core
  rw [hg] at hz; rw [← Except.ok.inj hz] at q5
  have hbp := F.bpr
  have hr0 := F.ratio0
  have hr1 := F.ratio1
  have hη := F.etaT
  have gh := F.core.gh
  have gc := F.core.gc
  have hP0 := F.core.P0
  have ch := cp_pos F.core.gh F.core.rh
  have cc := cp_pos F.core.gc F.core.rc
  have kh : 0 < (o.params.gam_hot - 1) / o.params.gam_hot := div_pos (by linarith) (by linarith)
  have kc : 0 < (o.params.gam_cold - 1) / o.params.gam_cold := div_pos (by linarith) (by linarith)
  obtain ⟨n, hn1, -, -, -, e9, e19⟩ := K o.bpr o.fanpower_ratio hbp hr0 hr1
  obtain ⟨n', hn1', -, -, -, e9', e19'⟩ := K' o'.bpr o'.fanpower_ratio F'.bpr F'.ratio0 F'.ratio1
  rw [hT, hr, hn.gh, hn.rh] at e9'
  rw [hr, hb, hn.gc, hn.rc, c6] at e19'
  rw [hn.gh] at hC'
  rw [hn.gc] at hB'
  rw [hn.gc, hn.rc, hn.gh, hn.rh, hT, c6] at hκe'
  have q5' : 0 < g'.Pt45 := lt_of_lt_of_le q5 c3
  have hx0' : 0 < o'.xi_nozzle := lt_of_lt_of_le hx0 hx
  have hCC : C' ≤ C := by
    rw [hC, hC']
    apply Real.rpow_le_rpow (by positivity) _ kh.le
    exact div_le_div_of_nonneg_left hP0.le (by positivity) (mul_le_mul c3 hx hx0.le (by linarith))
  have hBB : B' ≤ B := by
    rw [hB, hB']
    apply Real.rpow_le_rpow (by positivity) _ kc.le
    exact div_le_div_of_nonneg_left hP0.le (by positivity) (mul_le_mul c7 hx hx0.le (by linarith))
  obtain ⟨y, hy⟩ : ∃ y, y = C ^ o.etapolTBP := ⟨_, rfl⟩
  obtain ⟨y', hy'⟩ : ∃ y', y' = C' ^ o.etapolTBP := ⟨_, rfl⟩
  have hy0 : 0 < y := by rw [hy]; positivity
  have hy0' : 0 < y' := by rw [hy']; positivity
  have hyy : y' ≤ y := by rw [hy, hy']; exact Real.rpow_le_rpow hC0'.le hCC hη.le
  have hy1 : y ≤ 1 := by rw [hy]; exact Real.rpow_le_one hC0.le hC1 hη.le
  have hCy : C = y ^ (1 / o.etapolTBP) := by rw [hy, ← Real.rpow_mul hC0.le, mul_one_div_cancel hη.ne', Real.rpow_one]
  have hCy' : C' = y' ^ (1 / o.etapolTBP) := by rw [hy', ← Real.rpow_mul hC0'.le, mul_one_div_cancel hη.ne', Real.rpow_one]
  rw [← hy] at e9 hκe
  rw [← hy'] at e9' hκe'
  have hκκ : κ ≤ κ' := by
    have h1 : κ * (cp o.params.gam_cold o.params.r_cold * g.Tt2) ≤ κ' * (cp o.params.gam_cold o.params.r_cold * g.Tt2) := by
      rw [hκe, hκe']
      have hy1' : 0 ≤ 1 - y := by linarith
      apply mul_le_mul hn.shaft _ (by positivity) (le_trans F.core.shaft.le hn.shaft)
      apply mul_le_mul (by linarith) _ (by positivity) p1'.le
      apply mul_le_mul (mul_le_mul_of_nonneg_left c2 ch.le) (by linarith) hy1' (by positivity)
    exact le_of_mul_le_mul_right h1 (by positivity)
  have hz : o.etapolTBP = 1 ∧ g.Tt45 ≤ g'.Tt45 ∨ g.Tt45 * (1 - (1 - y) * o.fanpower_ratio) ≤ g'.Tt45 * (1 - (1 - y') * o.fanpower_ratio) := by
    rcases hcase with h | ⟨d1, d2, d3, d4⟩
    · exact .inl ⟨h, c2⟩
    · right
      obtain ⟨-, -, -, -, -, -, -, -, -, -, -, -, -, -, -, -, -, -, a12⟩ := compute_inv hg
      obtain ⟨-, -, -, -, -, -, -, -, -, -, -, -, -, -, -, -, -, -, b12⟩ := compute_inv hg'
      have hP4 := c9 d3
      have hT4 := F.core.Tt4
      have hT4' := F1.Tt4
      obtain ⟨τ, hτ⟩ : ∃ τ, τ = g.Tt45 / o.params.Tt4 := ⟨_, rfl⟩
      obtain ⟨τ', hτ'⟩ : ∃ τ', τ' = g'.Tt45 / o'.params.Tt4 := ⟨_, rfl⟩
      have t0 : 0 < τ := by rw [hτ]; positivity
      have t0' : 0 < τ' := by rw [hτ']; positivity
      rw [← hτ, ← hτ'] at c8
      rw [← hτ] at a12
      rw [← hτ', hP4, d2, hn.gh] at b12
      have hE := F.core.etaT
      have hP4p : 0 < g.Pt4 := by
        have : 0 < g.Pt4 * τ ^ (o.params.gam_hot / ((o.params.gam_hot - 1) * o.params.etapolTHP)) := by rw [← a12]; exact q5
        exact pos_of_mul_pos_left this (by positivity)
      have gen : ∀ t P c, 0 < t → P = g.Pt4 * t ^ (o.params.gam_hot / ((o.params.gam_hot - 1) * o.params.etapolTHP)) →
          c = (f.P0 / (P * o.xi_nozzle)) ^ ((o.params.gam_hot - 1) / o.params.gam_hot) →
          c ^ o.etapolTBP = ((f.P0 / (g.Pt4 * o.xi_nozzle)) ^ ((o.params.gam_hot - 1) / o.params.gam_hot)) ^ o.etapolTBP *
            t ^ (-(o.etapolTBP / o.params.etapolTHP)) := by
        intro t P c ht hP hc
        have e1 : f.P0 / (P * o.xi_nozzle) = f.P0 / (g.Pt4 * o.xi_nozzle) * t ^ (-(o.params.gam_hot / ((o.params.gam_hot - 1) * o.params.etapolTHP))) := by
          rw [hP, Real.rpow_neg ht.le]
          have := Real.rpow_pos_of_pos ht (o.params.gam_hot / ((o.params.gam_hot - 1) * o.params.etapolTHP))
          field_simp
        have hq : 0 < f.P0 / (g.Pt4 * o.xi_nozzle) := by positivity
        rw [hc, e1, Real.mul_rpow hq.le (by positivity), ← Real.rpow_mul ht.le, Real.mul_rpow (by positivity) (by positivity), ← Real.rpow_mul ht.le]
        congr 2
        have : o.params.gam_hot - 1 ≠ 0 := by linarith
        field_simp
      have y1 := gen τ _ C t0 a12 hC
      have y1' := gen τ' _ C' t0' b12 (by rw [hC', d4])
      rw [← hy] at y1
      rw [← hy'] at y1'
      obtain ⟨L, hL⟩ : ∃ L, L = ((f.P0 / (g.Pt4 * o.xi_nozzle)) ^ ((o.params.gam_hot - 1) / o.params.gam_hot)) ^ o.etapolTBP := ⟨_, rfl⟩
      rw [← hL] at y1 y1'
      have hL0 : 0 < L := by rw [hL]; positivity
      have hT45 : g.Tt45 = o.params.Tt4 * τ := by rw [hτ]; field_simp
      have hT45' : g'.Tt45 = o'.params.Tt4 * τ' := by rw [hτ']; field_simp
      have hm : o.etapolTBP / o.params.etapolTHP ≤ 1 := (div_le_one hE).2 d1
      have hτe : ∀ t : ℝ, 0 < t → t * t ^ (-(o.etapolTBP / o.params.etapolTHP)) = t ^ (1 - o.etapolTBP / o.params.etapolTHP) := by
        intro t ht
        rw [sub_eq_add_neg, Real.rpow_add ht, Real.rpow_one]
      have hTy : g.Tt45 * y ≤ g'.Tt45 * y' := by
        have e1 : g.Tt45 * y = L * (o.params.Tt4 * τ ^ (1 - o.etapolTBP / o.params.etapolTHP)) := by rw [← hτe τ t0, hT45, y1]; ring
        have e2 : g'.Tt45 * y' = L * (o'.params.Tt4 * τ' ^ (1 - o.etapolTBP / o.params.etapolTHP)) := by rw [← hτe τ' t0', hT45', y1']; ring
        rw [e1, e2]
        apply mul_le_mul_of_nonneg_left _ hL0.le
        apply mul_le_mul hn.Tt4 (Real.rpow_le_rpow t0.le c8 (by linarith)) (by positivity) hT4'.le
      have := mul_le_mul_of_nonneg_right hTy hr0
      have := mul_le_mul_of_nonneg_right c2 (sub_nonneg.2 hr1)
      linarith
  have hV9 : n.V9 ≤ n'.V9 := by
    rw [e9, e9', hCy, hCy']
    exact fm_core_jet ch.le p3 hy0 hy0' hyy hy1 hr0 hr1 hη hz p3'
  have hX : 1 + κ * o.fanpower_ratio / o.bpr ≤ 1 + κ' * o.fanpower_ratio / o.bpr := by
    have : κ * o.fanpower_ratio ≤ κ' * o.fanpower_ratio := mul_le_mul_of_nonneg_right hκκ hr0
    have := div_le_div_of_nonneg_right this hbp.le
    linarith
  have hX1 : 1 ≤ 1 + κ * o.fanpower_ratio / o.bpr := by
    have : 0 ≤ κ * o.fanpower_ratio / o.bpr := by positivity
    linarith
  have hV19 : n.V19 ≤ n'.V19 := by
    rw [e19, e19']
    apply mul_le_mul_of_nonneg_left _ (Real.sqrt_nonneg _)
    unfold phi
    apply Real.sqrt_le_sqrt
    have f1 := fan_le hB0.le hB1 F.etaF.le hX1
    have f2 : B' * (1 + κ' * o.fanpower_ratio / o.bpr) ^ (-o'.etapolfan) ≤ B * (1 + κ * o.fanpower_ratio / o.bpr) ^ (-o.etapolfan) := by
      apply mul_le_mul hBB _ (by positivity) hB0.le
      calc (1 + κ' * o.fanpower_ratio / o.bpr) ^ (-o'.etapolfan) ≤ (1 + κ' * o.fanpower_ratio / o.bpr) ^ (-o.etapolfan) :=
            Real.rpow_le_rpow_of_exponent_le (by linarith) (by linarith)
        _ ≤ _ := Real.rpow_le_rpow_of_nonpos (by linarith) hX (by linarith [F.etaF])
    apply mul_le_mul hX (by linarith) (by linarith) (by linarith)
  have hV0 : 0 ≤ n.V9 := by rw [e9]; exact mul_nonneg (Real.sqrt_nonneg _) (Real.sqrt_nonneg _)
  have h10 : (1.0 : ℝ) = 1 := by norm_num
  have hby : o.bpr * (n.V19 - g.V0) ≤ o.bpr * (n'.V19 - g.V0) := mul_le_mul_of_nonneg_left (by linarith) hbp.le
  have hco : (1 + g.far) * n.V9 ≤ (1 + g'.far) * n'.V9 := mul_le_mul (by linarith) hV9 hV0 p1'.le
  refine ⟨_, g, n, (1.0 + g.far) * n.V9 - g.V0 + o.bpr * (n.V19 - g.V0), _, g', n', (1.0 + g'.far) * n'.V9 - g'.V0 + o'.bpr * (n'.V19 - g'.V0),
    hn1, rfl, rfl, hn1', rfl, rfl, c1, hV9, hV19, ?_, ?_⟩
  · rw [hb, c5, h10]; linarith
  · intro hlt
    have hf := (c4 hlt).1
    refine ⟨hf, fun hV => ?_⟩
    rw [hb, c5, h10]
    have : (1 + g.far) * n.V9 < (1 + g'.far) * n'.V9 :=
      lt_of_lt_of_le (mul_lt_mul_of_pos_right (by linarith) hV) (mul_le_mul_of_nonneg_left hV9 p1'.le)
    linarith

/-- the hypotheses are met with a lossless low pressure turbine (second line: a better fan and a hotter turbine inlet) -/
example : ∃ (o o' : Turbofan.Obj) (f : Flight), FanFeasible o f ∧ 1 ≤ o.params.OPR ∧ NotWorse o.params o'.params ∧ o.xi_nozzle ≤ o'.xi_nozzle ∧
    o'.bpr = o.bpr ∧ o'.fanpower_ratio = o.fanpower_ratio ∧ o.etapolfan < o'.etapolfan ∧ o'.etapolTBP = o.etapolTBP ∧ o.etapolTBP = 1 ∧
    o.params.Tt4 < o'.params.Tt4 ∧ cp o.params.gam_hot o.params.r_hot * o'.params.Tt4 < o.params.xi_cc * o.params.Pci := by
  have F := tf_feasible
  refine ⟨{ Turbofan.new tfArgs with etapolfan := 0.9 }, Turbofan.new { tfArgs with Tt4 := 2100 }, ggFlight,
    ⟨F.core, F.nozzle, F.etaT, by norm_num, F.bpr, F.ratio0, F.ratio1, F.press⟩, ?_, ?_, le_rfl, rfl, rfl, ?_, rfl, ?_, ?_, ?_⟩
  · show (1:ℝ) ≤ 128; norm_num
  · refine ⟨rfl, rfl, rfl, rfl, rfl, rfl, rfl, le_rfl, le_rfl, le_rfl, le_rfl, ?_⟩
    show (2000:ℝ) ≤ 2100; norm_num
  · show (0.9:ℝ) < 1.0; norm_num
  · show (1.0:ℝ) = 1; norm_num
  · show (2000:ℝ) < 2100; norm_num
  · show cp 1.4 287.1 * 2100 < 1.0 * 42.8e6
    unfold cp; norm_num

/-- and with lossy turbines -/
example : ∃ (o o' : Turbofan.Obj) (f : Flight), FanFeasible o f ∧ 1 ≤ o.params.OPR ∧ NotWorse o.params o'.params ∧ o.etapolTBP < 1 ∧
    o.etapolTBP ≤ o.params.etapolTHP ∧ o'.params.etapolTHP = o.params.etapolTHP ∧ o'.params.xi_inlet = o.params.xi_inlet ∧ o'.xi_nozzle = o.xi_nozzle ∧
    o'.etapolTBP = o.etapolTBP ∧ o.params.Tt4 < o'.params.Tt4 ∧ cp o.params.gam_hot o.params.r_hot * o'.params.Tt4 < o.params.xi_cc * o.params.Pci := by
  have F := tf_feasible
  refine ⟨{ Turbofan.new tfArgs with etapolTBP := 0.9 }, { Turbofan.new { tfArgs with Tt4 := 2100 } with etapolTBP := 0.9 }, ggFlight,
    ⟨F.core, F.nozzle, by norm_num, F.etaF, F.bpr, F.ratio0, F.ratio1, F.press⟩, ?_, ?_, by norm_num, ?_, rfl, rfl, rfl, rfl, ?_, ?_⟩
  · show (1:ℝ) ≤ 128; norm_num
  · refine ⟨rfl, rfl, rfl, rfl, rfl, rfl, rfl, le_rfl, le_rfl, le_rfl, le_rfl, ?_⟩
    show (2000:ℝ) ≤ 2100; norm_num
  · show (0.9:ℝ) ≤ 1.0; norm_num
  · show (2000:ℝ) < 2100; norm_num
  · show cp 1.4 287.1 * 2100 < 1.0 * 42.8e6
    unfold cp; norm_num

end Aerokit.Props
