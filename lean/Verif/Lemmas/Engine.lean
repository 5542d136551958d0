import Verif.Model.GasGenerator
import Verif.Spec.Engine
import Verif.Lemmas.Isentropic

namespace Aerokit.Py

theorem bind_inv {α β : Type} {x : Py α} {f : α → Py β} {b : β} (h : (x >>= f) = .ok b) :
    ∃ a, x = .ok a ∧ f a = .ok b := by
  cases x with
  | error e => exact absurd h (by rw [error_bind]; intro h; cases h)
  | ok a => exact ⟨a, rfl, by simpa using h⟩

theorem div_inv {a b c : ℝ} (h : div a b = .ok c) : b ≠ 0 ∧ c = a / b := by
  unfold div at h
  split at h
  · cases h
  · rename_i h0; injection h with h; exact ⟨h0, h.symm⟩

theorem sqrt_inv {a c : ℝ} (h : sqrt a = .ok c) : 0 ≤ a ∧ c = Real.sqrt a := by
  unfold sqrt at h
  split at h
  · cases h
  · rename_i h0; injection h with h; exact ⟨not_lt.mp h0, h.symm⟩

theorem pow_inv {a b c : ℝ} (h : pow a b = .ok c) : c = a ^ b := by
  unfold pow at h
  split at h
  · injection h with h; exact h.symm
  · cases h

end Aerokit.Py

namespace Aerokit.Engine

open Spec.Engine

/-- Nozzle: `Mach_PtPs` then `Velocity_MachTi` give the Saint-Venant velocity. -/
theorem nozzle_ok {γ r Pt Tt P : ℝ} (hγ : 1 < γ) (hr : 0 < r) (hT : 0 < Tt) (hP : 0 < P)
    (hPt : P ≤ Pt) :
    ∃ M, Isentropic.Mach_PtPs (Pt / P) γ = .ok M ∧ 0 ≤ M ∧
      Isentropic.PtPs_Mach M γ = .ok (Pt / P) ∧
      Isentropic.Velocity_MachTi M Tt r γ = .ok (jetVelocity γ r Pt Tt P) := by
  have hx : 1 ≤ Pt / P := by rw [le_div_iff₀ hP]; linarith
  have hPt0 : 0 < Pt := by linarith
  set t := (Pt / P) ^ ((γ - 1) / γ) with ht
  have ht1 : 1 ≤ t := Real.one_le_rpow hx (by apply div_nonneg <;> linarith)
  refine ⟨_, Isentropic.Mach_PtPs_ok hγ hx, Real.sqrt_nonneg _, ?_, ?_⟩
  · rw [Isentropic.PtPs_Mach_ok hγ, Isentropic.tt_sqrt hγ ht1,
      Isentropic.rpow_rpow_cancel' hγ (by linarith)]
  · have h1 : γ - 1 ≠ 0 := by linarith
    have h1p : 0 < γ - 1 := by linarith
    rw [Isentropic.Velocity_MachTi, Isentropic.Velocity_MachTt_ok hγ hr hT.le,
      Isentropic.tt_sqrt hγ ht1, ← Real.sqrt_mul (by apply div_nonneg <;> linarith)]
    unfold jetVelocity cp
    have h2 : (P / Pt) ^ ((γ - 1) / γ) = t⁻¹ := by
      rw [ht, ← Real.inv_rpow (by positivity)]; congr 1; field_simp
    rw [h2]
    congr 2
    have ht0 : t ≠ 0 := by linarith
    rw [← ht]
    field_simp

end Aerokit.Engine

namespace Aerokit.GasGenerator

open Spec.Engine

/-- Everything a successful `update` establishes. -/
theorem compute_inv {s : Params} {f : Flight} {g : Gen} (h : compute s f = .ok g) :
    s.gam_cold - 1 ≠ 0 ∧ s.gam_hot - 1 ≠ 0 ∧ s.gam_cold * s.etapolCHP ≠ 0 ∧
    s.xi_cc * s.Pci - cp s.gam_hot s.r_hot * s.Tt4 ≠ 0 ∧
    s.eta_shaft * cp s.gam_hot s.r_hot * (1 + g.far) ≠ 0 ∧ s.Tt4 ≠ 0 ∧
    (s.gam_hot - 1) * s.etapolTHP ≠ 0 ∧
    0 ≤ s.gam_cold * s.r_cold * f.T0 ∧
    g.Tt0 = f.T0 * Isentropic.tt f.M0 s.gam_cold ∧
    (∃ p, Isentropic.PtPs_Mach f.M0 s.gam_cold = .ok p ∧ g.Pt0 = f.P0 * p) ∧
    g.V0 = f.M0 * Real.sqrt (s.gam_cold * s.r_cold * f.T0) ∧
    g.Pt2 = g.Pt0 * s.xi_inlet ∧ g.Tt2 = g.Tt0 ∧ g.Pt3 = g.Pt2 * s.OPR ∧
    g.Tt3 = g.Tt2 * s.OPR ^ ((s.gam_cold - 1) / (s.gam_cold * s.etapolCHP)) ∧
    g.Pt4 = g.Pt3 * s.xi_cc ∧
    g.far = (cp s.gam_hot s.r_hot * s.Tt4 - cp s.gam_cold s.r_cold * g.Tt3) /
      (s.xi_cc * s.Pci - cp s.gam_hot s.r_hot * s.Tt4) ∧
    g.Tt45 = s.Tt4 - cp s.gam_cold s.r_cold * (g.Tt3 - g.Tt2) /
      (s.eta_shaft * cp s.gam_hot s.r_hot * (1 + g.far)) ∧
    g.Pt45 = g.Pt4 * (g.Tt45 / s.Tt4) ^ (s.gam_hot / ((s.gam_hot - 1) * s.etapolTHP)) := by
  unfold compute at h
  have h10 : (1.0 : ℝ) = 1 := by norm_num
  simp only [h10] at h
  obtain ⟨cpc, e1, h⟩ := Py.bind_inv h
  obtain ⟨t, e2, h⟩ := Py.bind_inv h
  obtain ⟨p, e3, h⟩ := Py.bind_inv h
  obtain ⟨a, e4, h⟩ := Py.bind_inv h
  obtain ⟨e, e5, h⟩ := Py.bind_inv h
  obtain ⟨q, e6, h⟩ := Py.bind_inv h
  obtain ⟨cph, e7, h⟩ := Py.bind_inv h
  obtain ⟨far, e8, h⟩ := Py.bind_inv h
  obtain ⟨d, e9, h⟩ := Py.bind_inv h
  obtain ⟨u, e10, h⟩ := Py.bind_inv h
  obtain ⟨e', e11, h⟩ := Py.bind_inv h
  obtain ⟨w, e12, h⟩ := Py.bind_inv h
  injection h with h
  subst h
  rw [Isentropic.TtTs_Mach_ok] at e2
  injection e2 with e2
  obtain ⟨n1, rfl⟩ := Py.div_inv e1
  obtain ⟨n4, rfl⟩ := Py.sqrt_inv e4
  obtain ⟨n5, rfl⟩ := Py.div_inv e5
  have := Py.pow_inv e6; subst this
  obtain ⟨n7, rfl⟩ := Py.div_inv e7
  obtain ⟨n8, rfl⟩ := Py.div_inv e8
  obtain ⟨n9, rfl⟩ := Py.div_inv e9
  obtain ⟨n10, rfl⟩ := Py.div_inv e10
  obtain ⟨n11, rfl⟩ := Py.div_inv e11
  have := Py.pow_inv e12; subst this
  subst e2
  exact ⟨n1, n7, n5, n8, n9, n10, n11, n4, rfl, ⟨p, e3, rfl⟩, rfl, rfl, rfl, rfl, rfl, rfl, rfl,
    rfl, rfl⟩

/-- Total temperature at the compressor exit (closed form). -/
noncomputable def tt3 (s : Params) (f : Flight) : ℝ :=
  f.T0 * Isentropic.tt f.M0 s.gam_cold * s.OPR ^ ((s.gam_cold - 1) / (s.gam_cold * s.etapolCHP))

/-- A set of parameters for which the cycle is feasible: physical gases and efficiencies, a fuel
rich enough, and a turbine able to drive the compressor. -/
structure Feasible (s : Params) (f : Flight) : Prop where
  gc : 1 < s.gam_cold
  gh : 1 < s.gam_hot
  rc : 0 < s.r_cold
  rh : 0 < s.r_hot
  T0 : 0 < f.T0
  P0 : 0 < f.P0
  OPR : 0 < s.OPR
  etaC : 0 < s.etapolCHP
  etaT : 0 < s.etapolTHP
  shaft : 0 < s.eta_shaft
  Tt4 : 0 < s.Tt4
  xi : 0 < s.xi_inlet
  xicc : 0 < s.xi_cc
  fuel : cp s.gam_hot s.r_hot * s.Tt4 < s.xi_cc * s.Pci
  air : cp s.gam_cold s.r_cold * tt3 s f < s.xi_cc * s.Pci
  turbine : cp s.gam_cold s.r_cold * (tt3 s f - f.T0 * Isentropic.tt f.M0 s.gam_cold) *
      (s.xi_cc * s.Pci - cp s.gam_hot s.r_hot * s.Tt4) <
    s.eta_shaft * (cp s.gam_hot s.r_hot * s.Tt4) *
      (s.xi_cc * s.Pci - cp s.gam_cold s.r_cold * tt3 s f)

theorem cp_pos {γ r : ℝ} (h : 1 < γ) (hr : 0 < r) : 0 < cp γ r := by
  unfold cp; apply div_pos (by nlinarith) (by linarith)

theorem compute_ok {s : Params} {f : Flight} (F : Feasible s f) :
    ∃ g, compute s f = .ok g ∧ 0 < 1 + g.far ∧ 0 < g.Tt2 ∧ 0 < g.Tt45 ∧ 0 < g.Pt2 ∧ 0 < g.Pt45 := by
  have h10 : (1.0 : ℝ) = 1 := by norm_num
  have gc := F.gc
  have gh := F.gh
  have c1 := cp_pos F.gc F.rc
  have c2 := cp_pos F.gh F.rh
  have rc := F.rc
  have T0 := F.T0
  have ht := Isentropic.tt_pos (M := f.M0) F.gc
  set A := s.xi_cc * s.Pci - cp s.gam_hot s.r_hot * s.Tt4 with hA
  set B := s.xi_cc * s.Pci - cp s.gam_cold s.r_cold * tt3 s f with hB
  have hA0 : 0 < A := by have := F.fuel; linarith
  have hB0 : 0 < B := by have := F.air; linarith
  have hfar : 1 + (cp s.gam_hot s.r_hot * s.Tt4 - cp s.gam_cold s.r_cold * tt3 s f) / A = B / A := by
    field_simp; rw [hA, hB]; ring
  have hT45 : 0 < s.Tt4 - cp s.gam_cold s.r_cold *
      (tt3 s f - f.T0 * Isentropic.tt f.M0 s.gam_cold) /
      (s.eta_shaft * cp s.gam_hot s.r_hot * (B / A)) := by
    have hsh := F.shaft
    rw [sub_pos, div_lt_iff₀ (by positivity)]
    have := F.turbine
    rw [← hA, ← hB] at this
    have h2 : s.Tt4 * (s.eta_shaft * cp s.gam_hot s.r_hot * (B / A)) =
      s.eta_shaft * (cp s.gam_hot s.r_hot * s.Tt4) * B / A := by field_simp
    rw [h2, lt_div_iff₀ hA0]
    exact this
  unfold compute
  simp only [h10]
  rw [Py.div_ok (by linarith), Py.ok_bind, Isentropic.TtTs_Mach_ok, Py.ok_bind,
    Isentropic.PtPs_Mach_ok F.gc, Py.ok_bind, Py.sqrt_ok (by positivity), Py.ok_bind,
    Py.div_ok (by have := F.etaC; positivity), Py.ok_bind, Py.pow_ok _ F.OPR, Py.ok_bind,
    Py.div_ok (by linarith), Py.ok_bind]
  change ∃ g, (Py.div (cp s.gam_hot s.r_hot * s.Tt4 - cp s.gam_cold s.r_cold * tt3 s f) A >>= _) = _ ∧ _
  rw [Py.div_ok hA0.ne', Py.ok_bind]
  change ∃ g, (Py.div (cp s.gam_cold s.r_cold * (tt3 s f - f.T0 * Isentropic.tt f.M0 s.gam_cold))
    (s.eta_shaft * cp s.gam_hot s.r_hot * _) >>= _) = _ ∧ _
  have hsh := F.shaft
  rw [hfar, Py.div_ok (by positivity), Py.ok_bind, Py.div_ok F.Tt4.ne', Py.ok_bind,
    Py.div_ok (by have := F.etaT; apply mul_ne_zero <;> linarith), Py.ok_bind,
    Py.pow_ok _ (div_pos hT45 F.Tt4), Py.ok_bind]
  have hx := F.xi
  have hxc := F.xicc
  have hO := F.OPR
  have hP := F.P0
  have hw : 0 < f.P0 * Isentropic.tt f.M0 s.gam_cold ^ (s.gam_cold / (s.gam_cold - 1)) := by positivity
  refine ⟨_, rfl, ?_, ?_, hT45, ?_, ?_⟩
  · show 0 < 1 + (cp s.gam_hot s.r_hot * s.Tt4 - cp s.gam_cold s.r_cold * tt3 s f) / A
    rw [hfar]; positivity
  · exact mul_pos T0 ht
  · exact mul_pos hw hx
  · apply mul_pos (mul_pos (mul_pos (mul_pos hw hx) hO) hxc)
    exact Real.rpow_pos_of_pos (div_pos hT45 F.Tt4) _

end Aerokit.GasGenerator
