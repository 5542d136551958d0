import Verif.Props.NozzleShock
import Verif.Props.SecantUses4

/-! # Property C118 (continued): accuracy of the shock Mach number used by `nozzle.set_NPR` -/

namespace Aerokit.Props
open Isentropic MassFlow ShockWave Nozzle Spec ListPy
open DefaultGas (gamma0)

/-- C118: in the shock regime, whatever the area ratio, the search of the shock Mach number (`Mn_Pi_ratio`, line 212) always
returns.  If the shock is weaker than Mach 1.4985 the result is between the exact shock Mach number `Mx` and 1.5; from there
to Mach 6 its relative error is at most `7·10⁻⁵`; beyond it never exceeds `Mx`. -/
theorem C118_accuracy (newton : RootFinder) (hb : BranchRootFinder newton) (A n Ms pr : ℝ) (l : Limits) (hA : 1 < A)
    (hl : NPR_Ms_list newton A = .ok l) (h0 : l.NPR0 ≤ n) (h1 : n ≤ l.NPRsw)
    (h : Ms_from_AsAc_NPR newton gamma0 A n = .ok Ms) (hpr : PtPs_Mach Ms gamma0 = .ok pr) :
    ∃ Mx Msh, 1 ≤ Mx ∧ Mx ≤ l.Msup ∧ Pt_ratio Mx gamma0 = .ok (pr / n) ∧ Mn_Pi_ratio (pr / n) gamma0 = .ok Msh ∧
      (Mx ≤ 1.4985 → Mx ≤ Msh ∧ Msh ≤ 1.5) ∧ (1.4985 ≤ Mx → Mx ≤ 6 → |Msh - Mx| ≤ 0.00007 * Msh) ∧
      (6 ≤ Mx → 4.14 ≤ Msh ∧ Msh ≤ Mx) := by
  obtain ⟨⟨Mx, ⟨hx, hp⟩, -⟩, hall⟩ := C118_position newton hb A n Ms pr l hA hl h0 h1 h hpr
  obtain ⟨hsup, -⟩ := hall Mx hx hp
  have e : (1.4:ℝ) = gamma0 := by rw [gamma0_eq]; norm_num
  have hp' := hp
  rw [← e] at hp'
  obtain ⟨x, g1, -⟩ := C96_totalPressure_returns Mx _ hx hp'
  refine ⟨Mx, x, hx, hsup, hp, by rw [← e]; exact g1, fun hlo => ?_, fun hlo hhi => ?_, fun hhi => ?_⟩
  · obtain ⟨res, r', -, h2, h3, h4, -⟩ := C96_totalPressure_partial Mx _ hx hlo hp'
    have := Except.ok.inj (g1.symm.trans h2)
    rw [this]; exact ⟨h3, h4⟩
  · obtain ⟨res, -, -, h3, h4⟩ := C96_totalPressure_converges Mx _ hlo hhi hp'
    have := Except.ok.inj (g1.symm.trans h3)
    rw [this]; exact h4
  · obtain ⟨res, r', -, h2, h3, h4, -⟩ := C96_totalPressure_strong Mx _ (le_trans (by norm_num) hhi) hp'
    have := Except.ok.inj (g1.symm.trans h2)
    rw [this]; exact ⟨h3, h4⟩

/-- the hypotheses of `C118_accuracy` are met: area ratio 2, largest pressure ratio of the regime -/
example : ∃ (nf : RootFinder) (l : Limits) (Ms pr : ℝ), BranchRootFinder nf ∧ NPR_Ms_list nf 2 = .ok l ∧ l.NPR0 ≤ l.NPRsw ∧
    Ms_from_AsAc_NPR nf gamma0 2 l.NPRsw = .ok Ms ∧ PtPs_Mach Ms gamma0 = .ok pr := by
  have hg := one_lt_gamma0
  obtain ⟨nf, _, hb, hc⟩ := exists_branchRootFinder
  obtain ⟨l, hl⟩ := limits_total hb hc (by norm_num : (1:ℝ) < 2)
  have H := limits_spec hb (by norm_num : (1:ℝ) < 2) hl
  obtain ⟨o1, o2, o3⟩ := H.ordered hg
  refine ⟨nf, l, msd gamma0 2 l.NPRsw, _, hb, hl, o2.le, ?_, PtPs_ppt hg⟩
  unfold Ms_from_AsAc_NPR
  rw [hl, Py.ok_bind, if_neg (not_lt.2 o2.le), if_neg (lt_irrefl _), msd_ok hg two_pos]

end Aerokit.Props
