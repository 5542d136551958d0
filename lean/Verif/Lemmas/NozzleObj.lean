import Verif.Lemmas.Nozzle
import Verif.Lemmas.ListPy

/-! Lemmas for the `nozzle` class: inversion of `set_NPR`, geometry, reachable objects. -/

namespace Aerokit.Nozzle
open Isentropic MassFlow ShockWave Spec ListPy
open DefaultGas (gamma0)

theorem vec_ok {f : ℝ → Py ℝ} {l r : List ℝ} (h : vec f l = .ok r) :
    List.Forall₂ (fun a b => f a = .ok b) l r := by
  cases l with
  | nil => cases h
  | cons a l => exact mapM_ok h

theorem staticP_spec {γ : ℝ} {Pt M Ps : List ℝ} (hl : Pt.length = M.length) (h : staticP γ Pt M = .ok Ps) :
    Ps.length = M.length ∧ ∀ (i : ℕ) (p m q : ℝ), Pt[i]? = some p → M[i]? = some m → Ps[i]? = some q →
      ∃ r, PtPs_Mach m γ = .ok r ∧ r ≠ 0 ∧ q = p / r := by
  have hf := mapM_ok h
  refine ⟨?_, ?_⟩
  · rw [← hf.length_eq, List.length_zip, hl, min_self]
  · intro i p m q hp hm hq
    have hz : (Pt.zip M)[i]? = some (p, m) := by rw [List.getElem?_zip_eq_some]; exact ⟨hp, hm⟩
    have := forall₂_get? hf hz hq
    cases e : PtPs_Mach m γ with
    | error e' => rw [e] at this; cases this
    | ok r =>
      rw [e, Py.ok_bind] at this
      by_cases hr : r = 0
      · rw [hr, Py.div_err] at this; cases this
      · rw [Py.div_ok hr] at this
        exact ⟨r, rfl, hr, (Except.ok.inj this).symm⟩

/-- what `set_NPR` did, by regime -/
inductive SetCase (newton : RootFinder) (dg : ℝ) (z : Noz) (n : ℝ) (z' : Noz) : Prop
  | sub (Ms s0 : ℝ) (M Ps : List ℝ) (hn : n < z.lim.NPR0) (h1 : Mach_PtPs n z.gamma = .ok Ms)
      (h2 : Sigma_Mach Ms gamma0 = .ok s0)
      (h3 : List.Forall₂ (fun a b => (do
        let q ← Py.div a z.geo.AsoAc
        MachSub_Sigma newton (q * s0) z.gamma) = Except.ok b) z.geo.AxoAc M)
      (h4 : staticP z.gamma (z.geo.AxoAc.map fun _ => (1 : ℝ)) M = .ok Ps)
      (hz : z' = { z with M := some M, Ps := some Ps, Pt := some (z.geo.AxoAc.map fun _ => (1 : ℝ)) })
  | shock (M0 : List ℝ) (Ms pr Msh s : ℝ) (ish : ℕ) (tail Ps : List ℝ) (hn : z.lim.NPR0 ≤ n) (hn' : n < z.lim.NPRsw)
      (h0 : choked_M newton z = .ok M0) (h1 : Ms_from_AsAc_NPR newton dg z.geo.AsoAc n = .ok Ms)
      (h2 : PtPs_Mach Ms gamma0 = .ok pr) (hne : n ≠ 0) (h3 : Mn_Pi_ratio (pr / n) gamma0 = .ok Msh)
      (h4 : FirstMin (M0.map fun m => |m - Msh|) ish) (h5 : Sigma_Mach Ms gamma0 = .ok s)
      (h6 : List.Forall₂ (fun a b => (do
        let q ← Py.div (a * s) z.geo.AsoAc
        MachSub_Sigma newton q gamma0) = Except.ok b) (z.geo.AxoAc.drop ish) tail)
      (h7 : staticP gamma0 ((z.geo.AxoAc.map fun _ => (1 : ℝ)).take ish ++
        ((z.geo.AxoAc.map fun _ => (1 : ℝ)).drop ish).map fun _ => pr / n) (M0.take ish ++ tail) = .ok Ps)
      (hz : z' = ⟨z.gamma, z.geo, z.lim, z.ref_rttot, z.scale_ps, some (M0.take ish ++ tail), some Ps,
        some ((z.geo.AxoAc.map fun _ => (1 : ℝ)).take ish ++
          ((z.geo.AxoAc.map fun _ => (1 : ℝ)).drop ish).map fun _ => pr / n)⟩)
  | sup (M0 Ps : List ℝ) (hn : z.lim.NPR0 ≤ n) (hn' : z.lim.NPRsw ≤ n) (h0 : choked_M newton z = .ok M0)
      (h1 : staticP gamma0 (z.geo.AxoAc.map fun _ => (1 : ℝ)) M0 = .ok Ps)
      (hz : z' = { z with M := some M0, Ps := some Ps, Pt := some (z.geo.AxoAc.map fun _ => (1 : ℝ)) })

theorem set_NPR_cases {newton : RootFinder} {dg n : ℝ} {z z' : Noz} (h : set_NPR newton dg z n = .ok z') :
    SetCase newton dg z n z' := by
  unfold set_NPR at h
  by_cases hn : n < z.lim.NPR0
  · rw [if_pos hn] at h
    unfold set_NPR_subsonic at h
    simp only [] at h
    cases e1 : Mach_PtPs n z.gamma with
    | error e => rw [e1] at h; cases h
    | ok Ms =>
    rw [e1, Py.ok_bind] at h
    cases e2 : Sigma_Mach Ms gamma0 with
    | error e => rw [e2] at h; cases h
    | ok s0 =>
    rw [e2, Py.ok_bind] at h
    cases e3 : vec (fun a => do
        let q ← Py.div a z.geo.AsoAc
        MachSub_Sigma newton (q * s0) z.gamma) z.geo.AxoAc with
    | error e => rw [e3] at h; cases h
    | ok M =>
    rw [e3, Py.ok_bind] at h
    cases e4 : staticP z.gamma (z.geo.AxoAc.map fun _ => (1 : ℝ)) M with
    | error e => rw [e4] at h; cases h
    | ok Ps =>
    rw [e4] at h
    exact .sub Ms s0 M Ps hn e1 e2 (vec_ok e3) e4 (Except.ok.inj h).symm
  · rw [if_neg hn] at h
    push Not at hn
    cases e1 : choked_M newton z with
    | error e => rw [e1] at h; cases h
    | ok M0 =>
    rw [e1, Py.ok_bind] at h
    simp only [] at h
    by_cases hn' : n < z.lim.NPRsw
    · rw [if_pos hn'] at h
      cases e2 : Ms_from_AsAc_NPR newton dg z.geo.AsoAc n with
      | error e => rw [e2] at h; cases h
      | ok Ms =>
      rw [e2, Py.ok_bind] at h
      cases e3 : PtPs_Mach Ms gamma0 with
      | error e => rw [e3] at h; cases h
      | ok pr =>
      rw [e3, Py.ok_bind] at h
      by_cases hne : n = 0
      · rw [hne, Py.div_err] at h; cases h
      rw [Py.div_ok hne, Py.ok_bind] at h
      cases e4 : Mn_Pi_ratio (pr / n) gamma0 with
      | error e => rw [e4] at h; cases h
      | ok Msh =>
      rw [e4, Py.ok_bind] at h
      cases e5 : argmin (M0.map fun m => |m - Msh|) with
      | error e => rw [e5] at h; cases h
      | ok ish =>
      rw [e5, Py.ok_bind] at h
      cases e6 : Sigma_Mach Ms gamma0 with
      | error e => rw [e6] at h; cases h
      | ok s =>
      rw [e6, Py.ok_bind] at h
      cases e7 : vec (fun a => do
        let q ← Py.div (a * s) z.geo.AsoAc
        MachSub_Sigma newton q gamma0) (z.geo.AxoAc.drop ish) with
      | error e => rw [e7] at h; cases h
      | ok tail =>
      rw [e7, Py.ok_bind] at h
      cases e8 : staticP gamma0 ((z.geo.AxoAc.map fun _ => (1 : ℝ)).take ish ++
        ((z.geo.AxoAc.map fun _ => (1 : ℝ)).drop ish).map fun _ => pr / n) (M0.take ish ++ tail) with
      | error e => rw [e8] at h; cases h
      | ok Ps =>
      rw [e8] at h
      exact .shock M0 Ms pr Msh s ish tail Ps hn hn' e1 e2 e3 hne e4 (argmin_spec e5) e6 (vec_ok e7) e8 (Except.ok.inj h).symm
    · rw [if_neg hn'] at h
      push Not at hn'
      cases e8 : staticP gamma0 (z.geo.AxoAc.map fun _ => (1 : ℝ)) M0 with
      | error e => rw [e8] at h; cases h
      | ok Ps =>
      rw [e8] at h
      exact .sup M0 Ps hn hn' e1 e8 (Except.ok.inj h).symm

theorem choked_spec {newton : RootFinder} {z : Noz} {M0 : List ℝ} (h : choked_M newton z = .ok M0) :
    M0.length = z.geo.AxoAc.length ∧ z.geo.ithroat + 1 < z.geo.AxoAc.length ∧
    ∀ (i : ℕ) (a m : ℝ), z.geo.AxoAc[i]? = some a → M0[i]? = some m →
      (i ≤ z.geo.ithroat → MachSub_Sigma newton a z.gamma = .ok m) ∧
      (z.geo.ithroat < i → MachSup_Sigma newton a z.gamma = .ok m) := by
  unfold choked_M at h
  cases e1 : vec (fun a => MachSub_Sigma newton a z.gamma) (z.geo.AxoAc.take (z.geo.ithroat + 1)) with
  | error e => rw [e1] at h; cases h
  | ok up =>
  rw [e1, Py.ok_bind] at h
  cases e2 : vec (fun a => MachSup_Sigma newton a z.gamma) (z.geo.AxoAc.drop (z.geo.ithroat + 1)) with
  | error e => rw [e2] at h; cases h
  | ok dn =>
  rw [e2] at h
  have hM := Except.ok.inj h
  have hlt : z.geo.ithroat + 1 < z.geo.AxoAc.length := by
    by_contra hc
    push Not at hc
    rw [List.drop_eq_nil_of_le hc] at e2
    cases e2
  have f1 := vec_ok e1
  have f2 := vec_ok e2
  have l1 : up.length = z.geo.ithroat + 1 := by
    rw [← f1.length_eq, List.length_take]; omega
  have l2 : dn.length = z.geo.AxoAc.length - (z.geo.ithroat + 1) := by
    rw [← f2.length_eq, List.length_drop]
  refine ⟨by rw [← hM, List.length_append, l1, l2]; omega, hlt, ?_⟩
  intro i a m ha hm
  rw [← hM] at hm
  refine ⟨fun hi => ?_, fun hi => ?_⟩
  · rw [List.getElem?_append_left (by omega)] at hm
    exact forall₂_get? f1 (i := i) (by rw [List.getElem?_take_of_lt (by omega)]; exact ha) hm
  · rw [List.getElem?_append_right (by omega), l1] at hm
    exact forall₂_get? f2 (i := i - (z.geo.ithroat + 1))
      (by rw [List.getElem?_drop, show z.geo.ithroat + 1 + (i - (z.geo.ithroat + 1)) = i by omega]; exact ha) hm

theorem set_NPR_frame {newton : RootFinder} {dg n : ℝ} {z z' : Noz} (h : set_NPR newton dg z n = .ok z') :
    z'.gamma = z.gamma ∧ z'.geo = z.geo ∧ z'.lim = z.lim := by
  cases set_NPR_cases h with
  | sub Ms s0 M Ps hn h1 h2 h3 h4 hz => rw [hz]; exact ⟨rfl, rfl, rfl⟩
  | shock M0 Ms pr Msh s ish tail Ps hn hn' h0 h1 h2 hne h3 h4 h5 h6 h7 hz => rw [hz]; exact ⟨rfl, rfl, rfl⟩
  | sup M0 Ps hn hn' h0 h1 hz => rw [hz]; exact ⟨rfl, rfl, rfl⟩

/-- objects obtainable with the public interface: a constructor call (whatever the gas state and the
optional arguments), then any number of `set_NPR` calls -/
inductive Reachable (newton : RootFinder) (sec : List ℝ) (AsoAc : Option ℝ) (gamma : ℝ) : Noz → Prop
  | new (s s' : DefaultGas.State) (npr : Option ℝ) (r sc : ℝ) (z : Noz)
      (h : new newton s sec AsoAc gamma npr r sc = (s', .ok z)) : Reachable newton sec AsoAc gamma z
  | set (dg n : ℝ) (z z' : Noz) (hz : Reachable newton sec AsoAc gamma z)
      (h : set_NPR newton dg z n = .ok z') : Reachable newton sec AsoAc gamma z'

theorem initBody_frame {newton : RootFinder} {dg gamma : ℝ} {g : Geometry} {npr : Option ℝ} {r sc : ℝ} {z : Noz}
    (h : initBody newton dg gamma g npr r sc = .ok z) :
    z.gamma = gamma ∧ z.geo = g ∧ NPR_Ms_list newton g.AsoAc = .ok z.lim := by
  unfold initBody at h
  cases e : NPR_Ms_list newton g.AsoAc with
  | error e' => rw [e] at h; cases h
  | ok l =>
    rw [e, Py.ok_bind] at h
    simp only [] at h
    split at h
    · split at h
      · obtain ⟨h1, h2, h3⟩ := set_NPR_frame h
        rw [h1, h2, h3]; exact ⟨rfl, rfl, rfl⟩
      · rw [← Except.ok.inj h]; exact ⟨rfl, rfl, rfl⟩
    · rw [← Except.ok.inj h]; exact ⟨rfl, rfl, rfl⟩

theorem Reachable.spec {newton : RootFinder} {sec : List ℝ} {AsoAc : Option ℝ} {gamma : ℝ} {z : Noz}
    (h : Reachable newton sec AsoAc gamma z) :
    z.gamma = gamma ∧ geometry sec AsoAc = .ok z.geo ∧ NPR_Ms_list newton z.geo.AsoAc = .ok z.lim := by
  induction h with
  | new s s' npr r sc z h =>
    unfold Nozzle.new at h
    split at h
    · cases h
    · rename_i g hg
      simp only [] at h
      split at h
      · cases h
      · rename_i z0 hz0
        obtain ⟨h1, h2, h3⟩ := initBody_frame hz0
        split at h
        · have h := (Except.ok.inj (Prod.mk.inj h).2)
          rw [← h, hg, h1, h2, h3]
          exact ⟨rfl, rfl, rfl⟩
        · cases h
  | set dg n z z' hz h ih =>
    obtain ⟨h1, h2, h3⟩ := set_NPR_frame h
    obtain ⟨k1, k2, k3⟩ := ih
    rw [h1, h2, h3]; exact ⟨k1, k2, k3⟩

/-- geometry of a positive section law (exit over throat ratio computed by the constructor) -/
theorem geometry_spec {sec : List ℝ} {g : Geometry} (hpos : ∀ s ∈ sec, 0 < s) (h : geometry sec none = .ok g) :
    ∃ smin exit, smin ∈ sec ∧ (∀ s ∈ sec, smin ≤ s) ∧ sec[sec.length - 1]? = some exit ∧ g.AsoAc = exit / smin ∧
      g.AxoAc = sec.map (fun s => s / smin) ∧ FirstMin sec g.ithroat ∧ sec[g.ithroat]? = some smin := by
  unfold geometry at h
  cases e1 : last sec with
  | error e => rw [e1] at h; cases h
  | ok ex =>
  rw [e1] at h
  simp only [Py.ok_bind] at h
  cases e2 : npMin sec with
  | error e => rw [e2] at h; cases h
  | ok mn =>
  obtain ⟨m1, m2⟩ := npMin_spec e2
  have mpos := hpos mn m1
  rw [e2, Py.ok_bind, Py.div_ok mpos.ne', Py.ok_bind] at h
  have hlast : sec[sec.length - 1]? = some ex := by
    unfold last at e1
    cases e3 : sec.getLast? with
    | none => rw [e3] at e1; cases e1
    | some x =>
      rw [e3] at e1
      rw [← List.getLast?_eq_getElem?, e3, Except.ok.inj e1]
  have expos : 0 < ex := hpos ex (List.mem_of_getElem? hlast)
  have hmap : sec.mapM (fun s => Py.div (s * (ex / mn)) ex) = .ok (sec.map fun s => s / mn) := by
    apply mapM_of_forall
    intro a _
    rw [Py.div_ok expos.ne']
    congr 1; field_simp
  rw [hmap, Py.ok_bind] at h
  cases e4 : argmin ((sec.map fun s => s / mn).map abs) with
  | error e => rw [e4] at h; cases h
  | ok it =>
  rw [e4, Py.ok_bind] at h
  have hg := Except.ok.inj h
  have hfm : FirstMin sec it := by
    obtain ⟨v, v1, v2, v3⟩ := argmin_spec e4
    have conv : ∀ (j : ℕ) (s : ℝ), sec[j]? = some s → ((sec.map fun s => s / mn).map abs)[j]? = some (s / mn) := by
      intro j s hs
      have := hpos s (List.mem_of_getElem? hs)
      rw [List.getElem?_map, List.getElem?_map, hs]
      simp only [Option.map_some]
      rw [abs_of_pos (by positivity)]
    have hit : ∃ s, sec[it]? = some s := by
      cases hs : sec[it]? with
      | some s => exact ⟨s, rfl⟩
      | none => rw [List.getElem?_map, List.getElem?_map, hs] at v1; cases v1
    obtain ⟨s, hs⟩ := hit
    have hv : v = s / mn := by
      have := conv it s hs
      rw [v1] at this
      exact Option.some.inj this
    refine ⟨s, hs, ?_, ?_⟩
    · intro j w hw
      have := v2 j _ (conv j w hw)
      rw [hv] at this
      exact (div_le_div_iff_of_pos_right mpos).1 this
    · intro j w hj hw
      have := v3 j _ hj (conv j w hw)
      rw [hv] at this
      exact (div_lt_div_iff_of_pos_right mpos).1 this
  refine ⟨mn, ex, m1, m2, hlast, by rw [← hg], by rw [← hg], by rw [← hg]; exact hfm, ?_⟩
  rw [← hg]
  obtain ⟨v, v1, v2, v3⟩ := hfm
  show sec[it]? = some mn
  rw [v1]
  obtain ⟨j, hj⟩ := List.mem_iff_getElem?.1 m1
  have a := v2 j mn hj
  have b := m2 v (List.mem_of_getElem? v1)
  rw [le_antisymm a b]

end Aerokit.Nozzle
