import Verif.Props.NozzleRegimes

/-! # Property C163 : the shock in the diffuser of `notebooks/aero/Nozzle-regimes.ipynb`, cell 18 -/

namespace Aerokit.Props
open Isentropic MassFlow ShockWave Nozzle NozzleRegimes Spec ListPy Real
open DefaultGas (gamma0)

private theorem exitMach_eq (A n : ℝ) : exitMach A n = Ms_shock_in_diffuser gamma0 A n := by
  unfold exitMach Ms_shock_in_diffuser
  have e : (1.0 : ℝ) = 1 := by norm_num
  simp only [Py.div_ok (two_ne_zero : (2:ℝ) ≠ 0), Py.ok_bind, e]

private theorem vec_inv {f : ℝ → Py ℝ} {a b : List ℝ} (h : vec f a = .ok b) : a ≠ [] ∧ List.Forall₂ (fun x y => f x = .ok y) a b := by
  unfold vec at h
  match a, h with
  | x :: xs, h => exact ⟨by simp, mapM_ok h⟩

private theorem sub_init_neg {q w : ℝ} (h0 : 0 < q) (h1 : q < 1) (h : MachSub_sigma_init q gamma0 = .ok w) : False := by
  unfold MachSub_sigma_init at h
  obtain ⟨a, ha, h⟩ := Py.bind_inv h
  obtain ⟨k, hk, h⟩ := Py.bind_inv h
  obtain ⟨r, hr, -⟩ := Py.bind_inv h
  rw [Py.div_ok h0.ne'] at ha
  have ha := Except.ok.inj ha
  have hkk : (4.0 * (gamma0 - 1.0)) / (3.0 - gamma0) = 1 := by rw [gamma0_eq]; norm_num
  rw [Py.div_ok (by rw [gamma0_eq]; norm_num), hkk] at hk
  have hk := Except.ok.inj hk
  have : 1 < a := by
    rw [← ha, lt_div_iff₀ h0]; norm_num; exact h1
  have hs := (Py.sqrt_inv hr).1
  rw [← hk, mul_one] at hs
  norm_num at hs
  linarith

/-- C163 (shock in the diffuser, cell 18), whenever the cell returns (the inversion of the total pressure ratio and the solver converge): the pressure ratio
is between the two limits, which are reached at the ends of the range of `pos`; the exit Mach number is the one of `Ms_from_AsAc_NPR` and is subsonic; the profile switches at an index `ish` of the contour, the
first one whose Mach number is the closest to the one found for the total pressure loss; before it the flow is the isentropic one, with unit total pressure,
from it on the flow is subsonic with total pressure `Ptloss ≤ 1`; `Sigma(M) = A/A* Pt` at every section, so that the mass flow is the same everywhere; the
last section has the exit Mach number, and the pressure beyond is `1 / NPR`. -/
theorem C163_shock (newton : RootFinder) (hb : BranchRootFinder newton) (hc : CompleteRF newton) (A : ℝ) (hA : 1 < A) (hA' : A ≤ 25)
    (n : ℕ) (hn : 2 ≤ n) (c : Contour) (h : contour newton A 8 n = .ok c) (l : Limits) (hl : NPR_Ms_list newton A = .ok l) (pos : ℝ)
    (p0 : 0 ≤ pos) (p1 : pos ≤ 1) (o : Diffuser) (ho : diffuserShock newton c l A pos = .ok o) :
    l.NPR0 ≤ o.NPR ∧ o.NPR ≤ l.NPRsw ∧ (pos = 0 → o.NPR = l.NPR0) ∧ (pos = 1 → o.NPR = l.NPRsw) ∧ Ms_from_AsAc_NPR newton gamma0 A o.NPR = .ok o.Ms ∧ 0 < o.Ms ∧ o.Ms < 1 ∧
      0 < o.Ptloss ∧ o.Ptloss ≤ 1 ∧ Mn_Pi_ratio o.Ptloss gamma0 = .ok o.Msh ∧ o.ish < n ∧
      (∃ m, c.ma[o.ish]? = some m ∧ ∀ (j : ℕ) (m' : ℝ), c.ma[j]? = some m' → |m - o.Msh| ≤ |m' - o.Msh|) ∧
      o.curves.M.length = n + 2 ∧ o.curves.Pt = List.replicate o.ish 1 ++ List.replicate (n - o.ish) o.Ptloss ++ [o.Ptloss, o.Ptloss] ∧
      StaticOf o.curves ∧
      (∀ (i : ℕ) (a m q : ℝ), i < n → c.AoAc[i]? = some a → o.curves.M[i]? = some m → o.curves.Pt[i]? = some q →
        Sigma_Mach m gamma0 = .ok (a * q) ∧ (i < o.ish → c.ma[i]? = some m) ∧ (o.ish ≤ i → 0 < m ∧ m ≤ 1)) ∧
      o.curves.M[n - 1]? = some o.Ms ∧ o.curves.M.getLast? = some o.Ms ∧ o.curves.Ps.getLast? = some (1 / o.NPR) := by
  have hg := one_lt_gamma0
  have hA0 : 0 < A := by linarith
  have H := limits_spec hb hA hl
  obtain ⟨c', hc', hlx, hlm, hla, -, -, hlastA, -, -, -, hpt, -⟩ := C163_contour newton hb hc A hA hA' n hn
  obtain rfl : c = c' := Except.ok.inj (h.symm.trans hc')
  obtain ⟨s0, hs0, hM, -, -, -, -⟩ := C163_supersonic newton hb hc A hA hA' n hn c h
  have hsup : supersonic_M newton c = .ok c.ma := by
    unfold NozzleRegimes.supersonic at hs0
    obtain ⟨M, e1, hs0⟩ := Py.bind_inv hs0
    obtain ⟨e, e2, hs0⟩ := Py.bind_inv hs0
    obtain ⟨P, e3, hs0⟩ := Py.bind_inv hs0
    have e4 := Except.ok.inj hs0
    rw [← e4] at hM
    simp only [] at hM
    have := List.append_inj_left hM (by
      have := congrArg List.length hM
      simp only [List.length_append, List.length_cons, List.length_nil] at this
      omega)
    rw [e1, this]
  unfold diffuserShock at ho
  simp only [] at ho
  rw [hsup, Py.ok_bind, exitMach_eq] at ho
  obtain ⟨Ms, hMs, ho⟩ := Py.bind_inv ho
  rw [PtPs_ppt hg, Py.ok_bind] at ho
  obtain ⟨K, hK, ho⟩ := Py.bind_inv ho
  obtain ⟨Msh, hMsh, ho⟩ := Py.bind_inv ho
  obtain ⟨ish, hish, ho⟩ := Py.bind_inv ho
  obtain ⟨s, hs, ho⟩ := Py.bind_inv ho
  obtain ⟨down, hdown, ho⟩ := Py.bind_inv ho
  rw [staticP_ok, Py.ok_bind, Py.pure_eq] at ho
  obtain rfl := Except.ok.inj ho
  simp only []
  set N := l.NPR0 * (1.0 - pos) + l.NPRsw * pos with hNdef
  have hN : N = l.NPR0 * (1 - pos) + l.NPRsw * pos := by rw [hNdef]; norm_num
  clear_value N
  have hord := (H.ordered hg).2.1
  have hN0 : l.NPR0 ≤ N := by nlinarith
  have hN1 : N ≤ l.NPRsw := by nlinarith
  have hfrom : Ms_from_AsAc_NPR newton gamma0 A N = .ok Ms := by
    unfold Ms_from_AsAc_NPR
    rw [hl, Py.ok_bind, if_neg (not_lt.2 hN0), if_neg (not_lt.2 hN1), hMs]
  obtain ⟨hNp, m0, m1, m2, -, -, hsig⟩ := shock_exit hb hA hl hN0 hN1 hfrom
  have hpp := ppt_pos (M := Ms) hg
  have hKv : K = ppt Ms gamma0 / N := by
    rw [Py.div_ok hNp.ne'] at hK; exact (Except.ok.inj hK).symm
  have hKp : 0 < K := by rw [hKv]; positivity
  have hsv : s = A * K := by
    rw [Sigma_Mach_ok hg m0.ne', hsig] at hs
    rw [hKv]; exact (Except.ok.inj hs).symm
  have hK1 : K ≤ 1 := by
    have := (sig_strictAnti hg).antitoneOn ⟨H.sub0, H.sub1.le⟩ ⟨m0, m1.le⟩ m2
    simp only [H.hsub, hsig, ← hKv] at this
    nlinarith
  have hfm := argmin_spec hish
  obtain ⟨v, hv, hmin, -⟩ := hfm
  rw [List.getElem?_map, Option.map_eq_some_iff] at hv
  obtain ⟨mi, hmi, rfl⟩ := hv
  have hishn : ish < n := by
    have := (List.getElem?_eq_some_iff.1 hmi).1
    rwa [hlm] at this
  obtain ⟨-, hdw⟩ := vec_inv hdown
  have hld : down.length = n - ish := by rw [← hdw.length_eq, List.length_drop, hla]
  have htk : (c.ma.take ish).length = ish := by rw [List.length_take, hlm]; omega
  -- points of the profile
  have hpoint : ∀ (i : ℕ) (a m : ℝ), c.AoAc[i]? = some a → ish ≤ i → i < n →
      (c.ma.take ish ++ down ++ [Ms, Ms])[i]? = some m → 0 < m ∧ m ≤ 1 ∧ sig m gamma0 = a * K := by
    intro i a m ha hi hin hm
    rw [List.getElem?_append_left (by rw [List.length_append, htk, hld]; omega), List.getElem?_append_right (by rw [htk]; exact hi), htk] at hm
    have ha' : (c.AoAc.drop ish)[i - ish]? = some a := by rw [List.getElem?_drop]; rw [← ha]; congr 1; omega
    have := forall₂_get? hdw ha' hm
    rw [Py.div_ok hA0.ne', Py.ok_bind, hsv] at this
    have e : a * (A * K) / A = a * K := by field_simp
    rw [e] at this
    obtain ⟨x, m', hx, hm'⟩ : ∃ x m', c.x[i]? = some x ∧ c.ma[i]? = some m' := by
      refine ⟨c.x[i]'(by omega), c.ma[i]'(by omega), List.getElem?_eq_getElem _, List.getElem?_eq_getElem _⟩
    have ha1 := (hpt i x m' a hx hm' ha).2.2.1
    have hq : 1 ≤ a * K := by
      by_contra hcon
      push Not at hcon
      have hap : 0 < a * K := by positivity
      unfold MachSub_Sigma at this
      obtain ⟨w, hw, -⟩ := Py.bind_inv this
      exact sub_init_neg hap hcon hw
    exact MachSub_branch hb hg g3 hq this
  have hPt : (c.x.take ish).map (fun _ => (1 : ℝ)) ++ (c.x.drop ish).map (fun _ => K) ++ [K, K] =
      List.replicate ish 1 ++ List.replicate (n - ish) K ++ [K, K] := by
    rw [List.map_const', List.map_const', List.length_take, List.length_drop, hlx, Nat.min_eq_left hishn.le]
  have hlenM : (c.ma.take ish ++ down ++ [Ms, Ms]).length = n + 2 := by
    rw [List.length_append, List.length_append, htk, hld]; simp only [List.length_cons, List.length_nil]; omega
  have hPtlen : ((c.x.take ish).map (fun _ => (1 : ℝ)) ++ (c.x.drop ish).map (fun _ => K) ++ [K, K]).length =
      (c.ma.take ish ++ down ++ [Ms, Ms]).length := by
    rw [hPt, hlenM, List.length_append, List.length_append, List.length_replicate, List.length_replicate]
    simp only [List.length_cons, List.length_nil]; omega
  refine ⟨hN0, hN1, fun e => by rw [hN, e]; ring, fun e => by rw [hN, e]; ring, hfrom, m0, m1, hKp, hK1, hMsh, hishn, ⟨mi, hmi, ?_⟩, hlenM, hPt, noz_staticOf_mk _ _ hPtlen, ?_, ?_, ?_, ?_⟩
  · intro j m' hm'
    exact hmin j _ (by rw [List.getElem?_map, hm']; rfl)
  · intro i a m q hin ha hm hq
    rw [hPt] at hq
    rcases lt_or_ge i ish with hi | hi
    · rw [List.append_assoc, List.getElem?_append_left (by rw [htk]; exact hi), List.getElem?_take_of_lt hi] at hm
      rw [List.append_assoc, List.getElem?_append_left (by rw [List.length_replicate]; exact hi), List.getElem?_replicate, if_pos hi] at hq
      obtain rfl := Option.some.inj hq
      obtain ⟨x, hx⟩ : ∃ x, c.x[i]? = some x := ⟨c.x[i]'(by omega), List.getElem?_eq_getElem _⟩
      refine ⟨?_, fun _ => hm, fun h => by omega⟩
      rw [mul_one]
      exact (hpt i x m a hx hm ha).1
    · obtain ⟨b0, b1, b2⟩ := hpoint i a m ha hi hin hm
      rw [List.getElem?_append_left (by rw [List.length_append, List.length_replicate, List.length_replicate]; omega),
        List.getElem?_append_right (by rw [List.length_replicate]; exact hi), List.length_replicate, List.getElem?_replicate,
        if_pos (by omega)] at hq
      obtain rfl := Option.some.inj hq
      refine ⟨?_, fun h => by omega, fun _ => ⟨b0, b1⟩⟩
      rw [Sigma_Mach_ok hg b0.ne', b2]
  · obtain ⟨m, hm⟩ : ∃ m, (c.ma.take ish ++ down ++ [Ms, Ms])[n - 1]? = some m :=
      ⟨(c.ma.take ish ++ down ++ [Ms, Ms])[n - 1]'(by rw [hlenM]; omega), List.getElem?_eq_getElem _⟩
    have ha : c.AoAc[n - 1]? = some A := by rw [← hlastA, List.getLast?_eq_getElem?, hla]
    obtain ⟨b0, b1, b2⟩ := hpoint (n - 1) A m ha (by omega) (by omega) hm
    rw [hm]
    congr 1
    refine (sig_strictAnti hg).injOn ⟨b0, b1⟩ ⟨m0, m1.le⟩ ?_
    rw [b2, hsig, hKv]
  · simp
  · have : 1 / N = K / ppt Ms gamma0 := by rw [hKv]; field_simp
    rw [this]
    have hl2 : ((c.x.take ish).map (fun _ => (1 : ℝ)) ++ (c.x.drop ish).map (fun _ => K)).length = (c.ma.take ish ++ down).length := by
      simp only [List.length_append, List.length_cons, List.length_nil] at hPtlen
      simp only [List.length_append] 
      omega
    rw [List.zip_append hl2, List.map_append]
    simp

/-- bounds of the Mach numbers of a contour of three points -/
private theorem three_points : 0 < cma 3 0 ∧ cma 3 0 ≤ 0.59 ∧ 1.5 ≤ cma 3 4 ∧ cma 3 4 ≤ 2.4 ∧ cma 3 8 = 3 := by
  have h1 := pi_gt_d2
  have h2 := pi_lt_d2
  unfold cma
  have e0 : π * (0 - 1) / 14 = -(π / 14) := by ring
  have e4 : π * (4 - 1) / 14 = 3 * π / 14 := by ring
  have e8 : π * (8 - 1) / 14 = π / 2 := by ring
  rw [e0, sin_neg, e4, e8, sin_pi_div_two]
  have b1 := sin_gt_sub_cube (x := π / 14) (by positivity)
  have b2 := sin_lt (x := π / 14) (by positivity)
  have b3 := sin_gt_sub_cube (x := 3 * π / 14) (by positivity)
  have b4 := sin_lt (x := 3 * π / 14) (by positivity)
  have c1 : (π / 14) ^ 3 ≤ 0.225 ^ 3 := pow_le_pow_left₀ (by positivity) (by linarith) 3
  have c3 : (3 * π / 14) ^ 3 ≤ 0.675 ^ 3 := pow_le_pow_left₀ (by positivity) (by linarith) 3
  norm_num at c1 c3 ⊢
  refine ⟨by linarith, by linarith, by linarith, by linarith⟩

private theorem noz3 : noz_x 8 3 = [0, 4, 8] := by
  unfold noz_x
  simp [List.range_succ]
  norm_num

/-- the hypotheses of `C163_shock` are satisfiable: the nozzle of exit ratio `Sigma(3)`, three points, a shock of Mach number 1.5 -/
example : ∃ newton A c l pos o, BranchRootFinder newton ∧ CompleteRF newton ∧ 1 < A ∧ A ≤ 25 ∧ contour newton A 8 3 = .ok c ∧
    NPR_Ms_list newton A = .ok l ∧ 0 ≤ pos ∧ pos ≤ 1 ∧ diffuserShock newton c l A pos = .ok o ∧ 0 < o.ish := by
  have hg := one_lt_gamma0
  obtain ⟨nf, -, hb, hc⟩ := exists_branchRootFinder
  obtain ⟨l, hl, H, h3⟩ := limits3 hb hc
  have hA : 1 < sig 3 gamma0 := one_lt_sig_sup hg (by norm_num)
  have hA' : sig 3 gamma0 ≤ 25 := by
    rw [← sig_five]
    exact (sig_strictMono hg).monotoneOn (Set.mem_Ici.2 (by norm_num)) (Set.mem_Ici.2 (by norm_num)) (by norm_num)
  obtain ⟨M, hM, h5, hs, he⟩ := noz_contour_eq hb hc hA hA' (n := 3) (by norm_num)
  obtain rfl : M = 3 := (sig_strictMono hg).injOn (Set.mem_Ici.2 hM.le) (Set.mem_Ici.2 (by norm_num)) hs
  obtain ⟨Ms, n, m0, m1, hsm, hmsd, hK, n0, n1⟩ := shock15 H h3
  have hd : 0 < l.NPRsw - l.NPR0 := by linarith
  have hA0 : 0 < sig 3 gamma0 := by linarith
  have hNp : 0 < n := by linarith [(H.ordered hg).1]
  have hNeq : l.NPR0 * (1.0 - (n - l.NPR0) / (l.NPRsw - l.NPR0)) + l.NPRsw * ((n - l.NPR0) / (l.NPRsw - l.NPR0)) = n := by
    have e : (1.0 : ℝ) = 1 := by norm_num
    rw [e]; field_simp; ring
  obtain ⟨a0, a1, b1, b2, b3⟩ := three_points
  set K := ptr 1.5 gamma0 with hKdef
  have hKp : 0 < K := ptr_pos hg (dom_of_one_le hg (by norm_num))
  have hsh15 : 1 < sig 1.5 gamma0 * K := by
    have hdd : dom 1.5 gamma0 := dom_of_one_le hg (by norm_num)
    rw [hKdef, ← sig_shock hg (by norm_num)]
    exact one_lt_sig_sub hg (Real.sqrt_pos.2 (mn2_pos hg hdd)) (by
      rw [Real.sqrt_lt' one_pos]
      unfold mn2; rw [gamma0_eq]; norm_num)
  have hq : ∀ m : ℝ, 1.5 ≤ m → ∃ d, MachSub_Sigma nf (sig m gamma0 * K) gamma0 = .ok d := by
    intro m hm
    have h1 : 1 < sig m gamma0 * K := by
      have := (sig_strictMono hg).monotoneOn (Set.mem_Ici.2 (by norm_num)) (Set.mem_Ici.2 (by linarith)) hm
      exact hsh15.trans_le (mul_le_mul_of_nonneg_right this hKp.le)
    obtain ⟨d, d0, d1, hd⟩ := exists_sub hg h1
    exact ⟨d, by rw [← hd]; exact MachSub_total hb hc hg g3 d0 d1.le⟩
  obtain ⟨d1, hd1⟩ := hq _ b1
  obtain ⟨d2, hd2⟩ := hq 3 (by norm_num)
  have hfm : FirstMin [|cma 3 0 - 1.5|, |cma 3 4 - 1.5|, |(3:ℝ) - 1.5|] 1 := by
    have k0 : |cma 3 0 - 1.5| = 1.5 - cma 3 0 := by rw [abs_of_neg (by linarith)]; ring
    have k1 : |cma 3 4 - 1.5| = cma 3 4 - 1.5 := abs_of_nonneg (by linarith)
    have k2 : |(3:ℝ) - 1.5| = 1.5 := by norm_num
    have l0 : cma 3 4 - 1.5 < 1.5 - cma 3 0 := by linarith
    have l1 : cma 3 4 - 1.5 ≤ 1.5 := by linarith
    refine ⟨|cma 3 4 - 1.5|, rfl, ?_, ?_⟩
    · intro j w hw
      rw [k0, k1, k2] at hw
      rw [k1]
      match j with
      | 0 => simp at hw; linarith
      | 1 => simp at hw; linarith
      | 2 => simp at hw; linarith
      | j + 3 => simp at hw
    · intro j w hj hw
      match j with
      | 0 =>
        rw [k0, k1, k2] at hw
        rw [k1]
        simp at hw; linarith
  have hx := noz_supersonic_M_eq hb hc hM h5 (n := 3) (by norm_num)
  have hrun : ∃ o, diffuserShock nf ⟨3, noz_x 8 3, (noz_x 8 3).map (cma 3), (noz_x 8 3).map fun t => sig (cma 3 t) gamma0⟩ l (sig 3 gamma0)
      ((n - l.NPR0) / (l.NPRsw - l.NPR0)) = .ok o ∧ o.ish = 1 := by
    unfold diffuserShock
    simp only []
    rw [hx, Py.ok_bind, exitMach_eq, hNeq, msd_ok hg hA0, Py.ok_bind, hmsd, PtPs_ppt hg, Py.ok_bind, Py.div_ok hNp.ne', Py.ok_bind,
      hK, Mn_Pi_ratio_15, Py.ok_bind, noz3]
    simp only [List.map_cons, List.map_nil]
    rw [b3, argmin_of hfm, Py.ok_bind, Sigma_Mach_ok hg m0.ne', Py.ok_bind, hsm]
    have hv : vec (fun a => do
        let q ← Py.div (a * (sig 3 gamma0 * K)) (sig 3 gamma0)
        MachSub_Sigma nf q gamma0) (List.drop 1 [sig (cma 3 0) gamma0, sig (cma 3 4) gamma0, sig 3 gamma0]) = .ok [d1, d2] := by
      have e : ∀ a : ℝ, a * (sig 3 gamma0 * K) / sig 3 gamma0 = a * K := fun a => by field_simp
      unfold vec
      simp only [List.drop_succ_cons, List.drop_zero, List.mapM_cons, List.mapM_nil, Py.div_ok hA0.ne', Py.ok_bind, e, hd1, hd2, Py.pure_eq]
    rw [hv, Py.ok_bind, staticP_ok, Py.ok_bind, Py.pure_eq]
    exact ⟨_, rfl, rfl⟩
  obtain ⟨o, ho, hi⟩ := hrun
  exact ⟨nf, _, _, l, (n - l.NPR0) / (l.NPRsw - l.NPR0), o, hb, hc, hA, hA', he, hl, div_nonneg (by linarith) hd.le,
    by rw [div_le_one hd]; linarith, ho, by omega⟩

end Aerokit.Props
