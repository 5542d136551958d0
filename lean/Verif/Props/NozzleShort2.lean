import Verif.Props.NozzleShort

/-! # Property C164 : the sections of `notebooks/aero/Nozzle-widget.ipynb` and their throat -/

namespace Aerokit.Props
open Isentropic MassFlow ShockWave Nozzle NozzleRegimes NozzleShort Spec ListPy Real
open DefaultGas (gamma0)

/-- C164 (sections of `iplot`): for a requested exit ratio above 1, the rescaled sections run from the contour of the target: they are at least 1, decrease
up to the abscissa 1, increase from it, and end at the requested ratio. -/
theorem C164_sections (newton : RootFinder) (hb : BranchRootFinder newton) (hc : CompleteRF newton) (A : ℝ) (hA : 1 < A) (hA' : A ≤ 25)
    (n : ℕ) (hn : 2 ≤ n) (c : Contour) (h : contour newton A 8 n = .ok c) (As : ℝ) (hAs : 1 < As) :
    ∃ sec, sections c A As = .ok sec ∧ sec.length = n ∧ sec.getLast? = some As ∧ (∀ s ∈ sec, 1 ≤ s) ∧
      (∀ (i j : ℕ) (x y a b : ℝ), i < j → c.x[i]? = some x → c.x[j]? = some y → sec[i]? = some a → sec[j]? = some b →
        (y ≤ 1 → b < a) ∧ (1 ≤ x → a < b)) := by
  obtain ⟨c', hc', hlx, hlm, hla, -, -, hlastA, -, -, -, hpt, hmono⟩ := C163_contour newton hb hc A hA hA' n hn
  obtain rfl : c = c' := Except.ok.inj (h.symm.trans hc')
  have hA1 : 0 < A - 1 := by linarith
  have hk : 0 < (As - 1) / (A - 1) := div_pos (by linarith) hA1
  refine ⟨_, by unfold sections; rw [Py.div_ok hA1.ne', Py.ok_bind, Py.pure_eq], by simp [hla], ?_, ?_, ?_⟩
  · rw [List.getLast?_map, hlastA, Option.map_some]
    congr 1
    norm_num
    field_simp
    ring
  · intro s hs
    obtain ⟨a, ha, rfl⟩ := List.mem_map.1 hs
    obtain ⟨i, hi⟩ := List.mem_iff_getElem?.1 ha
    have hin : i < n := by have := (List.getElem?_eq_some_iff.1 hi).1; omega
    have h1 := (hpt i _ _ a (List.getElem?_eq_getElem (by omega)) (List.getElem?_eq_getElem (by omega)) hi).2.2.1
    have := mul_nonneg hk.le (sub_nonneg.2 h1)
    norm_num
    linarith
  · intro i j x y a b hij hx hy ha hb'
    rw [List.getElem?_map, Option.map_eq_some_iff] at ha hb'
    obtain ⟨a', ha', rfl⟩ := ha
    obtain ⟨b', hb', rfl⟩ := hb'
    obtain ⟨k1, k2⟩ := hmono i j x y a' b' hij hx hy ha' hb'
    constructor
    · intro hy1
      have := mul_lt_mul_of_pos_left (sub_lt_sub_right (k1 hy1) (1.0:ℝ)) hk
      linarith
    · intro hx1
      have := mul_lt_mul_of_pos_left (sub_lt_sub_right (k2 hx1) (1.0:ℝ)) hk
      linarith

/-- the smallest section is 1 exactly when a point of the grid is at the abscissa 1 -/
private theorem one_mem_iff {newton : RootFinder} (hb : BranchRootFinder newton) (hc : CompleteRF newton) {A : ℝ} (hA : 1 < A) (hA' : A ≤ 25)
    {n : ℕ} (hn : 2 ≤ n) {c : Contour} (h : contour newton A 8 n = .ok c) {As : ℝ} (hAs : 1 < As) {sec : List ℝ} (hs : sections c A As = .ok sec) :
    (1 : ℝ) ∈ sec ↔ 8 ∣ n - 1 := by
  have hg := one_lt_gamma0
  obtain ⟨M, hM, h5, hsM, he⟩ := noz_contour_eq hb hc hA hA' hn
  obtain rfl := Except.ok.inj (he.symm.trans h)
  have hA1 : 0 < A - 1 := by linarith
  have hk : 0 < (As - 1) / (A - 1) := div_pos (by linarith) hA1
  unfold sections at hs
  rw [Py.div_ok hA1.ne', Py.ok_bind, Py.pure_eq] at hs
  obtain rfl := Except.ok.inj hs
  have hn' : (2:ℝ) ≤ n := by exact_mod_cast hn
  have hn0 : (0:ℝ) < (n : ℝ) - 1 := by linarith
  have hcast : ((n - 1 : ℕ) : ℝ) = (n : ℝ) - 1 := by rw [Nat.cast_sub (by omega), Nat.cast_one]
  constructor
  · intro h1
    obtain ⟨a, ha, e⟩ := List.mem_map.1 h1
    obtain ⟨t, ht, rfl⟩ := List.mem_map.1 ha
    obtain ⟨t0, t8⟩ := noz_bounds hn ht
    have ea : sig (cma M t) gamma0 = 1 := by
      norm_num at e
      rcases e with e | e
      · exact absurd e (by push Not; exact ⟨by linarith, by linarith⟩)
      · linarith
    have et : t = 1 := by
      rcases lt_trichotomy t 1 with hlt | e | hgt
      · have := cma_lt hM t0 hlt (by norm_num)
        rw [cma_one] at this
        have := one_lt_sig_sub hg (cma_pos hM h5 t0 t8) this
        linarith
      · exact e
      · have := cma_lt hM (by norm_num) hgt t8
        rw [cma_one] at this
        have := one_lt_sig_sup hg this
        linarith
    obtain ⟨i, hi⟩ := List.mem_iff_getElem?.1 ht
    obtain ⟨-, e2⟩ := noz_get hi
    refine ⟨i, ?_⟩
    have e3 : ((n - 1 : ℕ) : ℝ) = ((8 * i : ℕ) : ℝ) := by
      rw [hcast]; push_cast
      rw [et] at e2
      field_simp at e2
      linarith
    exact_mod_cast e3
  · rintro ⟨k, hk8⟩
    have hx : (1 : ℝ) ∈ noz_x 8 n := by
      unfold noz_x
      refine List.mem_map.2 ⟨k, List.mem_range.2 (by omega), ?_⟩
      have : (n : ℝ) - 1 = 8 * k := by rw [← hcast, hk8]; push_cast; ring
      rw [this] at hn0 ⊢
      have hk0 : (k : ℝ) ≠ 0 := by intro e; rw [e] at hn0; simp at hn0
      field_simp
    refine List.mem_map.2 ⟨sig (cma M 1) gamma0, List.mem_map.2 ⟨1, hx, rfl⟩, ?_⟩
    rw [cma_one, sig_one hg]
    norm_num

/-- C164 (throat of the widget): the exit ratio that the constructor `nozzle(Noz_x, sections)` computes from the smallest sampled section is at most the requested
one, and equal to it exactly when the number of points is one more than a multiple of 8 (a point falls on the throat, abscissa 1 of `[0, 8]`). -/
theorem C164_throat (newton : RootFinder) (hb : BranchRootFinder newton) (hc : CompleteRF newton) (A : ℝ) (hA : 1 < A) (hA' : A ≤ 25)
    (n : ℕ) (hn : 2 ≤ n) (c : Contour) (h : contour newton A 8 n = .ok c) (As : ℝ) (hAs : 1 < As) (sec : List ℝ)
    (hs : sections c A As = .ok sec) (g : Geometry) (hgeo : geometry sec none = .ok g) :
    g.AsoAc ≤ As ∧ (g.AsoAc = As ↔ 8 ∣ n - 1) ∧ (3 ≤ n → 1 < g.AsoAc) := by
  obtain ⟨sec', hs', hlen, hlast, hge, hmono⟩ := C164_sections newton hb hc A hA hA' n hn c h As hAs
  obtain rfl : sec = sec' := Except.ok.inj (hs.symm.trans hs')
  obtain ⟨smin, ex, m1, m2, hex, hAe, hax, hfm, hthr⟩ := geometry_spec (fun s hs => lt_of_lt_of_le one_pos (hge s hs)) hgeo
  rw [← List.getLast?_eq_getElem?, hlast] at hex
  obtain rfl := Option.some.inj hex
  have h1 := hge smin m1
  have h0 : 0 < smin := by linarith
  rw [← one_mem_iff hb hc hA hA' hn h hAs hs, hAe]
  refine ⟨by rw [div_le_iff₀ h0]; nlinarith, ⟨fun e => ?_, fun h1m => ?_⟩, fun h3 => ?_⟩
  · rw [div_eq_iff h0.ne'] at e
    have : smin = 1 := by
      have : As * (smin - 1) = 0 := by linarith
      rcases mul_eq_zero.1 this with e | e <;> linarith
    rw [← this]; exact m1
  · have : smin = 1 := le_antisymm (m2 1 h1m) h1
    rw [this, div_one]
  · rw [one_lt_div h0]
    obtain ⟨c', hc', hlx, -⟩ := C163_contour newton hb hc A hA hA' n hn
    obtain rfl : c = c' := Except.ok.inj (h.symm.trans hc')
    obtain ⟨M, hM, h5, hsM, he⟩ := noz_contour_eq hb hc hA hA' hn
    have hcx : c.x = noz_x 8 n := by rw [Except.ok.inj (h.symm.trans he)]
    obtain ⟨x, hx⟩ : ∃ x, c.x[n - 2]? = some x := ⟨c.x[n - 2]'(by omega), List.getElem?_eq_getElem _⟩
    obtain ⟨y, hy⟩ : ∃ y, c.x[n - 1]? = some y := ⟨c.x[n - 1]'(by omega), List.getElem?_eq_getElem _⟩
    obtain ⟨a, ha⟩ : ∃ a, sec[n - 2]? = some a := ⟨sec[n - 2]'(by omega), List.getElem?_eq_getElem _⟩
    have hb2 : sec[n - 1]? = some As := by rw [← hlast, List.getLast?_eq_getElem?, hlen]
    have hx1 : 1 ≤ x := by
      rw [hcx] at hx
      obtain ⟨-, e⟩ := noz_get hx
      have h3' : (3:ℝ) ≤ n := by exact_mod_cast h3
      rw [e, Nat.cast_sub hn, ← mul_div_assoc, le_div_iff₀ (by linarith)]
      push_cast
      linarith
    have := (hmono (n - 2) (n - 1) x y a As (by omega) hx hy ha hb2).2 hx1
    exact lt_of_le_of_lt (m2 a (List.mem_of_getElem? ha)) this

/-- C164 (the widget draws the limits of another nozzle) fails: with 400 points the throat is not sampled: the exit ratio of the object is strictly below the requested
one, and its limit `NPR0` is strictly above the `NPR0` of the requested ratio that `iplot` draws; for every pressure ratio between the two, the drawn profile is
isentropic (unit total pressure everywhere), although the pressure ratio is above the drawn limit of that regime. -/
theorem C164_throat_false (newton : RootFinder) (hb : BranchRootFinder newton) (hc : CompleteRF newton) (A : ℝ) (hA : 1 < A) (hA' : A ≤ 25)
    (c : Contour) (h : contour newton A 8 400 = .ok c) (As : ℝ) (hAs : 1 < As) (sec : List ℝ) (hs : sections c A As = .ok sec)
    (z : Noz) (hz : Reachable newton sec none gamma0 z) (l : Limits) (hl : NPR_Ms_list newton As = .ok l) :
    z.geo.AsoAc < As ∧ l.NPR0 < z.lim.NPR0 ∧
      ∀ n z' Pt, l.NPR0 < n → n < z.lim.NPR0 → set_NPR newton gamma0 z n = .ok z' → z'.Ptot = .ok Pt → ∀ p ∈ Pt, p = 1 := by
  have hg := one_lt_gamma0
  obtain ⟨e1, e2, e3⟩ := hz.spec
  obtain ⟨sec', hs', -, -, hge, -⟩ := C164_sections newton hb hc A hA hA' 400 (by norm_num) c h As hAs
  obtain rfl : sec = sec' := Except.ok.inj (hs.symm.trans hs')
  have hpos : ∀ s ∈ sec, 0 < s := fun s hs => lt_of_lt_of_le one_pos (hge s hs)
  obtain ⟨k1, k2, k3⟩ := C164_throat newton hb hc A hA hA' 400 (by norm_num) c h As hAs sec hs z.geo e2
  have hlt : z.geo.AsoAc < As := lt_of_le_of_ne k1 (fun e => absurd (k2.1 e) (by decide))
  have hz1 := k3 (by norm_num)
  have H := limits_spec hb hAs hl
  have H' := limits_spec hb hz1 e3
  have hM : l.Msub < z.lim.Msub := by
    by_contra hcon
    push Not at hcon
    have := (sig_strictAnti hg).antitoneOn ⟨H'.sub0, H'.sub1.le⟩ ⟨H.sub0, H.sub1.le⟩ hcon
    simp only [H.hsub, H'.hsub] at this
    linarith
  refine ⟨hlt, by rw [H.h0, H'.h0]; exact ppt_lt hg H.sub0.le hM, ?_⟩
  intro n z' Pt hn0 hn1 hset hPt
  obtain ⟨Ms, M, Ps, Pt', ex, -, -, hp, -, hall, -⟩ := C69_subsonic_partial newton hb sec hpos gamma0 n z z' hz hz1
    (by linarith [(H.ordered hg).1]) hn1 hset
  obtain rfl : Pt = Pt' := Except.ok.inj (hPt.symm.trans hp)
  exact hall

/-- the hypotheses are satisfiable (slider at 10) -/
example : ∃ newton c sec z l, BranchRootFinder newton ∧ CompleteRF newton ∧ contour newton 6 8 400 = .ok c ∧ sections c 6 10 = .ok sec ∧
    Reachable newton sec none gamma0 z ∧ NPR_Ms_list newton 10 = .ok l := by
  obtain ⟨nf, -, hb, hc⟩ := exists_branchRootFinder
  obtain ⟨c, h, -⟩ := C163_contour nf hb hc 6 (by norm_num) (by norm_num) 400 (by norm_num)
  obtain ⟨sec, hs, hlen, hlast, hge, hmono⟩ := C164_sections nf hb hc 6 (by norm_num) (by norm_num) 400 (by norm_num) c h 10 (by norm_num)
  obtain ⟨g, hgeo⟩ : ∃ g, geometry sec none = .ok g := by
    obtain ⟨a, t, rfl⟩ := List.exists_cons_of_ne_nil (l := sec) (by rintro rfl; simp at hlen)
    obtain ⟨k1, k2⟩ := npMin_spec (show npMin (a :: t) = .ok (t.foldl min a) from rfl)
    have hm := hge _ k1
    unfold geometry last
    rw [hlast]
    simp only [Py.ok_bind]
    rw [show npMin (a :: t) = .ok (t.foldl min a) from rfl, Py.ok_bind, Py.div_ok (by linarith), Py.ok_bind,
      mapM_of_forall (g := fun s => s * (10 / t.foldl min a) / 10) (fun s _ => Py.div_ok (by norm_num)), Py.ok_bind]
    exact ⟨_, rfl⟩
  have h1 := (C164_throat nf hb hc 6 (by norm_num) (by norm_num) 400 (by norm_num) c h 10 (by norm_num) sec hs g hgeo).2.2 (by norm_num)
  obtain ⟨lz, hlz⟩ := limits_total hb hc h1
  obtain ⟨l, hl⟩ := limits_total hb hc (A := 10) (by norm_num)
  exact ⟨nf, c, sec, _, l, hb, hc, h, hs, reachable_new hgeo hlz, hl⟩

end Aerokit.Props
