import Verif.Props.MinNozzle

/-! # Properties C135, C136 : the net of characteristics and the wall of the nozzle of minimum length -/

namespace Aerokit.Props
open Real MinNozzle

/-- the point `(i, j)` of a table -/
noncomputable def ptAt (tab : List (List Point)) (i j : ℕ) : Point :=
  match getPt tab i j with
  | .ok p => p
  | .error _ => ⟨0, 0, 0, 0⟩

/-- the Mach angle found for a Prandtl–Meyer angle -/
noncomputable def muAt (fuel : ℕ) (v : ℝ) : ℝ :=
  match mu fuel v with
  | .ok m => m
  | .error _ => 0

theorem ptAt_eq {tab : List (List Point)} {i j : ℕ} {p : Point} (h : getPt tab i j = .ok p) : ptAt tab i j = p := by
  unfold ptAt; rw [h]

theorem muAt_eq {fuel : ℕ} {v m : ℝ} (h : mu fuel v = .ok m) : muAt fuel v = m := by
  unfold muAt; rw [h]

theorem mu_inv {fuel : ℕ} {v m : ℝ} (h : mu fuel v = .ok m) :
    ∃ M p, mach_via_pmeyer fuel v = .ok M ∧ pmeyer M = .ok p ∧ |v - p| ≤ 0.00001 ∧ m = arcsin (1 / M) := by
  unfold mu at h
  obtain ⟨M, hM, h⟩ := Py.bind_inv h
  obtain ⟨p, hp, hv⟩ := C134_sound hM
  refine ⟨M, p, hM, hp, hv, ?_⟩
  unfold MinNozzle.mach_angle at h
  obtain ⟨i, hi, h⟩ := Py.bind_inv h
  obtain ⟨-, e⟩ := Py.div_inv hi
  unfold Py.arcsin at h
  split_ifs at h with hc
  rw [← Except.ok.inj h, e]

section
variable {fuel : ℕ} {y0 dth dl : ℝ} {n : ℕ} {tab : List (List Point)}

theorem st_corner (hs : St fuel y0 dth dl tab n (n + 2)) {i : ℕ} (hi : i ≤ n) :
    getPt tab i 0 = .ok ⟨0, y0, dth + i * dl, dth + i * dl⟩ := by
  obtain ⟨q, hq, h⟩ := hs.rel i 0 (by omega)
  rcases h with ⟨-, rfl⟩ | h | h
  · exact hq
  · omega
  · omega

theorem st_inner (hs : St fuel y0 dth dl tab n (n + 2)) {i j : ℕ} (h1 : 1 ≤ j) (h2 : j ≤ i) (hi : i ≤ n) :
    IsNew fuel (ptAt tab i (j - 1)) (ptAt tab (i - 1) j) (ptAt tab i j) := by
  obtain ⟨q, hq, h⟩ := hs.rel i j (by omega)
  rcases h with ⟨h, -⟩ | ⟨-, -, pm, pp, hpm, hpp, hn⟩ | ⟨-, h, -⟩
  · omega
  · rw [ptAt_eq hq, ptAt_eq hpm, ptAt_eq hpp]; exact hn
  · omega

theorem st_axis (hs : St fuel y0 dth dl tab n (n + 2)) {i : ℕ} (hi : i ≤ n) :
    OnAxis fuel (ptAt tab i i) (ptAt tab i (i + 1)) ∧ (ptAt tab i (i + 1)).theta = (if i = 0 then dth else 0) ∧
    (ptAt tab i (i + 1)).nu_pmeyer = (if i = 0 then dth else (ptAt tab i i).k_moins) := by
  obtain ⟨q, hq, h⟩ := hs.rel i (i + 1) (by omega)
  rcases h with ⟨h, -⟩ | ⟨-, h, -⟩ | ⟨-, -, p, hp, h1, h2, h3⟩
  · omega
  · omega
  · rw [ptAt_eq hq, ptAt_eq hp]; exact ⟨h1, h2, h3⟩

theorem st_net (hs : St fuel y0 dth dl tab n (n + 2)) :
    Spec.CharNet n y0 (fun i => dth + i * dl) (fun i j => (ptAt tab i j).x) (fun i j => (ptAt tab i j).y)
      (fun i j => (ptAt tab i j).theta) (fun i j => (ptAt tab i j).nu_pmeyer)
      (fun i j => muAt fuel (ptAt tab i j).nu_pmeyer) where
  corner i hi := by
    rw [ptAt_eq (st_corner hs hi)]; exact ⟨rfl, rfl, rfl, rfl⟩
  minus i j h1 h2 hi := (st_inner hs h1 h2 hi).kmoins
  plus i j h1 h2 hi := (st_inner hs h1 h2 hi).kplus
  minus_line i j h1 h2 hi := by
    obtain ⟨mm, mp, mq, e1, e2, e3, hm, -⟩ := (st_inner hs h1 h2 hi).meets
    rw [muAt_eq e1, muAt_eq e3, hm]
    congr 3; ring
  plus_line i j h1 h2 hi := by
    obtain ⟨mm, mp, mq, e1, e2, e3, -, hm⟩ := (st_inner hs h1 h2 hi).meets
    rw [muAt_eq e2, muAt_eq e3, hm]
    congr 3; ring
  axis i hi := by
    obtain ⟨⟨h1, m, hm, h2⟩, -, -⟩ := st_axis hs hi
    rw [muAt_eq hm]
    exact ⟨h1, h2⟩
  axis_minus i hi := by
    obtain ⟨-, h1, h2⟩ := st_axis hs hi
    rw [h1, h2]
    by_cases h0 : i = 0
    · subst h0
      rw [if_pos rfl, if_pos rfl, ptAt_eq (st_corner hs hi)]
      simp
    · rw [if_neg h0, if_neg h0]; unfold Point.k_moins; ring

/-- the Mach angle of every node has been computed -/
theorem st_mu (hs : St fuel y0 dth dl tab n (n + 2)) (hlast : ∃ m, mu fuel (ptAt tab n (n + 1)).nu_pmeyer = .ok m)
    {i j : ℕ} (hi : i ≤ n) (hj : j ≤ i + 1) : ∃ m, mu fuel (ptAt tab i j).nu_pmeyer = .ok m := by
  rcases Nat.lt_or_ge i j with h | h
  · have hji : j = i + 1 := by omega
    subst hji
    rcases Nat.lt_or_ge i n with hn | hn
    · obtain ⟨mm, mp, mq, e1, e2, e3, -⟩ := (st_inner hs (show 1 ≤ i + 1 by omega) le_rfl (show i + 1 ≤ n by omega)).meets
      rw [Nat.add_sub_cancel] at e2
      exact ⟨mp, e2⟩
    · have : i = n := by omega
      subst this
      exact hlast
  · rcases Nat.eq_zero_or_pos j with h0 | h0
    · subst h0
      rcases Nat.eq_zero_or_pos i with h1 | h1
      · subst h1
        obtain ⟨⟨-, m, hm, -⟩, -⟩ := st_axis hs hi
        exact ⟨m, hm⟩
      · obtain ⟨mm, mp, mq, e1, -⟩ := (st_inner hs le_rfl h1 hi).meets
        exact ⟨mm, e1⟩
    · obtain ⟨mm, mp, mq, e1, e2, e3, -⟩ := (st_inner hs h0 h hi).meets
      exact ⟨mq, e3⟩

theorem st_pt (hs : St fuel y0 dth dl tab n (n + 2)) {i j : ℕ} (hi : i ≤ n) (hj : j ≤ i + 1) :
    getPt tab i j = .ok (ptAt tab i j) ∧ (ptAt tab i j).theta = thv dth dl i j ∧ (ptAt tab i j).nu_pmeyer = nuv dth dl i j := by
  obtain ⟨q, hq, h1, h2⟩ := st_values hs i j (by omega)
  rw [ptAt_eq hq]; exact ⟨hq, h1, h2⟩

theorem wt_net {s : List (List Point) × List (ℝ × ℝ) × Point} (hs : St fuel y0 dth dl tab n (n + 2))
    (hw : Wt fuel n tab s (n + 1)) :
    Spec.CharWall n (fun i j => (ptAt tab i j).x) (fun i j => (ptAt tab i j).y)
      (fun i j => (ptAt tab i j).theta) (fun i j => muAt fuel (ptAt tab i j).nu_pmeyer)
      (fun k => (ptAt s.1 (n + k) 0).x) (fun k => (ptAt s.1 (n + k) 0).y) (fun k => (ptAt s.1 (n + k) 0).theta) where
  start := by
    have := hw.ext _ _ _ (st_corner hs le_rfl)
    rw [Nat.add_zero, ptAt_eq this, ptAt_eq (st_corner hs le_rfl)]
    exact ⟨rfl, rfl, rfl⟩
  angle k h1 h2 := by
    obtain ⟨mur, e, w, g1, g2, g3, g4⟩ := hw.wall k h1 h2
    rw [ptAt_eq g3, ptAt_eq g2, g4.theta]
  char_line k h1 h2 := by
    obtain ⟨mur, e, w, g1, g2, g3, g4⟩ := hw.wall k h1 h2
    obtain ⟨m, hm, -, hl⟩ := g4.meets
    rw [ptAt_eq g3, ptAt_eq g2, muAt_eq hm, hl]
  wall_line k h1 h2 := by
    obtain ⟨mur, e, w, g1, g2, g3, g4⟩ := hw.wall k h1 h2
    obtain ⟨m, hm, hl, -⟩ := g4.meets
    rw [Nat.add_sub_assoc h1] at g1
    rw [ptAt_eq g3, ptAt_eq g1, g4.theta, hl]

theorem wt_mu {s : List (List Point) × List (ℝ × ℝ) × Point} (hw : Wt fuel n tab s (n + 1)) :
    ∃ m, mu fuel (ptAt tab n (n + 1)).nu_pmeyer = .ok m := by
  obtain ⟨mur, e, w, g1, g2, g3, g4⟩ := hw.wall (n + 1) (by omega) le_rfl
  obtain ⟨m, hm, -⟩ := g4.meets
  rw [ptAt_eq g2]; exact ⟨m, hm⟩

theorem wt_prof {s : List (List Point) × List (ℝ × ℝ) × Point} (hw : Wt fuel n tab s (n + 1)) :
    s.2.1 = (List.range (n + 2)).map fun k => ((ptAt s.1 (n + k) 0).x, (ptAt s.1 (n + k) 0).y) := by
  apply List.ext_getElem?
  intro k
  rcases Nat.lt_or_ge k (n + 2) with h | h
  · obtain ⟨p, h1, h2⟩ := hw.prof k (by omega)
    rw [h2, List.getElem?_map, List.getElem?_range h]
    simp only [Option.map_some, ptAt_eq h1]
  · rw [List.getElem?_eq_none (by rw [hw.plen]; omega), List.getElem?_eq_none (by simpa using h)]

end

/-- inversion of a run -/
theorem mln_inv {fuel n : ℕ} {Mf A M : ℝ} {tab : List (List Point)} {prof : List (ℝ × ℝ)}
    (h : Minimum_length_nozzle fuel Mf A n = .ok (tab, prof, M)) :
    ∃ p, pmeyer Mf = .ok p ∧ 1 ≤ n ∧ ∃ tab0 pt, St fuel (√(A / π)) (p / 200 / n) ((p / 2 - p / 200 / n) / n) tab0 n (n + 2) ∧
      Wt fuel n tab0 (tab, prof, pt) (n + 1) ∧ mach_via_pmeyer fuel pt.nu_pmeyer = .ok M := by
  unfold Minimum_length_nozzle at h
  obtain ⟨p, hp, h⟩ := Py.bind_inv h
  simp only [] at h
  obtain ⟨tn, htn, h⟩ := Py.bind_inv h
  obtain ⟨hn0, etn⟩ := Py.div_inv htn
  have hn : 1 ≤ n := Nat.one_le_iff_ne_zero.2 (by rintro rfl; exact hn0 (by simp))
  obtain ⟨dl, hdl, h⟩ := Py.bind_inv h
  obtain ⟨-, edl⟩ := Py.div_inv hdl
  obtain ⟨y, hy, h⟩ := Py.bind_inv h
  obtain ⟨-, ey⟩ := Py.sqrt_inv hy
  obtain ⟨t0, ht0, h⟩ := Py.bind_inv h
  obtain ⟨t1, ht1, h⟩ := Py.bind_inv h
  obtain ⟨w, hw, h⟩ := Py.bind_inv h
  obtain ⟨⟨t2, pr, pt⟩, hws, h⟩ := Py.bind_inv h
  obtain ⟨M', hM, h⟩ := Py.bind_inv h
  have he := Except.ok.inj h
  have hdth : tn / 100 = p / 200 / n := by rw [etn]; ring
  rw [hdth] at edl ht0
  rw [edl] at ht1
  have s0 := st_row0 (dl := (p / 2 - p / 200 / n) / n) ht0
  have s1 := st_rows s0 ht1
  rw [Nat.zero_add] at s1
  have w1 := wt_first s1 hw
  rw [ey] at hws
  have w2 := wt_walls w1 s1 (by omega) hws
  have e1 : tab = t2 := by injection he with a b; exact a.symm
  have e2 : prof = pr := by injection he with a b; injection b with b c; exact b.symm
  have e3 : M = M' := by injection he with a b; injection b with b c; exact c.symm
  subst e1 e2 e3
  exact ⟨p, hp, hn, t1, pt, s1, by rw [Nat.add_comm n 1]; exact w2, hM⟩

/-- **C135** Whenever the construction returns, the table of its points is a net of characteristics of
the centred expansion of half the Prandtl–Meyer angle of the requested Mach number (`n + 1` rows, the
first of 1% of a step), the angles on the axis are zero after the first row, the Mach angles
are those of the Prandtl–Meyer angles within the tolerance of the search, and the returned profile is the
wall which cancels the reflected waves, parallel to the axis at its end. -/
theorem C135_net {fuel n : ℕ} {Mf A M : ℝ} {tab : List (List Point)} {prof : List (ℝ × ℝ)}
    (h : Minimum_length_nozzle fuel Mf A n = .ok (tab, prof, M)) :
    ∃ p, pmeyer Mf = .ok p ∧ ∃ (x y θ ν μ : ℕ → ℕ → ℝ) (X Y Θ : ℕ → ℝ),
      (∀ i ≤ n, ∀ j ≤ i + 1, ∃ r, tab[i]? = some r ∧ r[j]? = some ⟨x i j, y i j, θ i j, ν i j⟩) ∧
      Spec.CharNet n (√(A / π)) (fun i => p / 2 / n / 100 + i * ((p / 2 - p / 2 / n / 100) / n)) x y θ ν μ ∧
      (∀ i, 1 ≤ i → i ≤ n → θ i (i + 1) = 0) ∧
      (∀ i ≤ n, ∀ j ≤ i + 1, ∃ m q, pmeyer m = .ok q ∧ |ν i j - q| ≤ 0.00001 ∧ μ i j = arcsin (1 / m)) ∧
      Spec.CharWall n x y θ μ X Y Θ ∧ prof = (List.range (n + 2)).map (fun k => (X k, Y k)) ∧ Θ (n + 1) = 0 := by
  obtain ⟨p, hp, hn, tab0, pt, hs, hw, hM⟩ := mln_inv h
  refine ⟨p, hp, fun i j => (ptAt tab0 i j).x, fun i j => (ptAt tab0 i j).y, fun i j => (ptAt tab0 i j).theta,
    fun i j => (ptAt tab0 i j).nu_pmeyer, fun i j => muAt fuel (ptAt tab0 i j).nu_pmeyer,
    fun k => (ptAt tab (n + k) 0).x, fun k => (ptAt tab (n + k) 0).y, fun k => (ptAt tab (n + k) 0).theta,
    ?_, ?_, ?_, ?_, wt_net hs hw, wt_prof hw, ?_⟩
  · intro i hi j hj
    have := hw.ext _ _ _ (st_pt hs hi hj).1
    exact getPt_iff.1 this
  · rw [show p / 2 / n / 100 = p / 200 / (n : ℝ) by ring]
    exact st_net hs
  · intro i h1 h2
    have := (st_axis hs h2).2.1
    rwa [if_neg (by omega)] at this
  · intro i hi j hj
    obtain ⟨m, hm⟩ := st_mu hs (wt_mu hw) hi hj
    obtain ⟨M', q, -, h2, h3, h4⟩ := mu_inv hm
    exact ⟨M', q, h2, h3, (muAt_eq hm).trans h4⟩
  · have h1 := (wt_net hs hw).angle (n + 1) (by omega) le_rfl
    have h2 := (st_axis hs (le_refl n)).2.1
    rw [if_neg (by omega)] at h2
    simp only [] at h1 ⊢
    rw [h1, h2]

/-- **C135** the angles at every node, explicitly (`δ` the step of the fan). -/
theorem C135_angles {fuel n : ℕ} {Mf A M : ℝ} {tab : List (List Point)} {prof : List (ℝ × ℝ)}
    (h : Minimum_length_nozzle fuel Mf A n = .ok (tab, prof, M)) :
    ∃ p, pmeyer Mf = .ok p ∧ ∀ i ≤ n, ∀ j ≤ i + 1, ∃ r q, tab[i]? = some r ∧ r[j]? = some q ∧
      (j ≤ 1 → q.theta = p / 200 / n + i * ((p / 2 - p / 200 / n) / n) ∧ q.nu_pmeyer = q.theta) ∧
      (2 ≤ j → q.theta = (i - (j - 1) : ℝ) * ((p / 2 - p / 200 / n) / n) ∧
        q.nu_pmeyer = p / 100 / n + (i + (j - 1) : ℝ) * ((p / 2 - p / 200 / n) / n)) := by
  obtain ⟨p, hp, hn, tab0, pt, hs, hw, hM⟩ := mln_inv h
  refine ⟨p, hp, fun i hi j hj => ?_⟩
  obtain ⟨h1, h2, h3⟩ := st_pt hs hi hj
  have h1' := hw.ext _ _ _ h1
  obtain ⟨r, hr, hq⟩ := getPt_iff.1 h1'
  refine ⟨r, _, hr, hq, ?_, ?_⟩
  · intro hj1
    rw [h2, h3]; simp only [thv, nuv, if_pos hj1, and_self]
  · intro hj2
    rw [h2, h3]; simp only [thv, nuv, if_neg (show ¬ j ≤ 1 by omega), true_and]
    ring

/-- **C135** the exit Mach number has the Prandtl–Meyer angle of the requested one, within the tolerance. -/
theorem C135_exit {fuel n : ℕ} {Mf A M : ℝ} {tab : List (List Point)} {prof : List (ℝ × ℝ)}
    (h : Minimum_length_nozzle fuel Mf A n = .ok (tab, prof, M)) :
    ∃ p q, pmeyer Mf = .ok p ∧ pmeyer M = .ok q ∧ |p - q| ≤ 0.00001 ∧ mach_via_pmeyer fuel p = .ok M := by
  obtain ⟨p, hp, hn, tab0, pt, hs, hw, hM⟩ := mln_inv h
  obtain ⟨w, hw1, -, hw2⟩ := wt_theta hw hs le_rfl
  have hpt := hw.pt
  simp only [] at hpt hw1
  rw [hw1] at hpt
  have := Except.ok.inj hpt
  subst this
  have hnr : (n : ℝ) ≠ 0 := by exact_mod_cast (by omega : n ≠ 0)
  have hnu : w.nu_pmeyer = p := by
    rw [hw2]
    simp only [nuv, if_neg (show ¬ n + 1 ≤ 1 by omega)]
    push_cast
    field_simp
    ring
  rw [hnu] at hM
  obtain ⟨q, hq, hpq⟩ := C134_sound hM
  exact ⟨p, q, hp, hq, hpq, hM⟩

end Aerokit.Props
