import Verif.Lemmas.NewtonPM
import Verif.Lemmas.Engine

/-! # The mesh of `Minimum_length_nozzle.py`: tables, inversion of the steps -/

namespace Aerokit.Props
open Real MinNozzle

/-! ### tables -/

/-- every point of the first table is in the second, at the same place -/
def Ext (tab tab' : List (List Point)) : Prop := ∀ i j p, getPt tab i j = .ok p → getPt tab' i j = .ok p

theorem Ext.refl (tab : List (List Point)) : Ext tab tab := fun _ _ _ h => h
theorem Ext.trans {a b c : List (List Point)} (h : Ext a b) (h' : Ext b c) : Ext a c :=
  fun i j p hp => h' i j p (h i j p hp)

theorem getPt_iff {tab : List (List Point)} {i j : ℕ} {p : Point} :
    getPt tab i j = .ok p ↔ ∃ r, tab[i]? = some r ∧ r[j]? = some p := by
  unfold getPt
  cases h : tab[i]? with
  | none => simp
  | some r =>
    cases h' : r[j]? with
    | none => simp [h']
    | some q => simp [h']

theorem ext_append (tab : List (List Point)) (r : List Point) : Ext tab (tab ++ [r]) := by
  intro i j p h
  rw [getPt_iff] at h ⊢
  obtain ⟨r', h1, h2⟩ := h
  have hi : i < tab.length := (List.getElem?_eq_some_iff.1 h1).1
  exact ⟨r', by rw [List.getElem?_append_left hi]; exact h1, h2⟩

theorem get_append (tab : List (List Point)) (r : List Point) {j : ℕ} {p : Point} (h : r[j]? = some p) :
    getPt (tab ++ [r]) tab.length j = .ok p := by
  rw [getPt_iff]; exact ⟨r, by simp, h⟩

theorem ext_modify (tab : List (List Point)) (a : ℕ) (q : Point) : Ext tab (tab.modify a (· ++ [q])) := by
  intro i j p h
  rw [getPt_iff] at h ⊢
  obtain ⟨r, h1, h2⟩ := h
  by_cases hi : a = i
  · refine ⟨r ++ [q], by simp [List.getElem?_modify, hi, h1], ?_⟩
    have hj : j < r.length := (List.getElem?_eq_some_iff.1 h2).1
    rw [List.getElem?_append_left hj]; exact h2
  · exact ⟨r, by simp [List.getElem?_modify, hi, h1], h2⟩

theorem get_modify {tab : List (List Point)} {a : ℕ} {r : List Point} (h : tab[a]? = some r) (q : Point) :
    getPt (tab.modify a (· ++ [q])) a r.length = .ok q := by
  rw [getPt_iff]
  exact ⟨r ++ [q], by simp [List.getElem?_modify, h], by simp⟩

/-! ### steps -/

/-- `q` is at the intersection of the straight line of slope `tan βm` through `pm` and of that of slope
`tan βp` through `pp` -/
def Meets (pm pp q : Point) (βm βp : ℝ) : Prop :=
  q.y - pm.y = tan βm * (q.x - pm.x) ∧ q.y - pp.y = tan βp * (q.x - pp.x)

theorem meets_of {ym xm yp xp tm tp y x : ℝ} (hm : tm ≠ 0) (h1 : 1 - tp / tm ≠ 0)
    (hy : y = (yp - ym * tp / tm + (xm - xp) * tp) / (1 - tp / tm)) (hx : x = xm + (y - ym) / tm) :
    y - ym = tm * (x - xm) ∧ y - yp = tp * (x - xp) := by
  have hy' : y * (1 - tp / tm) = yp - ym * tp / tm + (xm - xp) * tp := by rw [hy, div_mul_cancel₀ _ h1]
  constructor
  · rw [hx]; field_simp; ring
  · rw [hx]
    have e1 : tp * (xm + (y - ym) / tm - xp) = (xm - xp) * tp + y * (tp / tm) - ym * tp / tm := by field_simp; ring
    rw [e1]; linarith

theorem meets_of' {ym xm yp xp tm tp y x : ℝ} (hp : tp ≠ 0) (hm : tm ≠ 0) (h1 : 1 - tp / tm ≠ 0)
    (hy : y = (yp - ym * tp / tm + (xm - xp) * tp) / (1 - tp / tm)) (hx : x = xp + (y - yp) / tp) :
    y - ym = tm * (x - xm) ∧ y - yp = tp * (x - xp) := by
  have hy' : y * (1 - tp / tm) = yp - ym * tp / tm + (xm - xp) * tp := by rw [hy, div_mul_cancel₀ _ h1]
  have h2 : y - yp = tp * (x - xp) := by rw [hx]; field_simp; ring
  refine ⟨?_, h2⟩
  have e1 : y = yp + tp * (x - xp) := by linarith
  have e2 : (y - ym) * tp = tm * (x - xm) * tp := by
    have h3 : (y * (1 - tp / tm)) * tm = (yp - ym * tp / tm + (xm - xp) * tp) * tm := by rw [hy']
    field_simp at h3
    linear_combination -h3 + tm * h2
  exact mul_right_cancel₀ hp e2

/-- the relations of `new_point` -/
structure IsNew (fuel : ℕ) (pm pp q : Point) : Prop where
  kmoins : q.k_moins = pm.k_moins
  kplus : q.k_plus = pp.k_plus
  meets : ∃ mm mp mq, mu fuel pm.nu_pmeyer = .ok mm ∧ mu fuel pp.nu_pmeyer = .ok mp ∧ mu fuel q.nu_pmeyer = .ok mq ∧
    Meets pm pp q ((pm.theta - mm + q.theta - mq) / 2) ((pp.theta + mp + q.theta + mq) / 2)

theorem tan_inv {a t : ℝ} (h : Py.tan a = .ok t) : t = Real.tan a := by
  unfold Py.tan at h
  split_ifs at h with hc
  exact (Except.ok.inj h).symm

theorem new_point_inv {fuel : ℕ} {tab : List (List Point)} {a b : ℕ} {q : Point} (h : new_point fuel tab a b = .ok q) :
    ∃ pm pp, getPt tab a (b - 1) = .ok pm ∧ getPt tab (a - 1) b = .ok pp ∧ IsNew fuel pm pp q := by
  unfold new_point at h
  obtain ⟨pm, hpm, h⟩ := Py.bind_inv h
  obtain ⟨pp, hpp, h⟩ := Py.bind_inv h
  obtain ⟨mp, hmp, h⟩ := Py.bind_inv h
  obtain ⟨mq, hmq, h⟩ := Py.bind_inv h
  obtain ⟨mm, hmm, h⟩ := Py.bind_inv h
  obtain ⟨tp, htp, h⟩ := Py.bind_inv h
  obtain ⟨tm, htm, h⟩ := Py.bind_inv h
  obtain ⟨q1, hq1, h⟩ := Py.bind_inv h
  obtain ⟨q2, hq2, h⟩ := Py.bind_inv h
  obtain ⟨y, hy, h⟩ := Py.bind_inv h
  obtain ⟨dx, hdx, h⟩ := Py.bind_inv h
  obtain ⟨n1, e1⟩ := Py.div_inv hq1
  obtain ⟨n2, e2⟩ := Py.div_inv hq2
  obtain ⟨n3, e3⟩ := Py.div_inv hy
  obtain ⟨n4, e4⟩ := Py.div_inv hdx
  have hq := (Except.ok.inj h).symm
  subst e1 e2
  have tp' := tan_inv htp
  have tm' := tan_inv htm
  refine ⟨pm, pp, hpm, hpp, ?_, ?_, mm, mp, mq, hmm, hmp, ?_, ?_⟩
  · rw [hq]; unfold Point.k_moins Point.k_plus; ring
  · rw [hq]; unfold Point.k_moins Point.k_plus; ring
  · rw [hq]; exact hmq
  · have := meets_of n1 n3 e3 (show pm.x + dx = pm.x + (y - pm.y) / tm by rw [e4])
    rw [hq]
    unfold Meets
    rw [← tp', ← tm']
    exact this

/-- success of `new_point` when its angles are in `(-π/2, 0)` and `(0, π/2)` -/
theorem new_point_ok {fuel : ℕ} {tab : List (List Point)} {a b : ℕ} {pm pp : Point} {mm mp mq : ℝ}
    (hpm : getPt tab a (b - 1) = .ok pm) (hpp : getPt tab (a - 1) b = .ok pp)
    (hmm : mu fuel pm.nu_pmeyer = .ok mm) (hmp : mu fuel pp.nu_pmeyer = .ok mp)
    (hmq : mu fuel ((pm.k_moins - pp.k_plus) / 2) = .ok mq)
    (h1 : 0 < pp.theta + mp + (pm.k_moins + pp.k_plus) / 2 + mq)
    (h2 : pp.theta + mp + (pm.k_moins + pp.k_plus) / 2 + mq < π)
    (h3 : -π < pm.theta - mm + (pm.k_moins + pp.k_plus) / 2 - mq)
    (h4 : pm.theta - mm + (pm.k_moins + pp.k_plus) / 2 - mq < 0) :
    ∃ q, new_point fuel tab a b = .ok q := by
  unfold new_point
  rw [hpm, Py.ok_bind, hpp, Py.ok_bind]
  simp only []
  rw [hmp, Py.ok_bind, hmq, Py.ok_bind, hmm, Py.ok_bind]
  have c1 : Real.cos ((pp.theta + mp + (pm.k_moins + pp.k_plus) / 2 + mq) / 2) ≠ 0 :=
    (Real.cos_pos_of_mem_Ioo ⟨by linarith [Real.pi_pos], by linarith⟩).ne'
  have c2 : Real.cos ((pm.theta - mm + (pm.k_moins + pp.k_plus) / 2 - mq) / 2) ≠ 0 :=
    (Real.cos_pos_of_mem_Ioo ⟨by linarith, by linarith [Real.pi_pos]⟩).ne'
  have t1 : 0 < Real.tan ((pp.theta + mp + (pm.k_moins + pp.k_plus) / 2 + mq) / 2) :=
    Real.tan_pos_of_pos_of_lt_pi_div_two (by linarith) (by linarith)
  have t2 : Real.tan ((pm.theta - mm + (pm.k_moins + pp.k_plus) / 2 - mq) / 2) < 0 :=
    Real.tan_neg_of_neg_of_pi_div_two_lt (by linarith) (by linarith)
  rw [Py.tan_ok c1, Py.ok_bind, Py.tan_ok c2, Py.ok_bind, Py.div_ok t2.ne, Py.ok_bind, Py.div_ok t2.ne, Py.ok_bind]
  have hq : Real.tan ((pp.theta + mp + (pm.k_moins + pp.k_plus) / 2 + mq) / 2)
      / Real.tan ((pm.theta - mm + (pm.k_moins + pp.k_plus) / 2 - mq) / 2) < 0 := div_neg_of_pos_of_neg t1 t2
  rw [Py.div_ok (by linarith), Py.ok_bind, Py.div_ok t2.ne, Py.ok_bind]
  exact ⟨_, rfl⟩

/-- the relations of a point of the axis: on the straight line of slope `tan (θ - μ)` through `p` -/
def OnAxis (fuel : ℕ) (p q : Point) : Prop :=
  q.y = 0 ∧ ∃ m, mu fuel p.nu_pmeyer = .ok m ∧ q.y - p.y = tan (p.theta - m) * (q.x - p.x)


section
variable (fuel : ℕ) (y0 dth dl : ℝ)

/-- relation satisfied by the point `(i, j)` of the table: corner, inner point or point of the axis -/
def Rel (tab : List (List Point)) (i j : ℕ) : Prop :=
  ∃ q, getPt tab i j = .ok q ∧
    ((j = 0 ∧ q = ⟨0, y0, dth + i * dl, dth + i * dl⟩) ∨
     (1 ≤ j ∧ j ≤ i ∧ ∃ pm pp, getPt tab i (j - 1) = .ok pm ∧ getPt tab (i - 1) j = .ok pp ∧ IsNew fuel pm pp q) ∨
     (1 ≤ j ∧ j = i + 1 ∧ ∃ p, getPt tab i i = .ok p ∧ OnAxis fuel p q ∧
        q.theta = (if i = 0 then dth else 0) ∧ q.nu_pmeyer = (if i = 0 then dth else p.k_moins)))

variable {fuel y0 dth dl}

theorem Rel.ext {tab tab' : List (List Point)} (he : Ext tab tab') {i j : ℕ} (h : Rel fuel y0 dth dl tab i j) :
    Rel fuel y0 dth dl tab' i j := by
  obtain ⟨q, hq, h⟩ := h
  refine ⟨q, he _ _ _ hq, ?_⟩
  rcases h with h | ⟨h1, h2, pm, pp, h3, h4, h5⟩ | ⟨h1, h2, p, h3, h4⟩
  · exact Or.inl h
  · exact Or.inr (Or.inl ⟨h1, h2, pm, pp, he _ _ _ h3, he _ _ _ h4, h5⟩)
  · exact Or.inr (Or.inr ⟨h1, h2, p, he _ _ _ h3, h4⟩)

variable (fuel y0 dth dl)

/-- the table holds the complete rows `0 … a-1` and `b` points of the row `a` -/
structure St (tab : List (List Point)) (a b : ℕ) : Prop where
  len : tab.length = a + 1
  rowlen : ∀ i < a, ∃ r, tab[i]? = some r ∧ r.length = i + 2
  last : ∃ r, tab[a]? = some r ∧ r.length = b
  rel : ∀ i j, (i < a ∧ j < i + 2) ∨ (i = a ∧ j < b) → Rel fuel y0 dth dl tab i j

variable {fuel y0 dth dl}

theorem st_row0 {area : ℝ} {tab : List (List Point)} (h : row0 fuel area dth = .ok tab) :
    St fuel (√(area / π)) dth dl tab 0 2 := by
  unfold row0 at h
  obtain ⟨s, hs, h⟩ := Py.bind_inv h
  obtain ⟨m, hm, h⟩ := Py.bind_inv h
  obtain ⟨t, ht, h⟩ := Py.bind_inv h
  obtain ⟨dx, hdx, h⟩ := Py.bind_inv h
  obtain ⟨n1, e1⟩ := Py.div_inv hdx
  obtain ⟨-, e2⟩ := Py.sqrt_inv hs
  have ht' := tan_inv ht
  have htab := (Except.ok.inj h).symm
  simp only [] at e1 ht' htab
  subst htab
  refine ⟨rfl, fun i hi => absurd hi (Nat.not_lt_zero i), ⟨_, rfl, rfl⟩, ?_⟩
  intro i j hij
  have hi : i = 0 := by omega
  have hj : j < 2 := by omega
  subst hi
  obtain rfl | rfl : j = 0 ∨ j = 1 := by omega
  · refine ⟨_, rfl, Or.inl ⟨rfl, ?_⟩⟩
    rw [e2]; norm_num
  · refine ⟨_, rfl, Or.inr (Or.inr ⟨le_rfl, rfl, _, rfl, ⟨rfl, m, hm, ?_⟩, rfl, rfl⟩)⟩
    show 0 - s = Real.tan (dth - m) * (0.0 - dx - 0.0)
    have e0 : (0.0 - dx - 0.0 : ℝ) = -dx := by norm_num
    rw [e0, ← ht', e1]; field_simp; ring

theorem st_new {tab : List (List Point)} {a b : ℕ} (hs : St fuel y0 dth dl tab a b) (hb : 1 ≤ b) (hba : b ≤ a)
    {q : Point} (h : new_point fuel tab a b = .ok q) : St fuel y0 dth dl (tab.modify a (· ++ [q])) a (b + 1) := by
  obtain ⟨r, hr, hrl⟩ := hs.last
  have he := ext_modify tab a q
  refine ⟨by simp [hs.len], ?_, ⟨r ++ [q], by simp [List.getElem?_modify, hr], by simp [hrl]⟩, ?_⟩
  · intro i hi
    obtain ⟨r', h1, h2⟩ := hs.rowlen i hi
    exact ⟨r', by simp [List.getElem?_modify, (show a ≠ i by omega), h1], h2⟩
  · intro i j hij
    by_cases hnew : i = a ∧ j = b
    · obtain ⟨rfl, rfl⟩ := hnew
      obtain ⟨pm, pp, h1, h2, h3⟩ := new_point_inv h
      refine ⟨q, ?_, Or.inr (Or.inl ⟨hb, hba, pm, pp, he _ _ _ h1, he _ _ _ h2, h3⟩)⟩
      rw [← hrl]; exact get_modify hr q
    · exact (hs.rel i j (by omega)).ext he

theorem st_fill {a k b : ℕ} {tab tab' : List (List Point)} (hs : St fuel y0 dth dl tab a b) (hb : 1 ≤ b)
    (hk : b + k = a + 1) (h : fill fuel a k b tab = .ok tab') : St fuel y0 dth dl tab' a (a + 1) := by
  induction k generalizing b tab with
  | zero =>
    have := Except.ok.inj h
    subst this
    have : b = a + 1 := by omega
    rw [← this]; exact hs
  | succ k ih =>
    unfold fill at h
    obtain ⟨q, hq, h⟩ := Py.bind_inv h
    exact ih (st_new hs hb (by omega) hq) (by omega) (by omega) h

theorem st_start {tab : List (List Point)} {a : ℕ} (hs : St fuel y0 dth dl tab a (a + 2)) :
    St fuel y0 dth dl (tab ++ [[⟨0.0, y0, dth + a * dl + dl, dth + a * dl + dl⟩]]) (a + 1) 1 := by
  have he := ext_append tab [⟨0.0, y0, dth + a * dl + dl, dth + a * dl + dl⟩]
  have hl := hs.len
  refine ⟨by simp [hl], ?_, ⟨_, by rw [← hl]; simp; rfl, rfl⟩, ?_⟩
  · intro i hi
    rw [List.getElem?_append_left (by omega)]
    rcases Nat.lt_succ_iff_lt_or_eq.1 hi with h | h
    · exact hs.rowlen i h
    · rw [h]; exact hs.last
  · intro i j hij
    rcases hij with ⟨h1, h2⟩ | ⟨h1, h2⟩
    · exact (hs.rel i j (by omega)).ext he
    · have hj : j = 0 := by omega
      subst hj h1
      refine ⟨_, ?_, Or.inl ⟨rfl, rfl⟩⟩
      have hg := get_append tab [⟨0.0, y0, dth + a * dl + dl, dth + a * dl + dl⟩] (j := 0) (p := _) rfl
      rw [hl] at hg
      rw [hg]
      congr 2
      · norm_num
      · push_cast; ring
      · push_cast; ring

theorem st_row {area : ℝ} {tab tab' : List (List Point)} {a : ℕ} (hs : St fuel (√(area / π)) dth dl tab a (a + 2))
    (h : row fuel area dl tab (a + 1) = .ok tab') : St fuel (√(area / π)) dth dl tab' (a + 1) (a + 1 + 2) := by
  unfold row at h
  obtain ⟨s, hsq, h⟩ := Py.bind_inv h
  obtain ⟨-, e2⟩ := Py.sqrt_inv hsq
  obtain ⟨prev, hp, h⟩ := Py.bind_inv h
  obtain ⟨q0, hq0, hc⟩ := hs.rel a 0 (Or.inr ⟨rfl, by omega⟩)
  have hprev : prev = ⟨0, √(area / π), dth + a * dl, dth + a * dl⟩ := by
    rw [Nat.add_sub_cancel, hq0] at hp
    rw [← Except.ok.inj hp]
    rcases hc with hc | hc | hc
    · exact hc.2
    · omega
    · omega
  subst hprev
  simp only [] at h
  obtain ⟨tab1, h1, h⟩ := Py.bind_inv h
  rw [e2] at h1
  have hs1 := st_fill (st_start hs) le_rfl (by omega) h1
  obtain ⟨p, hp1, h⟩ := Py.bind_inv h
  obtain ⟨m, hm, h⟩ := Py.bind_inv h
  obtain ⟨t, ht, h⟩ := Py.bind_inv h
  obtain ⟨dx, hdx, h⟩ := Py.bind_inv h
  obtain ⟨n1, e1⟩ := Py.div_inv hdx
  have ht' := tan_inv ht
  have htab := (Except.ok.inj h).symm
  subst htab
  obtain ⟨r, hr, hrl⟩ := hs1.last
  have he := ext_modify tab1 (a + 1) ⟨p.x - dx, 0, 0, p.k_moins⟩
  refine ⟨by simp [hs1.len], ?_, ⟨r ++ [⟨p.x - dx, 0, 0, p.k_moins⟩], by simp [List.getElem?_modify, hr], by simp [hrl]⟩, ?_⟩
  · intro i hi
    obtain ⟨r', h1, h2⟩ := hs1.rowlen i hi
    exact ⟨r', by simp [List.getElem?_modify, (show a + 1 ≠ i by omega), h1], h2⟩
  · intro i j hij
    by_cases hnew : i = a + 1 ∧ j = a + 2
    · obtain ⟨rfl, rfl⟩ := hnew
      refine ⟨⟨p.x - dx, 0, 0, p.k_moins⟩, ?_, Or.inr (Or.inr ⟨by omega, rfl, p, he _ _ _ hp1, ⟨rfl, m, hm, ?_⟩, ?_, ?_⟩)⟩
      · have := get_modify hr ⟨p.x - dx, 0, 0, p.k_moins⟩
        rw [hrl] at this
        exact this
      · simp only []
        rw [← ht', e1]; field_simp; ring
      · simp
      · simp
    · exact (hs1.rel i j (by omega)).ext he

theorem st_rows {area : ℝ} {k a : ℕ} {tab tab' : List (List Point)} (hs : St fuel (√(area / π)) dth dl tab a (a + 2))
    (h : rows fuel area dl k (a + 1) tab = .ok tab') : St fuel (√(area / π)) dth dl tab' (a + k) (a + k + 2) := by
  induction k generalizing a tab with
  | zero =>
    have := Except.ok.inj h
    subst this
    exact hs
  | succ k ih =>
    unfold rows at h
    obtain ⟨tab1, h1, h⟩ := Py.bind_inv h
    have := ih (st_row hs h1) h
    rw [show a + (k + 1) = a + 1 + k by omega]
    exact this

/-- flow angle and Prandtl–Meyer angle of the point `(i, j)` -/
noncomputable def thv (dth dl : ℝ) (i j : ℕ) : ℝ :=
  if j ≤ 1 then dth + i * dl else (i - (j - 1) : ℝ) * dl
noncomputable def nuv (dth dl : ℝ) (i j : ℕ) : ℝ :=
  if j ≤ 1 then dth + i * dl else 2 * dth + (i + (j - 1) : ℝ) * dl

/-- values of the angles at every point of the table -/
theorem st_values {tab : List (List Point)} {a b : ℕ} (hs : St fuel y0 dth dl tab a b) (i j : ℕ)
    (hij : (i < a ∧ j < i + 2) ∨ (i = a ∧ j < b ∧ j < i + 2)) :
    ∃ q, getPt tab i j = .ok q ∧ q.theta = thv dth dl i j ∧ q.nu_pmeyer = nuv dth dl i j := by
  induction i generalizing j with
  | zero =>
    obtain ⟨q, hq, h⟩ := hs.rel 0 j (by omega)
    refine ⟨q, hq, ?_⟩
    rcases h with ⟨rfl, rfl⟩ | h | ⟨h1, rfl, p, hp, -, h3, h4⟩
    · simp [thv, nuv]
    · omega
    · rw [h3, h4]; simp [thv, nuv]
  | succ i ih =>
    induction j with
    | zero =>
      obtain ⟨q, hq, h⟩ := hs.rel (i + 1) 0 (by omega)
      refine ⟨q, hq, ?_⟩
      rcases h with ⟨-, rfl⟩ | h | h
      · simp [thv, nuv]
      · omega
      · omega
    | succ j ihj =>
      obtain ⟨q, hq, h⟩ := hs.rel (i + 1) (j + 1) (by omega)
      refine ⟨q, hq, ?_⟩
      rcases h with ⟨h, -⟩ | ⟨h1, h2, pm, pp, hpm, hpp, hn⟩ | ⟨h1, h2, p, hp, -, h3, h4⟩
      · omega
      · obtain ⟨pm', hpm', e1, e2⟩ := ihj (by omega)
        obtain ⟨pp', hpp', e3, e4⟩ := ih (j + 1) (by omega)
        rw [Nat.add_sub_cancel, hpm'] at hpm
        rw [Nat.add_sub_cancel, hpp'] at hpp
        have := Except.ok.inj hpm
        subst this
        have := Except.ok.inj hpp
        subst this
        have k1 := hn.kmoins
        have k2 := hn.kplus
        unfold Point.k_moins at k1
        unfold Point.k_plus at k2
        rw [e1, e2] at k1
        rw [e3, e4] at k2
        rcases Nat.eq_zero_or_pos j with h0 | h0
        · subst h0
          simp [thv, nuv] at k1 k2 ⊢
          constructor <;> linarith
        · rcases Nat.eq_or_lt_of_le (show 1 ≤ j from h0) with h9 | h9
          · subst h9
            simp [thv, nuv] at k1 k2 ⊢
            constructor <;> linarith
          · simp only [thv, nuv, if_neg (show ¬ j ≤ 1 by omega), if_neg (show ¬ j + 1 ≤ 1 by omega)] at k1 k2 ⊢
            push_cast at k1 k2 ⊢
            constructor <;> linarith
      · obtain ⟨p', hp', e1, e2⟩ := ihj (by omega)
        have hji : j = i + 1 := by omega
        subst hji
        rw [hp'] at hp
        have := Except.ok.inj hp
        subst this
        rw [if_neg (by omega)] at h3 h4
        rw [h3, h4]
        unfold Point.k_moins
        rw [e1, e2]
        rcases Nat.eq_zero_or_pos i with h0 | h0
        · subst h0; simp [thv, nuv]; constructor <;> ring_nf <;> simp
        · simp only [thv, nuv, if_neg (show ¬ i + 1 ≤ 1 by omega), if_neg (show ¬ i + 1 + 1 ≤ 1 by omega)]
          push_cast
          constructor <;> ring

/-! ### the wall -/

theorem lastFirst_eq (tab : List (List Point)) : lastFirst tab = getPt tab (tab.length - 1) 0 := by
  unfold lastFirst getPt; rw [List.getLast?_eq_getElem?]

/-- relations of a point of the wall: same angles as the flow point `e`, at the intersection of the wall
from `mur` (mean angle) and of the characteristic from `e` -/
structure IsWall (fuel : ℕ) (mur e w : Point) : Prop where
  theta : w.theta = e.theta
  nu : w.nu_pmeyer = e.nu_pmeyer
  meets : ∃ m, mu fuel e.nu_pmeyer = .ok m ∧ Meets mur e w ((e.theta + mur.theta) / 2) (e.theta + m)

theorem wall_first_inv {n : ℕ} {tab : List (List Point)} {w : Point} (h : wall_first fuel n tab = .ok w) :
    ∃ mur e, getPt tab (tab.length - 1) 0 = .ok mur ∧ getPt tab n 1 = .ok e ∧ IsWall fuel mur e w := by
  unfold wall_first at h
  obtain ⟨mur, hmur, h⟩ := Py.bind_inv h
  obtain ⟨e, he, h⟩ := Py.bind_inv h
  obtain ⟨m, hm, h⟩ := Py.bind_inv h
  obtain ⟨ts, hts, h⟩ := Py.bind_inv h
  obtain ⟨tm, htm, h⟩ := Py.bind_inv h
  obtain ⟨q1, hq1, h⟩ := Py.bind_inv h
  obtain ⟨q2, hq2, h⟩ := Py.bind_inv h
  obtain ⟨y, hy, h⟩ := Py.bind_inv h
  obtain ⟨dx, hdx, h⟩ := Py.bind_inv h
  obtain ⟨n1, e1⟩ := Py.div_inv hq1
  obtain ⟨n2, e2⟩ := Py.div_inv hq2
  obtain ⟨n3, e3⟩ := Py.div_inv hy
  obtain ⟨n4, e4⟩ := Py.div_inv hdx
  have hq := (Except.ok.inj h).symm
  subst e1 e2
  have ts' := tan_inv hts
  have tm' := tan_inv htm
  refine ⟨mur, e, by rw [← lastFirst_eq]; exact hmur, he, by rw [hq], by rw [hq], m, hm, ?_⟩
  have := meets_of' n4 n1 n3 e3 (show e.x + dx = e.x + (y - e.y) / ts by rw [e4])
  rw [hq]
  unfold Meets
  rw [← ts', ← tm']
  exact this

theorem wall_next_inv {n k : ℕ} {tab : List (List Point)} {w : Point} (h : wall_next fuel n tab k = .ok w) :
    ∃ mur e, getPt tab (tab.length - 1) 0 = .ok mur ∧ getPt tab n k = .ok e ∧ IsWall fuel mur e w := by
  unfold wall_next at h
  obtain ⟨mur, hmur, h⟩ := Py.bind_inv h
  obtain ⟨e, he, h⟩ := Py.bind_inv h
  obtain ⟨m, hm, h⟩ := Py.bind_inv h
  obtain ⟨ts, hts, h⟩ := Py.bind_inv h
  obtain ⟨tm, htm, h⟩ := Py.bind_inv h
  obtain ⟨q1, hq1, h⟩ := Py.bind_inv h
  obtain ⟨q2, hq2, h⟩ := Py.bind_inv h
  obtain ⟨y, hy, h⟩ := Py.bind_inv h
  obtain ⟨dx, hdx, h⟩ := Py.bind_inv h
  obtain ⟨n1, e1⟩ := Py.div_inv hq1
  obtain ⟨n2, e2⟩ := Py.div_inv hq2
  obtain ⟨n3, e3⟩ := Py.div_inv hy
  obtain ⟨n4, e4⟩ := Py.div_inv hdx
  have hq := (Except.ok.inj h).symm
  subst e1 e2
  have ts' := tan_inv hts
  have tm' := tan_inv htm
  refine ⟨mur, e, by rw [← lastFirst_eq]; exact hmur, he, by rw [hq], by rw [hq], m, hm, ?_⟩
  have := meets_of n1 n3 e3 (show mur.x + dx = mur.x + (y - mur.y) / tm by rw [e4])
  rw [hq]
  unfold Meets
  rw [← ts', ← tm']
  exact this

/-- success of the wall points -/
theorem wall_ok_aux {n k : ℕ} {tab : List (List Point)} {mur e : Point} {m : ℝ}
    (hmur : getPt tab (tab.length - 1) 0 = .ok mur) (he : getPt tab n k = .ok e) (hm : mu fuel e.nu_pmeyer = .ok m)
    (h1 : 0 < (e.theta + mur.theta) / 2) (h2 : (e.theta + mur.theta) / 2 < e.theta + m) (h3 : e.theta + m < π / 2) :
    (k = 1 → ∃ w, wall_first fuel n tab = .ok w) ∧ ∃ w, wall_next fuel n tab k = .ok w := by
  have c1 : Real.cos (e.theta + m) ≠ 0 := (Real.cos_pos_of_mem_Ioo ⟨by linarith [Real.pi_pos], h3⟩).ne'
  have c2 : Real.cos ((e.theta + mur.theta) / 2) ≠ 0 :=
    (Real.cos_pos_of_mem_Ioo ⟨by linarith [Real.pi_pos], by linarith⟩).ne'
  have t2 : 0 < Real.tan ((e.theta + mur.theta) / 2) := Real.tan_pos_of_pos_of_lt_pi_div_two h1 (by linarith)
  have t1 : Real.tan ((e.theta + mur.theta) / 2) < Real.tan (e.theta + m) :=
    Real.tan_lt_tan_of_nonneg_of_lt_pi_div_two h1.le h3 h2
  have q : 1 - Real.tan (e.theta + m) / Real.tan ((e.theta + mur.theta) / 2) ≠ 0 := by
    have := (one_lt_div t2).2 t1
    linarith
  constructor
  · rintro rfl
    unfold wall_first
    rw [lastFirst_eq, hmur, Py.ok_bind, he, Py.ok_bind, hm, Py.ok_bind]
    simp only []
    rw [Py.tan_ok c1, Py.ok_bind, Py.tan_ok c2, Py.ok_bind, Py.div_ok t2.ne', Py.ok_bind, Py.div_ok t2.ne', Py.ok_bind,
      Py.div_ok q, Py.ok_bind, Py.div_ok (by linarith), Py.ok_bind]
    exact ⟨_, rfl⟩
  · unfold wall_next
    rw [lastFirst_eq, hmur, Py.ok_bind, he, Py.ok_bind, hm, Py.ok_bind]
    simp only []
    rw [Py.tan_ok c1, Py.ok_bind, Py.tan_ok c2, Py.ok_bind, Py.div_ok t2.ne', Py.ok_bind, Py.div_ok t2.ne', Py.ok_bind,
      Py.div_ok q, Py.ok_bind, Py.div_ok t2.ne', Py.ok_bind]
    exact ⟨_, rfl⟩

variable (fuel) in
/-- state of the construction of the wall after `k` points beyond the corner -/
structure Wt (n : ℕ) (tab0 : List (List Point)) (s : List (List Point) × List (ℝ × ℝ) × Point) (k : ℕ) : Prop where
  len : s.1.length = n + 1 + k
  ext : Ext tab0 s.1
  wall : ∀ i, 1 ≤ i → i ≤ k → ∃ mur e w, getPt s.1 (n + i - 1) 0 = .ok mur ∧ getPt tab0 n i = .ok e ∧
    getPt s.1 (n + i) 0 = .ok w ∧ IsWall fuel mur e w
  plen : s.2.1.length = k + 1
  prof : ∀ i ≤ k, ∃ p, getPt s.1 (n + i) 0 = .ok p ∧ s.2.1[i]? = some (p.x, p.y)
  pt : getPt s.1 (n + k) 0 = .ok s.2.2

theorem wt_first {n : ℕ} {tab : List (List Point)} (hs : St fuel y0 dth dl tab n (n + 2)) {w : Point}
    (h : wall_first fuel n tab = .ok w) : Wt fuel n tab (tab ++ [[w]], [(0.0, y0), (w.x, w.y)], w) 1 := by
  obtain ⟨mur, e, h1, h2, h3⟩ := wall_first_inv h
  have hl := hs.len
  have he := ext_append tab [w]
  have hw : getPt (tab ++ [[w]]) (n + 1) 0 = .ok w := by
    have := get_append tab [w] (j := 0) (p := w) rfl
    rwa [hl] at this
  obtain ⟨c, hc, hc'⟩ := hs.rel n 0 (Or.inr ⟨rfl, by omega⟩)
  have hc0 : c.x = 0 ∧ c.y = y0 := by
    rcases hc' with ⟨-, rfl⟩ | h | h
    · exact ⟨rfl, rfl⟩
    · omega
    · omega
  refine ⟨by simp [hl], he, ?_, rfl, ?_, hw⟩
  · intro i hi1 hi2
    have : i = 1 := by omega
    subst this
    rw [hl, Nat.add_sub_cancel] at h1
    exact ⟨mur, e, w, by rw [Nat.add_sub_cancel]; exact he _ _ _ h1, h2, hw, h3⟩
  · intro i hi
    obtain rfl | rfl : i = 0 ∨ i = 1 := by omega
    · refine ⟨c, he _ _ _ hc, ?_⟩
      rw [hc0.1, hc0.2]; norm_num
    · exact ⟨w, hw, rfl⟩

theorem wt_next {n : ℕ} {tab0 : List (List Point)} {s : List (List Point) × List (ℝ × ℝ) × Point} {k : ℕ}
    (hs : Wt fuel n tab0 s k) (h0 : St fuel y0 dth dl tab0 n (n + 2)) (hk : k + 1 ≤ n + 1) {w : Point}
    (h : wall_next fuel n s.1 (k + 1) = .ok w) :
    Wt fuel n tab0 (s.1 ++ [[w]], s.2.1 ++ [(w.x, w.y)], w) (k + 1) := by
  obtain ⟨mur, e, h1, h2, h3⟩ := wall_next_inv h
  have hl := hs.len
  have he := ext_append s.1 [w]
  have hw : getPt (s.1 ++ [[w]]) (n + (k + 1)) 0 = .ok w := by
    have := get_append s.1 [w] (j := 0) (p := w) rfl
    rwa [hl, show n + 1 + k = n + (k + 1) by omega] at this
  obtain ⟨e', he', -⟩ := h0.rel n (k + 1) (Or.inr ⟨rfl, by omega⟩)
  have := hs.ext _ _ _ he'
  rw [this] at h2
  have hee := Except.ok.inj h2
  subst hee
  refine ⟨by simp [hl]; omega, hs.ext.trans he, ?_, by simp [hs.plen], ?_, hw⟩
  · intro i hi1 hi2
    by_cases hi : i = k + 1
    · subst hi
      rw [hl] at h1
      exact ⟨mur, e', w, he _ _ _ (by rw [show n + (k + 1) - 1 = n + 1 + k - 1 by omega]; exact h1), he', hw, h3⟩
    · obtain ⟨m', e2, w', g1, g2, g3, g4⟩ := hs.wall i hi1 (by omega)
      exact ⟨m', e2, w', he _ _ _ g1, g2, he _ _ _ g3, g4⟩
  · intro i hi
    by_cases hik : i = k + 1
    · subst hik
      refine ⟨w, hw, ?_⟩
      have := hs.plen
      simp [this]
    · obtain ⟨p, g1, g2⟩ := hs.prof i (by omega)
      refine ⟨p, he _ _ _ g1, ?_⟩
      have := hs.plen
      rw [List.getElem?_append_left (by omega)]
      exact g2

theorem wt_walls {n : ℕ} {tab0 : List (List Point)} {s s' : List (List Point) × List (ℝ × ℝ) × Point} {i k : ℕ}
    (hs : Wt fuel n tab0 s k) (h0 : St fuel y0 dth dl tab0 n (n + 2)) (hk : k + i ≤ n + 1)
    (h : walls fuel n i (k + 1) s = .ok s') : Wt fuel n tab0 s' (k + i) := by
  induction i generalizing k s with
  | zero =>
    unfold walls at h
    have := Except.ok.inj h
    subst this
    exact hs
  | succ i ih =>
    obtain ⟨tab, pr, pt⟩ := s
    unfold walls at h
    obtain ⟨w, hw, h⟩ := Py.bind_inv h
    have := ih (wt_next hs h0 (by omega) hw) (by omega) h
    rw [show k + (i + 1) = k + 1 + i by omega]
    exact this

end

end Aerokit.Props
