import Verif.Props.MinNozzleNet
import Verif.Lemmas.CharNet
import Verif.Lemmas.MinAngle

/-! # Property C136 : the nozzle of minimum length is built, and its wall is regular -/

namespace Aerokit.Props
open Real MinNozzle

theorem fan_steps {p : ℝ} (hp : 0 < p) {n : ℕ} (hn : 1 ≤ n) :
    0 < p / 200 / n ∧ p / 200 / n < (p / 2 - p / 200 / n) / n ∧ p / 200 / n + n * ((p / 2 - p / 200 / n) / n) = p / 2 := by
  have hn' : (1 : ℝ) ≤ n := by exact_mod_cast hn
  have hn0 : (0 : ℝ) < n := by linarith
  refine ⟨by positivity, ?_, by field_simp; ring⟩
  have h1 : p / 200 / n ≤ p / 200 := div_le_self (by positivity) hn'
  exact div_lt_div_of_pos_right (by linarith) hn0

theorem mln_ok {fuel n : ℕ} {Mf A : ℝ} (hM : 1 < Mf) (hn : 1 ≤ n) (hA : 0 ≤ A)
    (hang : Ang fuel (npm Mf / 200 / n) ((npm Mf / 2 - npm Mf / 200 / n) / n) n)
    (hex : ∃ M, mach_via_pmeyer fuel (npm Mf) = .ok M) :
    ∃ r, Minimum_length_nozzle fuel Mf A n = .ok r := by
  have hp : 0 < npm Mf := by rw [← npm_one]; exact npm_lt le_rfl hM
  obtain ⟨d1, d2, d3⟩ := fan_steps hp hn
  have hl := d1.trans d2
  have hn0 : (n : ℝ) ≠ 0 := by exact_mod_cast (by omega : n ≠ 0)
  obtain ⟨t0, ht0⟩ := row0_ok hA d1 hl hang
  have s0 := st_row0 (dl := (npm Mf / 2 - npm Mf / 200 / n) / n) ht0
  obtain ⟨t1, ht1⟩ := rows_ok (k := n) hA d1 hl hang (by omega) s0
  have s1 := st_rows s0 ht1
  rw [Nat.zero_add] at s1 ht1
  obtain ⟨w, hw⟩ := wall_first_ok d1 hl hn hang s1
  have w1 := wt_first s1 hw
  obtain ⟨⟨t2, pr, pt⟩, hws⟩ := walls_ok d1 hl hn hang s1 w1 (i := n) (by omega)
  have w2 := wt_walls w1 s1 (by omega) hws
  rw [Nat.add_comm 1 n] at w2
  obtain ⟨q, hq1, -, hq2⟩ := wt_theta w2 s1 le_rfl
  have hpt := w2.pt
  simp only [] at hpt hq1
  rw [hq1] at hpt
  have := Except.ok.inj hpt
  subst this
  have hnu : q.nu_pmeyer = npm Mf := by
    rw [hq2]
    simp only [nuv, if_neg (show ¬ n + 1 ≤ 1 by omega)]
    push_cast
    linarith
  obtain ⟨M, hM'⟩ := hex
  refine ⟨(t2, pr, M), ?_⟩
  unfold Minimum_length_nozzle
  rw [npm_ok (by nlinarith), Py.ok_bind]
  simp only []
  rw [Py.div_ok hn0, Py.ok_bind]
  rw [show npm Mf / 2 / n / 100 = npm Mf / 200 / (n : ℝ) by ring]
  rw [Py.div_ok hn0, Py.ok_bind, Py.sqrt_ok (by positivity), Py.ok_bind, ht0, Py.ok_bind, ht1, Py.ok_bind, hw, Py.ok_bind,
    hws, Py.ok_bind]
  simp only []
  rw [hnu, hM']
  rfl

/-- **C136** For a requested Mach number in `(1, 3]`, any throat area and any number of waves, the
construction returns (`fuel` bounds the Newton searches). -/
theorem C136_returns_partial {Mf A : ℝ} (h1 : 1 < Mf) (h2 : Mf ≤ 3) (hA : 0 ≤ A) {n : ℕ} (hn : 1 ≤ n) :
    ∃ F, ∀ fuel, F ≤ fuel → ∃ tab prof M, Minimum_length_nozzle fuel Mf A n = .ok (tab, prof, M) := by
  have hp : 0 < npm Mf := by rw [← npm_one]; exact npm_lt le_rfl h1
  have hle : npm Mf ≤ npm 3 := npm_le h1.le h2
  obtain ⟨d1, d2, d3⟩ := fan_steps hp hn
  obtain ⟨F, hF⟩ := ang_of d1 (d1.trans d2) hn (by rw [d3]; linarith)
  obtain ⟨F', x, -, -, -, hF'⟩ := angle_of hp (hle.trans_lt (npm_lt_max _))
  refine ⟨max F F', fun fuel hf => ?_⟩
  obtain ⟨⟨a, b, c⟩, hr⟩ := mln_ok h1 hn hA (hF fuel (le_of_max_le_left hf)) ⟨x, (hF' fuel (le_of_max_le_right hf)).1⟩
  exact ⟨a, b, c, hr⟩

/-- **C136** without waves, or for a subsonic Mach number, there is no result. -/
theorem C136_fails (fuel : ℕ) (Mf A : ℝ) (n : ℕ) (h : n = 0 ∨ Mf ^ 2 < 1) :
    Minimum_length_nozzle fuel Mf A n = .error .nonFinite := by
  unfold Minimum_length_nozzle
  rcases lt_or_ge (Mf ^ 2) 1 with h1 | h1
  · rw [npm_err h1]; rfl
  · rcases h with h | h
    · subst h
      rw [npm_ok h1, Py.ok_bind]
      simp only [Nat.cast_zero]
      rw [Py.div_err]; rfl
    · linarith

theorem mu_fuel {v m : ℝ} {fuel fuel' : ℕ} (h : mu fuel v = .ok m) (hf : fuel ≤ fuel') : mu fuel' v = .ok m := by
  unfold mu at h ⊢
  obtain ⟨x, hx, h⟩ := Py.bind_inv h
  have : mach_via_pmeyer fuel' v = .ok x := by
    unfold mach_via_pmeyer at hx ⊢
    split_ifs at hx ⊢ with h0
    · exact hx
    · exact newton_mono hx hf
  rw [this, Py.ok_bind]; exact h

/-- the Mach angle the run uses at a node -/
theorem mu_run {fuel : ℕ} {v m : ℝ} (h0 : 0 < v) (hv : v < npmMax) (h : mu fuel v = .ok m) :
    ∃ x, 1 < x ∧ |v - npm x| ≤ 0.00001 ∧ (x < 49/20 → v + arcsin (1 / x) < π / 2) ∧ m = arcsin (1 / x) := by
  obtain ⟨F, x, h1, h2, h3, h5⟩ := angle_of h0 hv
  have e1 := mu_fuel h (le_max_left fuel F)
  have e2 := (h5 _ (le_max_right fuel F)).2
  rw [e1] at e2
  have := Except.ok.inj e2
  exact ⟨x, h1, h2, h3, this⟩

theorem mu_anti {fuel : ℕ} {v v' m m' : ℝ} (h0 : 0 < v) (hv : v' < npmMax) (hvv : v + 0.00002 ≤ v')
    (h : mu fuel v = .ok m) (h' : mu fuel v' = .ok m') : m' ≤ m := by
  have hvv' : v + 2/100000 ≤ v' := by norm_num at hvv ⊢; exact hvv
  obtain ⟨x, x1, x2, -, rfl⟩ := mu_run h0 (by linarith) h
  obtain ⟨y, y1, y2, -, rfl⟩ := mu_run (by linarith) hv h'
  have a := abs_le.1 (x2.trans (show (0.00001 : ℝ) ≤ 1/100000 by norm_num))
  have b := abs_le.1 (y2.trans (show (0.00001 : ℝ) ≤ 1/100000 by norm_num))
  have : x ≤ y := (npm_le_iff x1.le y1.le).1 (by linarith [a.1, b.2])
  refine Real.monotone_arcsin ?_
  exact one_div_le_one_div_of_le (by linarith) this

theorem steps_twelve {p : ℝ} (hp : 0 < p) (h : p ≤ npm 10) {n : ℕ} (hn : 12 ≤ n) :
    p / 200 / n + (p / 2 - p / 200 / n) / n < 99/1000 := by
  have hn' : (12 : ℝ) ≤ n := by exact_mod_cast hn
  have h10 := h.trans npm_ten
  have q1 : p / 200 / n ≤ p / 200 / 12 := div_le_div_of_nonneg_left (by positivity) (by norm_num) hn'
  have q2 : (p / 2 - p / 200 / n) / n ≤ p / 2 / 12 := by
    have : (p / 2 - p / 200 / n) / n ≤ p / 2 / n := by
      apply div_le_div_of_nonneg_right _ (by linarith)
      have : 0 ≤ p / 200 / n := by positivity
      linarith
    exact this.trans (div_le_div_of_nonneg_left (by positivity) (by norm_num) hn')
  linarith

/-- the nets of these runs open regularly -/
theorem run_fair {fuel n : ℕ} {y0 p : ℝ} (hp : 0 < p) (hn : 1 ≤ n) (hc : p ≤ npm 3 ∨ p ≤ npm 10 ∧ 12 ≤ n) (hfine : 0.00005 * n ≤ p)
    {tab : List (List Point)} (hs : St fuel y0 (p / 200 / n) ((p / 2 - p / 200 / n) / n) tab n (n + 2))
    (hlast : ∃ m, mu fuel (ptAt tab n (n + 1)).nu_pmeyer = .ok m) :
    Fair n (fun i j => (ptAt tab i j).theta) (fun i j => muAt fuel (ptAt tab i j).nu_pmeyer) := by
  obtain ⟨d1, d2, d3⟩ := fan_steps hp hn
  have hdl : 2/100000 ≤ (p / 2 - p / 200 / n) / n := by
    have hn' : (1 : ℝ) ≤ n := by exact_mod_cast hn
    rw [le_div_iff₀ (by linarith)]
    have h1 : p / 200 / n ≤ p / 200 := div_le_self (by positivity) hn'
    have h2 : 5/100000 * (n : ℝ) ≤ p := by norm_num at hfine ⊢; exact hfine
    linarith
  obtain ⟨dth, hdth⟩ : ∃ d, d = p / 200 / (n : ℝ) := ⟨_, rfl⟩
  obtain ⟨dl, hdle⟩ : ∃ d, d = (p / 2 - p / 200 / n) / (n : ℝ) := ⟨_, rfl⟩
  rw [← hdle] at d2 d3 hdl hs
  rw [← hdth] at d1 d2 d3 hs
  have hl : 0 < dl := d1.trans d2
  have hten : p ≤ npm 10 := by
    rcases hc with h | h
    · exact h.trans npm_3_10
    · exact h.1
  have hp2 : 2 * (dth + n * dl) = p := by rw [d3]; ring
  have hle2 : ∀ i j : ℕ, i ≤ n → j ≤ i + 1 → nuv dth dl i j < npmMax := by
    intro i j hi hj
    have := nuv_le d1 hl hi hj
    rw [hp2] at this
    exact (this.trans hten).trans_lt (npm_lt_max _)
  -- all the data at a node
  have key : ∀ i j : ℕ, i ≤ n → j ≤ i + 1 → ∃ m, mu fuel (nuv dth dl i j) = .ok m ∧
      (ptAt tab i j).theta = thv dth dl i j ∧ muAt fuel (ptAt tab i j).nu_pmeyer = m ∧
      99/1000 < m ∧ m < π / 2 ∧ thv dth dl i j + m < π / 2 ∧ (thv dth dl i j < m ∨ dth + dl < 99/1000) := by
    intro i j hi hj
    obtain ⟨m, hm⟩ := st_mu hs hlast hi hj
    obtain ⟨-, e1, e2⟩ := st_pt hs hi hj
    have hm' := hm
    rw [e2] at hm'
    obtain ⟨x, hx, hxs, a, rfl⟩ := mu_run (nuv_pos d1 hl) (hle2 i j hi hj) hm'
    obtain ⟨b1, b2, b3, b4⟩ := node_angle d1 hl (by rw [hp2]; exact hten) hi hj hx hxs a
    refine ⟨_, hm', e1, muAt_eq hm, b1, b2, b3, ?_⟩
    rcases hc with h | h
    · exact Or.inl (b4 (by rw [hp2]; exact h)).1
    · right
      rw [hdth, hdle]
      exact steps_twelve hp h.1 h.2
  have anti : ∀ i j i' j' : ℕ, i ≤ n → j ≤ i + 1 → i' ≤ n → j' ≤ i' + 1 → nuv dth dl i j + dl ≤ nuv dth dl i' j' →
      muAt fuel (ptAt tab i' j').nu_pmeyer ≤ muAt fuel (ptAt tab i j).nu_pmeyer := by
    intro i j i' j' hi hj hi' hj' h
    obtain ⟨m, hm, -, e, -⟩ := key i j hi hj
    obtain ⟨m', hm', -, e', -⟩ := key i' j' hi' hj'
    rw [e, e']
    refine mu_anti (nuv_pos d1 hl) (hle2 i' j' hi' hj') ?_ hm hm'
    have : (0.00002 : ℝ) ≤ dl := by norm_num at hdl ⊢; exact hdl
    linarith
  have th : ∀ i j : ℕ, i ≤ n → j ≤ i + 1 → (ptAt tab i j).theta = thv dth dl i j := fun i j hi hj => by
    obtain ⟨m, -, e, -⟩ := key i j hi hj; exact e
  refine ⟨?_, ?_, ?_, ?_, ?_, ?_, ?_⟩
  · intro i hi j hj
    obtain ⟨m, -, e1, e2, e3, e4, e5, -⟩ := key i j hi hj
    have a := thv_nonneg d1 hl hj
    simp only [e1, e2]
    constructor <;> linarith
  · intro i hi
    obtain ⟨m, -, e1, e2, e3, e4, e5, e6⟩ := key i i hi (by omega)
    simp only [e1, e2]
    rcases e6 with h | h
    · linarith
    · have : thv dth dl i i ≤ dth + dl := by
        unfold thv
        split_ifs with g
        · have : (i : ℝ) ≤ 1 := by exact_mod_cast g
          nlinarith
        · linarith
      linarith
  · intro i hi1 hi j hj1 hj
    obtain ⟨m, -, e1, e2, e3, e4, e5, e6⟩ := key i (j - 1) hi (by omega)
    obtain ⟨m', -, f1, f2, f3, f4, f5, f6⟩ := key (i - 1) j (by omega) (by omega)
    have a := thv_nonneg d1 hl (show j ≤ i - 1 + 1 by omega)
    simp only [e1, e2, f1, f2]
    rcases e6 with h | h
    · linarith
    · have : thv dth dl i (j - 1) ≤ thv dth dl (i - 1) j + dth + 2 * dl := by
        unfold thv
        rw [Nat.cast_sub hi1]
        push_cast
        split_ifs with g1 g2 g2
        · linarith
        · have : (j : ℝ) ≤ 2 := by exact_mod_cast (by omega : j ≤ 2)
          nlinarith
        · omega
        · rw [Nat.cast_sub hj1]; push_cast; linarith
      linarith
  · intro i hi j hj
    obtain ⟨m, -, e1, e2, e3, e4, e5, -⟩ := key i j hi hj
    have a := thv_nonneg d1 hl hj
    simp only [e1, e2]
    constructor <;> linarith
  · intro i hi j hj2 hj
    have a := anti i (j - 1) i j hi (by omega) hi hj (by
      simp only [nuv, if_neg (show ¬ j ≤ 1 by omega)]
      have hj' : (2 : ℝ) ≤ j := by exact_mod_cast hj2
      split_ifs with h
      · nlinarith
      · rw [Nat.cast_sub (by omega)]; push_cast; linarith)
    have b : thv dth dl i j ≤ thv dth dl i (j - 1) := by
      simp only [thv, if_neg (show ¬ j ≤ 1 by omega)]
      have hj' : (2 : ℝ) ≤ j := by exact_mod_cast hj2
      split_ifs with h
      · nlinarith
      · rw [Nat.cast_sub (by omega)]; push_cast; linarith
    simp only [th i j hi hj, th i (j - 1) hi (by omega)]
    linarith
  · intro i h1 hi j hj
    have a := anti (i - 1) j i j (by omega) (by omega) hi (by omega) (by
      simp only [nuv]
      rw [Nat.cast_sub h1]; push_cast
      split_ifs <;> linarith)
    have b : thv dth dl (i - 1) j + dl = thv dth dl i j := by
      simp only [thv]
      rw [Nat.cast_sub h1]; push_cast
      split_ifs <;> ring
    simp only [th i j hi (by omega), th (i - 1) j (by omega) (by omega)]
    linarith
  · intro i h1 hi
    have hi' : (1 : ℝ) ≤ i := by exact_mod_cast h1
    have a1 := anti (i - 1) (i - 1) i (i - 1) (by omega) (by omega) hi (by omega) (by
      simp only [nuv]
      rw [Nat.cast_sub h1]; push_cast
      split_ifs <;> linarith)
    have a2 := anti (i - 1) (i - 1) i i (by omega) (by omega) hi (by omega) (by
      simp only [nuv]
      rw [Nat.cast_sub h1]; push_cast
      split_ifs with g1 g2 g2
      · linarith
      · nlinarith
      · omega
      · linarith)
    have b : 2 * thv dth dl (i - 1) (i - 1) < thv dth dl i (i - 1) + thv dth dl i i := by
      simp only [thv]
      rw [Nat.cast_sub h1]; push_cast
      split_ifs with g1 g2 g2
      · linarith
      · have : i = 2 := by omega
        subst this
        push_cast
        linarith
      · omega
      · linarith
    simp only [th i i hi (by omega), th i (i - 1) hi (by omega), th (i - 1) (i - 1) (by omega) (by omega)]
    linarith

/-- **C136** For a requested Mach number in `(1, 3]`, or in `(1, 10]` with at least twelve waves, and waves not
weaker than the tolerance of the searches, the returned profile starts at the corner of the throat, goes downstream, expands, and is concave. -/
theorem C136_profile_partial {fuel n : ℕ} {Mf A M p : ℝ} {tab : List (List Point)} {prof : List (ℝ × ℝ)}
    (h : Minimum_length_nozzle fuel Mf A n = .ok (tab, prof, M)) (h1 : 1 < Mf) (h2 : Mf ≤ 3 ∨ Mf ≤ 10 ∧ 12 ≤ n) (hA : 0 < A)
    (hp : pmeyer Mf = .ok p) (hfine : 0.00005 * n ≤ p) :
    prof.length = n + 2 ∧ prof[0]? = some (0, √(A / π)) ∧
    prof.IsChain (fun a b => a.1 < b.1 ∧ a.2 < b.2) ∧
    ∀ k a b c, prof[k]? = some a → prof[k + 1]? = some b → prof[k + 2]? = some c →
      (c.2 - b.2) / (c.1 - b.1) < (b.2 - a.2) / (b.1 - a.1) := by
  obtain ⟨p', hp', hn, tab0, pt, hs, hw, hM⟩ := mln_inv h
  rw [hp] at hp'
  have := Except.ok.inj hp'
  subst this
  rw [npm_ok (by nlinarith)] at hp
  have hpe := Except.ok.inj hp
  have hp0 : 0 < p := by rw [← hpe, ← npm_one]; exact npm_lt le_rfl h1
  have hc : p ≤ npm 3 ∨ p ≤ npm 10 ∧ 12 ≤ n := by
    rw [← hpe]
    exact h2.imp (npm_le h1.le) (And.imp_left (npm_le h1.le))
  have hten : p ≤ npm 10 := by
    rcases hc with h | h
    · exact h.trans npm_3_10
    · exact h.1
  have h10 := hten.trans npm_ten
  have hf := run_fair hp0 hn hc hfine hs (wt_mu hw)
  obtain ⟨d1, d2, d3⟩ := fan_steps hp0 hn
  have hl := d1.trans d2
  have hnet := st_net hs
  have hwall := wt_net hs hw
  simp only [] at hwall
  have hTh : ∀ k ≤ n + 1, (ptAt tab (n + k) 0).theta = thv (p / 200 / n) ((p / 2 - p / 200 / n) / n) n k := by
    intro k hk
    rcases Nat.eq_zero_or_pos k with h0 | h0
    · subst h0
      rw [hwall.start.2.2]
      exact (st_pt hs le_rfl (by omega)).2.1
    · rw [hwall.angle k h0 hk]
      exact (st_pt hs le_rfl (by omega)).2.1
  have hmean : ∀ k, 1 ≤ k → k ≤ n + 1 → 0 < ((ptAt tab (n + k) 0).theta + (ptAt tab (n + (k - 1)) 0).theta) / 2 := by
    intro k k1 k2
    rw [hTh k k2, hTh (k - 1) (by omega)]
    have := wall_angles d1 hl hn (k := k - 1) (by omega)
    rwa [Nat.sub_add_cancel k1] at this
  have hmean' : ∀ k ≤ n + 1, (ptAt tab (n + k) 0).theta ≤ p / 2 := by
    intro k hk
    rw [hTh k hk]; exact (thv_le d1 hl le_rfl).trans d3.le
  have hmub : ∀ k ≤ n + 1, (p / 200 / n + (p / 2 - p / 200 / n) / n) / 2 < muAt fuel (ptAt tab0 n k).nu_pmeyer := by
    intro k hk
    obtain ⟨m, hm⟩ := st_mu hs (wt_mu hw) le_rfl hk
    obtain ⟨-, e1, e2⟩ := st_pt hs le_rfl hk
    rw [muAt_eq hm]
    rw [e2] at hm
    have hp2 : 2 * (p / 200 / n + n * ((p / 2 - p / 200 / n) / n)) = p := by rw [d3]; ring
    have hnu := nuv_le d1 hl (le_refl n) hk
    rw [hp2] at hnu
    obtain ⟨x, hx, hxs, a, rfl⟩ := mu_run (nuv_pos d1 hl) ((hnu.trans hten).trans_lt (npm_lt_max _)) hm
    obtain ⟨b1, b2, b3, b4⟩ := node_angle d1 hl (by rw [hp2]; exact hten) le_rfl hk hx hxs a
    rcases hc with h | h
    · have := steps_three d1 hl hn (by rw [hp2]; exact h)
      have := (b4 (by rw [hp2]; exact h)).2
      linarith
    · have := steps_twelve hp0 h.1 h.2
      linarith
  have hord := wall_order hnet hf (Real.sqrt_pos.2 (by positivity)) hwall hmean (by
    intro k k1 k2
    have c := hmub k k2
    have d := thv_drop d1 hl (n := n) (k := k - 1)
    rw [Nat.sub_add_cancel k1] at d
    rw [hTh k k2, hTh (k - 1) (by omega), (st_pt hs le_rfl k2).2.1]
    linarith)
  have hprof := wt_prof hw
  simp only [] at hprof
  have hget : ∀ k ≤ n + 1, prof[k]? = some ((ptAt tab (n + k) 0).x, (ptAt tab (n + k) 0).y) := by
    intro k hk
    rw [hprof, List.getElem?_map, List.getElem?_range (by omega)]; rfl
  have hlen : prof.length = n + 2 := by rw [hprof]; simp
  refine ⟨hlen, ?_, ?_, ?_⟩
  · rw [hget 0 (by omega)]
    have a := hwall.start
    rw [a.1, a.2.1, ptAt_eq (st_corner hs le_rfl)]
  · rw [List.isChain_iff_getElem]
    intro i hi
    have e1 := hget i (by omega)
    have e2 := hget (i + 1) (by omega)
    rw [List.getElem?_eq_getElem (by omega)] at e1 e2
    rw [Option.some.inj e1, Option.some.inj e2]
    have := hord (i + 1) (by omega) (by omega)
    exact ⟨this.1, this.2.1⟩
  · intro k a b c ha hb hc
    have hk : k + 2 < n + 2 := by
      by_contra hcon
      rw [List.getElem?_eq_none (by omega)] at hc
      cases hc
    rw [hget k (by omega)] at ha
    rw [hget (k + 1) (by omega)] at hb
    rw [hget (k + 2) (by omega)] at hc
    have ea := Option.some.inj ha
    have eb := Option.some.inj hb
    have ec := Option.some.inj hc
    subst ea eb ec
    have o1 := (hord (k + 1) (by omega) (by omega)).1
    have o2 := (hord (k + 2) (by omega) (by omega)).1
    have l1 := hwall.wall_line (k + 1) (by omega) (by omega)
    have l2 := hwall.wall_line (k + 2) (by omega) (by omega)
    simp only [Nat.add_sub_cancel, show k + 2 - 1 = k + 1 by omega] at o1 o2 l1 l2
    have q1 : ∀ {x y t : ℝ}, 0 < x → y = t * x → y / x = t := fun hx h => by rw [h, mul_div_cancel_right₀ _ hx.ne']
    simp only []
    rw [q1 (sub_pos.2 o1) l1, q1 (sub_pos.2 o2) l2]
    have m1 := hmean (k + 1) (by omega) (by omega)
    have m2 := hmean (k + 2) (by omega) (by omega)
    simp only [Nat.add_sub_cancel, show k + 2 - 1 = k + 1 by omega] at m1 m2
    have u0 := hmean' k (by omega)
    have u1 := hmean' (k + 1) (by omega)
    have := Real.pi_gt_three
    refine tan_smono' (by linarith) (by linarith) ?_
    have : (ptAt tab (n + (k + 2)) 0).theta < (ptAt tab (n + k) 0).theta := by
      rw [hTh _ (by omega), hTh _ (by omega)]
      simp only [thv, if_neg (show ¬ k + 2 ≤ 1 by omega)]
      push_cast
      split_ifs with g
      · have : (k : ℝ) ≤ 1 := by exact_mod_cast g
        nlinarith [Nat.cast_nonneg (α := ℝ) k]
      · linarith
    linarith

/-- **C135** (false as one would state it) the points of the axis do not all have a flow along the axis:
the first characteristic is not reflected. -/
theorem C135_axis_false : ∃ (fuel n : ℕ) (Mf A M : ℝ) (tab : List (List Point)) (prof : List (ℝ × ℝ)) (r : List Point) (q : Point),
    Minimum_length_nozzle fuel Mf A n = .ok (tab, prof, M) ∧ tab[0]? = some r ∧ r[1]? = some q ∧
    q.y = 0 ∧ 0 < q.theta := by
  obtain ⟨F, hF⟩ := C136_returns_partial (Mf := 2) (A := 1) (n := 5) (by norm_num) (by norm_num) (by norm_num) (by norm_num)
  obtain ⟨tab, prof, M, h⟩ := hF F le_rfl
  obtain ⟨p, hp, hn, tab0, pt, hs, hw, hM⟩ := mln_inv h
  rw [npm_ok (by norm_num)] at hp
  have hpe := Except.ok.inj hp
  have hp0 : 0 < p := by rw [← hpe, ← npm_one]; exact npm_lt le_rfl (by norm_num)
  obtain ⟨g, e1, e2⟩ := st_pt hs (Nat.zero_le 5) (j := 1) (by omega)
  obtain ⟨r, hr, hq⟩ := getPt_iff.1 (hw.ext _ _ _ g)
  refine ⟨F, 5, 2, 1, M, tab, prof, r, _, h, hr, hq, (st_axis hs (Nat.zero_le 5)).1.1, ?_⟩
  rw [e1]
  simp only [thv, if_pos le_rfl]
  have := (fan_steps hp0 (show 1 ≤ 5 by norm_num)).1
  push_cast at this ⊢
  linarith

/-- the hypotheses of C136 are met with descending characteristics close to the axial direction: Mach 3, 20 waves -/
example : ∃ fuel tab prof M p, Minimum_length_nozzle fuel 3 1 20 = .ok (tab, prof, M) ∧ pmeyer 3 = .ok p ∧
    (0.00005 : ℝ) * (20 : ℕ) ≤ p := by
  obtain ⟨F, hF⟩ := C136_returns_partial (Mf := 3) (A := 1) (n := 20) (by norm_num) (by norm_num) (by norm_num) (by norm_num)
  obtain ⟨tab, prof, M, h⟩ := hF F le_rfl
  refine ⟨F, tab, prof, M, npm 3, h, npm_ok (by norm_num), ?_⟩
  have h1 := npm_two_ge
  have h2 := npm_le (M := 2) (N := 3) (by norm_num) (by norm_num)
  norm_num at h1 ⊢
  linarith

/-- the hypotheses of C135 and C136 are met: Mach 2, 20 waves -/
example : ∃ fuel tab prof M p, Minimum_length_nozzle fuel 2 1 20 = .ok (tab, prof, M) ∧ pmeyer 2 = .ok p ∧
    (0.00005 : ℝ) * (20 : ℕ) ≤ p := by
  obtain ⟨F, hF⟩ := C136_returns_partial (Mf := 2) (A := 1) (n := 20) (by norm_num) (by norm_num) (by norm_num) (by norm_num)
  obtain ⟨tab, prof, M, h⟩ := hF F le_rfl
  refine ⟨F, tab, prof, M, npm 2, h, npm_ok (by norm_num), ?_⟩
  obtain ⟨c, c1, c2, hc⟩ := npm_mvt (a := 1.5) (b := 2) (by norm_num) (by norm_num)
  have h1 := nsl_ge (M := c) (by norm_num at c1 ⊢; linarith) (by linarith)
  have h2 := npm_nonneg (M := 1.5)
  norm_num at h1 h2 hc ⊢
  linarith

end Aerokit.Props
