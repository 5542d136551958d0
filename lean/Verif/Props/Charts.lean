import Verif.Model.Charts
import Verif.Props.Rayleigh
import Verif.Props.Plot

/-! # Property C150 : the charts of the example scripts -/

namespace Aerokit.Props
open Charts Plot Rayleigh Real

/-- maximal heating ratio in air -/
theorem maxTi_air {M : ℝ} (hM : 0 < M) : ∃ T, 1 ≤ T ∧ (M ≠ 1 → 1 < T) ∧ maxTiratio_Mach M 1.4 = .ok T ∧ Ti_Ticri M 1.4 = .ok (1 / T) := by
  obtain ⟨t, h1, h2, h3⟩ := C25_choking M 1.4 (by norm_num) hM.le
  have t0 : 0 < t := by
    rw [Ray_Ti_ok (by norm_num)] at h1
    have e := Except.ok.inj h1
    have hd := ray_den_pos (M := M) (γ := 1.4) (by norm_num)
    rw [← e, sub_pos, sq_lt_one_iff_abs_lt_one, abs_lt, lt_div_iff₀ hd, div_lt_one hd]
    constructor <;> nlinarith [sq_nonneg M, mul_pos hM hM]
  refine ⟨1 / t, by rw [le_div_iff₀ t0]; linarith, fun hne => ?_, ?_, by rw [one_div_one_div]; exact h1⟩
  · rw [lt_div_iff₀ t0, one_mul]
    exact lt_of_le_of_ne h2 (fun e => hne (h3.1 e))
  · unfold maxTiratio_Mach
    rw [h1, Py.ok_bind, Py.div_ok t0.ne']
    norm_num

/-- a flow of Mach number `m` whose critical stagnation temperature ratio is not below that of `M`, on the same side of 1, is nearer to 1 -/
theorem heat_order {M m t t' : ℝ} (hM : 0 ≤ M) (hm : 0 ≤ m) (h1 : Ti_Ticri M 1.4 = .ok t) (h2 : Ti_Ticri m 1.4 = .ok t') :
    (M ≤ 1 → m ≤ 1 → ((t < t' → M < m) ∧ (t = t' → M = m))) ∧ (1 ≤ M → 1 ≤ m → ((t < t' → m < M) ∧ (t = t' → M = m))) := by
  have key : ∀ {a b s s' : ℝ}, 0 ≤ a → a < b → Ti_Ticri a 1.4 = .ok s → Ti_Ticri b 1.4 = .ok s' → (b ≤ 1 → s < s') ∧ (1 ≤ a → s' < s) := by
    intro a b s s' ha hab e1 e2
    obtain ⟨u, u', f1, f2, f3, f4⟩ := C25_monotone a b 1.4 (by norm_num) ha hab
    have g1 : u = s := Except.ok.inj (f1.symm.trans e1)
    have g2 : u' = s' := Except.ok.inj (f2.symm.trans e2)
    subst g1 g2
    exact ⟨f3, f4⟩
  have same : M = m → t = t' := by
    rintro rfl
    exact Except.ok.inj (h1.symm.trans h2)
  refine ⟨fun a b => ⟨fun h => ?_, fun h => ?_⟩, fun a b => ⟨fun h => ?_, fun h => ?_⟩⟩
  · rcases lt_trichotomy M m with c | c | c
    · exact c
    · linarith [same c]
    · linarith [(key hm c h2 h1).1 a]
  · rcases lt_trichotomy M m with c | c | c
    · linarith [(key hM c h1 h2).1 b]
    · exact c
    · linarith [(key hm c h2 h1).1 a]
  · rcases lt_trichotomy M m with c | c | c
    · linarith [(key hM c h1 h2).2 a]
    · linarith [same c]
    · exact c
  · rcases lt_trichotomy M m with c | c | c
    · linarith [(key hM c h1 h2).2 a]
    · exact c
    · linarith [(key hm c h2 h1).2 b]

/-- C150 (the heating chart, `gam = 1.4` as in the script): for every initial Mach number and every number of points, all the points are finite; the
abscissas are equidistant from 1 to the maximal heating ratio; the flow at abscissa `x` has `x` times the stagnation temperature of the initial flow
(the same critical state); the curve starts at the initial Mach number, ends at Mach 1, and goes strictly towards 1. -/
theorem C150_heating_partial (M0 : ℝ) (hM : 0 < M0) (n : ℕ) (hn : 0 < n) :
    ∃ (T t0 : ℝ) (x m : ℕ → ℝ), maxTiratio_Mach M0 1.4 = .ok T ∧ Ti_Ticri M0 1.4 = .ok t0 ∧
      heating 1.4 n M0 = ((List.range (n + 1)).map (fun i => .ok (x i)), (List.range (n + 1)).map (fun i => .ok (m i))) ∧
      (∀ i, x i = 1 + i * ((T - 1) / n)) ∧ x n = T ∧ m 0 = M0 ∧ m n = 1 ∧
      (∀ i ≤ n, 0 < m i ∧ (M0 < 1 ↔ m 0 < 1) ∧ (M0 ≤ 1 → m i ≤ 1) ∧ (1 ≤ M0 → 1 ≤ m i) ∧ Ti_Ticri (m i) 1.4 = .ok (x i * t0)) ∧
      (∀ i j, i < j → j ≤ n → (M0 < 1 → m i < m j) ∧ (1 < M0 → m j < m i)) := by
  obtain ⟨T, hT1, hT2, hT, ht⟩ := maxTi_air hM
  have T0 : 0 < T := by linarith
  have n0 : (0 : ℝ) < n := by exact_mod_cast hn
  obtain ⟨x, hx⟩ : ∃ x : ℕ → ℝ, x = fun i : ℕ => 1 + (i : ℝ) * ((T - 1) / n) := ⟨_, rfl⟩
  have hxi : ∀ i, x i = 1 + (i : ℝ) * ((T - 1) / n) := fun i => by rw [hx]
  have x0 : x 0 = 1 := by rw [hxi]; simp
  have xn : x n = T := by rw [hxi]; field_simp; ring
  have step : 0 ≤ (T - 1) / n := div_nonneg (by linarith) n0.le
  have xr : ∀ i ≤ n, 1 ≤ x i ∧ x i ≤ T := by
    intro i hi
    have hi' : (i : ℝ) ≤ n := by exact_mod_cast hi
    have e : (n : ℝ) * ((T - 1) / n) = T - 1 := by field_simp
    rw [hxi]
    constructor
    · have := mul_nonneg (Nat.cast_nonneg (α := ℝ) i) step; linarith
    · have := mul_le_mul_of_nonneg_right hi' step; linarith
  -- the flow at each abscissa
  have pt : ∀ i, ∃ m, i ≤ n → (if M0 < 1 then SubMach_TiTicri (x i / T) 1.4 else SupMach_TiTicri (x i / T) 1.4) = .ok m ∧ 0 < m ∧
      (M0 ≤ 1 → m ≤ 1) ∧ (1 ≤ M0 → 1 ≤ m) ∧ Ti_Ticri m 1.4 = .ok (x i / T) := by
    intro i
    by_cases hi : i ≤ n
    swap
    · exact ⟨0, fun h => absurd h hi⟩
    obtain ⟨a1, a2⟩ := xr i hi
    have q1 : x i / T ≤ 1 := (div_le_one T0).2 a2
    have q0 : 0 < x i / T := div_pos (by linarith) T0
    by_cases hc : M0 < 1
    · obtain ⟨m, b1, b2, b3, b4, -⟩ := C26_sub_right_inverse (x i / T) 1.4 (by norm_num) q0.le q1
      refine ⟨m, fun _ => ⟨by rw [if_pos hc]; exact b1, lt_of_le_of_ne b2 ?_, fun _ => b3, fun h => absurd hc (not_lt.2 h), b4⟩⟩
      rintro rfl
      rw [Ray_Ti_ok (by norm_num)] at b4
      have := Except.ok.inj b4
      norm_num at this
      linarith
    · have hc' : 1 ≤ M0 := not_lt.1 hc
      have lo : 1 - 1 / (1.4 : ℝ) ^ 2 < x i / T := by
        have e : 1 / T ≤ x i / T := div_le_div_of_nonneg_right a1 T0.le
        refine lt_of_lt_of_le ?_ e
        rw [Ray_Ti_ok (by norm_num)] at ht
        have e2 := Except.ok.inj ht
        rw [← e2]
        have hd := ray_den_pos (M := M0) (γ := 1.4) (by norm_num)
        have : ((1 - M0 ^ 2) / (1 + 1.4 * M0 ^ 2)) ^ 2 < 1 / 1.4 ^ 2 := by
          rw [div_pow, div_lt_div_iff₀ (by positivity) (by norm_num)]
          nlinarith [sq_nonneg M0, sq_nonneg (M0 ^ 2)]
        linarith
      obtain ⟨m, b1, b2, b4, -⟩ := (C26_sup_right_inverse (x i / T) 1.4 (by norm_num) q1).1 lo
      refine ⟨m, fun _ => ⟨by rw [if_neg hc]; exact b1, by linarith, fun h => ?_, fun _ => b2, b4⟩⟩
      have hM1 : M0 = 1 := le_antisymm h hc'
      have : T = 1 := by
        rw [hM1, Ray_Ti_ok (by norm_num)] at ht
        have := Except.ok.inj ht
        norm_num at this
        linarith
      have : x i / T = 1 := by rw [this, div_one]; linarith
      rw [this] at b4
      have h11 : Ti_Ticri 1 1.4 = .ok 1 := by rw [Ray_Ti_ok (by norm_num)]; norm_num
      exact (((heat_order (by norm_num) (by linarith) h11 b4).2 le_rfl b2).2 rfl).symm.le
  choose m hm using pt
  refine ⟨T, 1 / T, x, m, hT, ht, ?_, hxi, xn, ?_, ?_, ?_, ?_⟩
  · unfold heating
    rw [hT]
    simp only [linspace, List.map_map, Py.ok_bind, Py.pure_eq, elementwise]
    refine Prod.ext ?_ ?_
    · apply List.map_congr_left
      intro i _
      rw [hxi]; norm_num
    · have e : ∀ f : ℝ → Py ℝ, ∀ g : ℕ → Py ℝ, (∀ i ≤ n, f (x i / T) = g i) →
          (List.range (n + 1)).map ((fun v : Py ℝ => v >>= f) ∘ (fun t : Py ℝ => t >>= fun t => Py.div t T) ∘ fun (i : ℕ) => (Except.ok (1.0 + (i : ℝ) * ((T - 1.0) / n)) : Py ℝ)) =
            (List.range (n + 1)).map g := by
        intro f g h
        apply List.map_congr_left
        intro i hi
        have hi' : i ≤ n := by have := List.mem_range.1 hi; omega
        rw [← h i hi', hxi]
        simp only [Function.comp_apply, Py.ok_bind, Py.div_ok T0.ne']
        norm_num
      by_cases hc : M0 < 1
      · simp only [if_pos hc]
        refine e _ _ fun i hi => ?_
        have := (hm i hi).1
        rwa [if_pos hc] at this
      · simp only [if_neg hc]
        refine e _ _ fun i hi => ?_
        have := (hm i hi).1
        rwa [if_neg hc] at this
  · obtain ⟨-, c0, c1, c2, c3⟩ := hm 0 (Nat.zero_le n)
    rw [x0] at c3
    rcases le_total M0 1 with h | h
    · exact (((heat_order hM.le c0.le ht c3).1 h (c1 h)).2 rfl).symm
    · exact (((heat_order hM.le c0.le ht c3).2 h (c2 h)).2 rfl).symm
  · obtain ⟨-, c0, c1, c2, c3⟩ := hm n le_rfl
    rw [xn, div_self T0.ne'] at c3
    have h11 : Ti_Ticri 1 1.4 = .ok 1 := by rw [Ray_Ti_ok (by norm_num)]; norm_num
    rcases le_total M0 1 with h | h
    · exact (((heat_order (by norm_num) c0.le h11 c3).1 le_rfl (c1 h)).2 rfl).symm
    · exact (((heat_order (by norm_num) c0.le h11 c3).2 le_rfl (c2 h)).2 rfl).symm
  · intro i hi
    obtain ⟨-, c0, c1, c2, c3⟩ := hm i hi
    have m0 : m 0 = M0 := by
      obtain ⟨-, c0, c1, c2, c3⟩ := hm 0 (Nat.zero_le n)
      rw [x0] at c3
      rcases le_total M0 1 with h | h
      · exact (((heat_order hM.le c0.le ht c3).1 h (c1 h)).2 rfl).symm
      · exact (((heat_order hM.le c0.le ht c3).2 h (c2 h)).2 rfl).symm
    exact ⟨c0, by rw [m0], c1, c2, by rw [mul_one_div]; exact c3⟩
  · intro i j hij hj
    obtain ⟨-, a0, a1, a2, a3⟩ := hm i (by omega)
    obtain ⟨-, b0, b1, b2, b3⟩ := hm j hj
    have lt : M0 ≠ 1 → x i / T < x j / T := by
      intro hne
      apply div_lt_div_of_pos_right _ T0
      rw [hxi, hxi]
      have hs : 0 < (T - 1) / n := div_pos (by linarith [hT2 hne]) n0
      have hij' : (i : ℝ) < j := by exact_mod_cast hij
      have := mul_lt_mul_of_pos_right hij' hs
      linarith
    constructor
    · intro h
      exact ((heat_order a0.le b0.le a3 b3).1 (a1 h.le) (b1 h.le)).1 (lt h.ne)
    · intro h
      exact ((heat_order a0.le b0.le a3 b3).2 (a2 h.le) (b2 h.le)).1 (lt h.ne')

/-- C150 is false for the polars: with Python 3, `npoints/2` and `npoints/3` are floats, so that both scripts stop with an `IndexError` at the label of
their first polar, for every gas, every number of points and every list of Mach numbers. -/
theorem C150_polar_false (gam : ℝ) (npoints : ℕ) (m : ℝ) (machs : List ℝ) :
    polarChart gam npoints (m :: machs) = .error .indexError ∧ polarPChart gam npoints (m :: machs) = .error .indexError := by
  constructor
  · unfold polarChart
    rw [List.mapM_cons]
    simp only [polar, truediv, getitem, Py.error_bind]
  · unfold polarPChart
    rw [List.mapM_cons]
    simp only [polarP, truediv, getitem, Py.error_bind]

/-- the heating chart would be wrong for another gas: `maxTiratio_Mach` ignores its argument `gamma`, and the curve drawn by the same loop for any
`gam ≠ 1.4` and any initial Mach number below 1 does not start at the initial Mach number. -/
theorem C150_other_gas_false (gam M0 : ℝ) (hγ : 1 < gam) (hne : gam ≠ 1.4) (hM : 0 < M0) (hM1 : M0 < 1) (n : ℕ) (hn : 0 < n) :
    ∃ m, (heating gam n M0).1.head? = some (.ok 1) ∧ (heating gam n M0).2.head? = some (.ok m) ∧ m ≠ M0 := by
  obtain ⟨r, t, e1, e2, e3⟩ := C27_false_otherwise M0 gam hγ hne hM hM1.ne
  obtain ⟨T, hT1, hT2, hT, ht⟩ := maxTi_air hM
  have same : maxTiratio_Mach M0 gam = maxTiratio_Mach M0 1.4 := rfl
  rw [same, hT] at e1
  have hr : T = r := Except.ok.inj e1
  subst hr
  have T0 : 0 < T := by linarith
  obtain ⟨m, b1, b2, b3, b4, -⟩ := C26_sub_right_inverse (1 / T) gam hγ (by positivity) ((div_le_one T0).2 hT1)
  refine ⟨m, ?_, ?_, ?_⟩
  · unfold heating
    rw [same, hT]
    simp only [linspace, Py.ok_bind, Py.pure_eq, List.range_succ_eq_map, List.map_cons, List.head?_cons]
    norm_num
  · unfold heating
    rw [same, hT]
    simp only [if_pos hM1, linspace, Py.ok_bind, Py.pure_eq, List.range_succ_eq_map, List.map_cons, List.head?_cons, elementwise, Py.div_ok T0.ne']
    rw [← b1]
    norm_num
  · rintro rfl
    rw [b4] at e2
    apply e3
    rw [← Except.ok.inj e2]
    field_simp

/-- the chart as shipped: 17 curves, each of 101 points -/
example : heatingChart.length = 17 ∧ ∃ (x m : ℕ → ℝ), heating 1.4 100 0.5 = ((List.range 101).map (fun i => .ok (x i)), (List.range 101).map (fun i => .ok (m i))) ∧
    m 0 = 0.5 ∧ m 100 = 1 ∧ m 50 < m 51 := by
  refine ⟨by simp [heatingChart, heatingMachs], ?_⟩
  obtain ⟨T, t0, x, m, -, -, h, -, -, h0, hn, -, hs⟩ := C150_heating_partial 0.5 (by norm_num) 100 (by norm_num)
  exact ⟨x, m, h, h0, hn, (hs 50 51 (by norm_num) (by norm_num)).1 (by norm_num)⟩

end Aerokit.Props
