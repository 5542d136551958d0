import Verif.Lemmas.OldPM

/-! # aerokit's own secant search on the Prandtl–Meyer angle of air, below Mach 2 -/

namespace Aerokit.Props
open Real Supersonic IterativeSolve
open ScipyNewton (chord chord_slope Slopes Slopes.step)

/-! ## from the right of the root -/

/-- slope over the square root of the distance to `r ≥ 1` decreases -/
theorem sl_root {r v u : ℝ} (hr : 1 ≤ r) (hv : r < v) (huv : v ≤ u) : sl u * √(v - r) ≤ sl v * √(u - r) := by
  have v1 : 1 < v := by linarith
  have u1 : 1 < u := by linarith
  refine (pow_le_pow_iff_left₀ (mul_nonneg (sl_nonneg u1.le) (Real.sqrt_nonneg _)) (mul_nonneg (sl_nonneg v1.le) (Real.sqrt_nonneg _)) two_ne_zero).1 ?_
  rw [mul_pow, mul_pow, Real.sq_sqrt (by linarith), Real.sq_sqrt (by linarith)]
  have qu := sl_sq u1.le
  have qv := sl_sq v1.le
  have a1 : (u - 1) * (v - r) ≤ (v - 1) * (u - r) := by nlinarith
  have a2 : (u + 1) * v ^ 2 ≤ (v + 1) * u ^ 2 := by nlinarith [mul_nonneg (by linarith : (0:ℝ) ≤ u - v) (by positivity : (0:ℝ) ≤ u * v)]
  have a3 : (5 + v ^ 2) ^ 2 ≤ (5 + u ^ 2) ^ 2 := by
    have : v ^ 2 ≤ u ^ 2 := pow_le_pow_left₀ (by linarith) huv 2
    exact pow_le_pow_left₀ (by positivity) (by linarith) 2
  have h12 : (u - 1) * (v - r) * ((u + 1) * v ^ 2) ≤ (v - 1) * (u - r) * ((v + 1) * u ^ 2) :=
    mul_le_mul a1 a2 (by positivity) (mul_nonneg (by linarith) (by linarith))
  have h123 : (u - 1) * (v - r) * ((u + 1) * v ^ 2) * (5 + v ^ 2) ^ 2 ≤ (v - 1) * (u - r) * ((v + 1) * u ^ 2) * (5 + u ^ 2) ^ 2 :=
    mul_le_mul h12 a3 (by positivity) (mul_nonneg (mul_nonneg (by linarith) (by linarith)) (by positivity))
  obtain ⟨P, hP⟩ : ∃ P, P = u ^ 2 * (5 + u ^ 2) ^ 2 := ⟨_, rfl⟩
  obtain ⟨Q, hQ⟩ : ∃ Q, Q = v ^ 2 * (5 + v ^ 2) ^ 2 := ⟨_, rfl⟩
  have P0 : 0 < P := by rw [hP]; positivity
  have Q0 : 0 < Q := by rw [hQ]; positivity
  rw [← hP] at qu
  rw [← hQ] at qv
  refine le_of_mul_le_mul_right (?_ : _ * (P * Q) ≤ _ * (P * Q)) (mul_pos P0 Q0)
  calc sl u ^ 2 * (v - r) * (P * Q) = sl u ^ 2 * P * ((v - r) * Q) := by ring
    _ = 25 * ((u - 1) * (v - r) * ((u + 1) * v ^ 2) * (5 + v ^ 2) ^ 2) := by rw [qu, hQ]; ring
    _ ≤ 25 * ((v - 1) * (u - r) * ((v + 1) * u ^ 2) * (5 + u ^ 2) ^ 2) := by linarith
    _ = sl v ^ 2 * Q * ((u - r) * P) := by rw [qv, hP]; ring
    _ = _ := by ring

/-- Cauchy's mean value theorem with `(t - r)^(3/2)` -/
theorem pra_root {r a b : ℝ} (hr : 1 ≤ r) (hra : r ≤ a) (hab : a < b) :
    ∃ c, a < c ∧ c < b ∧ (pra b - pra a) * (3 * √(c - r)) = sl c * (2 * (√(b - r) ^ 3 - √(a - r) ^ 3)) := by
  obtain ⟨c, hc, hs⟩ := exists_ratio_hasDerivAt_eq_ratio_slope pra sl hab (pmr_continuous _).continuousOn (fun x hx => pmr_hasDeriv (by norm_num) (by linarith [hx.1]))
    (fun x : ℝ => 2 * √(x - r) ^ 3) (fun x => 3 * √(x - r)) (by fun_prop)
    (fun x hx => by
      have h0 : x - r ≠ 0 := by have := hx.1; linarith
      have h1 : 0 < x - r := by have := hx.1; linarith
      have h2 : √(x - r) ≠ 0 := (Real.sqrt_pos.2 h1).ne'
      refine ((((hasDerivAt_id x).sub_const r).sqrt h0).pow 3 |>.const_mul 2).congr_deriv ?_
      simp only [id]
      field_simp
      ring)
  exact ⟨c, hc.1, hc.2, by linarith [hs]⟩

theorem pra_root_el {r x y : ℝ} (hr : 1 ≤ r) (hx : r < x) (hxy : x < y) : (pra y - pra x) * √(x - r) ^ 3 ≤ (pra x - pra r) * (√(y - r) ^ 3 - √(x - r) ^ 3) := by
  obtain ⟨u, u1, u2, u3⟩ := pra_root hr hx.le hxy
  obtain ⟨v, v1, v2, v3⟩ := pra_root hr le_rfl hx
  rw [sub_self, Real.sqrt_zero] at v3
  have h := sl_root hr v1 (by linarith : v ≤ u)
  have su : 0 < √(u - r) := Real.sqrt_pos.2 (by linarith)
  have sv : 0 < √(v - r) := Real.sqrt_pos.2 (by linarith)
  obtain ⟨a, ha⟩ : ∃ a, a = √(x - r) := ⟨_, rfl⟩
  obtain ⟨b, hb⟩ : ∃ b, b = √(y - r) := ⟨_, rfl⟩
  rw [← ha, ← hb] at u3
  rw [← ha] at v3
  rw [← ha, ← hb]
  have a0 : 0 ≤ a := by rw [ha]; exact Real.sqrt_nonneg _
  have hab : a ≤ b := by rw [ha, hb]; exact Real.sqrt_le_sqrt (by linarith)
  have hab3 : 0 ≤ b ^ 3 - a ^ 3 := by have := pow_le_pow_left₀ a0 hab 3; linarith
  have h0 : 0 ≤ (b ^ 3 - a ^ 3) * a ^ 3 := mul_nonneg hab3 (by positivity)
  have h1 := mul_le_mul_of_nonneg_right h h0
  refine le_of_mul_le_mul_right (?_ : _ * (3 * √(u - r) * (3 * √(v - r))) ≤ _ * (3 * √(u - r) * (3 * √(v - r)))) (by positivity)
  calc (pra y - pra x) * a ^ 3 * (3 * √(u - r) * (3 * √(v - r))) = ((pra y - pra x) * (3 * √(u - r))) * a ^ 3 * (3 * √(v - r)) := by ring
    _ = 6 * (sl u * √(v - r) * ((b ^ 3 - a ^ 3) * a ^ 3)) := by rw [u3]; ring
    _ ≤ 6 * (sl v * √(u - r) * ((b ^ 3 - a ^ 3) * a ^ 3)) := by linarith
    _ = ((pra x - pra r) * (3 * √(v - r))) * (b ^ 3 - a ^ 3) * (3 * √(u - r)) := by rw [v3]; ring
    _ = _ := by ring

theorem root_algebra {a b σ : ℝ} (ha : 0 < a) (hab : a < b) (h : a ^ 3 * (b ^ 2 - a ^ 2) ≤ σ * (b ^ 3 - a ^ 3)) : (a ^ 2 - σ) * (b ^ 2 + 2 * a ^ 2) ≤ a ^ 2 * b ^ 2 := by
  have h1 : a ^ 3 * (a + b) ≤ σ * (a ^ 2 + a * b + b ^ 2) := by
    refine le_of_mul_le_mul_right (?_ : _ * (b - a) ≤ _ * (b - a)) (by linarith)
    calc a ^ 3 * (a + b) * (b - a) = a ^ 3 * (b ^ 2 - a ^ 2) := by ring
      _ ≤ _ := h
      _ = _ := by ring
  have b0 : 0 < b := ha.trans hab
  have q : 0 < a ^ 2 + a * b + b ^ 2 := by positivity
  have h2 : 2 * a ^ 4 ≤ σ * (2 * a ^ 2 + b ^ 2) := by
    refine le_of_mul_le_mul_right (?_ : _ * (a ^ 2 + a * b + b ^ 2) ≤ _ * (a ^ 2 + a * b + b ^ 2)) q
    have h3 := mul_le_mul_of_nonneg_right h1 (by positivity : 0 ≤ 2 * a ^ 2 + b ^ 2)
    have h4 : 0 ≤ a ^ 3 * (b ^ 2 * (b - a)) := by
      have : 0 < b - a := by linarith
      positivity
    nlinarith
  nlinarith

/-- one turn, both points at the right of the root -/
theorem right_turn' {r x y : ℝ} (hr : 1 ≤ r) (hx : r ≤ x) (hx2 : x ≤ 5/4) (hxy : x < y) (hy : y ≤ 999/500) :
    ∃ c, c = chord y x (pra y - pra r) (pra x - pra r) ∧ r ≤ c ∧ c ≤ x ∧ (r < x → c < x) ∧ (c - r) * ((y - r) + 2 * (x - r)) ≤ (x - r) * (y - r) := by
  have x1 : 1 ≤ x := hr.trans hx
  have hd : 0 < pra y - pra x := by have := pra_lt x1 hxy; linarith
  have hFx : 0 ≤ pra x - pra r := by have := pra_le hr hx; linarith
  obtain ⟨σ, hσ⟩ : ∃ σ, σ = (pra x - pra r) * (y - x) / (pra y - pra x) := ⟨_, rfl⟩
  have hσ' : σ * (pra y - pra x) = (pra x - pra r) * (y - x) := by rw [hσ, div_mul_cancel₀ _ hd.ne']
  have hc : chord y x (pra y - pra r) (pra x - pra r) = x - σ := by
    unfold chord; rw [hσ]
    have : pra x - pra y ≠ 0 := by linarith
    have : pra y - pra x ≠ 0 := by linarith
    rw [sub_sub_sub_cancel_right]
    field_simp; ring
  have far : sl x * (y - x) ≤ pra y - pra x := by
    have ha : sl x ≤ 0.4572 := (sl_mono x1 hx2 (by norm_num)).trans (sl_le (by norm_num) (by norm_num) (by norm_num))
    refine (pra_int x1 hxy (hi := 0.5165) fun M m1 m2 => ⟨?_, sl_top (by linarith)⟩).1
    refine sl_low (A := x) (B := 999/500) x1 m1.le (m2.le.trans hy) (sl_nonneg x1) (sl_sq x1).le ?_
    have : sl x ^ 2 ≤ 0.4572 ^ 2 := pow_le_pow_left₀ (sl_nonneg x1) ha 2
    norm_num at this ⊢
    nlinarith
  have near := (pra_near hr hx (by nlinarith)).2
  have σ0 : 0 ≤ σ := by rw [hσ]; exact div_nonneg (mul_nonneg hFx (by linarith)) hd.le
  have σ1 : σ ≤ x - r := by
    rw [hσ, div_le_iff₀ hd]
    have e1 : (pra x - pra r) * (y - x) ≤ sl x * (x - r) * (y - x) := mul_le_mul_of_nonneg_right near (by linarith)
    have e2 : sl x * (y - x) * (x - r) ≤ (pra y - pra x) * (x - r) := mul_le_mul_of_nonneg_right far (by linarith)
    linarith
  refine ⟨x - σ, hc.symm, by linarith, by linarith, ?_, ?_⟩
  · intro h
    have := pra_lt hr h
    have : 0 < σ := by rw [hσ]; exact div_pos (mul_pos (by linarith) (by linarith)) hd
    linarith
  · rcases hx.eq_or_lt with e | e
    · have : σ = 0 := by linarith
      rw [this, ← e]; simp
    · have el := pra_root_el hr e hxy
      obtain ⟨a, ha⟩ : ∃ a, a = √(x - r) := ⟨_, rfl⟩
      obtain ⟨b, hb⟩ : ∃ b, b = √(y - r) := ⟨_, rfl⟩
      rw [← ha, ← hb] at el
      have a0 : 0 < a := by rw [ha]; exact Real.sqrt_pos.2 (by linarith)
      have hab : a < b := by rw [ha, hb]; exact Real.sqrt_lt_sqrt (by linarith) (by linarith)
      have ea : x - r = a ^ 2 := by rw [ha, Real.sq_sqrt (by linarith)]
      have eb : y - r = b ^ 2 := by rw [hb, Real.sq_sqrt (by linarith)]
      have hab2 : 0 ≤ b ^ 2 - a ^ 2 := by have := pow_le_pow_left₀ a0.le hab.le 2; linarith
      have key : a ^ 3 * (b ^ 2 - a ^ 2) ≤ σ * (b ^ 3 - a ^ 3) := by
        refine le_of_mul_le_mul_right (?_ : _ * (pra y - pra x) ≤ _ * (pra y - pra x)) hd
        calc a ^ 3 * (b ^ 2 - a ^ 2) * (pra y - pra x) = (pra y - pra x) * a ^ 3 * (b ^ 2 - a ^ 2) := by ring
          _ ≤ (pra x - pra r) * (b ^ 3 - a ^ 3) * (b ^ 2 - a ^ 2) := mul_le_mul_of_nonneg_right el hab2
          _ = (pra x - pra r) * (y - x) * (b ^ 3 - a ^ 3) := by rw [← ea, ← eb]; ring
          _ = _ := by rw [← hσ']; ring
      have := root_algebra a0 hab key
      rw [show x - σ - r = a ^ 2 - σ by rw [← ea]; ring, ea, eb]
      exact this

/-- lower bounds of the inverse distances to the root -/
def invDist : ℕ → ℚ → ℚ → ℚ
  | 0, V0, _ => V0
  | k + 1, V0, V1 => invDist k V1 (V1 + 2 * V0)

theorem is_right {r tol w K : ℝ} {f : ℝ → Py ℝ} (hr : 1 ≤ r) (hK : K ≠ 0) (ht : 0 < tol) (hf : ∀ x, 1 ≤ x → f x = .ok (K * (pra x - pra r) + w)) :
    ∀ (k : ℕ) (V0 V1 : ℚ) (x y : ℝ), r ≤ x → x ≤ 5/4 → x < y → y ≤ 999/500 → 0 ≤ V0 → 0 ≤ V1 → (y - r) * (V0 : ℝ) ≤ 1 → (x - r) * (V1 : ℝ) ≤ 1 → 1 ≤ tol * (invDist k V0 V1 : ℝ) →
      ∃ m, secantLoop f w tol (k + 1) y (K * (pra y - pra r) + w) x = .ok ⟨m, false⟩ ∧ r ≤ m ∧ m ≤ 5/4 := by
  intro k
  induction k with
  | zero =>
    intro V0 V1 x y h1 h2 h3 h4 v0 v1 h5 h6 h7
    refine ⟨x, is_stop (le_max_of_le_left ?_), h1, h2⟩
    simp only [invDist] at h7
    have hV : (0:ℝ) < V0 := by
      rcases (by exact_mod_cast v0 : (0:ℝ) ≤ V0).eq_or_lt with e | e
      · rw [← e] at h7; simp at h7; linarith
      · exact e
    have : y - r ≤ tol := le_of_mul_le_mul_right (h5.trans h7) hV
    rw [abs_sub_comm, abs_of_pos (by linarith)]; linarith
  | succ k ih =>
    intro V0 V1 x y h1 h2 h3 h4 v0 v1 h5 h6 h7
    by_cases hst : |x - y| ≤ max tol (tol * |x|)
    · exact ⟨x, is_stop hst, h1, h2⟩
    push Not at hst
    have x1 : 1 ≤ x := hr.trans h1
    obtain ⟨c, hc, c1, c2, c3, c4⟩ := right_turn' hr h1 h2 h3 h4
    have hlt := pra_lt x1 h3
    rw [is_turn (F := fun z => pra z - pra r) hK (hf x x1) (by intro e; linarith) hst, ← hc]
    rcases h1.eq_or_lt with e | e
    · have e' : c = x := by linarith
      refine ⟨c, is_stop ?_, c1, by linarith⟩
      rw [e', sub_self, abs_zero]; exact le_max_of_le_left ht.le
    · have v0' : (0:ℝ) ≤ V0 := by exact_mod_cast v0
      have v1' : (0:ℝ) ≤ V1 := by exact_mod_cast v1
      refine ih V1 (V1 + 2 * V0) c x c1 (by linarith) (c3 e) (by linarith) v1 (by linarith) h6 ?_ h7
      have p : 0 < (x - r) * (y - r) := mul_pos (by linarith) (by linarith)
      refine le_of_mul_le_mul_right (?_ : _ * ((x - r) * (y - r)) ≤ _ * ((x - r) * (y - r))) p
      push_cast
      have e1 : (c - r) * (y - r) * ((x - r) * V1) ≤ (c - r) * (y - r) * 1 := mul_le_mul_of_nonneg_left h6 (mul_nonneg (by linarith) (by linarith))
      have e2 : (c - r) * (x - r) * ((y - r) * V0) ≤ (c - r) * (x - r) * 1 := mul_le_mul_of_nonneg_left h5 (mul_nonneg (by linarith) (by linarith))
      nlinarith

/-! ## where the slopes vary little -/

theorem is_slopes2 {F : ℝ → ℝ} {A B μ ν r : ℝ} (S : Slopes F A B μ ν) (hμ : 0 < μ) (hr : r ∈ Set.Icc A B) (h0 : F r = 0) {f : ℝ → Py ℝ} {K w tol : ℝ} (hK : K ≠ 0)
    (hf : ∀ x ∈ Set.Icc A B, f x = .ok (K * F x + w)) {κ d : ℝ} (hκ : ν / μ - 1 ≤ κ) (κ0 : 0 ≤ κ) (κ1 : κ < 1) (ht : 0 < tol) (dA : A ≤ r - κ * d) (dB : r + κ * d ≤ B)
    (k : ℕ) (x y : ℝ) (hx : x ∈ Set.Icc A B) (hy : y ∈ Set.Icc A B) (hyd : |y - r| ≤ d) (hk : κ ^ k * d * (1 + κ) ≤ tol) :
      ∃ m, secantLoop f w tol (k + 2) x (K * F x + w) y = .ok ⟨m, false⟩ ∧ m ∈ Set.Icc A B := by
  by_cases hst : |y - x| ≤ max tol (tol * |y|)
  · exact ⟨y, is_stop hst, hy⟩
  push Not at hst
  have hxy : x ≠ y := by
    intro e; rw [e, sub_self, abs_zero] at hst
    exact absurd hst (not_lt.2 (le_max_of_le_left ht.le))
  obtain ⟨s1, s2, -⟩ := S.step hμ hr h0 hx hy hxy
  rw [is_turn hK (hf y hy) s1 hst]
  have s2' := s2.trans (mul_le_mul_of_nonneg_right hκ (abs_nonneg _))
  have hcm : chord x y (F x) (F y) ∈ Set.Icc A B := by
    obtain ⟨a1, a2⟩ := abs_le.1 (s2'.trans (mul_le_mul_of_nonneg_left hyd κ0))
    exact ⟨by linarith, by linarith⟩
  obtain ⟨m, e1, e2, -⟩ := is_slopes S hμ hr h0 hK hf hκ κ0 κ1 ht dA dB k y _ d hy hcm hyd s2' le_rfl hk
  exact ⟨m, e1, e2⟩

end Aerokit.Props
