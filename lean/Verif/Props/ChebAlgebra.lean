import Verif.Props.NumSpectral

/-! # Property C111 : algebra of the differentiation matrices (`aerokit/common/numspectral.py`) -/

namespace Aerokit.Props
open NumSpectral Polynomial Aerokit.Welfert

variable {N : ℕ}

theorem xv_inj (hN : 2 ≤ N) {a b : ℝ} (hab : a ≠ b) : Function.Injective (xv N a b) := by
  intro i j h
  unfold xv at h
  have hba : b - a ≠ 0 := sub_ne_zero.2 (Ne.symm hab)
  have h1 : (node N i - 1) / (-2) * (b - a) = (node N j - 1) / (-2) * (b - a) := by linarith
  have h2 := mul_right_cancel₀ hba h1
  have h3 : node N i = node N j := by linarith
  exact node_inj hN h3

/-- every vector is made of the nodal values of a polynomial of degree `< N` -/
theorem nodal_poly (hN : 2 ≤ N) {a b : ℝ} (hab : a ≠ b) (v : Fin N → ℝ) :
    ∃ p : ℝ[X], p.degree < N ∧ ∀ i, p.eval (xv N a b i) = v i := by
  refine ⟨Lagrange.interpolate Finset.univ (xv N a b) v, ?_, fun i => ?_⟩
  · have := Lagrange.degree_interpolate_lt (s := Finset.univ) v (xv_inj hN hab).injOn
    simpa using this
  · exact Lagrange.eval_interpolate_at_node v (xv_inj hN hab).injOn (Finset.mem_univ i)

theorem degree_deriv_lt {p : ℝ[X]} (hp : p.degree < N) (m : ℕ) : (derivative^[m] p).degree < N := by
  induction m with
  | zero => exact hp
  | succ m ih =>
    rw [Function.iterate_succ_apply']
    exact lt_of_le_of_lt (degree_derivative_le) ih

theorem Dm_mulVec (hN : 2 ≤ N) {a b : ℝ} (hab : a ≠ b) (m : ℕ) (p : ℝ[X]) (hp : p.degree < N) :
    (Dm N a b m).mulVec (fun j => p.eval (xv N a b j)) = fun i => (derivative^[m] p).eval (xv N a b i) := by
  funext i; exact Dm_exact hN hab m p hp i

theorem mat_ext_nodal (hN : 2 ≤ N) {a b : ℝ} (hab : a ≠ b) {A B : Matrix (Fin N) (Fin N) ℝ}
    (h : ∀ p : ℝ[X], p.degree < N → A.mulVec (fun j => p.eval (xv N a b j))
      = B.mulVec fun j => p.eval (xv N a b j)) : A = B := by
  apply Matrix.ext_of_mulVec_single
  intro j
  obtain ⟨p, hp, hv⟩ := nodal_poly hN hab (Pi.single j 1)
  rw [← (funext hv : (fun i => p.eval (xv N a b i)) = _)]
  exact h p hp

theorem Dm_one_pow (hN : 2 ≤ N) {a b : ℝ} (hab : a ≠ b) (m : ℕ) : Dm N a b m = Dm N a b 1 ^ m := by
  refine mat_ext_nodal hN hab fun p hp => ?_
  rw [Dm_mulVec hN hab m p hp]
  induction m with
  | zero => simp
  | succ m ih =>
    rw [pow_succ', ← Matrix.mulVec_mulVec, ← ih, Dm_mulVec hN hab 1 _ (degree_deriv_lt hp m)]
    funext i
    rw [Function.iterate_succ_apply', Function.iterate_one]

theorem Dm_zero_of_le (hN : 2 ≤ N) {a b : ℝ} (hab : a ≠ b) {m : ℕ} (hm : N ≤ m) : Dm N a b m = 0 := by
  refine mat_ext_nodal hN hab fun p hp => ?_
  rw [Dm_mulVec hN hab m p hp, Matrix.zero_mulVec]
  funext i
  rw [iterate_derivative_eq_zero_of_degree_lt (lt_of_lt_of_le hp (by exact_mod_cast hm))]
  simp

/-- C111: `matder(m)` is the `m`-th power of `matder(1)`, after any history of calls. -/
theorem C111_power (hN : 2 ≤ N) {a b : ℝ} (hab : a ≠ b) (h : List ChebCall) {m : ℕ} (hm : 1 ≤ m) :
    ∃ s₁ D₁ s₂ D, NumSpectral.matder (chebAfter N a b h) 1 = .ok (s₁, D₁) ∧
      NumSpectral.matder (chebAfter N a b h) m = .ok (s₂, D) ∧ D = D₁ ^ m := by
  obtain ⟨s1, h1, -⟩ := matder_spec hN hab (inv_after hN hab h) le_rfl
  obtain ⟨s2, h2, -⟩ := matder_spec hN hab (inv_after hN hab h) hm
  exact ⟨s1, _, s2, _, h1, h2, Dm_one_pow hN hab m⟩

/-- C111: the derivatives of order `N` and more are the zero matrix, and the previous one is not. -/
theorem C111_nilpotent (hN : 2 ≤ N) {a b : ℝ} (hab : a ≠ b) (h : List ChebCall) :
    (∀ m, N ≤ m → ∃ s', NumSpectral.matder (chebAfter N a b h) m = .ok (s', 0)) ∧
    ∃ s' D, NumSpectral.matder (chebAfter N a b h) (N - 1) = .ok (s', D) ∧ D ≠ 0 := by
  refine ⟨fun m hm => ?_, ?_⟩
  · obtain ⟨s', h1, -⟩ := matder_spec hN hab (inv_after hN hab h) (m := m) (by omega)
    rw [Dm_zero_of_le hN hab hm] at h1
    exact ⟨s', h1⟩
  · obtain ⟨s', h1, -⟩ := matder_spec hN hab (inv_after hN hab h) (m := N - 1) (by omega)
    refine ⟨s', _, h1, fun h0 => ?_⟩
    have := Dm_mulVec hN hab (N - 1) (X ^ (N - 1)) (by
      rw [degree_X_pow]; exact_mod_cast (by omega : N - 1 < N))
    rw [h0, Matrix.zero_mulVec] at this
    have h2 := congrFun this ⟨0, by omega⟩
    rw [iterate_derivative_X_pow_eq_natCast_mul] at h2
    simp only [Nat.descFactorial_self, Nat.sub_self, pow_zero, mul_one, eval_natCast, Pi.zero_apply] at h2
    exact Nat.factorial_ne_zero (N - 1) (by exact_mod_cast h2.symm)

/-- C111: the vectors with zero derivative are the constant ones. -/
theorem C111_kernel (hN : 2 ≤ N) {a b : ℝ} (hab : a ≠ b) (h : List ChebCall) :
    ∃ s' D, NumSpectral.matder (chebAfter N a b h) 1 = .ok (s', D) ∧
      ∀ u : Fin N → ℝ, D.mulVec u = 0 ↔ ∃ c, ∀ i, u i = c := by
  obtain ⟨s', h1, -⟩ := matder_spec hN hab (inv_after hN hab h) le_rfl
  refine ⟨s', _, h1, fun u => ⟨fun hu => ?_, ?_⟩⟩
  · obtain ⟨p, hp, hv⟩ := nodal_poly hN hab u
    have hu' : (Dm N a b 1).mulVec (fun j => p.eval (xv N a b j)) = 0 := by rw [funext hv]; exact hu
    rw [Dm_mulVec hN hab 1 p hp] at hu'
    have hd : derivative p = 0 := by
      refine Polynomial.eq_zero_of_degree_lt_of_eval_index_eq_zero (s := Finset.univ) (v := xv N a b)
        (xv_inj hN hab).injOn ?_ ?_
      · have := degree_deriv_lt hp 1
        simpa using this
      · intro i _
        simpa using congrFun hu' i
    refine ⟨p.coeff 0, fun i => ?_⟩
    rw [← hv i, eq_C_of_natDegree_eq_zero (natDegree_eq_zero_of_derivative_eq_zero hd)]
    simp
  · rintro ⟨c, hc⟩
    have := Dm_mulVec hN hab 1 (C c) (lt_of_le_of_lt degree_C_le (by exact_mod_cast (by omega : 0 < N)))
    simp only [eval_C, Function.iterate_one, derivative_C, eval_zero] at this
    rw [show u = fun _ => c from funext hc, this]; rfl

theorem xv_rev (hN : 2 ≤ N) (a b : ℝ) (i : Fin N) : xv N a b i.rev = a + b - xv N a b i := by
  unfold xv
  have h := node_rev hN i.2
  have : ((i.rev : Fin N) : ℕ) = N - 1 - i := by rw [Fin.val_rev]; omega
  rw [this, h]; ring

/-- C111: the grid is symmetric, and reversing the points multiplies `matder(m)` by `(-1)^m`. -/
theorem C111_symmetry (hN : 2 ≤ N) {a b : ℝ} (hab : a ≠ b) (h : List ChebCall) {m : ℕ} (hm : 1 ≤ m) :
    ∃ s' D s'' X, NumSpectral.matder (chebAfter N a b h) m = .ok (s', D) ∧
      NumSpectral.x s' = .ok (s'', X) ∧
      (∀ i, X i.rev - (a + b) / 2 = -(X i - (a + b) / 2)) ∧ ∀ i j, D i.rev j.rev = (-1) ^ m * D i j := by
  obtain ⟨s', h1, hi⟩ := matder_spec hN hab (inv_after hN hab h) hm
  obtain ⟨s'', h2, -, -⟩ := x_spec hN hi
  refine ⟨s', _, s'', _, h1, h2, fun i => by rw [xv_rev hN]; ring, ?_⟩
  have key : Matrix.of (fun i j : Fin N => Dm N a b m i.rev j.rev) = (-1 : ℝ) ^ m • Dm N a b m := by
    refine mat_ext_nodal hN hab fun p hp => ?_
    rw [Matrix.smul_mulVec, Dm_mulVec hN hab m p hp]
    funext i
    -- reflected polynomial
    let q : ℝ[X] := p.comp (C (a + b) - X)
    have hqe : ∀ t, q.eval t = p.eval (a + b - t) := fun t => by simp [q, eval_comp]
    have hqd : ∀ k, derivative^[k] q = C ((-1) ^ k) * (derivative^[k] p).comp (C (a + b) - X) := by
      intro k
      induction k with
      | zero => simp [q]
      | succ k ih =>
        rw [Function.iterate_succ_apply', ih, Function.iterate_succ_apply', derivative_C_mul, derivative_comp]
        simp only [derivative_sub, derivative_C, derivative_X, zero_sub]
        rw [pow_succ, C_mul]
        simp
    have hq : q.degree < N := by
      by_cases h0 : p = 0
      · simp only [q, h0, zero_comp]; rw [h0] at hp; exact hp
      · have hn : p.natDegree < N := (natDegree_lt_iff_degree_lt h0).2 hp
        have hle : q.natDegree ≤ p.natDegree := by
          refine natDegree_comp_le.trans ?_
          calc p.natDegree * _ ≤ p.natDegree * 1 := by
                apply Nat.mul_le_mul_left; compute_degree
            _ = _ := mul_one _
        exact lt_of_le_of_lt degree_le_natDegree (by exact_mod_cast lt_of_le_of_lt hle hn)
    have e := Dm_exact hN hab m q hq i.rev
    rw [hqd m, eval_mul, eval_C, eval_comp] at e
    simp only [eval_sub, eval_C, eval_X, xv_rev hN] at e
    rw [show a + b - (a + b - xv N a b i) = xv N a b i by ring] at e
    simp only [Pi.smul_apply, smul_eq_mul]
    rw [← e]
    unfold Matrix.mulVec dotProduct
    rw [← Equiv.sum_comp Fin.revPerm]
    refine Finset.sum_congr rfl fun j _ => ?_
    simp only [Matrix.of_apply, Fin.revPerm_apply, Fin.rev_rev, hqe, xv_rev hN]
  intro i j
  have := congrFun (congrFun key i) j
  simpa using this

theorem linear_bij {L : (Fin N → ℝ) →ₗ[ℝ] (Fin N → ℝ)} (h : ∀ u, L u = 0 → u = 0) (f : Fin N → ℝ) :
    ∃! u, L u = f := by
  have hi : Function.Injective L := by
    rw [← LinearMap.ker_eq_bot, LinearMap.ker_eq_bot']; exact h
  obtain ⟨u, hu⟩ := (LinearMap.injective_iff_surjective.1 hi) f
  exact ⟨u, hu, fun v hv => hi (by rw [hu]; exact hv)⟩

/-- C111: the collocation of `u' = f` with one imposed value (at any node) has exactly one solution. -/
theorem C111_first_order (hN : 2 ≤ N) {a b : ℝ} (hab : a ≠ b) (h : List ChebCall) (k : Fin N) :
    ∃ s' D, NumSpectral.matder (chebAfter N a b h) 1 = .ok (s', D) ∧
      ∀ (f : Fin N → ℝ) (α : ℝ), ∃! u : Fin N → ℝ, u k = α ∧ ∀ i, i ≠ k → D.mulVec u i = f i := by
  obtain ⟨s', h1, -⟩ := matder_spec hN hab (inv_after hN hab h) le_rfl
  refine ⟨s', _, h1, fun f α => ?_⟩
  let L : (Fin N → ℝ) →ₗ[ℝ] (Fin N → ℝ) :=
    LinearMap.pi fun i => if i = k then LinearMap.proj k else LinearMap.proj i ∘ₗ (Dm N a b 1).mulVecLin
  have hL : ∀ u i, L u i = if i = k then u k else (Dm N a b 1).mulVec u i := by
    intro u i; simp only [L, LinearMap.pi_apply]; split_ifs <;> rfl
  have hz : ∀ u, L u = 0 → u = 0 := by
    intro u hu
    obtain ⟨p, hp, hv⟩ := nodal_poly hN hab u
    have hp' : derivative p = 0 := by
      refine Polynomial.eq_zero_of_degree_lt_of_eval_index_eq_zero (s := Finset.univ.erase k) (v := xv N a b)
        (xv_inj hN hab).injOn ?_ ?_
      · rw [Finset.card_erase_of_mem (Finset.mem_univ k), Finset.card_univ, Fintype.card_fin]
        by_cases h0 : p = 0
        · rw [h0, derivative_zero, degree_zero]; exact WithBot.bot_lt_coe _
        · by_cases hd : derivative p = 0
          · rw [hd, degree_zero]; exact WithBot.bot_lt_coe _
          have h3 := degree_derivative_lt h0
          have hn : p.natDegree < N := (natDegree_lt_iff_degree_lt h0).2 hp
          rw [degree_eq_natDegree h0, degree_eq_natDegree hd] at h3
          rw [degree_eq_natDegree hd]
          have h3' : (derivative p).natDegree < p.natDegree := by exact_mod_cast h3
          exact_mod_cast (by omega : (derivative p).natDegree < N - 1)
      · intro i hik
        have e := congrFun hu i
        rw [hL, if_neg (Finset.ne_of_mem_erase hik), ← (funext hv : (fun i => p.eval (xv N a b i)) = u),
          Dm_mulVec hN hab 1 p hp] at e
        simpa using e
    have hc := eq_C_of_natDegree_eq_zero (natDegree_eq_zero_of_derivative_eq_zero hp')
    have e := congrFun hu k
    rw [hL, if_pos rfl, ← hv k, hc, eval_C] at e
    funext i
    rw [← hv i, hc, eval_C, e]; rfl
  obtain ⟨u, hu, huniq⟩ := linear_bij hz (fun i => if i = k then α else f i)
  refine ⟨u, ⟨?_, fun i hi => ?_⟩, fun v hv => huniq v ?_⟩
  · have := congrFun hu k; rwa [hL, if_pos rfl, if_pos rfl] at this
  · have := congrFun hu i; rwa [hL, if_neg hi, if_neg hi] at this
  · funext i
    rw [hL]
    split_ifs with hi
    · exact hv.1
    · exact hv.2 i hi

/-- C111: the collocation of `u'' = f` with the two end values imposed has exactly one solution. -/
theorem C111_dirichlet (hN : 2 ≤ N) {a b : ℝ} (hab : a ≠ b) (h : List ChebCall) :
    ∃ s' D, NumSpectral.matder (chebAfter N a b h) 2 = .ok (s', D) ∧
      ∀ (f : Fin N → ℝ) (α β : ℝ), ∃! u : Fin N → ℝ, u ⟨0, by omega⟩ = α ∧ u ⟨N - 1, by omega⟩ = β ∧
        ∀ i : Fin N, i ≠ ⟨0, by omega⟩ → i ≠ ⟨N - 1, by omega⟩ → D.mulVec u i = f i := by
  obtain ⟨s', h1, -⟩ := matder_spec hN hab (inv_after hN hab h) (m := 2) (by norm_num)
  refine ⟨s', _, h1, fun f α β => ?_⟩
  set k : Fin N := ⟨0, by omega⟩ with hk
  set l : Fin N := ⟨N - 1, by omega⟩ with hl
  have hkl : k ≠ l := by rw [hk, hl, Ne, Fin.mk.injEq]; omega
  let L : (Fin N → ℝ) →ₗ[ℝ] (Fin N → ℝ) :=
    LinearMap.pi fun i => if i = k then LinearMap.proj k else if i = l then LinearMap.proj l else
      LinearMap.proj i ∘ₗ (Dm N a b 2).mulVecLin
  have hL : ∀ u i, L u i = if i = k then u k else if i = l then u l else (Dm N a b 2).mulVec u i := by
    intro u i; simp only [L, LinearMap.pi_apply]; split_ifs <;> rfl
  have hz : ∀ u, L u = 0 → u = 0 := by
    intro u hu
    obtain ⟨p, hp, hv⟩ := nodal_poly hN hab u
    have hp' : derivative (derivative p) = 0 := by
      refine Polynomial.eq_zero_of_degree_lt_of_eval_index_eq_zero (s := (Finset.univ.erase k).erase l)
        (v := xv N a b) (xv_inj hN hab).injOn ?_ ?_
      · rw [Finset.card_erase_of_mem (Finset.mem_erase.2 ⟨hkl.symm, Finset.mem_univ l⟩),
          Finset.card_erase_of_mem (Finset.mem_univ k), Finset.card_univ, Fintype.card_fin]
        by_cases hd : derivative (derivative p) = 0
        · rw [hd, degree_zero]; exact WithBot.bot_lt_coe _
        have hd1 : derivative p ≠ 0 := fun h0 => hd (by rw [h0, derivative_zero])
        have h0 : p ≠ 0 := fun h0 => hd1 (by rw [h0, derivative_zero])
        have h3 := degree_derivative_lt h0
        have h4 := degree_derivative_lt hd1
        have hn : p.natDegree < N := (natDegree_lt_iff_degree_lt h0).2 hp
        rw [degree_eq_natDegree h0, degree_eq_natDegree hd1] at h3
        rw [degree_eq_natDegree hd1, degree_eq_natDegree hd] at h4
        rw [degree_eq_natDegree hd]
        have h3' : (derivative p).natDegree < p.natDegree := by exact_mod_cast h3
        have h4' : (derivative (derivative p)).natDegree < (derivative p).natDegree := by exact_mod_cast h4
        exact_mod_cast (by omega : (derivative (derivative p)).natDegree < N - 1 - 1)
      · intro i hi
        have hi1 := Finset.ne_of_mem_erase hi
        have hi2 := Finset.ne_of_mem_erase (Finset.mem_of_mem_erase hi)
        have e := congrFun hu i
        rw [hL, if_neg hi2, if_neg hi1, ← (funext hv : (fun i => p.eval (xv N a b i)) = u),
          Dm_mulVec hN hab 2 p hp] at e
        simpa using e
    have hpz : p = 0 := by
      have hc := eq_C_of_natDegree_eq_zero (natDegree_eq_zero_of_derivative_eq_zero hp')
      refine Polynomial.eq_zero_of_degree_lt_of_eval_index_eq_zero (s := {k, l}) (v := xv N a b)
        (xv_inj hN hab).injOn ?_ ?_
      · rw [Finset.card_pair hkl]
        refine lt_of_le_of_lt degree_le_natDegree ?_
        have h5 : p.natDegree ≤ 1 := by
          by_contra h6
          have h7 : (derivative p).coeff (p.natDegree - 1) = 0 := by
            rw [hc, coeff_C, if_neg (by omega)]
          rw [coeff_derivative, Nat.sub_add_cancel (by omega)] at h7
          rcases mul_eq_zero.1 h7 with h8 | h8
          · have : p = 0 := leadingCoeff_eq_zero.1 h8
            rw [this] at h6; simp at h6
          · have : (0:ℝ) < ((p.natDegree - 1 : ℕ) : ℝ) + 1 := by positivity
            linarith
        exact_mod_cast (by omega : p.natDegree < 2)
      · intro i hi
        rw [hv i]
        rcases Finset.mem_insert.1 hi with rfl | hi
        · have e := congrFun hu k
          rwa [hL, if_pos rfl] at e
        · have hi := Finset.mem_singleton.1 hi
          subst hi
          have e := congrFun hu l
          rwa [hL, if_neg hkl.symm, if_pos rfl] at e
    funext i
    rw [← hv i, hpz]; simp
  obtain ⟨u, hu, huniq⟩ := linear_bij hz (fun i => if i = k then α else if i = l then β else f i)
  refine ⟨u, ⟨?_, ?_, fun i hi hi' => ?_⟩, fun v hv => huniq v ?_⟩
  · have := congrFun hu k; rwa [hL, if_pos rfl, if_pos rfl] at this
  · have := congrFun hu l
    rwa [hL, if_neg hkl.symm, if_pos rfl, if_neg hkl.symm, if_pos rfl] at this
  · have := congrFun hu i; rwa [hL, if_neg hi, if_neg hi', if_neg hi, if_neg hi'] at this
  · funext i
    rw [hL]
    split_ifs with hi hi'
    · exact hv.1
    · exact hv.2.1
    · exact hv.2.2 i hi hi'

/-- the hypotheses are met: a grid of 5 points on `[0, 3]` with a history of calls -/
example : ∃ s₁ D₁ s₂ D, NumSpectral.matder (chebAfter 5 0 3 [.x, .matder 4]) 1 = .ok (s₁, D₁) ∧
    NumSpectral.matder (chebAfter 5 0 3 [.x, .matder 4]) 3 = .ok (s₂, D) ∧ D = D₁ ^ 3 :=
  C111_power (by norm_num) (by norm_num) _ (by norm_num)

end Aerokit.Props
