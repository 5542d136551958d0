import Verif.Model.NumSpectral
import Verif.Lemmas.Welfert
import Verif.Lemmas.Lits
import Mathlib.LinearAlgebra.Matrix.ToLinearEquiv
import Mathlib.Algebra.Polynomial.Sequence
import Mathlib.LinearAlgebra.FiniteDimensional.Lemmas

/-! Facts about the model of `ChebCollocation`. -/

namespace Aerokit.NumSpectral
open Polynomial Aerokit.Welfert

variable {N : ℕ}

/-- `th` of `compute_matder` -/
noncomputable def thv (N : ℕ) (k : ℕ) : ℝ := if k < N then (k : ℝ) * Real.pi / ((N : ℝ) - 1) / 2 else 0

theorem DX0_eq {i j : ℕ} (hi : i < N) (hj : j < N) : DX0 (thv N) i j = node N i - node N j := by
  unfold DX0 thv node
  rw [if_pos hi, if_pos hj]
  have h := Real.cos_sub_cos ((i : ℝ) * Real.pi / ((N : ℝ) - 1)) ((j : ℝ) * Real.pi / ((N : ℝ) - 1))
  rw [h]
  have e1 : ((j : ℝ) * Real.pi / ((N : ℝ) - 1) / 2 + (i : ℝ) * Real.pi / ((N : ℝ) - 1) / 2)
    = ((i : ℝ) * Real.pi / ((N : ℝ) - 1) + (j : ℝ) * Real.pi / ((N : ℝ) - 1)) / 2 := by ring
  have e2 : ((j : ℝ) * Real.pi / ((N : ℝ) - 1) / 2 - (i : ℝ) * Real.pi / ((N : ℝ) - 1) / 2)
    = -(((i : ℝ) * Real.pi / ((N : ℝ) - 1) - (j : ℝ) * Real.pi / ((N : ℝ) - 1)) / 2) := by ring
  rw [e1, e2, Real.sin_neg]
  ring

theorem DX_eq (hN : 2 ≤ N) {i j : ℕ} (hi : i < N) (hj : j < N) (hij : i ≠ j) :
    DX N (thv N) i j = node N i - node N j := by
  unfold DX DX1
  rw [if_neg hij]
  simp only []
  split_ifs with h
  · exact DX0_eq hi hj
  · have e : (N + 1) / 2 - 1 - (i - N / 2) = N - 1 - i := by omega
    rw [e, DX0_eq (by omega) (by omega), node_rev hN hi, node_rev hN hj]; ring

theorem neg_one_pow_sub {i j : ℕ} (h : j ≤ i) : (-1 : ℝ) ^ (i - j) = (-1) ^ (i + j) := by
  obtain ⟨k, rfl⟩ := Nat.exists_eq_add_of_le h
  rw [Nat.add_sub_cancel_left, show j + k + j = k + 2 * j by ring, pow_add, pow_mul]
  norm_num

theorem Cmat_eq (hN : 2 ≤ N) (i j : ℕ) : Cmat N i j = (-1) ^ (i + j) * cw N i / cw N j := by
  have hT : T i j = (-1) ^ (i + j) := by
    unfold T
    norm_num only
    split_ifs with h
    · exact neg_one_pow_sub h
    · rw [neg_one_pow_sub (by omega), add_comm]
  unfold Cmat cw
  simp only [hT]
  rcases eq_or_ne i 0 with h1 | h1 <;> rcases eq_or_ne i (N - 1) with h2 | h2 <;>
    rcases eq_or_ne j 0 with h3 | h3 <;> rcases eq_or_ne j (N - 1) with h4 | h4 <;>
    simp only [h1, h2, h3, h4, if_true, if_false, true_or, or_true, or_self] <;>
    first
    | (exfalso; omega)
    | (simp (config := {failIfUnchanged := false}) [show (0:ℕ) ≠ N - 1 by omega, show N - 1 ≠ 0 by omega] <;> try ring)

/-- the matrix `Z` -/
noncomputable def Zc (N : ℕ) : Matrix (Fin N) (Fin N) ℝ :=
  fun i j => if i = j then 0 else 1 / (node N i - node N j)

theorem Zmat_ok (hN : 2 ≤ N) : Zmat (N := N) (thv N) = .ok (Zc N) := by
  unfold Zmat
  rw [if_pos]
  · congr 1
    funext i j
    unfold Zc
    by_cases h : i = j
    · simp [h]
    · rw [if_neg h, if_neg h, DX_eq hN i.2 j.2 (fun e => h (Fin.ext e))]
      norm_num
  · intro i j
    by_cases h : i = j
    · subst h; unfold DX; simp
    · rw [DX_eq hN i.2 j.2 (fun e => h (Fin.ext e))]
      exact sub_ne_zero.2 fun e => h (node_inj hN e)

/-- exact differentiation matrices in the variable `ξ` -/
noncomputable def Rc (N k : ℕ) : Matrix (Fin N) (Fin N) ℝ := fun i j => R (fun i : Fin N => node N i) k i j

theorem stepD_eq (hN : 2 ≤ N) (k : ℕ) : stepD (Zc N) (Rc N k) k = Rc N (k + 1) := by
  have hinj := node_inj hN
  have hoff : ∀ i j : Fin N, i ≠ j →
      ((k : ℝ) + 1) * Zc N i j * (Cmat N i j * Rc N k i i - Rc N k i j) = Rc N (k + 1) i j := by
    intro i j h
    unfold Rc
    rw [R_succ hinj k h, weight_ratio hN, Cmat_eq hN]
    unfold Zc; rw [if_neg h]
  unfold stepD
  simp only []
  funext i j
  by_cases h : i = j
  · subst h
    rw [if_pos rfl]
    have : Rc N (k + 1) i i = -∑ j ∈ Finset.univ.erase i, Rc N (k + 1) i j := R_diag hinj k i
    rw [this, ← Finset.add_sum_erase _ _ (Finset.mem_univ i)]
    congr 1
    have hz : Zc N i i = 0 := by unfold Zc; rw [if_pos rfl]
    rw [hz, mul_zero, zero_mul, zero_add]
    apply Finset.sum_congr rfl
    intro j hj
    exact hoff i j (Ne.symm (Finset.ne_of_mem_erase hj))
  · rw [if_neg h]; exact hoff i j h

theorem Rc_zero (hN : 2 ≤ N) : Rc N 0 = 1 := by
  funext i j
  unfold Rc
  rw [R_zero (node_inj hN), Matrix.one_apply]

theorem loopD_get (hN : 2 ≤ N) (sc : ℝ) : ∀ left ell k, k < left →
    (loopD (Zc N) sc left ell (Rc N ell))[k]? =
      some (Matrix.of fun i j => Rc N (ell + k + 1) i j * sc ^ (ell + k + 1)) := by
  intro left
  induction left with
  | zero => intro _ _ h; omega
  | succ left ih =>
    intro ell k hk
    unfold loopD
    simp only [stepD_eq hN]
    cases k with
    | zero => simp
    | succ k =>
      rw [List.getElem?_cons_succ, ih _ _ (by omega)]
      rw [show ell + 1 + k + 1 = ell + (k + 1) + 1 by ring]

/-- the list stored in `_matder` -/
noncomputable def Ds (N : ℕ) (sc : ℝ) (M : ℕ) := loopD (Zc N) sc M 0 (1 : Matrix (Fin N) (Fin N) ℝ)

theorem Ds_get (hN : 2 ≤ N) (sc : ℝ) {M k : ℕ} (h : k < M) :
    (Ds N sc M)[k]? = some (Matrix.of fun i j => Rc N (k + 1) i j * sc ^ (k + 1)) := by
  have := loopD_get hN sc M 0 k h
  rw [Rc_zero hN, zero_add] at this
  exact this

theorem cast_pos (hN : 2 ≤ N) : (0:ℝ) < (N:ℝ) - 1 := by
  have : (2:ℝ) ≤ N := by exact_mod_cast hN
  linarith

theorem compute_matder_ok (hN : 2 ≤ N) (s : Cheb N) (h : s.xmin ≠ s.xmax) (M : ℕ) :
    compute_matder s M = .ok { s with
      matderAttr := Ds N (-2 / (s.xmax - s.xmin)) M, maxDorder := M } := by
  unfold compute_matder vecDiv
  rw [if_neg (cast_pos hN).ne']
  simp only [Py.ok_bind]
  have hth : (fun k : ℕ => if h : k < N then ((k : ℝ) * Real.pi / ((N : ℝ) - 1)) / 2 else 0) = thv N := by
    funext k; unfold thv; split_ifs <;> rfl
  rw [hth, Zmat_ok hN]
  simp only [Py.ok_bind]
  rw [Py.div_ok (sub_ne_zero.2 (Ne.symm h))]
  simp only [Py.ok_bind]
  have : (-2.0 : ℝ) = -2 := by norm_num
  rw [this]; rfl

/-- values of the lazy properties -/
noncomputable def xv (N : ℕ) (a b : ℝ) : Fin N → ℝ :=
  fun i => a + (node N i - 1) / (-2) * (b - a)

theorem xiBody_ok (hN : 2 ≤ N) (s : Cheb N) : xiBody s = .ok fun i : Fin N => node N i := by
  unfold xiBody vecDiv
  rw [if_neg (cast_pos hN).ne']
  rfl

/-- invariant of a reachable object -/
structure Inv (a b : ℝ) (s : Cheb N) : Prop where
  xmin : s.xmin = a
  xmax : s.xmax = b
  cxi : s.cache_xi = none ∨ s.cache_xi = some fun i : Fin N => node N i
  cx : s.cache_x = none ∨ s.cache_x = some (xv N a b)
  mat : s.matderAttr = Ds N (-2 / (b - a)) s.maxDorder

theorem inv_mk (a b : ℝ) : Inv a b (mk N (some a) (some b)) :=
  ⟨rfl, rfl, .inl rfl, .inl rfl, by simp [mk, Ds, loopD]⟩

theorem xi_spec (hN : 2 ≤ N) {a b : ℝ} {s : Cheb N} (h : Inv a b s) :
    ∃ s', xi s = .ok (s', fun i : Fin N => node N i) ∧ Inv a b s' := by
  rcases h.cxi with hc | hc
  · refine ⟨{ s with cache_xi := some fun i : Fin N => node N i }, ?_, ?_⟩
    · unfold xi; rw [hc]; simp only [xiBody_ok hN, Py.ok_bind]; rfl
    · exact ⟨h.xmin, h.xmax, .inr rfl, h.cx, h.mat⟩
  · refine ⟨s, ?_, h⟩
    unfold xi; rw [hc]

theorem x_spec (hN : 2 ≤ N) {a b : ℝ} {s : Cheb N} (h : Inv a b s) :
    ∃ s', x s = .ok (s', xv N a b) ∧ Inv a b s' ∧ s'.cache_x = some (xv N a b) := by
  rcases h.cx with hc | hc
  · obtain ⟨s1, h1, hi⟩ := xi_spec hN h
    have hw : (fun i : Fin N => xi_to_x s1 (node N i)) = xv N a b := by
      funext i; unfold xi_to_x xv; rw [hi.xmin, hi.xmax]; norm_num
    refine ⟨{ s1 with cache_x := some (xv N a b) }, ?_, ?_, rfl⟩
    · unfold x; rw [hc]; simp only [h1, Py.ok_bind, hw]; rfl
    · exact ⟨hi.xmin, hi.xmax, hi.cxi, .inr rfl, hi.mat⟩
  · refine ⟨s, ?_, h, hc⟩
    unfold x; rw [hc]

/-- the matrix returned by `matder` -/
noncomputable def Dm (N : ℕ) (a b : ℝ) (m : ℕ) : Matrix (Fin N) (Fin N) ℝ :=
  fun i j => Rc N m i j * (-2 / (b - a)) ^ m

theorem matder_spec (hN : 2 ≤ N) {a b : ℝ} (hab : a ≠ b) {s : Cheb N} (h : Inv a b s) {m : ℕ} (hm : 1 ≤ m) :
    ∃ s', matder s m = .ok (s', Dm N a b m) ∧ Inv a b s' := by
  have hD : ∀ M, m ≤ M → (Ds N (-2 / (b - a)) M)[m - 1]? = some (Dm N a b m) := by
    intro M hM
    rw [Ds_get hN _ (by omega), Nat.sub_add_cancel hm]; rfl
  unfold matder
  rw [if_pos hm]
  by_cases ho : m > s.maxDorder
  · rw [if_pos ho, compute_matder_ok hN s (by rw [h.xmin, h.xmax]; exact hab)]
    simp only [Py.ok_bind]
    rw [h.xmin, h.xmax, hD m le_rfl]
    exact ⟨_, rfl, rfl, rfl, h.cxi, h.cx, rfl⟩
  · rw [if_neg ho]
    simp only [Py.pure_eq, Py.ok_bind]
    rw [h.mat, hD _ (by omega)]
    exact ⟨_, rfl, h⟩

/-! ### Chebyshev series -/

/-- polynomial of a Chebyshev series -/
noncomputable def cpoly (c : Fin N → ℝ) : ℝ[X] := ∑ k, C (c k) * Chebyshev.T ℝ (k : ℕ)

theorem cpoly_eval (c : Fin N → ℝ) (t : ℝ) : (cpoly c).eval t = chebval t c := by
  unfold cpoly chebval
  rw [eval_finset_sum]
  simp

theorem vander_mulVec {m : ℕ} (xs : Fin m → ℝ) (c : Fin N → ℝ) (i : Fin m) :
    (chebvander N xs).mulVec c i = (cpoly c).eval (xs i) := by
  rw [cpoly_eval]
  unfold chebvander chebval Matrix.mulVec dotProduct
  exact Finset.sum_congr rfl fun k _ => mul_comm _ _

theorem cpoly_degree (c : Fin N → ℝ) : (cpoly c).degree < N := by
  unfold cpoly
  have : (∑ k, C (c k) * Chebyshev.T ℝ (k : ℕ)) ∈ degreeLT ℝ N := by
    apply Submodule.sum_mem
    intro k _
    rw [mem_degreeLT]
    rw [← smul_eq_C_mul]
    refine lt_of_le_of_lt (degree_smul_le _ _) ?_
    rw [Chebyshev.degree_T]
    simp
  exact mem_degreeLT.1 this

theorem cpoly_inj {c : Fin N → ℝ} (h : cpoly c = 0) : c = 0 := by
  have hli := (Chebyshev.chebyshevTsequence ℝ).linearIndependent
  have hli' := hli.comp (fun k : Fin N => (k : ℕ)) Fin.val_injective
  rw [Fintype.linearIndependent_iff] at hli'
  funext k
  refine hli' c ?_ k
  rw [← h]
  unfold cpoly
  refine Finset.sum_congr rfl fun k _ => ?_
  rw [smul_eq_C_mul]; rfl

theorem cpoly_surj {p : ℝ[X]} (hp : p.degree < N) : ∃ c : Fin N → ℝ, cpoly c = p := by
  let f : (Fin N → ℝ) →ₗ[ℝ] degreeLT ℝ N :=
    { toFun := fun c => ⟨cpoly c, mem_degreeLT.2 (cpoly_degree c)⟩
      map_add' := fun c d => by
        apply Subtype.ext
        simp only [cpoly, Pi.add_apply, C_add, add_mul, Finset.sum_add_distrib, Submodule.coe_add]
      map_smul' := fun r c => by
        apply Subtype.ext
        simp only [cpoly, Pi.smul_apply, smul_eq_mul, C_mul, mul_assoc, Submodule.coe_smul, RingHom.id_apply,
          smul_eq_C_mul, Finset.mul_sum] }
  have hinj : Function.Injective f := by
    rw [← LinearMap.ker_eq_bot, LinearMap.ker_eq_bot']
    intro c hc
    exact cpoly_inj (congrArg Subtype.val hc)
  have hfin : Module.finrank ℝ (Fin N → ℝ) = Module.finrank ℝ (degreeLT ℝ N) := by
    rw [(degreeLTEquiv ℝ N).finrank_eq]
  haveI : FiniteDimensional ℝ (degreeLT ℝ N) := (degreeLTEquiv ℝ N).symm.finiteDimensional
  have hs := (LinearMap.injective_iff_surjective_of_finrank_eq_finrank hfin).1 hinj
  obtain ⟨c, hc⟩ := hs ⟨p, mem_degreeLT.2 hp⟩
  exact ⟨c, congrArg Subtype.val hc⟩

theorem vander_det (hN : 2 ≤ N) : (chebvander N fun i : Fin N => node N i).det ≠ 0 := by
  intro h
  obtain ⟨c, hc0, hc⟩ := Matrix.exists_mulVec_eq_zero_iff.2 h
  apply hc0
  apply cpoly_inj
  refine Polynomial.eq_zero_of_degree_lt_of_eval_index_eq_zero (s := Finset.univ) (v := fun i : Fin N => node N i)
    (node_inj hN).injOn (by simpa using cpoly_degree c) ?_
  intro i _
  have := vander_mulVec (fun i : Fin N => node N i) c i
  rw [hc] at this
  exact this.symm

/-! ### the affine map -/

/-- `p` in the variable `ξ` -/
noncomputable def pull (a b : ℝ) (p : ℝ[X]) : ℝ[X] := p.comp (C ((a + b) / 2) + C (-(b - a) / 2) * X)

theorem pull_eval (a b : ℝ) (p : ℝ[X]) (t : ℝ) :
    (pull a b p).eval t = p.eval (a + (t - 1) / (-2) * (b - a)) := by
  unfold pull
  rw [eval_comp]
  congr 1
  simp only [eval_add, eval_mul, eval_C, eval_X]
  ring

theorem pull_degree {a b : ℝ} {p : ℝ[X]} (hp : p.degree < N) : (pull a b p).degree < N := by
  by_cases h0 : p = 0
  · subst h0; simpa [pull] using hp
  have hn : p.natDegree < N := (natDegree_lt_iff_degree_lt h0).2 hp
  have hle : (pull a b p).natDegree ≤ p.natDegree := by
    unfold pull
    refine natDegree_comp_le.trans ?_
    calc p.natDegree * _ ≤ p.natDegree * 1 := by
          apply Nat.mul_le_mul_left
          compute_degree
      _ = _ := mul_one _
  exact lt_of_le_of_lt degree_le_natDegree (by exact_mod_cast lt_of_le_of_lt hle hn)

theorem pull_deriv (a b : ℝ) (p : ℝ[X]) (m : ℕ) :
    derivative^[m] (pull a b p) = C ((-(b - a) / 2) ^ m) * pull a b (derivative^[m] p) := by
  induction m with
  | zero => simp
  | succ m ih =>
    rw [Function.iterate_succ_apply', ih, Function.iterate_succ_apply', derivative_C_mul]
    unfold pull
    rw [derivative_comp]
    simp only [derivative_add, derivative_C, derivative_mul, derivative_X, zero_mul, zero_add, mul_one]
    rw [pow_succ, C_mul]; ring

theorem Dm_exact (hN : 2 ≤ N) {a b : ℝ} (hab : a ≠ b) (m : ℕ) (p : ℝ[X]) (hp : p.degree < N) (i : Fin N) :
    ∑ j, Dm N a b m i j * p.eval (xv N a b j) = (derivative^[m] p).eval (xv N a b i) := by
  have h := sum_R (node_inj hN) (pull a b p) (pull_degree hp) m i
  rw [pull_deriv, eval_mul, eval_C, pull_eval] at h
  have hba : b - a ≠ 0 := sub_ne_zero.2 (Ne.symm hab)
  have hsc : (-2 / (b - a)) ^ m * (-(b - a) / 2) ^ m = 1 := by
    rw [← mul_pow]
    have : -2 / (b - a) * (-(b - a) / 2) = 1 := by field_simp
    rw [this, one_pow]
  calc ∑ j, Dm N a b m i j * p.eval (xv N a b j)
      = (-2 / (b - a)) ^ m * ∑ j, R (fun i : Fin N => node N i) m i j * (pull a b p).eval (node N j) := by
        rw [Finset.mul_sum]
        refine Finset.sum_congr rfl fun j _ => ?_
        unfold Dm Rc xv
        rw [pull_eval]; ring
    _ = _ := by
        rw [h, ← mul_assoc, hsc, one_mul]; rfl

end Aerokit.NumSpectral
