import Verif.Props.EulerBC
import Verif.Spec.EulerModes

/-! Rows of the matrices of `Euler1D` applied to complex vectors. -/

namespace Aerokit.Euler1D
open LinOperator NumSpectral Model1D Spec Props

variable {n : ℕ} {a b : ℝ}

theorem Iim (z : ℂ) : z = (z.re : ℂ) + (z.im : ℂ) * Complex.I := (Complex.re_add_im z).symm

theorem toComplex_mulVec (M : Mat ℝ) (v : ℕ → ℂ) (r : ℕ) :
    M.toComplex.mulVec v r = (M.mulVec (fun j => (v j).re) r : ℝ) + (M.mulVec (fun j => (v j).im) r : ℝ) * Complex.I := by
  unfold Mat.mulVec Mat.toComplex
  push_cast
  rw [Finset.sum_mul, ← Finset.sum_add_distrib]
  refine Finset.sum_congr rfl fun j _ => ?_
  conv_lhs => rw [Iim (v j)]
  ring

theorem dC_eq (D : Matrix (Fin n) (Fin n) ℝ) (w : Fin n → ℂ) (i : Fin n) :
    dC D w i = (D.mulVec (fun j => (w j).re) i : ℝ) + (D.mulVec (fun j => (w j).im) i : ℝ) * Complex.I := by
  unfold dC Matrix.mulVec dotProduct
  push_cast
  rw [Finset.sum_mul, ← Finset.sum_add_distrib]
  refine Finset.sum_congr rfl fun j _ => ?_
  conv_lhs => rw [Iim (w j)]
  ring

theorem cfield_eq (v : ℕ → ℂ) (k : Fin 3) (i : Fin n) :
    cfield n v k i = (field n (fun j => (v j).re) k i : ℝ) + (field n (fun j => (v j).im) k i : ℝ) * Complex.I :=
  Iim _

theorem dC_field (D : Matrix (Fin n) (Fin n) ℝ) (v : ℕ → ℂ) (k : Fin 3) (i : Fin n) :
    dC D (cfield n v k) i = (D.mulVec (field n (fun j => (v j).re) k) i : ℝ)
      + (D.mulVec (field n (fun j => (v j).im) k) i : ℝ) * Complex.I := dC_eq D _ i

/-- interior rows of the raw operator -/
noncomputable def opC (D : Matrix (Fin n) (Fin n) ℝ) (q : StateV n) (v : ℕ → ℂ) (k : Fin 3) (i : Fin n) : ℂ :=
  match k with
  | 0 => -(q.u i * dC D (cfield n v 0) i + cfield n v 1 i * D.mulVec q.rho i
          + q.rho i * dC D (cfield n v 1) i + cfield n v 0 i * D.mulVec q.u i)
  | 1 => -(q.u i * dC D (cfield n v 1) i + cfield n v 1 i * D.mulVec q.u i
          + dC D (cfield n v 2) i / q.rho i - D.mulVec q.p i / q.rho i ^ 2 * cfield n v 0 i)
  | 2 => -(q.u i * dC D (cfield n v 2) i + cfield n v 1 i * D.mulVec q.p i
          + q.gamma * q.p i * dC D (cfield n v 1) i + q.gamma * cfield n v 2 i * D.mulVec q.u i)

theorem rowC_of {M : Mat ℝ} {q : StateV n} (D : Matrix (Fin n) (Fin n) ℝ) (hs : M.size = n * 3) (k : Fin 3) (i : Fin n)
    (he : ∀ j, M.e (k * n + i) j = raw D q (k * n + i) j) (v : ℕ → ℂ) :
    M.toComplex.mulVec v (k * n + i) = opC D q v k i := by
  have hr : ∀ w : ℕ → ℝ, M.mulVec w (k * n + i) = ∑ j ∈ Finset.range (3 * n), raw D q (k * n + i) j * w j := by
    intro w
    unfold Mat.mulVec
    rw [hs, Nat.mul_comm n 3]
    exact Finset.sum_congr rfl fun j _ => by rw [he]
  rw [toComplex_mulVec, hr, hr, raw_eq, raw_eq]
  fin_cases k <;> simp only [Fin.zero_eta, Fin.mk_one, Fin.reduceFinMk, opC, dC_field, cfield_eq] <;> push_cast <;> ring

theorem rowC_id {M : Mat ℝ} (hs : M.size = n * 3) (k : Fin 3) (i : Fin n)
    (he : ∀ j, M.e (k * n + i) j = if (k:ℕ) * n + i = j then 1 else 0) (v : ℕ → ℂ) :
    M.toComplex.mulVec v (k * n + i) = cfield n v k i := by
  unfold Mat.mulVec Mat.toComplex
  simp only [he, hs]
  rw [Finset.sum_eq_single ((k:ℕ) * n + i)]
  · simp [cfield]
  · intro j _ hj; rw [if_neg (Ne.symm hj)]; simp
  · intro h
    exact absurd (Finset.mem_range.2 (by rw [Nat.mul_comm n 3]; exact idx_lt k i.2)) h

theorem rowC_zero {M : Mat ℝ} {r : ℕ} (h : ∀ j, M.e r j = 0) (v : ℕ → ℂ) : M.toComplex.mulVec v r = 0 := by
  unfold Mat.mulVec Mat.toComplex
  simp [h]

/-! periodic -/

theorem per_row_first (hn : 2 ≤ n) (q : StateV n) (v : ℕ → ℂ) (k : Fin 3) :
    (perB (Dm n a b 1) (rawM a b q)).toComplex.mulVec v (k * n) = cfield n v k ⟨0, by omega⟩ - cfield n v k ⟨n - 1, by omega⟩ := by
  have b0 : ∀ v : ℕ → ℝ, (perB (Dm n a b 1) (rawM a b q)).mulVec v (k * n) = v (k * n + 0) - v (k * n + (n - 1)) := by
    intro v
    show ∑ j ∈ Finset.range (n * 3), _ = _
    have e : ∀ j, (perB (Dm n a b 1) (rawM a b q)).e (k * n) j * v j
        = (if j = k * n + 0 then 1 else 0) * v j - (if j = k * n + (n - 1) then 1 else 0) * v j := by
      intro j
      rw [perB_first hn]
      by_cases h1 : j = k * n
      · have h2 : j = k * n + 0 := h1
        have h3 : ¬ j = k * n + (n - 1) := by omega
        simp only [if_pos h1, if_pos h2, if_neg h3]; ring
      · have h2 : ¬ j = k * n + 0 := h1
        by_cases h3 : j = k * n + (n - 1)
        · simp only [if_neg h1, if_neg h2, if_pos h3]; ring
        · simp only [if_neg h1, if_neg h2, if_neg h3]; ring
    simp only [e]
    rw [Finset.sum_sub_distrib, row_single v (by rw [Nat.mul_comm n 3]; exact idx_lt k (by omega)),
      row_single v (by rw [Nat.mul_comm n 3]; exact idx_lt k (by omega))]
  rw [toComplex_mulVec, b0, b0, cfield_eq, cfield_eq]
  unfold field
  push_cast
  ring

theorem per_row_last (hn : 2 ≤ n) (q : StateV n) (v : ℕ → ℂ) (k : Fin 3) :
    (perB (Dm n a b 1) (rawM a b q)).toComplex.mulVec v (k * n + (n - 1))
      = dC (Dm n a b 1) (cfield n v k) ⟨0, by omega⟩ - dC (Dm n a b 1) (cfield n v k) ⟨n - 1, by omega⟩ := by
  have b1 : ∀ v : ℕ → ℝ, (perB (Dm n a b 1) (rawM a b q)).mulVec v (k * n + (n - 1))
      = (Dm n a b 1).mulVec (field n v k) ⟨0, by omega⟩ - (Dm n a b 1).mulVec (field n v k) ⟨n - 1, by omega⟩ := by
    intro v
    show ∑ j ∈ Finset.range (n * 3), _ = _
    simp only [perB_last hn]
    rw [Nat.mul_comm n 3, row_block (fun j => ent (Dm n a b 1) 0 j - ent (Dm n a b 1) (n - 1) j) v k]
    simp only [Matrix.mulVec, dotProduct]
    rw [← Finset.sum_sub_distrib]
    refine Finset.sum_congr rfl fun j _ => ?_
    have h0 := ent_eq (Dm n a b 1) ⟨0, by omega⟩ j
    have h1 := ent_eq (Dm n a b 1) ⟨n - 1, by omega⟩ j
    simp only at h0 h1
    rw [h0, h1]; ring
  rw [toComplex_mulVec, b1, b1, dC_field, dC_field]
  push_cast
  ring

/-- an index of the long vector is a variable and a node -/
theorem idx_cases {r : ℕ} (h : r < 3 * n) : ∃ (k : Fin 3) (i : Fin n), r = k * n + i := by
  have hn : 0 < n := by omega
  refine ⟨⟨r / n, by rw [Nat.div_lt_iff_lt_mul hn]; exact h⟩, ⟨r % n, Nat.mod_lt _ hn⟩, ?_⟩
  simp only []
  rw [Nat.mul_comm]; exact (Nat.div_add_mod r n).symm

theorem forall_rows {P : ℕ → Prop} : (∀ r < 3 * n, P r) ↔ ∀ (k : Fin 3) (i : Fin n), P (k * n + i) := by
  constructor
  · intro h k i; exact h _ (idx_lt k i.2)
  · intro h r hr
    obtain ⟨k, i, rfl⟩ := idx_cases hr
    exact h k i

theorem linEuler_iff (D : Matrix (Fin n) (Fin n) ℝ) (q : StateV n) (ω : ℂ) (v : ℕ → ℂ) (i : Fin n) :
    (∀ k : Fin 3, opC D q v k i = (-Complex.I * ω) * cfield n v k i) ↔
      LinEuler D q.gamma q.rho q.u q.p ω (cfield n v 0) (cfield n v 1) (cfield n v 2) i := by
  unfold LinEuler
  constructor
  · intro h
    have h0 := h 0
    have h1 := h 1
    have h2 := h 2
    simp only [opC] at h0 h1 h2
    refine ⟨?_, ?_, ?_⟩
    · linear_combination -h0
    · linear_combination -h1
    · linear_combination -h2
  · rintro ⟨h0, h1, h2⟩ k
    fin_cases k <;> simp only [Fin.zero_eta, Fin.mk_one, Fin.reduceFinMk, opC]
    · linear_combination -h0
    · linear_combination -h1
    · linear_combination -h2

theorem per_modes (hn : 2 ≤ n) (q : StateV n) (ω : ℂ) (v : ℕ → ℂ) :
    (∀ r < 3 * n, (perB (Dm n a b 1) (rawM a b q)).toComplex.mulVec v r
        = (-Complex.I * ω) * (perA n (eye (n * 3))).toComplex.mulVec v r) ↔
      (∀ k, Periodic hn (Dm n a b 1) (cfield n v k)) ∧ ∀ i : Fin n, 0 < (i:ℕ) → (i:ℕ) < n - 1 →
        LinEuler (Dm n a b 1) q.gamma q.rho q.u q.p ω (cfield n v 0) (cfield n v 1) (cfield n v 2) i := by
  rw [forall_rows]
  have hin : ∀ (k : Fin 3) (i : Fin n), 0 < (i:ℕ) → (i:ℕ) < n - 1 →
      (perB (Dm n a b 1) (rawM a b q)).toComplex.mulVec v (k * n + i) = opC (Dm n a b 1) q v k i ∧
      (perA n (eye (n * 3))).toComplex.mulVec v (k * n + i) = cfield n v k i := by
    intro k i h0 h1
    exact ⟨rowC_of _ rfl k i (fun j => perB_inner _ _ k h0 h1 j) v, rowC_id rfl k i (fun j => perA_inner _ k h0 h1 j) v⟩
  have z0 : ∀ k : Fin 3, (perA n (eye (n * 3))).toComplex.mulVec v (k * n) = 0 := by
    intro k
    have := fun j => perA_end hn (eye (n * 3)) k (i := 0) (.inl rfl) j
    exact rowC_zero this v
  have z1 : ∀ k : Fin 3, (perA n (eye (n * 3))).toComplex.mulVec v (k * n + (n - 1)) = 0 := fun k =>
    rowC_zero (fun j => perA_end hn (eye (n * 3)) k (i := n - 1) (.inr rfl) j) v
  constructor
  · intro h
    refine ⟨fun k => ⟨?_, ?_⟩, fun i h0 h1 => ?_⟩
    · have := h k ⟨0, by omega⟩
      simp only [Nat.add_zero] at this
      rw [z0, per_row_first hn, mul_zero, sub_eq_zero] at this
      exact this
    · have := h k ⟨n - 1, by omega⟩
      simp only [] at this
      rw [z1, per_row_last hn, mul_zero, sub_eq_zero] at this
      exact this
    · rw [← linEuler_iff]
      intro k
      rw [← (hin k i h0 h1).1, ← (hin k i h0 h1).2]
      exact h k i
  · rintro ⟨h1, h2⟩ k i
    by_cases hi0 : (i:ℕ) = 0
    · rw [hi0, Nat.add_zero, z0, per_row_first hn, mul_zero, sub_eq_zero]
      exact (h1 k).1
    by_cases hi1 : (i:ℕ) = n - 1
    · rw [hi1, z1, per_row_last hn, mul_zero, sub_eq_zero]
      exact (h1 k).2
    · have h3 : 0 < (i:ℕ) := Nat.pos_of_ne_zero hi0
      have h4 : (i:ℕ) < n - 1 := by have := i.2; omega
      rw [(hin k i h3 h4).1, (hin k i h3 h4).2]
      exact (linEuler_iff _ _ _ _ _).2 (h2 i h3 h4) k

/-! symmetry -/

theorem sym_modes (hn : 2 ≤ n) (q : StateV n) (ω : ℂ) (v : ℕ → ℂ) :
    (∀ r < 3 * n, (symB (Dm n a b 1) (n - 1) (symB (Dm n a b 1) 0 (rawM a b q))).toComplex.mulVec v r
        = (-Complex.I * ω) * (symA n (n - 1) (symA n 0 (eye (n * 3)))).toComplex.mulVec v r) ↔
      (∀ i : Fin n, ((i:ℕ) = 0 ∨ (i:ℕ) = n - 1) → cfield n v 1 i = 0 ∧ dC (Dm n a b 1) (cfield n v 0) i = 0 ∧
          dC (Dm n a b 1) (cfield n v 2) i = 0) ∧
      ∀ i : Fin n, 0 < (i:ℕ) → (i:ℕ) < n - 1 →
        LinEuler (Dm n a b 1) q.gamma q.rho q.u q.p ω (cfield n v 0) (cfield n v 1) (cfield n v 2) i := by
  rw [forall_rows]
  obtain ⟨MB, hMB⟩ : ∃ MB, MB = symB (Dm n a b 1) (n - 1) (symB (Dm n a b 1) 0 (rawM a b q)) := ⟨_, rfl⟩
  obtain ⟨MA, hMA⟩ : ∃ MA, MA = symA n (n - 1) (symA n 0 (eye (n * 3))) := ⟨_, rfl⟩
  have sB : MB.size = n * 3 := by rw [hMB]; rfl
  have sA : MA.size = n * 3 := by rw [hMA]; rfl
  have hk : ∀ k : Fin 3, ((k:ℕ) = 0 ∨ (k:ℕ) = 1 ∨ (k:ℕ) = 2) := fun k => by have := k.2; omega
  have hidx : ∀ (k : Fin 3) (i : ℕ), i < n → ∀ r, r < n → i ≠ r → (k:ℕ) * n + i ≠ r ∧ (k:ℕ) * n + i ≠ n + r ∧ (k:ℕ) * n + i ≠ 2 * n + r := by
    intro k i hi r hr hir
    rcases hk k with h | h | h <;> rw [h] <;> omega
  have hin : ∀ (k : Fin 3) (i : Fin n), 0 < (i:ℕ) → (i:ℕ) < n - 1 →
      MB.toComplex.mulVec v (k * n + i) = opC (Dm n a b 1) q v k i ∧
      MA.toComplex.mulVec v (k * n + i) = cfield n v k i := by
    intro k i h0 h1
    have e0 := hidx k i i.2 0 (by omega) (by omega)
    have e1 := hidx k i i.2 (n - 1) (by omega) (by omega)
    refine ⟨rowC_of _ sB k i (fun j => ?_) v, rowC_id sA k i (fun j => ?_) v⟩
    · rw [hMB, symB_other _ _ e1, symB_other _ _ e0]
    · rw [hMA, symA_other _ e1, symA_other _ e0]; rfl
  have hend : ∀ i : Fin n, ((i:ℕ) = 0 ∨ (i:ℕ) = n - 1) → ∀ k : Fin 3,
      MA.toComplex.mulVec v (k * n + i) = 0 ∧
      MB.toComplex.mulVec v (k * n + i) = if k = 1 then cfield n v 1 i else dC (Dm n a b 1) (cfield n v k) i := by
    intro i hi k
    have hA : ∀ j, MA.e (k * n + i) j = 0 := by
      intro j
      rw [hMA]
      rcases hi with h | h
      · by_cases h' : (0:ℕ) = n - 1
        · omega
        rw [symA_other _ (hidx k i i.2 (n - 1) (by omega) (by omega)), h]
        exact symA_at _ k (by omega) j
      · rw [h]
        exact symA_at _ k (by omega) j
    have hB : ∀ j, MB.e (k * n + i) j = if k = 1 then (if j = n + i then 1 else 0)
      else if k * n ≤ j ∧ j < (k + 1) * n then ent (Dm n a b 1) i (j - k * n) else 0 := by
      intro j
      rw [hMB]
      rcases hi with h | h
      · rw [symB_other _ _ (hidx k i i.2 (n - 1) (by omega) (by omega)), h]
        exact symB_at _ _ k (by omega) j
      · rw [h]
        exact symB_at _ _ k (by omega) j
    refine ⟨rowC_zero hA v, ?_⟩
    rw [toComplex_mulVec]
    unfold Mat.mulVec
    simp only [hB, sB]
    by_cases hk1 : k = 1
    · subst hk1
      simp only [if_true]
      rw [row_single _ (by have := i.2; omega), row_single _ (by have := i.2; omega), cfield_eq]
      simp [field]
    · simp only [if_neg hk1]
      rw [Nat.mul_comm n 3, row_block (fun j => ent (Dm n a b 1) i j) _ k, row_block (fun j => ent (Dm n a b 1) i j) _ k, dC_field]
      simp only [ent_eq]
      rfl
  rw [← hMB, ← hMA]
  constructor
  · intro h
    refine ⟨fun i hi => ?_, fun i h0 h1 => ?_⟩
    · have := fun k => h k i
      have e0 := this 0
      have e1 := this 1
      have e2 := this 2
      rw [(hend i hi 0).1, (hend i hi 0).2, mul_zero] at e0
      rw [(hend i hi 1).1, (hend i hi 1).2, mul_zero] at e1
      rw [(hend i hi 2).1, (hend i hi 2).2, mul_zero] at e2
      exact ⟨e1, e0, e2⟩
    · rw [← linEuler_iff]
      intro k
      rw [← (hin k i h0 h1).1, ← (hin k i h0 h1).2]
      exact h k i
  · rintro ⟨h1, h2⟩ k i
    by_cases hi : (i:ℕ) = 0 ∨ (i:ℕ) = n - 1
    · obtain ⟨e1, e0, e2⟩ := h1 i hi
      rw [(hend i hi k).1, (hend i hi k).2, mul_zero]
      fin_cases k
      · exact e0
      · exact e1
      · exact e2
    · have h3 : 0 < (i:ℕ) := by omega
      have h4 : (i:ℕ) < n - 1 := by have := i.2; omega
      rw [(hin k i h3 h4).1, (hin k i h3 h4).2]
      exact (linEuler_iff _ _ _ _ _).2 (h2 i h3 h4) k

end Aerokit.Euler1D
