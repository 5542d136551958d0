import Verif.Lemmas.Euler1D

/-! Effect of the boundary condition methods of `Euler1D`. -/

namespace Aerokit.Euler1D
open LinOperator NumSpectral Model1D Spec

variable {n : ℕ} {a b : ℝ}

theorem onAt_ok {s : Obj n} {A A' : Mat ℝ} {f : Mat ℝ → Py (Mat ℝ)} (hs : s.At = some A) (hf : f A = .ok A') :
    onAt f s = (.ok (), { s with At := some A' }) := by
  unfold onAt
  rw [Meth.bind_ok (a := A) (s' := s) (by unfold getAt; rw [hs]), Meth.bind_ok (a := A') (s' := s) (by rw [Meth.lift_apply, hf])]
  rfl

theorem onB_ok {s : Obj n} {A A' : Mat ℝ} {f : Mat ℝ → Py (Mat ℝ)} (hs : s.B = some A) (hf : f A = .ok A') :
    onB f s = (.ok (), { s with B := some A' }) := by
  unfold onB
  rw [Meth.bind_ok (a := A) (s' := s) (by unfold getB; rw [hs]), Meth.bind_ok (a := A') (s' := s) (by rw [Meth.lift_apply, hf])]
  rfl

theorem onAt_err {s : Obj n} {A : Mat ℝ} {f : Mat ℝ → Py (Mat ℝ)} {e : PyErr} (hs : s.At = some A) (hf : f A = .error e) :
    onAt f s = (.error e, s) := by
  unfold onAt
  rw [Meth.bind_ok (a := A) (s' := s) (by unfold getAt; rw [hs]), Meth.bind_err (e := e) (s' := s) (by rw [Meth.lift_apply, hf])]

theorem zeroRows_ok {s : Obj n} {A M : Mat ℝ} {i : ℕ} (hA : s.At = some A) (hB : s.B = some M) (h : i < A.size) (h' : i < M.size) :
    zeroRows i s = (.ok (), { s with At := some (A.zr i), B := some (M.zr i) }) := by
  obtain ⟨d0, q, nv, B, At, bc, hp⟩ := s
  simp only at hA hB
  subst hA hB
  unfold zeroRows
  rw [Meth.bind_ok (onAt_ok rfl (Mat.zeroRow_ok h)), onB_ok rfl (Mat.zeroRow_ok h')]

theorem zeroRows_err {s : Obj n} {A : Mat ℝ} {i : ℕ} (hA : s.At = some A) (h : A.size ≤ i) :
    zeroRows i s = (.error .indexError, s) := by
  unfold zeroRows
  rw [Meth.bind_err (onAt_err hA (Mat.zeroRow_err h))]

/-- result of `setBC_per` on `_B` -/
noncomputable def perB (D : Matrix (Fin n) (Fin n) ℝ) (M : Mat ℝ) : Mat ℝ :=
  let M := (((((M.zr 0).zr (n - 1)).zr n).zr (2 * n - 1)).zr (2 * n)).zr (3 * n - 1)
  let M := ((M.st (0 * n) (0 * n) 1.0).st (0 * n) (0 * n + n - 1) (-1.0)).sr (0 * n + n - 1) (0 * n) ((0 + 1) * n)
    fun j => ent D 0 j - ent D (n - 1) j
  let M := ((M.st (1 * n) (1 * n) 1.0).st (1 * n) (1 * n + n - 1) (-1.0)).sr (1 * n + n - 1) (1 * n) ((1 + 1) * n)
    fun j => ent D 0 j - ent D (n - 1) j
  ((M.st (2 * n) (2 * n) 1.0).st (2 * n) (2 * n + n - 1) (-1.0)).sr (2 * n + n - 1) (2 * n) ((2 + 1) * n)
    fun j => ent D 0 j - ent D (n - 1) j

/-- result of `setBC_per` on `_At` -/
noncomputable def perA (n : ℕ) (M : Mat ℝ) : Mat ℝ :=
  (((((M.zr 0).zr (n - 1)).zr n).zr (2 * n - 1)).zr (2 * n)).zr (3 * n - 1)

theorem per_rows_ok {s : Obj n} {D : Matrix (Fin n) (Fin n) ℝ} {M : Mat ℝ} {i : ℕ} (hB : s.B = some M)
    (h : i * n + n - 1 < M.size) (h0 : 1 ≤ n) :
    per_rows D i s = (.ok (), { s with B := some (((M.st (i * n) (i * n) 1.0).st (i * n) (i * n + n - 1) (-1.0)).sr
      (i * n + n - 1) (i * n) ((i + 1) * n) fun j => ent D 0 j - ent D (n - 1) j) }) := by
  unfold per_rows
  rw [Meth.bind_ok (onB_ok hB (Mat.set_ok (by omega) (by omega))),
    Meth.bind_ok (onB_ok (A := M.st (i * n) (i * n) 1.0) rfl (Mat.set_ok (by show _ < M.size; omega) (by show _ < M.size; omega))),
    onB_ok (A := (M.st (i * n) (i * n) 1.0).st (i * n) (i * n + n - 1) (-1.0)) rfl (Mat.setRow_ok (by show _ < M.size; omega))]

theorem setBC_per_ok (hn : 2 ≤ n) (hab : a ≠ b) {s : Obj n} (h : EInv a b s) {A M : Mat ℝ} (hA : s.At = some A)
    (hB : s.B = some M) (sA : A.size = 3 * n) (sM : M.size = 3 * n) :
    ∃ d, setBC_per s = (.ok (), { s with diffop := d, At := some (perA n A), B := some (perB (Dm n a b 1) M) }) ∧ Inv a b d := by
  obtain ⟨d, hd, hi⟩ := matder_ok hn hab h (m := 1) le_rfl
  refine ⟨d, ?_, hi⟩
  unfold setBC_per
  rw [Meth.bind_ok hd]
  obtain ⟨d0, q, nv, B, At, bc, hp⟩ := s
  simp only at hA hB
  subst hA hB
  rw [Meth.bind_ok (zeroRows_ok rfl rfl (i := 0) (by omega) (by omega)),
    Meth.bind_ok (zeroRows_ok rfl rfl (by show _ < A.size; omega) (by show _ < M.size; omega)),
    Meth.bind_ok (zeroRows_ok rfl rfl (by show _ < A.size; omega) (by show _ < M.size; omega)),
    Meth.bind_ok (zeroRows_ok rfl rfl (by show _ < A.size; omega) (by show _ < M.size; omega)),
    Meth.bind_ok (zeroRows_ok rfl rfl (by show _ < A.size; omega) (by show _ < M.size; omega)),
    Meth.bind_ok (zeroRows_ok rfl rfl (by show _ < A.size; omega) (by show _ < M.size; omega)),
    Meth.bind_ok (per_rows_ok rfl (by show _ < M.size; omega) (by omega)),
    Meth.bind_ok (per_rows_ok rfl (by show _ < M.size; omega) (by omega)),
    per_rows_ok rfl (by show _ < M.size; omega) (by omega)]
  rfl

/-- result of `setBC_sym` on `_B` -/
noncomputable def symB (D : Matrix (Fin n) (Fin n) ℝ) (i : ℕ) (M : Mat ℝ) : Mat ℝ :=
  let M := ((M.zr (i + 0)).zr (i + n)).zr (i + 2 * n)
  ((M.sr i 0 n fun j => ent D i j).st (i + n) (n + i) 1.0).sr (i + 2 * n) (2 * n) (3 * n) fun j => ent D i j

/-- result of `setBC_sym` on `_At` -/
noncomputable def symA (n i : ℕ) (M : Mat ℝ) : Mat ℝ := ((M.zr (i + 0)).zr (i + n)).zr (i + 2 * n)

theorem setBC_sym_ok (hn : 2 ≤ n) (hab : a ≠ b) {s : Obj n} (h : EInv a b s) {A M : Mat ℝ} (hA : s.At = some A)
    (hB : s.B = some M) (sA : 3 * n ≤ A.size) (sM : 3 * n ≤ M.size) {i : ℕ} (hi : i < n) :
    ∃ d, setBC_sym i (some i) s
      = (.ok (), { s with diffop := d, At := some (symA n i A), B := some (symB (Dm n a b 1) i M) }) ∧ Inv a b d := by
  obtain ⟨d, hd, hi'⟩ := matder_ok hn hab h (m := 1) le_rfl
  refine ⟨d, ?_, hi'⟩
  unfold setBC_sym
  simp only [Option.getD_some]
  rw [Meth.bind_ok hd]
  obtain ⟨d0, q, nv, B, At, bc, hp⟩ := s
  simp only at hA hB
  subst hA hB
  rw [Meth.bind_ok (zeroRows_ok rfl rfl (by omega) (by omega)),
    Meth.bind_ok (zeroRows_ok rfl rfl (by show _ < A.size; omega) (by show _ < M.size; omega)),
    Meth.bind_ok (zeroRows_ok rfl rfl (by show _ < A.size; omega) (by show _ < M.size; omega)),
    Meth.bind_ok (onB_ok rfl (Mat.setRow_ok (by show _ < M.size; omega))),
    Meth.bind_ok (onB_ok rfl (Mat.set_ok (by show _ < M.size; omega) (by show _ < M.size; omega))),
    onB_ok rfl (Mat.setRow_ok (by show _ < M.size; omega))]
  rfl

/-! ### rows of the results -/

/-- a boundary row index -/
def isEnd (n i : ℕ) : Prop := i = 0 ∨ i = n - 1

theorem perB_first (hn : 2 ≤ n) (D : Matrix (Fin n) (Fin n) ℝ) (M : Mat ℝ) (k : Fin 3) (j : ℕ) :
    (perB D M).e (k * n) j = if j = k * n then 1 else if j = k * n + (n - 1) then -1 else 0 := by
  have e1 : (1.0 : ℝ) = 1 := by norm_num
  simp only [perB, e1]
  fin_cases k <;> simp only [Fin.zero_eta, Fin.mk_one, Fin.reduceFinMk, Fin.val_zero, Fin.val_one, Fin.val_two] <;>
    split_ifs <;> simp (disch := omega) only [Mat.sr_ne, Mat.st_eq, Mat.st_ne, Mat.zr_eq, Mat.zr_ne]

theorem perB_last (hn : 2 ≤ n) (D : Matrix (Fin n) (Fin n) ℝ) (M : Mat ℝ) (k : Fin 3) (j : ℕ) :
    (perB D M).e (k * n + (n - 1)) j
      = if k * n ≤ j ∧ j < (k + 1) * n then ent D 0 (j - k * n) - ent D (n - 1) (j - k * n) else 0 := by
  simp only [perB]
  fin_cases k <;> simp only [Fin.zero_eta, Fin.mk_one, Fin.reduceFinMk, Fin.val_zero, Fin.val_one, Fin.val_two] <;>
    split_ifs <;> simp (disch := omega) only [Mat.sr_eq, Mat.sr_ne, Mat.st_ne, Mat.zr_eq, Mat.zr_ne]

theorem perB_inner (D : Matrix (Fin n) (Fin n) ℝ) (M : Mat ℝ) (k : Fin 3) {i : ℕ} (h0 : 0 < i) (h1 : i < n - 1) (j : ℕ) :
    (perB D M).e (k * n + i) j = M.e (k * n + i) j := by
  simp only [perB]
  fin_cases k <;> simp only [Fin.zero_eta, Fin.mk_one, Fin.reduceFinMk, Fin.val_zero, Fin.val_one, Fin.val_two] <;>
    simp (disch := omega) only [Mat.sr_ne, Mat.st_ne, Mat.zr_ne]

theorem perA_end (hn : 2 ≤ n) (M : Mat ℝ) (k : Fin 3) {i : ℕ} (h : isEnd n i) (j : ℕ) : (perA n M).e (k * n + i) j = 0 := by
  simp only [perA]
  rcases h with rfl | rfl <;>
  fin_cases k <;> simp only [Fin.zero_eta, Fin.mk_one, Fin.reduceFinMk, Fin.val_zero, Fin.val_one, Fin.val_two] <;>
    simp (disch := omega) only [Mat.zr_eq, Mat.zr_ne]

theorem perA_inner (M : Mat ℝ) (k : Fin 3) {i : ℕ} (h0 : 0 < i) (h1 : i < n - 1) (j : ℕ) :
    (perA n M).e (k * n + i) j = M.e (k * n + i) j := by
  simp only [perA]
  fin_cases k <;> simp only [Fin.zero_eta, Fin.mk_one, Fin.reduceFinMk, Fin.val_zero, Fin.val_one, Fin.val_two] <;>
    simp (disch := omega) only [Mat.zr_ne]

theorem symB_at (D : Matrix (Fin n) (Fin n) ℝ) (M : Mat ℝ) (k : Fin 3) {i : ℕ} (hi : i < n) (j : ℕ) :
    (symB D i M).e (k * n + i) j = if k = 1 then (if j = n + i then 1 else 0)
      else if k * n ≤ j ∧ j < (k + 1) * n then ent D i (j - k * n) else 0 := by
  have e1 : (1.0 : ℝ) = 1 := by norm_num
  simp only [symB, e1]
  fin_cases k <;> simp only [Fin.zero_eta, Fin.mk_one, Fin.reduceFinMk, Fin.val_zero, Fin.val_one, Fin.val_two, Fin.isValue, Fin.reduceEq, zero_ne_one, if_true, if_false] <;>
    split_ifs <;> simp (disch := omega) only [Mat.sr_eq, Mat.sr_ne, Mat.st_eq, Mat.st_ne, Mat.zr_eq, Mat.zr_ne, zero_mul]

theorem symB_other (D : Matrix (Fin n) (Fin n) ℝ) (M : Mat ℝ) {i r : ℕ} (h : r ≠ i ∧ r ≠ n + i ∧ r ≠ 2 * n + i) (j : ℕ) :
    (symB D i M).e r j = M.e r j := by
  simp only [symB]
  simp (disch := omega) only [Mat.sr_ne, Mat.st_ne, Mat.zr_ne]

theorem symA_at (M : Mat ℝ) (k : Fin 3) {i : ℕ} (hi : i < n) (j : ℕ) : (symA n i M).e (k * n + i) j = 0 := by
  simp only [symA]
  fin_cases k <;> simp only [Fin.zero_eta, Fin.mk_one, Fin.reduceFinMk, Fin.val_zero, Fin.val_one, Fin.val_two] <;>
    simp (disch := omega) only [Mat.zr_eq, Mat.zr_ne]

theorem symA_other (M : Mat ℝ) {i r : ℕ} (h : r ≠ i ∧ r ≠ n + i ∧ r ≠ 2 * n + i) (j : ℕ) :
    (symA n i M).e r j = M.e r j := by
  simp only [symA]
  simp (disch := omega) only [Mat.zr_ne]

end Aerokit.Euler1D
