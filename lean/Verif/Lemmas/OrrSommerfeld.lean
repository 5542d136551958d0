import Verif.Model.OrrSommerfeld
import Verif.Lemmas.LinOperator
import Verif.Lemmas.NumSpectral

/-! Facts about the model of `OrrSommerfeldModel`. -/

namespace Aerokit.OrrSommerfeld
open LinOperator NumSpectral Polynomial

variable {n : ℕ} {a b : ℝ}

/-- invariant of reachable objects -/
def OInv (a b : ℝ) (s : Obj n) : Prop := Inv a b s.diffop

theorem matder_ok (hn : 2 ≤ n) (hab : a ≠ b) {s : Obj n} (h : OInv a b s) {m : ℕ} (hm : 1 ≤ m) :
    ∃ d, matder m s = (.ok (Dm n a b m), { s with diffop := d }) ∧ Inv a b d := by
  obtain ⟨d, h1, h2⟩ := matder_spec hn hab h hm
  exact ⟨d, by unfold matder; rw [h1], h2⟩

theorem x_ok (hn : 2 ≤ n) {s : Obj n} (h : OInv a b s) :
    ∃ d, x s = (.ok (xv n a b), { s with diffop := d }) ∧ Inv a b d := by
  obtain ⟨d, h1, h2, -⟩ := x_spec hn h
  exact ⟨d, by unfold x; rw [h1], h2⟩

section
open Meth

theorem keeps_matder (hn : 2 ≤ n) (hab : a ≠ b) (m : ℕ) (hm : 1 ≤ m) : Keeps (OInv a b) (matder (n := n) m) := by
  intro s hs
  obtain ⟨d, h, hi⟩ := matder_ok hn hab hs hm
  rw [h]; exact hi

theorem keeps_x (hn : 2 ≤ n) : Keeps (OInv a b) (x (n := n)) := by
  intro s hs
  obtain ⟨d, h, hi⟩ := x_ok hn hs
  rw [h]; exact hi

theorem keeps_onBoth (f g : Mat ℂ → Py (Mat ℂ)) : Keeps (OInv a b) (onBoth (n := n) f g) := by
  intro s hs
  unfold onBoth
  split
  · split
    · exact hs
    · split <;> exact hs
  · exact hs

theorem keeps_wall (hn : 2 ≤ n) (hab : a ≠ b) (i : ℕ) (r : Option ℕ) : Keeps (OInv a b) (setBC_wall (n := n) i r) := by
  unfold setBC_wall
  exact Keeps.bind (keeps_matder hn hab 1 le_rfl) fun _ => Keeps.bind (keeps_onBoth _ _) fun _ => Keeps.bind (keeps_onBoth _ _) fun _ =>
    Keeps.bind (keeps_onBoth _ _) fun _ => keeps_onBoth _ _

theorem keeps_applyBC (hn : 2 ≤ n) (hab : a ≠ b) (r i j : ℕ) : Keeps (OInv a b) (applyBC (n := n) r i j) := by
  unfold applyBC
  exact Keeps.bind (Keeps.get _) fun _ => Keeps.bind (Keeps.lift _) fun _ => Keeps.ite (keeps_wall hn hab _ _) (Keeps.throw _)

theorem keeps_compute_BC (hn : 2 ≤ n) (hab : a ≠ b) : Keeps (OInv a b) (compute_BC (n := n)) := by
  unfold compute_BC
  refine Keeps.bind (Keeps.get _) fun bc => ?_
  cases bc with
  | none => exact Keeps.throw _
  | some lr => exact Keeps.bind (keeps_applyBC hn hab _ _ _) fun _ => keeps_applyBC hn hab _ _ _

theorem keeps_compute_operators (hn : 2 ≤ n) (hab : a ≠ b) : Keeps (OInv a b) (compute_operators (n := n)) := by
  unfold compute_operators
  refine Keeps.bind (Keeps.get _) fun q => ?_
  cases q with
  | none => exact Keeps.throw _
  | some q =>
    exact Keeps.bind (Keeps.lift _) fun _ => Keeps.bind (Keeps.lift _) fun _ => Keeps.bind (keeps_matder hn hab 4 (by norm_num)) fun _ =>
      Keeps.bind (keeps_matder hn hab 2 (by norm_num)) fun _ => Keeps.bind (Keeps.lift _) fun _ => Keeps.bind (keeps_x hn) fun _ =>
      Keeps.bind (Keeps.modify fun _ h => h) fun _ => Keeps.bind (Keeps.require _ _) fun _ => Keeps.bind (Keeps.modify fun _ h => h) fun _ =>
      keeps_compute_BC hn hab

theorem keeps_get (hn : 2 ≤ n) (hab : a ≠ b) : Keeps (OInv a b) (get_RHS_time_matrices (n := n)) := by
  unfold get_RHS_time_matrices LinOperator.get_RHS_time_matrices
  refine Keeps.bind (Keeps.get _) fun _ => Keeps.bind (Keeps.when (keeps_compute_operators hn hab)) fun _ =>
    Keeps.bind (Keeps.get _) fun b => Keeps.bind (Keeps.get _) fun a => ?_
  split
  · exact Keeps.pure _
  · exact Keeps.throw _
  · exact Keeps.throw _

theorem keeps_set_basestate (q : Base) : Keeps (OInv a b) (set_basestate (n := n) q) := by
  unfold set_basestate
  exact Keeps.ite (Keeps.throw _) (Keeps.ite (Keeps.throw _) (Keeps.modify fun _ h => h))

theorem keeps_set_BC (L R : BCArg) : Keeps (OInv a b) (set_BC (n := n) L R) := by
  intro s hs
  unfold set_BC
  split <;> exact hs

end

/-! ### attributes that the computation of the operators leaves alone -/

section
open Meth

/-- the settings of the object are the given ones -/
def Fixed (h : Heap) (bc : Option (ℕ × ℕ)) (q : Option Base) (s : Obj n) : Prop := s.heap = h ∧ s.BC_type = bc ∧ s.basestate = q

variable {hh : Heap} {bc : Option (ℕ × ℕ)} {q : Option Base}

theorem fix_matder (m : ℕ) : Keeps (Fixed hh bc q) (matder (n := n) m) := by
  intro s hs
  unfold matder
  split <;> exact hs

theorem fix_x : Keeps (Fixed hh bc q) (x (n := n)) := by
  intro s hs
  unfold x
  split <;> exact hs

theorem fix_onBoth (f g : Mat ℂ → Py (Mat ℂ)) : Keeps (Fixed hh bc q) (onBoth (n := n) f g) := by
  intro s hs
  unfold onBoth
  split
  · split
    · exact hs
    · split <;> exact hs
  · exact hs

theorem fix_wall (i : ℕ) (r : Option ℕ) : Keeps (Fixed hh bc q) (setBC_wall (n := n) i r) := by
  unfold setBC_wall
  exact Keeps.bind (fix_matder 1) fun _ => Keeps.bind (fix_onBoth _ _) fun _ => Keeps.bind (fix_onBoth _ _) fun _ =>
    Keeps.bind (fix_onBoth _ _) fun _ => fix_onBoth _ _

theorem fix_applyBC (r i j : ℕ) : Keeps (Fixed hh bc q) (applyBC (n := n) r i j) := by
  unfold applyBC
  exact Keeps.bind (Keeps.get _) fun _ => Keeps.bind (Keeps.lift _) fun _ => Keeps.ite (fix_wall _ _) (Keeps.throw _)

theorem fix_compute_BC : Keeps (Fixed hh bc q) (compute_BC (n := n)) := by
  unfold compute_BC
  refine Keeps.bind (Keeps.get _) fun bc => ?_
  cases bc with
  | none => exact Keeps.throw _
  | some lr => exact Keeps.bind (fix_applyBC _ _ _) fun _ => fix_applyBC _ _ _

theorem fix_compute_operators : Keeps (Fixed hh bc q) (compute_operators (n := n)) := by
  unfold compute_operators
  refine Keeps.bind (Keeps.get _) fun q => ?_
  cases q with
  | none => exact Keeps.throw _
  | some q =>
    exact Keeps.bind (Keeps.lift _) fun _ => Keeps.bind (Keeps.lift _) fun _ => Keeps.bind (fix_matder 4) fun _ =>
      Keeps.bind (fix_matder 2) fun _ => Keeps.bind (Keeps.lift _) fun _ => Keeps.bind fix_x fun _ =>
      Keeps.bind (Keeps.modify fun _ h => h) fun _ => Keeps.bind (Keeps.require _ _) fun _ => Keeps.bind (Keeps.modify fun _ h => h) fun _ =>
      fix_compute_BC

theorem fix_get : Keeps (Fixed hh bc q) (get_RHS_time_matrices (n := n)) := by
  unfold get_RHS_time_matrices LinOperator.get_RHS_time_matrices
  refine Keeps.bind (Keeps.get _) fun _ => Keeps.bind (Keeps.when fix_compute_operators) fun _ =>
    Keeps.bind (Keeps.get _) fun b => Keeps.bind (Keeps.get _) fun a => ?_
  split
  · exact Keeps.pure _
  · exact Keeps.throw _
  · exact Keeps.throw _

end

/-! ### evaluation -/

theorem onBoth_ok {s : Obj n} {A A' B B' : Mat ℂ} {f g : Mat ℂ → Py (Mat ℂ)} (hA : s.At = some A) (hB : s.B = some B)
    (hf : f A = .ok A') (hg : g B = .ok B') : onBoth f g s = (.ok (), { s with At := some A', B := some B' }) := by
  unfold onBoth
  simp only [hA, hB, hf, hg]

/-- rows of `_B` after `setBC_wall` -/
noncomputable def wallB (D : Matrix (Fin n) (Fin n) ℝ) (i r : ℕ) (M : Mat ℂ) : Mat ℂ :=
  (((M.zr r).zr (r + 1)).st r i 1.0).sr (r + 1) 0 n fun j => ent D i j
/-- rows of `_At` after `setBC_wall` -/
noncomputable def wallA (r : ℕ) (M : Mat ℂ) : Mat ℂ := (M.zr r).zr (r + 1)

theorem setBC_wall_ok (hn : 2 ≤ n) (hab : a ≠ b) {s : Obj n} (h : OInv a b s) {A M : Mat ℂ} (hA : s.At = some A)
    (hB : s.B = some M) (sA : A.size = n) (sM : M.size = n) {i r : ℕ} (hi : i < n) (hr : r + 1 < n) :
    ∃ d, setBC_wall i (some r) s
      = (.ok (), { s with diffop := d, At := some (wallA r A), B := some (wallB (Dm n a b 1) i r M) }) ∧ Inv a b d := by
  obtain ⟨d, hd, hi'⟩ := matder_ok hn hab h (m := 1) le_rfl
  refine ⟨d, ?_, hi'⟩
  unfold setBC_wall
  simp only [Option.getD_some]
  rw [Meth.bind_ok hd]
  obtain ⟨d0, q, B, At, bc, hp⟩ := s
  simp only at hA hB
  subst hA hB
  rw [Meth.bind_ok (onBoth_ok rfl rfl (Mat.zeroRow_ok (by omega)) (Mat.zeroRow_ok (by omega))),
    Meth.bind_ok (onBoth_ok rfl rfl (Mat.zeroRow_ok (by show _ < A.size; omega)) (Mat.zeroRow_ok (by show _ < M.size; omega))),
    Meth.bind_ok (onBoth_ok (f := pure) rfl rfl rfl (Mat.set_ok (by show _ < M.size; omega) (by show _ < M.size; omega))),
    onBoth_ok (f := pure) rfl rfl rfl (Mat.setRow_ok (by show _ < M.size; omega))]
  rfl

/-- `_At`, `_B` before the boundary rows -/
noncomputable def A0m (a b : ℝ) (n : ℕ) (al : ℂ) : Mat ℂ := ⟨n, At0 al (Dm n a b 2)⟩
/-- `_B` before the boundary rows -/
noncomputable def B0m (a b : ℝ) (n : ℕ) (al : ℂ) (Re : ℝ) (up : ℝ → ℝ) : Mat ℂ :=
  ⟨n, B0 al Re (Dm n a b 2) (Dm n a b 4) fun i => up (xv n a b i)⟩

/-- object just before `compute_BC` -/
noncomputable def pre (s : Obj n) (d : Cheb n) (a b : ℝ) (al : ℂ) (Re : ℝ) (up : ℝ → ℝ) : Obj n :=
  { s with diffop := d, At := some (A0m a b n al), B := some (B0m a b n al Re up) }

theorem compute_pre (hn : 2 ≤ n) (hab : a ≠ b) {s : Obj n} (h : OInv a b s) {al : ℂ} {Re : ℝ} {up : ℝ → ℝ} {ot : List String}
    (hq : s.basestate = some ⟨some al, some Re, some up, ot⟩) (hR : Re ≠ 0) :
    ∃ d, compute_operators s = compute_BC (pre s d a b al Re up) ∧ Inv a b d := by
  obtain ⟨d1, e1, i1⟩ := matder_ok hn hab h (m := 4) (by norm_num)
  obtain ⟨d2, e2, i2⟩ := matder_ok hn hab (s := { s with diffop := d1 }) i1 (m := 2) (by norm_num)
  obtain ⟨d3, e3, i3⟩ := x_ok hn (s := { s with diffop := d2 }) i2
  refine ⟨d3, ?_, i3⟩
  unfold compute_operators
  rw [Meth.bind_ok (Meth.get_apply _ _), hq]
  simp only []
  rw [Meth.bind_ok (Meth.lift_apply _ _), Meth.bind_ok (Meth.lift_apply _ _), Meth.bind_ok e1, Meth.bind_ok e2,
    Meth.bind_ok (Meth.lift_apply _ _), Meth.bind_ok e3, Meth.bind_ok (Meth.modify_apply _ _), Meth.bind_ok (Meth.require_ok hR _ _),
    Meth.bind_ok (Meth.modify_apply _ _)]
  rfl

theorem wall_ok (hn : 2 ≤ n) (hab : a ≠ b) {s : Obj n} (h : OInv a b s) {al : ℂ} {Re : ℝ} {up : ℝ → ℝ} {ot : List String}
    (hq : s.basestate = some ⟨some al, some Re, some up, ot⟩) (hR : Re ≠ 0) {l r : ℕ} (hbc : s.BC_type = some (l, r))
    (hl : (s.heap.at' l).type = some "wall") (hr : (s.heap.at' r).type = some "wall") :
    ∃ d, compute_operators s = (.ok (), { s with
        diffop := d
        At := some (wallA (n - 2) (wallA 0 (A0m a b n al)))
        B := some (wallB (Dm n a b 1) (n - 1) (n - 2) (wallB (Dm n a b 1) 0 0 (B0m a b n al Re up))) }) ∧ Inv a b d := by
  obtain ⟨d, h1, h2⟩ := compute_pre hn hab h hq hR
  rw [h1]
  have step : ∀ (t : Obj n) (k i j : ℕ), t.heap = s.heap → (s.heap.at' k).type = some "wall" → applyBC k i j t = setBC_wall i (some j) t := by
    intro t k i j ht hk
    unfold applyBC
    rw [Meth.bind_ok (Meth.get_apply _ _), ht]
    have : getType s.heap k = .ok "wall" := by simp [getType, hk]
    rw [this, Meth.bind_ok (Meth.lift_apply _ _), if_pos rfl]
  unfold compute_BC
  rw [Meth.bind_ok (Meth.get_apply _ _)]
  simp only [show (pre s d a b al Re up).BC_type = some (l, r) from hbc]
  obtain ⟨d3, e3, i3⟩ := setBC_wall_ok hn hab (s := pre s d a b al Re up) h2 (A := A0m a b n al) (M := B0m a b n al Re up) rfl rfl rfl rfl
    (i := 0) (r := 0) (by omega) (by omega)
  obtain ⟨d4, e4, i4⟩ := setBC_wall_ok hn hab (s := { pre s d a b al Re up with
      diffop := d3, At := some (wallA 0 (A0m a b n al)), B := some (wallB (Dm n a b 1) 0 0 (B0m a b n al Re up)) }) i3
    (A := wallA 0 (A0m a b n al)) (M := wallB (Dm n a b 1) 0 0 (B0m a b n al Re up)) rfl rfl rfl rfl
    (i := n - 1) (r := n - 2) (by omega) (by omega)
  refine ⟨d4, ?_, i4⟩
  refine (Meth.bind_ok ((step (pre s d a b al Re up) l 0 0 rfl hl).trans e3)).trans ?_
  exact (step { pre s d a b al Re up with
      diffop := d3, At := some (wallA 0 (A0m a b n al)), B := some (wallB (Dm n a b 1) 0 0 (B0m a b n al Re up)) } r (n - 1) (n - 2) rfl hr).trans e4

/-! ### rows -/

theorem wallA_ne {r k : ℕ} {M : Mat ℂ} {j : ℕ} (h : k ≠ r) (h' : k ≠ r + 1) : (wallA r M).e k j = M.e k j := by
  unfold wallA
  rw [Mat.zr_ne h', Mat.zr_ne h]

theorem wallA_at {r k : ℕ} {M : Mat ℂ} {j : ℕ} (h : k = r ∨ k = r + 1) : (wallA r M).e k j = 0 := by
  unfold wallA
  rcases h with rfl | rfl
  · rw [Mat.zr_ne (by omega), Mat.zr_eq rfl]
  · rw [Mat.zr_eq rfl]

theorem wallB_ne {D : Matrix (Fin n) (Fin n) ℝ} {i r k : ℕ} {M : Mat ℂ} {j : ℕ} (h : k ≠ r) (h' : k ≠ r + 1) :
    (wallB D i r M).e k j = M.e k j := by
  unfold wallB
  simp (disch := omega) only [Mat.sr_ne, Mat.st_ne, Mat.zr_ne]

theorem wallB_val {D : Matrix (Fin n) (Fin n) ℝ} {i r : ℕ} {M : Mat ℂ} {j : ℕ} :
    (wallB D i r M).e r j = if j = i then 1 else 0 := by
  unfold wallB
  rw [Mat.sr_ne (by omega)]
  by_cases h : j = i
  · rw [Mat.st_eq ⟨rfl, h⟩, if_pos h]; norm_num
  · rw [Mat.st_ne (by omega), Mat.zr_ne (by omega), Mat.zr_eq rfl, if_neg h]

theorem wallB_der {D : Matrix (Fin n) (Fin n) ℝ} {i r : ℕ} {M : Mat ℂ} {j : ℕ} (hj : j < n) :
    (wallB D i r M).e (r + 1) j = ent D i j := by
  unfold wallB
  rw [Mat.sr_eq ⟨rfl, by omega, hj⟩, Nat.sub_zero]

theorem ent_eq (D : Matrix (Fin n) (Fin n) ℝ) (i j : Fin n) : ent D i j = (D i j : ℂ) := by
  unfold ent
  rw [ix_eq _ i.2, ix_eq _ j.2]

/-- the collocation rows differentiate complex polynomials of degree `< n` -/
theorem ent_sum (hn : 2 ≤ n) (hab : a ≠ b) (m : ℕ) (V : ℂ[X]) (hV : V.degree < n) (i : Fin n) (v : ℕ → ℂ)
    (hv : ∀ j : Fin n, v j = V.eval ((xv n a b j : ℝ) : ℂ)) :
    ∑ j ∈ Finset.range n, ent (Dm n a b m) i j * v j = (derivative^[m] V).eval ((xv n a b i : ℝ) : ℂ) := by
  have hx : ∀ k < n, ∀ x : ℝ, (derivative^[m] (X ^ k : ℂ[X])).eval (x : ℂ) = (((derivative^[m] (X ^ k : ℝ[X])).eval x : ℝ) : ℂ) := by
    intro k _ x
    rw [iterate_derivative_X_pow_eq_smul, iterate_derivative_X_pow_eq_smul]
    simp
  have hsum : V = ∑ k ∈ Finset.range n, C (V.coeff k) * X ^ k := by
    by_cases h0 : V = 0
    · simp [h0]
    · conv_lhs => rw [as_sum_range_C_mul_X_pow' (p := V) (n := n) ((natDegree_lt_iff_degree_lt h0).2 hV)]
  rw [Finset.sum_range (fun j => ent (Dm n a b m) i j * v j)]
  have h1 : ∀ j : Fin n, v j = ∑ k ∈ Finset.range n, V.coeff k * (((X ^ k : ℝ[X]).eval (xv n a b j) : ℝ) : ℂ) := by
    intro j
    rw [hv j]
    conv_lhs => rw [hsum]
    simp [eval_finset_sum]
  have h2 : (derivative^[m] V).eval ((xv n a b i : ℝ) : ℂ)
      = ∑ k ∈ Finset.range n, V.coeff k * (((derivative^[m] (X ^ k : ℝ[X])).eval (xv n a b i) : ℝ) : ℂ) := by
    conv_lhs => rw [hsum]
    rw [iterate_derivative_sum, eval_finset_sum]
    refine Finset.sum_congr rfl fun k hk => ?_
    rw [iterate_derivative_C_mul, eval_mul, eval_C, hx k (Finset.mem_range.1 hk)]
  rw [h2]
  simp only [h1, ent_eq, Finset.mul_sum]
  rw [Finset.sum_comm]
  refine Finset.sum_congr rfl fun k hk => ?_
  rw [← Dm_exact hn hab m (X ^ k) (lt_of_le_of_lt (degree_X_pow_le k) (by exact_mod_cast Finset.mem_range.1 hk)) i]
  push_cast
  rw [Finset.mul_sum]
  exact Finset.sum_congr rfl fun j _ => by ring

theorem delta_sum (v : ℕ → ℂ) (c : ℂ) (i : Fin n) : ∑ j ∈ Finset.range n, c * (if (i:ℕ) = j then 1 else 0) * v j = c * v i := by
  simp only [mul_ite, mul_one, mul_zero, ite_mul, zero_mul]
  rw [Finset.sum_ite_eq (Finset.range n) (i:ℕ), if_pos (Finset.mem_range.2 i.2)]

end Aerokit.OrrSommerfeld
