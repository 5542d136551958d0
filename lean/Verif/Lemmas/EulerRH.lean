import Verif.Lemmas.EulerCompute
import Verif.Props.Model1D

/-! `setBC_RH` of `Euler1D`. -/

namespace Aerokit.Euler1D
open LinOperator NumSpectral Model1D Spec ShockWave Isentropic Welfert

variable {n : ℕ} {a b : ℝ}

/-! ### right boundary: never succeeds -/

theorem bind_inv {σ α β : Type} {m : Meth σ α} {f : α → Meth σ β} {s s' : σ} {r : β} (h : (m >>= f) s = (.ok r, s')) :
    ∃ x s1, m s = (.ok x, s1) ∧ f x s1 = (.ok r, s') := by
  rcases e : m s with ⟨_ | x, s1⟩
  · rw [Meth.bind_err e] at h; cases h
  · rw [Meth.bind_ok e] at h; exact ⟨x, s1, rfl, h⟩

/-- size of `_At` -/
def AtSize (N : ℕ) (s : Obj n) : Prop := ∀ A, s.At = some A → A.size = N

theorem onAt_inv {f : Mat ℝ → Py (Mat ℝ)} {s s' : Obj n} (h : onAt f s = (.ok (), s')) :
    ∃ A A', s.At = some A ∧ f A = .ok A' ∧ s' = { s with At := some A' } := by
  cases hA : s.At with
  | none =>
    unfold onAt at h
    rw [Meth.bind_err (e := .attributeError) (s' := s) (by unfold getAt; rw [hA])] at h; cases h
  | some A =>
    cases hf : f A with
    | error e => rw [onAt_err hA hf] at h; cases h
    | ok A' => rw [onAt_ok hA hf] at h; cases h; exact ⟨A, A', rfl, hf, rfl⟩

theorem atSize_onB {N : ℕ} (f : Mat ℝ → Py (Mat ℝ)) : Meth.Keeps (AtSize (n := n) N) (onB f) := by
  intro s hs
  cases hB : s.B with
  | none =>
    unfold onB
    rw [Meth.bind_err (e := .typeError) (s' := s) (by unfold getB; rw [hB])]; exact hs
  | some B =>
    cases hf : f B with
    | error e => rw [onB_err hB hf]; exact hs
    | ok A' => rw [onB_ok hB hf]; exact hs

theorem atSize_onAt {N : ℕ} {f : Mat ℝ → Py (Mat ℝ)} (hf : ∀ A A', f A = .ok A' → A'.size = A.size) :
    Meth.Keeps (AtSize (n := n) N) (onAt f) := by
  intro s hs
  cases hA : s.At with
  | none =>
    unfold onAt
    rw [Meth.bind_err (e := .attributeError) (s' := s) (by unfold getAt; rw [hA])]; exact hs
  | some A =>
    cases hf' : f A with
    | error e => rw [onAt_err hA hf']; exact hs
    | ok A' =>
      rw [onAt_ok hA hf']
      intro A2 h2
      cases h2
      rw [hf A A' hf', hs A hA]

theorem size_zeroRow {i : ℕ} {A A' : Mat ℝ} (h : A.zeroRow i = .ok A') : A'.size = A.size := by
  unfold Mat.zeroRow at h
  split_ifs at h; cases h; rfl

theorem size_set {i j : ℕ} {v : ℝ} {A A' : Mat ℝ} (h : A.set i j v = .ok A') : A'.size = A.size := by
  unfold Mat.set at h
  split_ifs at h; cases h; rfl

theorem atSize_RH_row {N : ℕ} (c : RHCoef) (i j k l : ℕ) : Meth.Keeps (AtSize (n := n) N) (RH_row (n := n) c i j k l) := by
  unfold RH_row
  exact Meth.Keeps.bind (Meth.Keeps.bind (atSize_onAt fun _ _ h => size_zeroRow h) fun _ => atSize_onB _) fun _ =>
    Meth.Keeps.bind (atSize_onAt fun _ _ h => size_set h) fun _ =>
    Meth.Keeps.bind (atSize_onB _) fun _ => Meth.Keeps.bind (atSize_onB _) fun _ => Meth.Keeps.bind (atSize_onB _) fun _ => atSize_onB _

theorem RH_row_never {c : RHCoef} {i j k l : ℕ} {s s' : Obj n} (hs : AtSize (n := n) (3 * n + 1) s) (h1 : 3 * n + 1 ≤ l + j) :
    RH_row c i j k l s ≠ (.ok (), s') := by
  intro h
  obtain ⟨_, s1, h2, -⟩ := bind_inv h
  unfold zeroRows at h2
  obtain ⟨_, s2, h3, -⟩ := bind_inv h2
  obtain ⟨A, A', h4, h5, -⟩ := onAt_inv h3
  rw [Mat.zeroRow_err (by rw [hs A h4]; exact h1)] at h5
  cases h5

theorem keep_of {σ α : Type} {P : σ → Prop} {m : Meth σ α} (h : Meth.Keeps P m) {s s' : σ} {r : Py α} (e : m s = (r, s')) (hs : P s) : P s' := by
  have := h s hs; rw [e] at this; exact this

theorem setBC_RH_right_never (hn : 2 ≤ n) (kw : List (String × Option ℝ)) (s s' : Obj n) :
    setBC_RH (n - 1) (some (n - 1)) kw s ≠ (.ok (), s') := by
  intro h
  unfold setBC_RH at h
  obtain ⟨D, s1, -, h⟩ := bind_inv h
  obtain ⟨_, s2, -, h⟩ := bind_inv h
  obtain ⟨_, s3, e3, h⟩ := bind_inv h
  have z3 : AtSize (n := n) (3 * n + 1) s3 := by
    obtain ⟨A, A', h4, h5, rfl⟩ := onAt_inv e3
    unfold block at h5
    split_ifs at h5
    cases h5
    intro A2 h2
    cases h2
    rfl
  obtain ⟨_, s4, e4, h⟩ := bind_inv h
  have z4 := keep_of (atSize_onB _) e4 z3
  obtain ⟨q, s5, e5, h⟩ := bind_inv h
  have z5 := keep_of (Meth.Keeps.get _) e5 z4
  cases q with
  | none => cases h
  | some q =>
    simp only [] at h
    obtain ⟨_, s6, e6, h⟩ := bind_inv h
    have z6 := keep_of (Meth.Keeps.lift _) e6 z5
    obtain ⟨_, s7, e7, h⟩ := bind_inv h
    have z7 := keep_of (Meth.Keeps.lift _) e7 z6
    obtain ⟨_, s8, e8, h⟩ := bind_inv h
    have z8 := keep_of (Meth.Keeps.lift _) e8 z7
    obtain ⟨_, s9, e9, h⟩ := bind_inv h
    have z9 := keep_of (Meth.Keeps.lift _) e9 z8
    obtain ⟨_, s10, e10, h⟩ := bind_inv h
    have z10 := keep_of (Meth.Keeps.lift _) e10 z9
    obtain ⟨_, s11, e11, h⟩ := bind_inv h
    have z11 := keep_of (Meth.Keeps.lift _) e11 z10
    obtain ⟨_, s12, e12, h⟩ := bind_inv h
    have z12 := keep_of (Meth.Keeps.lift _) e12 z11
    obtain ⟨_, s13, e13, h⟩ := bind_inv h
    have z13 := keep_of (Meth.Keeps.lift _) e13 z12
    cases hk : kwValue kw "dM0dx" with
    | none => rw [hk] at h; cases h
    | some m =>
      rw [hk] at h
      simp only [Option.getD_some] at h
      obtain ⟨_, s14, e14, h⟩ := bind_inv h
      have z14 : AtSize (n := n) (3 * n + 1) s14 := by
        refine keep_of (P := AtSize (3 * n + 1)) ?_ e14 z13
        intro s hs
        unfold x
        split <;> exact hs
      obtain ⟨_, s15, e15, h⟩ := bind_inv h
      have z15 := keep_of (Meth.Keeps.lift _) e15 z14
      obtain ⟨_, s16, e16, h⟩ := bind_inv h
      have z16 := keep_of (Meth.Keeps.lift _) e16 z15
      obtain ⟨_, s17, e17, h⟩ := bind_inv h
      have z17 := keep_of (atSize_RH_row _ _ _ _ _) e17 z16
      obtain ⟨_, s18, e18, h⟩ := bind_inv h
      exact RH_row_never z17 (by omega) e18

/-! ### left boundary -/

/-- the block matrix -/
def blkM (n : ℕ) (m : Mat ℝ) : Mat ℝ := ⟨3 * n + 1, fun i j => if i < 3 * n ∧ j < 3 * n then m.e i j else 0⟩

theorem block_ok {m : Mat ℝ} (h : m.size = 3 * n) : block n m = .ok (blkM n m) := if_pos h

/-- row `l` of `_At` -/
def rhAt (n : ℕ) (c : RHCoef) (k l : ℕ) (A : Mat ℝ) : Mat ℝ := (A.zr (l + 0)).st (l + 0) (3 * n) (-c.bckSh k 1)
/-- row `l` of `_B` -/
def rhB (n : ℕ) (c : RHCoef) (k l : ℕ) (M : Mat ℝ) : Mat ℝ :=
  ((((M.zr (l + 0)).st l (3 * n) (c.bckSh k 0)).st l (0 * n + 0) (c.bck1 k 0)).st l (1 * n + 0) (c.bck1 k 1)).st l (2 * n + 0) (c.bck1 k 2)

theorem RH_row_ok (hn : 2 ≤ n) {s : Obj n} {c : RHCoef} {k l : ℕ} {A M : Mat ℝ} (hA : s.At = some A) (hB : s.B = some M)
    (zA : A.size = 3 * n + 1) (zM : M.size = 3 * n + 1) (hl : l ≤ 3 * n) :
    RH_row c 0 0 k l s = (.ok (), { s with At := some (rhAt n c k l A), B := some (rhB n c k l M) }) := by
  obtain ⟨d0, q, nv, B, At, bc, hp⟩ := s
  simp only at hA hB
  subst hA hB
  unfold RH_row
  simp only []
  rw [Meth.bind_ok (zeroRows_ok rfl rfl (by omega) (by omega)),
    Meth.bind_ok (onAt_ok rfl (Mat.set_ok (by show _ < A.size; omega) (by show _ < A.size; omega))),
    Meth.bind_ok (onB_ok rfl (Mat.set_ok (by show _ < M.size; omega) (by show _ < M.size; omega))),
    Meth.bind_ok (onB_ok rfl (Mat.set_ok (by show _ < M.size; omega) (by show _ < M.size; omega))),
    Meth.bind_ok (onB_ok rfl (Mat.set_ok (by show _ < M.size; omega) (by show _ < M.size; omega))),
    onB_ok rfl (Mat.set_ok (by show _ < M.size; omega) (by show _ < M.size; omega))]
  rfl

/-- the three Rankine–Hugoniot rows of `_At` -/
def rhA3 (n : ℕ) (c : RHCoef) (A : Mat ℝ) : Mat ℝ := rhAt n c 2 (2 * n) (rhAt n c 1 (3 * n) (rhAt n c 0 0 (blkM n A)))
/-- the three Rankine–Hugoniot rows of `_B` -/
def rhB3 (n : ℕ) (c : RHCoef) (A : Mat ℝ) : Mat ℝ := rhB n c 2 (2 * n) (rhB n c 1 (3 * n) (rhB n c 0 0 (blkM n A)))

/-- row index of Rankine–Hugoniot equation `k` -/
def rhRow (n : ℕ) (k : Fin 3) : ℕ := match k with | 0 => 0 | 1 => 3 * n | 2 => 2 * n

theorem rhAt_at {c : RHCoef} {k l : ℕ} {A : Mat ℝ} {j : ℕ} : (rhAt n c k l A).e l j = if j = 3 * n then -c.bckSh k 1 else 0 := by
  unfold rhAt Mat.st Mat.zr
  simp

theorem rhAt_ne {c : RHCoef} {k l r : ℕ} {A : Mat ℝ} {j : ℕ} (h : r ≠ l) : (rhAt n c k l A).e r j = A.e r j := by
  unfold rhAt Mat.st Mat.zr
  simp [h]

theorem rhB_at (hn : 2 ≤ n) {c : RHCoef} {k l : ℕ} {A : Mat ℝ} {j : ℕ} : (rhB n c k l A).e l j
    = if j = 3 * n then c.bckSh k 0 else if j = 0 then c.bck1 k 0 else if j = n then c.bck1 k 1
      else if j = 2 * n then c.bck1 k 2 else 0 := by
  unfold rhB Mat.st Mat.zr
  simp only [true_and, Nat.zero_mul, Nat.one_mul, Nat.add_zero]
  split_ifs <;> first | rfl | omega

theorem rhB_ne {c : RHCoef} {k l r : ℕ} {A : Mat ℝ} {j : ℕ} (h : r ≠ l) : (rhB n c k l A).e r j = A.e r j := by
  unfold rhB Mat.st Mat.zr
  simp [h]

theorem rhA3_row (hn : 2 ≤ n) {c : RHCoef} {A : Mat ℝ} (k : Fin 3) (j : ℕ) :
    (rhA3 n c A).e (rhRow n k) j = if j = 3 * n then -c.bckSh k 1 else 0 := by
  unfold rhA3
  fin_cases k
  · show (rhAt n c 2 (2 * n) _).e 0 j = _
    rw [rhAt_ne (by omega), rhAt_ne (by omega), rhAt_at]
  · show (rhAt n c 2 (2 * n) _).e (3 * n) j = _
    rw [rhAt_ne (by omega), rhAt_at]
  · show (rhAt n c 2 (2 * n) _).e (2 * n) j = _
    rw [rhAt_at]

theorem rhB3_row (hn : 2 ≤ n) {c : RHCoef} {A : Mat ℝ} (k : Fin 3) (j : ℕ) :
    (rhB3 n c A).e (rhRow n k) j = if j = 3 * n then c.bckSh k 0 else if j = 0 then c.bck1 k 0 else if j = n then c.bck1 k 1
      else if j = 2 * n then c.bck1 k 2 else 0 := by
  unfold rhB3
  fin_cases k
  · show (rhB n c 2 (2 * n) _).e 0 j = _
    rw [rhB_ne (by omega), rhB_ne (by omega), rhB_at hn]
  · show (rhB n c 2 (2 * n) _).e (3 * n) j = _
    rw [rhB_ne (by omega), rhB_at hn]
  · show (rhB n c 2 (2 * n) _).e (2 * n) j = _
    rw [rhB_at hn]

theorem sum_pick {N : ℕ} (v : ℕ → ℝ) (c : ℝ) {i : ℕ} (hi : i < N) :
    ∑ j ∈ Finset.range N, (if j = i then c else 0) * v j = c * v i := by
  simp only [ite_mul, zero_mul]
  rw [Finset.sum_ite_eq' (Finset.range N) i, if_pos (Finset.mem_range.2 hi)]

theorem rhA_mulVec {r : ℕ} {A : Mat ℝ} {x : ℝ} (hz : A.size = 3 * n + 1) (h : ∀ j, A.e r j = if j = 3 * n then x else 0)
    (w : ℕ → ℝ) : A.mulVec w r = x * w (3 * n) := by
  unfold Mat.mulVec
  rw [hz]
  simp only [h]
  exact sum_pick w x (by omega)

theorem rhB_mulVec (hn : 2 ≤ n) {r : ℕ} {A : Mat ℝ} {x y z t : ℝ} (hz : A.size = 3 * n + 1)
    (h : ∀ j, A.e r j = if j = 3 * n then x else if j = 0 then y else if j = n then z else if j = 2 * n then t else 0)
    (v : ℕ → ℝ) : A.mulVec v r = x * v (3 * n) + y * v 0 + z * v n + t * v (2 * n) := by
  unfold Mat.mulVec
  rw [hz]
  simp only [h]
  have e : ∀ j, (if j = 3 * n then x else if j = 0 then y else if j = n then z else if j = 2 * n then t else 0) * v j
      = (if j = 3 * n then x else 0) * v j + (if j = 0 then y else 0) * v j + (if j = n then z else 0) * v j
        + (if j = 2 * n then t else 0) * v j := by
    intro j
    split_ifs <;> first | omega | ring
  simp only [e]
  rw [Finset.sum_add_distrib, Finset.sum_add_distrib, Finset.sum_add_distrib, sum_pick v x (by omega), sum_pick v y (by omega),
    sum_pick v z (by omega), sum_pick v t (by omega)]

/-! ### coefficients -/

/-- closed form of the coefficients; `q0p` is the upstream state one mesh step away -/
noncomputable def rhC (q0 q1 dq1 q0p : State) (g M0 rr pr a0 m dx : ℝ) : RHCoef :=
  let kr := 4 / (g + 1) * rr ^ 2 / M0 ^ 3
  let kp := 4 * g / (g + 1) * M0
  let dr := (q0p.rho - q0.rho) / dx
  let du := (q0p.u - q0.u) / dx
  let dp := (q0p.p - q0.p) / dx
  ⟨fun i j => if i = 0 ∧ j = 0 then 1 / q0.rho else if i = 1 ∧ j = 0 then q1.u / q0.rho else if i = 1 ∧ j = 1 then rr
    else if i = 2 ∧ j = 2 then 1 / q0.p else 0,
   fun i j =>
    if j = 0 then
      (if i = 0 then -kr * m - rr / q0.rho * dr + 1 / q0.rho * dq1.rho
        else if i = 1 then - q0.u / q0.rho * dr - du + q1.u / q0.rho * dq1.rho + rr * dq1.u
        else if i = 2 then -kp * m - pr / q0.p * dp + 1 / q0.p * dq1.p else 0)
    else if i = 0 then kr / a0 else if i = 1 then 1 - rr else kp / a0⟩

theorem RHcoefs_ok {q0 q1 dq1 q0p : State} {g M0 rr pr a0 m dx : ℝ} (hg : 1 < g) (hM : M0 ≠ 0) (hr : q0.rho ≠ 0) (hp : q0.p ≠ 0)
    (ha : a0 ≠ 0) (hdx : dx ≠ 0) (hq : q0.state_isentropic_Mach (M0 + m * dx) = .ok q0p) :
    RHcoefs q0 q1 dq1 g M0 rr pr a0 m dx = .ok (rhC q0 q1 dq1 q0p g M0 rr pr a0 m dx) := by
  have g1 : g + 1.0 ≠ 0 := by norm_num; linarith
  have hM3 : M0 ^ 3 ≠ 0 := pow_ne_zero _ hM
  unfold RHcoefs
  simp only [Py.div_ok g1, Py.div_ok hM3, Py.div_ok hr, Py.div_ok hp, Py.div_ok ha, Py.div_ok hdx, Py.ok_bind, hq, Py.pure_eq]
  unfold rhC
  congr 1
  have e1 : (1.0:ℝ) = 1 := by norm_num
  simp only [e1]
  congr 1
  funext i j
  by_cases hj : j = 0
  · subst hj
    simp only [if_true]
    rcases (by omega : i = 0 ∨ i = 1 ∨ i = 2 ∨ 2 < i) with rfl | rfl | rfl | h
    · norm_num; ring
    · norm_num; ring
    · norm_num; ring
    · have h0 : i ≠ 0 := by omega
      have h1 : i ≠ 1 := by omega
      have h2 : i ≠ 2 := by omega
      simp [h0, h1, h2]
  · simp [hj]

theorem xv_ne (hn : 2 ≤ n) (hab : a ≠ b) : xv n a b ⟨1, by omega⟩ - xv n a b ⟨0, by omega⟩ ≠ 0 := by
  have h : node n 1 ≠ node n 0 := fun e => by
    have := node_inj hn (a₁ := ⟨1, by omega⟩) (a₂ := ⟨0, by omega⟩) e
    simp at this
  unfold xv
  have e : a + (node n (1:ℕ) - 1) / (-2) * (b - a) - (a + (node n (0:ℕ) - 1) / (-2) * (b - a)) = (node n 1 - node n 0) / (-2) * (b - a) := by ring
  simp only
  rw [e]
  exact mul_ne_zero (div_ne_zero (sub_ne_zero.2 h) (by norm_num)) (sub_ne_zero.2 (Ne.symm hab))

/-- the first point as a scalar state (default gamma) -/
noncomputable def q1s (hn : 2 ≤ n) (q : StateV n) : State :=
  State.initDefault (q.rho ⟨0, by omega⟩) (q.u ⟨0, by omega⟩) (q.p ⟨0, by omega⟩)

theorem getitem_zero (hn : 2 ≤ n) (q : StateV n) : q.getitem ((0:ℕ):ℤ) = .ok (q1s hn q) := by
  have h : ∀ v : Fin n → ℝ, npIndex v ((0:ℕ):ℤ) = .ok (v ⟨0, by omega⟩) := by
    intro v
    unfold npIndex
    simp only [Nat.cast_zero, lt_self_iff_false, if_false]
    rw [dif_pos (by omega)]
    rfl
  unfold StateV.getitem
  rw [h, Py.ok_bind, h, Py.ok_bind, h, Py.ok_bind]
  rfl

/-- upstream state -/
noncomputable def q0s (s : State) : State :=
  ⟨s.rho * rhr (s.u / s.cs) s.gamma, s.u / rhr (s.u / s.cs) s.gamma, s.p * psr (s.u / s.cs) s.gamma, s.gamma⟩

theorem q0s_valid {s : State} (h : s.Valid) (hd : dom (s.u / s.cs) s.gamma) : (q0s s).Valid := by
  have hM : s.u / s.cs ≠ 0 := by
    intro e
    rw [e] at hd
    unfold dom at hd
    have := h.gamma
    have : 0 < (s.gamma - 1) / (2 * s.gamma) := div_pos (by linarith) (by linarith)
    norm_num at hd
    linarith
  exact ⟨mul_pos h.rho (rhr_pos h.gamma hM), mul_pos h.p (psr_pos h.gamma hd), h.gamma⟩

/-- upstream Mach number -/
noncomputable def M0s (s : State) : ℝ := Real.sqrt (mn2 (s.u / s.cs) s.gamma)

/-- all the coefficients for a base state `q` -/
noncomputable def rhCoef (hn : 2 ≤ n) (a b : ℝ) (q : StateV n) (m : ℝ) (q0p : State) : RHCoef :=
  let q1 := q1s hn q
  rhC (q0s q1) q1 (q1s hn (deriv (Dm n a b 1) q)) q0p q1.gamma (M0s q1) (rhr (M0s q1) q1.gamma) (psr (M0s q1) q1.gamma)
    (q0s q1).cs m (xv n a b ⟨1, by omega⟩ - xv n a b ⟨0, by omega⟩)

theorem setBC_RH_ok (hn : 2 ≤ n) (hab : a ≠ b) {s : Obj n} (h : EInv a b s) {A M : Mat ℝ} (hA : s.At = some A)
    (hB : s.B = some M) (sA : A.size = 3 * n) (sM : M.size = 3 * n) {q : StateV n} (hq : s.basestate = some q)
    (hv : (q1s hn q).Valid) (hd : dom ((q1s hn q).u / (q1s hn q).cs) (q1s hn q).gamma) (m : ℝ) :
    ∃ d q0p, (q0s (q1s hn q)).state_isentropic_Mach (M0s (q1s hn q) + m * (xv n a b ⟨1, by omega⟩ - xv n a b ⟨0, by omega⟩)) = .ok q0p ∧
      setBC_RH 0 (some 0) [("dM0dx", some m)] s
        = (.ok (), { s with
          diffop := d
          At := some (rhA3 n (rhCoef hn a b q m q0p) A)
          B := some (rhB3 n (rhCoef hn a b q m q0p) M) }) ∧ Inv a b d := by
  obtain ⟨d, hdm, hi⟩ := matder_ok hn hab h (m := 1) le_rfl
  obtain ⟨d2, hx, hi2⟩ := x_ok hn (s := { s with diffop := d, At := some (blkM n A), B := some (blkM n M) }) ⟨hi, h.nvar⟩
  have hM : (q1s hn q).u / (q1s hn q).cs ≠ 0 := by
    intro e
    rw [e] at hd
    unfold dom at hd
    have := hv.gamma
    have : 0 < ((q1s hn q).gamma - 1) / (2 * (q1s hn q).gamma) := div_pos (by linarith) (by linarith)
    norm_num at hd
    linarith
  have hu : (q1s hn q).u ≠ 0 := fun e => hM (by rw [e, zero_div])
  have hv0 := q0s_valid hv hd
  have hM0 : 0 < M0s (q1s hn q) := Real.sqrt_pos.2 (mn2_pos hv.gamma hd)
  obtain ⟨q0p, hq0p, -⟩ := Props.C56_total_temperature_partial (q0s (q1s hn q)) hv0 rfl
    (M0s (q1s hn q) + m * (xv n a b ⟨1, by omega⟩ - xv n a b ⟨0, by omega⟩))
  refine ⟨d2, q0p, hq0p, ?_, hi2⟩
  unfold setBC_RH
  rw [Meth.bind_ok hdm]
  simp only []
  rw [Meth.bind_ok (Meth.require_ok (by simp) _ _)]
  obtain ⟨d0, q', nv, B, At, bc, hp⟩ := s
  simp only at hA hB hq
  subst hA hB hq
  rw [Meth.bind_ok (onAt_ok rfl (block_ok sA)), Meth.bind_ok (onB_ok rfl (block_ok sM)), Meth.bind_ok (Meth.get_apply _ _)]
  simp only []
  rw [getitem_zero hn, getitem_zero hn]
  rw [Meth.bind_ok (Meth.lift_apply _ _), Meth.bind_ok (Meth.lift_apply _ _), hv.Mach, Meth.bind_ok (Meth.lift_apply _ _),
    Props.state_RH_ok hv hu, Meth.bind_ok (Meth.lift_apply _ _), downstream_Mn_ok hv.gamma hd, Meth.bind_ok (Meth.lift_apply _ _),
    Rho_ratio_ok hv.gamma, Meth.bind_ok (Meth.lift_apply _ _), Ps_ratio_ok hv.gamma, Meth.bind_ok (Meth.lift_apply _ _)]
  have ha := hv0.asound
  unfold q0s at ha
  rw [ha, Meth.bind_ok (Meth.lift_apply _ _)]
  have hk : kwValue [("dM0dx", some m)] "dM0dx" = some m := by simp [kwValue]
  rw [hk]
  simp only []
  rw [Meth.bind_ok hx]
  have hx1 : npIndex (xv n a b) 1 = .ok (xv n a b ⟨1, by omega⟩) := by
    unfold npIndex
    simp only [show ¬ ((1:ℤ) < 0) by omega, if_false]
    rw [dif_pos (by omega)]
    rfl
  have hx0 : npIndex (xv n a b) 0 = .ok (xv n a b ⟨0, by omega⟩) := by
    unfold npIndex
    simp only [lt_self_iff_false, if_false]
    rw [dif_pos (by omega)]
    rfl
  rw [hx1, hx0]
  simp only [Py.ok_bind, Py.pure_eq]
  rw [Meth.bind_ok (Meth.lift_apply _ _)]
  have hc := RHcoefs_ok (q1 := q1s hn q) (dq1 := q1s hn (deriv (Dm n a b 1) q)) (rr := rhr (M0s (q1s hn q)) (q1s hn q).gamma)
    (pr := psr (M0s (q1s hn q)) (q1s hn q).gamma) hv.gamma hM0.ne' hv0.rho.ne' hv0.p.ne' hv0.cs_pos.ne' (xv_ne hn hab) hq0p
  have hc' : ∀ st : Obj n, Meth.lift (σ := Obj n) (RHcoefs (q0s (q1s hn q)) (q1s hn q) (q1s hn (deriv (Dm n a b 1) q)) (q1s hn q).gamma (M0s (q1s hn q))
      (rhr (M0s (q1s hn q)) (q1s hn q).gamma) (psr (M0s (q1s hn q)) (q1s hn q).gamma) (q0s (q1s hn q)).cs m
      (xv n a b ⟨1, by omega⟩ - xv n a b ⟨0, by omega⟩)) st = (.ok (rhCoef hn a b q m q0p), st) := fun st => Prod.ext hc rfl
  refine (Meth.bind_ok (hc' _)).trans ?_
  simp only [Option.getD_some]
  rw [Meth.bind_ok (RH_row_ok hn rfl rfl rfl rfl (by omega)), Meth.bind_ok (RH_row_ok hn rfl rfl rfl rfl (by omega)),
    RH_row_ok hn rfl rfl rfl rfl (by omega)]
  rfl

end Aerokit.Euler1D
