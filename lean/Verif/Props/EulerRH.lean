import Verif.Props.EulerBC
import Verif.Lemmas.EulerHeap
import Verif.Spec.MovingShock

/-! # Properties C49, C81 : the Rankine–Hugoniot boundary condition of `Euler1D` -/

namespace Aerokit.Props
open LinOperator NumSpectral Model1D Euler1D Spec Polynomial ShockWave

variable {n : ℕ} {a b : ℝ}

/-! ## C49 -/

/-- C49 fails on the right: after any history, if `set_BC(L, R)` accepted a right condition named `RH`, then
`compute_operators` raises, whatever the left condition, the base state and the parameters. -/
theorem C49_right_false (hn : 2 ≤ n) (q0 : Option (StateV n)) (hp : Heap) (calls : List (EulerCall n)) (L R : BCArg) (s1 : Obj n)
    (kL : bcKnown (eulerAfter n a b q0 hp calls).heap L) (kR : bcKnown (eulerAfter n a b q0 hp calls).heap R)
    (hR : bcName (eulerAfter n a b q0 hp calls).heap R = some "RH")
    (hs : Euler1D.set_BC L R (eulerAfter n a b q0 hp calls) = (.ok (), s1)) :
    ∃ e, (Euler1D.compute_operators s1).1 = .error e := by
  obtain ⟨s', -, -, -, -, -, h⟩ := C45_set_BC (eulerAfter n a b q0 hp calls) L R kL kR
  rcases h with ⟨-, -, h, l, r, hb, -, ht, -⟩ | ⟨-, h, -⟩ | ⟨-, -, h, -⟩
  · rw [hs] at h
    cases h
    rcases e : Euler1D.compute_operators s1 with ⟨_ | u, s2⟩
    · exact ⟨_, rfl⟩
    · exact absurd e (compute_RH_right_never hn hb (ht.trans hR))
  · rw [hs] at h; cases h
  · rw [hs] at h; cases h

/-- object after `set_BC(d, "sym")`, `d` being a dictionary of the caller -/
def withDictSym (s : Obj n) (r : ℕ) : Obj n :=
  { s with heap := (s.heap.alloc ⟨some "sym", []⟩).2, BC_type := some (r, s.heap.next) }

theorem set_BC_dict_sym (s : Obj n) {r : ℕ} {t : String} (h : t ∈ BC_names) (hd : (s.heap.at' r).type = some t) :
    Euler1D.set_BC (.dict r) (.str "sym") s = (.ok (), withDictSym s r) := by
  rw [set_BC_eq]
  unfold check_BCs
  have c1 : check_BC BC_names (.dict r) s.heap = (.ok r, s.heap) := by simp [check_BC, hd, h]
  have c2 : check_BC BC_names (.str "sym") s.heap = (.ok s.heap.next, (s.heap.alloc ⟨some "sym", []⟩).2) := by
    simp [check_BC, Heap.alloc, BC_names]
  rw [Meth.bind_ok c1, Meth.bind_ok c2]
  rfl

/-- result of `compute_operators` with a left `RH` condition and a right `sym` condition -/
theorem RH_left_ok (hn : 2 ≤ n) (hab : a ≠ b) {s : Obj n} (h : EInv a b s) {q : StateV n} (hq : s.basestate = some q)
    (hr : ∀ i, q.rho i ≠ 0) (hv : (q1s hn q).Valid) (hd : dom ((q1s hn q).u / (q1s hn q).cs) (q1s hn q).gamma)
    {r : ℕ} {m : ℝ} (hrn : r < s.heap.next) (hrd : s.heap.at' r = ⟨some "RH", [("dM0dx", some m)]⟩) :
    ∃ s2 q0p A B, (q0s (q1s hn q)).state_isentropic_Mach (M0s (q1s hn q) + m * (xv n a b ⟨1, by omega⟩ - xv n a b ⟨0, by omega⟩)) = .ok q0p ∧
      Euler1D.compute_operators (withDictSym s r) = (.ok (), s2) ∧ s2.B = some B ∧ s2.At = some A ∧ B.size = 3 * n + 1 ∧
      A.size = 3 * n + 1 ∧
      (∀ (k : Fin 3) j, A.e (rhRow n k) j = if j = 3 * n then -(rhCoef hn a b q m q0p).bckSh k 1 else 0) ∧
      (∀ (k : Fin 3) j, B.e (rhRow n k) j = if j = 3 * n then (rhCoef hn a b q m q0p).bckSh k 0
        else if j = 0 then (rhCoef hn a b q m q0p).bck1 k 0 else if j = n then (rhCoef hn a b q m q0p).bck1 k 1
        else if j = 2 * n then (rhCoef hn a b q m q0p).bck1 k 2 else 0) := by
  have hI : EInv a b (withDictSym s r) := ⟨h.diff, h.nvar⟩
  obtain ⟨d, h1, h2⟩ := compute_pre hn hab hI hq hr
  have hl : (withDictSym s r).heap.at' r = ⟨some "RH", [("dM0dx", some m)]⟩ := by
    show (if r = s.heap.next then _ else s.heap.at' r) = _
    rw [if_neg (by omega), hrd]
  have hrr : (withDictSym s r).heap.at' s.heap.next = ⟨some "sym", []⟩ := by
    simp [withDictSym, Heap.alloc]
  rw [h1, compute_BC_two (s := pre (withDictSym s r) d (Dm n a b 1) q) (l := r) (r := s.heap.next) (t := "RH") rfl
    (by show getType (withDictSym s r).heap r = _; simp [getType, hl]) (by decide)]
  obtain ⟨s1, hs1⟩ : ∃ s1, s1 = popped (pre (withDictSym s r) d (Dm n a b 1) q) r := ⟨_, rfl⟩
  have hs1h : s1.heap.at' s.heap.next = ⟨some "sym", []⟩ := by
    rw [hs1]
    show (if s.heap.next = r then _ else (withDictSym s r).heap.at' s.heap.next) = _
    rw [if_neg (by omega), hrr]
  have hI1 : EInv a b s1 := by rw [hs1]; exact ⟨h2.diff, h2.nvar⟩
  obtain ⟨d3, q0p, hp, h3, h4⟩ := setBC_RH_ok hn hab hI1 (A := eye (n * 3)) (M := rawM a b q) (by rw [hs1]; rfl) (by rw [hs1]; rfl)
    (Nat.mul_comm _ _) (Nat.mul_comm _ _) (q := q) (by rw [hs1]; exact hq) hv hd m
  have e1 := applyBC_eq (s := pre (withDictSym s r) d (Dm n a b 1) q) (i := 0) hl
  rw [← hs1] at e1
  have e2 : callBC "RH" 0 0 [("dM0dx", some m)] s1 = setBC_RH 0 (some 0) [("dM0dx", some m)] s1 := by
    unfold callBC
    simp only []
    rw [if_neg (by simp)]
  rw [Meth.bind_ok (e1.trans (e2.trans h3))]
  obtain ⟨s3, hs3⟩ : ∃ s3, s3 = ({ s1 with
          diffop := d3
          At := some (rhA3 n (rhCoef hn a b q m q0p) (eye (n * 3)))
          B := some (rhB3 n (rhCoef hn a b q m q0p) (rawM a b q)) } : Obj n) := ⟨_, rfl⟩
  rw [← hs3]
  have hs3h : s3.heap.at' s.heap.next = ⟨some "sym", []⟩ := by rw [hs3]; exact hs1h
  rw [applyBC_eq hs3h]
  have e3 : callBC "sym" (n - 1) (n - 1) [] (popped s3 s.heap.next) = setBC_sym (n - 1) (some (n - 1)) (popped s3 s.heap.next) := rfl
  obtain ⟨d4, h5, -⟩ := setBC_sym_ok hn hab (s := popped s3 s.heap.next) ⟨by rw [hs3]; exact h4, by rw [hs3]; exact hI1.nvar⟩
    (A := rhA3 n (rhCoef hn a b q m q0p) (eye (n * 3))) (M := rhB3 n (rhCoef hn a b q m q0p) (rawM a b q))
    (by rw [hs3]; rfl) (by rw [hs3]; rfl) (by show 3 * n ≤ 3 * n + 1; omega) (by show 3 * n ≤ 3 * n + 1; omega) (i := n - 1) (by omega)
  have hrow : ∀ k : Fin 3, rhRow n k ≠ n - 1 ∧ rhRow n k ≠ n + (n - 1) ∧ rhRow n k ≠ 2 * n + (n - 1) := by
    intro k
    fin_cases k
    · show 0 ≠ n - 1 ∧ 0 ≠ n + (n - 1) ∧ 0 ≠ 2 * n + (n - 1); omega
    · show 3 * n ≠ n - 1 ∧ 3 * n ≠ n + (n - 1) ∧ 3 * n ≠ 2 * n + (n - 1); omega
    · show 2 * n ≠ n - 1 ∧ 2 * n ≠ n + (n - 1) ∧ 2 * n ≠ 2 * n + (n - 1); omega
  refine ⟨_, q0p, _, _, hp, e3.trans h5, rfl, rfl, rfl, rfl, fun k j => ?_, fun k j => ?_⟩
  · rw [symA_other _ (hrow k), rhA3_row hn]
  · rw [symB_other _ _ (hrow k), rhB3_row hn]

/-- the first point, with the default gamma, is a state that can be behind (or in front of) a normal shock -/
theorem first_point (hn : 2 ≤ n) {q : StateV n} (h1 : 0 < q.rho ⟨0, by omega⟩) (h2 : 0 < q.p ⟨0, by omega⟩)
    (h3 : 1 / 7 < q.rho ⟨0, by omega⟩ * q.u ⟨0, by omega⟩ ^ 2 / (1.4 * q.p ⟨0, by omega⟩)) :
    (q1s hn q).Valid ∧ dom ((q1s hn q).u / (q1s hn q).cs) (q1s hn q).gamma := by
  have hv : (q1s hn q).Valid := ⟨h1, h2, Isentropic.one_lt_gamma0⟩
  refine ⟨hv, ?_⟩
  unfold dom
  rw [mach_sq hv]
  show (DefaultGas.gamma0 - 1) / (2 * DefaultGas.gamma0) < q.rho ⟨0, by omega⟩ * q.u ⟨0, by omega⟩ ^ 2 / (DefaultGas.gamma0 * q.p ⟨0, by omega⟩)
  rw [Isentropic.gamma0_eq]
  have e : (1.4:ℝ) = 7 / 5 := by norm_num
  rw [e] at h3
  norm_num at h3 ⊢
  exact h3

/-- C49 on the left: with a dictionary `{"type": "RH", "dM0dx": m}` on the left and `"sym"` on the right,
`compute_operators` succeeds whenever the first point is an admissible state for a normal shock (`M² > 1/7` with the
default gamma) and gives two square matrices with one additional unknown. -/
theorem C49_left_partial (hn : 2 ≤ n) (hab : a ≠ b) (q0 : Option (StateV n)) (hp : Heap) (calls : List (EulerCall n)) (q : StateV n)
    (hq : (eulerAfter n a b q0 hp calls).basestate = some q) (hr : ∀ i, q.rho i ≠ 0)
    (h1 : 0 < q.rho ⟨0, by omega⟩) (h2 : 0 < q.p ⟨0, by omega⟩)
    (h3 : 1 / 7 < q.rho ⟨0, by omega⟩ * q.u ⟨0, by omega⟩ ^ 2 / (1.4 * q.p ⟨0, by omega⟩))
    (r : ℕ) (m : ℝ) (hrn : r < (eulerAfter n a b q0 hp calls).heap.next)
    (hrd : (eulerAfter n a b q0 hp calls).heap.at' r = ⟨some "RH", [("dM0dx", some m)]⟩) :
    ∃ s1 s2 B At, Euler1D.set_BC (.dict r) (.str "sym") (eulerAfter n a b q0 hp calls) = (.ok (), s1) ∧
      Euler1D.compute_operators s1 = (.ok (), s2) ∧ s2.B = some B ∧ s2.At = some At ∧ B.size = 3 * n + 1 ∧ At.size = 3 * n + 1 := by
  obtain ⟨hv, hd⟩ := first_point hn h1 h2 h3
  obtain ⟨s2, q0p, A, B, -, h4, h5, h6, h7, h8, -⟩ := RH_left_ok hn hab (einv_after hn hab q0 hp calls) hq hr hv hd hrn hrd
  exact ⟨_, s2, B, A, set_BC_dict_sym _ (t := "RH") (by simp [BC_names]) (by rw [hrd]), h4, h5, h6, h7, h8⟩

/-- non-vacuity: a subsonic uniform flow with `M = 1/2` on 4 points, and a dictionary created by the caller -/
noncomputable def sub4 : StateV 4 := unif 4 14 0.5 10 1.4

example : let s := eulerAfter 4 0 1 (some sub4) ⟨0, fun _ => ⟨none, []⟩⟩ [.newDict ⟨some "RH", [("dM0dx", some 0)]⟩]
    s.basestate = some sub4 ∧ 0 < sub4.rho 0 ∧ 0 < sub4.p 0 ∧ (1:ℝ) / 7 < sub4.rho 0 * sub4.u 0 ^ 2 / (1.4 * sub4.p 0) ∧
    0 < s.heap.next ∧ s.heap.at' 0 = ⟨some "RH", [("dM0dx", some 0)]⟩ := by
  refine ⟨rfl, ?_, ?_, ?_, ?_, ?_⟩
  · show (0:ℝ) < 14; norm_num
  · show (0:ℝ) < 10; norm_num
  · show (1:ℝ) / 7 < 14 * 0.5 ^ 2 / (1.4 * 10); norm_num
  · show 0 < 0 + 1; norm_num
  · rfl

/-! ## C81 : the boundary equations -/

theorem rhr_mn2 {M γ : ℝ} (h : 1 < γ) (hM : M ≠ 0) (hd : dom M γ) : rhr (Real.sqrt (mn2 M γ)) γ * rhr M γ = 1 := by
  have h1 := (dom_iff h).1 hd
  have hs : Real.sqrt (mn2 M γ) ^ 2 = mn2 M γ := Real.sq_sqrt (mn2_pos h hd).le
  have hg : 0 < γ - 1 := by linarith
  have hM2 : 0 < M ^ 2 := by positivity
  have h2 : 0 < 2 + (γ - 1) * M ^ 2 := by positivity
  have h3 : γ + 1 ≠ 0 := by linarith
  unfold rhr
  rw [hs]
  unfold mn2
  obtain ⟨Q, hQ⟩ : ∃ Q, Q = γ * M ^ 2 - (γ - 1) / 2 := ⟨_, rfl⟩
  rw [← hQ] at h1 ⊢
  have e : 2 + (γ - 1) * ((1 + (γ - 1) / 2 * M ^ 2) / Q) = (γ + 1) ^ 2 * M ^ 2 / (2 * Q) := by
    field_simp; rw [hQ]; ring
  rw [e]
  field_simp

theorem psr_mn2 {M γ : ℝ} (h : 1 < γ) (hd : dom M γ) : psr (Real.sqrt (mn2 M γ)) γ * psr M γ = 1 := by
  have h1 := (dom_iff h).1 hd
  have hs : Real.sqrt (mn2 M γ) ^ 2 = mn2 M γ := Real.sq_sqrt (mn2_pos h hd).le
  have h3 : γ + 1 ≠ 0 := by linarith
  unfold psr
  rw [hs]
  unfold mn2
  obtain ⟨Q, hQ⟩ : ∃ Q, Q = γ * M ^ 2 - (γ - 1) / 2 := ⟨_, rfl⟩
  have hM : M ^ 2 = (Q + (γ - 1) / 2) / γ := by
    have : γ ≠ 0 := by linarith
    rw [hQ]; field_simp; ring
  rw [← hQ] at h1 ⊢
  rw [hM]
  have : γ ≠ 0 := by linarith
  field_simp
  ring

/-- derivative of the shock residuals along a straight line, around a solution -/
theorem residual_deriv {γ ρ0 u0 p0 M0 ρ1 u1 p1 : ℝ} (hg : 1 < γ) (h0 : ρ0 ≠ 0) (hp : p0 ≠ 0) (hM : M0 ≠ 0)
    (e1 : rhr M0 γ * ρ0 = ρ1) (e2 : psr M0 γ * p0 = p1) (e3 : ρ1 * u1 = ρ0 * u0) (Aρ Au Ap Bρ Bu Bp C S : ℝ) (k : Fin 3) :
    HasDerivAt (fun ε : ℝ => shockResidual γ (ρ0 + ε * Aρ) (u0 + ε * Au) (p0 + ε * Ap) (M0 + ε * C) (ρ1 + ε * Bρ) (u1 + ε * Bu)
        (p1 + ε * Bp) (ε * S) k)
      (match k with
        | 0 => 1 / ρ0 * Bρ - rhr M0 γ / ρ0 * Aρ - 4 / (γ + 1) * rhr M0 γ ^ 2 / M0 ^ 3 * C
        | 1 => u1 / ρ0 * Bρ + rhr M0 γ * (Bu - S) - u0 / ρ0 * Aρ - (Au - S)
        | 2 => 1 / p0 * Bp - psr M0 γ / p0 * Ap - 4 * γ / (γ + 1) * M0 * C) 0 := by
  have lin : ∀ c d : ℝ, HasDerivAt (fun ε : ℝ => c + ε * d) d 0 := by
    intro c d
    have := ((hasDerivAt_id (0:ℝ)).mul_const d).const_add c
    simpa using this
  have hden : 0 < 2 + (γ - 1) * M0 ^ 2 := rho_den_pos hg
  have hg1 : γ + 1 ≠ 0 := by linarith
  have val : ∀ c d : ℝ, c + 0 * d = c := by intro c d; ring
  fin_cases k
  · have q1 := (lin ρ1 Bρ).div (lin ρ0 Aρ) (by rw [val]; exact h0)
    have m2 : HasDerivAt (fun ε : ℝ => (M0 + ε * C) ^ 2) (2 * M0 * C) 0 := ((lin M0 C).pow 2).congr_deriv (by norm_num)
    have q2 := (m2.const_mul (γ + 1)).div ((m2.const_mul (γ - 1)).const_add 2) (by rw [val]; exact hden.ne')
    refine (q1.sub q2).congr_deriv ?_
    simp only [val]
    rw [← e1]
    unfold rhr
    field_simp
    ring
  · have n1 := (lin ρ1 Bρ).mul ((lin u1 Bu).sub (lin 0 S))
    have n2 := (lin ρ0 Aρ).mul ((lin u0 Au).sub (lin 0 S))
    have q := (n1.sub n2).div (lin ρ0 Aρ) (by rw [val]; exact h0)
    have q' := q.congr_of_eventuallyEq (f₁ := fun ε : ℝ => shockResidual γ (ρ0 + ε * Aρ) (u0 + ε * Au) (p0 + ε * Ap) (M0 + ε * C)
        (ρ1 + ε * Bρ) (u1 + ε * Bu) (p1 + ε * Bp) (ε * S) 1) (Filter.Eventually.of_forall fun ε => by simp [shockResidual])
    refine q'.congr_deriv ?_
    simp only [val, Pi.sub_apply, Pi.mul_apply]
    have z : ρ1 * (u1 - 0) - ρ0 * (u0 - 0) = 0 := by rw [sub_zero, sub_zero, e3, sub_self]
    rw [z, ← e1]
    field_simp
    ring
  · have q1 := (lin p1 Bp).div (lin p0 Ap) (by rw [val]; exact hp)
    have m2 : HasDerivAt (fun ε : ℝ => (M0 + ε * C) ^ 2) (2 * M0 * C) 0 := ((lin M0 C).pow 2).congr_deriv (by norm_num)
    have q2 := ((m2.sub_const 1).const_mul (2 * γ / (γ + 1))).const_add 1
    refine (q1.sub q2).congr_deriv ?_
    simp only [val]
    rw [← e2]
    unfold psr
    field_simp
    ring

/-- C81 (what holds): with a left `RH` condition, the three boundary equations (rows 0, 3n and 2n of `B v = At w`) are the
linearisation of the jump relations of a moving shock: `v (3n)` is the shock displacement, `w (3n)` its velocity,
`v 0, v n, v (2n)` are the downstream perturbations; the upstream Mach number is `M0 + m * displacement - velocity / a0`,
the downstream state is moved along its gradient.
Missing: the upstream gradient `G` is only known to be `(q0p - q0)/dx` where `q0p` is returned by `state_isentropic_Mach`
at `M0 + m dx`, which is not the gradient of the upstream flow (see `C81_false`); gamma is the default one whatever the
base state (`__getitem__` drops it). -/
theorem C81_linearised_partial (hn : 2 ≤ n) (hab : a ≠ b) (q0 : Option (StateV n)) (hp : Heap) (calls : List (EulerCall n)) (q : StateV n)
    (hq : (eulerAfter n a b q0 hp calls).basestate = some q) (hr : ∀ i, q.rho i ≠ 0)
    (h1 : 0 < q.rho ⟨0, by omega⟩) (h2 : 0 < q.p ⟨0, by omega⟩)
    (h3 : 1 / 7 < q.rho ⟨0, by omega⟩ * q.u ⟨0, by omega⟩ ^ 2 / (1.4 * q.p ⟨0, by omega⟩))
    (r : ℕ) (m : ℝ) (hrn : r < (eulerAfter n a b q0 hp calls).heap.next)
    (hrd : (eulerAfter n a b q0 hp calls).heap.at' r = ⟨some "RH", [("dM0dx", some m)]⟩) :
    ∃ (s1 s2 : Obj n) (B At : Mat ℝ) (d : Cheb n) (D : Matrix (Fin n) (Fin n) ℝ) (up q0p : State) (M0 a0 : ℝ),
      Euler1D.set_BC (.dict r) (.str "sym") (eulerAfter n a b q0 hp calls) = (.ok (), s1) ∧
      Euler1D.compute_operators s1 = (.ok (), s2) ∧ s2.B = some B ∧ s2.At = some At ∧
      NumSpectral.matder (eulerAfter n a b q0 hp calls).diffop 1 = .ok (d, D) ∧
      -- the upstream state is the one the shock relations give from the first point
      State.state_RH ⟨q.rho ⟨0, by omega⟩, q.u ⟨0, by omega⟩, q.p ⟨0, by omega⟩, 1.4⟩ = .ok up ∧ up.asound = .ok a0 ∧
      0 < M0 ∧ up.state_isentropic_Mach (M0 + m * (xv n a b ⟨1, by omega⟩ - xv n a b ⟨0, by omega⟩)) = .ok q0p ∧
      -- the base flow satisfies the jump relations of a shock at rest
      (∀ k, shockResidual 1.4 up.rho up.u up.p M0 (q.rho ⟨0, by omega⟩) (q.u ⟨0, by omega⟩) (q.p ⟨0, by omega⟩) 0 k = 0) ∧
      ∀ (v w : ℕ → ℝ) (k : Fin 3),
        let dx := xv n a b ⟨1, by omega⟩ - xv n a b ⟨0, by omega⟩
        let ξ := v (3 * n)
        let σ := w (3 * n)
        HasDerivAt (fun ε : ℝ => shockResidual 1.4
            (up.rho + ε * (ξ * ((q0p.rho - up.rho) / dx))) (up.u + ε * (ξ * ((q0p.u - up.u) / dx)))
            (up.p + ε * (ξ * ((q0p.p - up.p) / dx)))
            (M0 + ε * (m * ξ - σ / a0))
            (q.rho ⟨0, by omega⟩ + ε * (field n v 0 ⟨0, by omega⟩ + ξ * D.mulVec q.rho ⟨0, by omega⟩))
            (q.u ⟨0, by omega⟩ + ε * (field n v 1 ⟨0, by omega⟩ + ξ * D.mulVec q.u ⟨0, by omega⟩))
            (q.p ⟨0, by omega⟩ + ε * (field n v 2 ⟨0, by omega⟩ + ξ * D.mulVec q.p ⟨0, by omega⟩))
            (ε * σ) k)
          (B.mulVec v (rhRow n k) - At.mulVec w (rhRow n k)) 0 := by
  obtain ⟨hv, hd⟩ := first_point hn h1 h2 h3
  have hI := einv_after hn hab q0 hp calls
  obtain ⟨d, hdm, -⟩ := matder_spec hn hab hI.diff (m := 1) le_rfl
  obtain ⟨s2, q0p, A, B, hq0p, h4, h5, h6, h7, h8, h9, h10⟩ := RH_left_ok hn hab hI hq hr hv hd hrn hrd
  have hv0 := q0s_valid hv hd
  have hu : (q1s hn q).u ≠ 0 := by
    intro e
    rw [e, zero_div] at hd
    unfold dom at hd
    have := hv.gamma
    have : 0 < ((q1s hn q).gamma - 1) / (2 * (q1s hn q).gamma) := div_pos (by linarith) (by linarith)
    norm_num at hd
    linarith
  have hM0 : 0 < M0s (q1s hn q) := Real.sqrt_pos.2 (mn2_pos hv.gamma hd)
  have hg : (1.4:ℝ) = DefaultGas.gamma0 := by rw [Isentropic.gamma0_eq]; norm_num
  have hM : (q1s hn q).u / (q1s hn q).cs ≠ 0 := div_ne_zero hu hv.cs_pos.ne'
  have r1 := rhr_mn2 hv.gamma hM hd
  have r2 := psr_mn2 hv.gamma hd
  have hrp := (rhr_pos hv.gamma hM).ne'
  have e1 : rhr (M0s (q1s hn q)) (q1s hn q).gamma * (q0s (q1s hn q)).rho = (q1s hn q).rho := by
    show rhr (Real.sqrt _) _ * ((q1s hn q).rho * rhr ((q1s hn q).u / (q1s hn q).cs) (q1s hn q).gamma) = _
    linear_combination (q1s hn q).rho * r1
  have e2 : psr (M0s (q1s hn q)) (q1s hn q).gamma * (q0s (q1s hn q)).p = (q1s hn q).p := by
    show psr (Real.sqrt _) _ * ((q1s hn q).p * psr ((q1s hn q).u / (q1s hn q).cs) (q1s hn q).gamma) = _
    linear_combination (q1s hn q).p * r2
  have e3 : (q1s hn q).rho * (q1s hn q).u = (q0s (q1s hn q)).rho * (q0s (q1s hn q)).u := by
    show _ = ((q1s hn q).rho * rhr ((q1s hn q).u / (q1s hn q).cs) (q1s hn q).gamma) * ((q1s hn q).u / rhr ((q1s hn q).u / (q1s hn q).cs) (q1s hn q).gamma)
    field_simp
  refine ⟨_, s2, B, A, d, _, q0s (q1s hn q), q0p, M0s (q1s hn q), (q0s (q1s hn q)).cs, set_BC_dict_sym _ (t := "RH") (by simp [BC_names]) (by rw [hrd]), h4, h5, h6, hdm, ?_, hv0.asound, hM0, hq0p, ?_, ?_⟩
  · rw [hg]; exact state_RH_ok hv hu
  · intro k
    rw [hg]
    have n0 := hv0.rho.ne'
    have n1 := hv0.p.ne'
    have e1' : q.rho ⟨0, by omega⟩ = rhr (M0s (q1s hn q)) DefaultGas.gamma0 * (q0s (q1s hn q)).rho := e1.symm
    have e2' : q.p ⟨0, by omega⟩ = psr (M0s (q1s hn q)) DefaultGas.gamma0 * (q0s (q1s hn q)).p := e2.symm
    have e3' : q.rho ⟨0, by omega⟩ * q.u ⟨0, by omega⟩ = (q0s (q1s hn q)).rho * (q0s (q1s hn q)).u := e3
    fin_cases k
    · show q.rho ⟨0, by omega⟩ / (q0s (q1s hn q)).rho - rhr (M0s (q1s hn q)) DefaultGas.gamma0 = 0
      rw [e1']; field_simp; ring
    · show (q.rho ⟨0, by omega⟩ * (q.u ⟨0, by omega⟩ - 0) - (q0s (q1s hn q)).rho * ((q0s (q1s hn q)).u - 0)) / (q0s (q1s hn q)).rho = 0
      rw [sub_zero, sub_zero, e3', sub_self, zero_div]
    · show q.p ⟨0, by omega⟩ / (q0s (q1s hn q)).p - psr (M0s (q1s hn q)) DefaultGas.gamma0 = 0
      rw [e2']; field_simp; ring
  · intro v w k dx ξ σ
    rw [rhA_mulVec h8 (h9 k) w, rhB_mulVec hn h7 (h10 k) v]
    have key := residual_deriv hv.gamma hv0.rho.ne' hv0.p.ne' hM0.ne' e1 e2 e3
      (ξ * ((q0p.rho - (q0s (q1s hn q)).rho) / dx)) (ξ * ((q0p.u - (q0s (q1s hn q)).u) / dx)) (ξ * ((q0p.p - (q0s (q1s hn q)).p) / dx))
      (field n v 0 ⟨0, by omega⟩ + ξ * (Dm n a b 1).mulVec q.rho ⟨0, by omega⟩)
      (field n v 1 ⟨0, by omega⟩ + ξ * (Dm n a b 1).mulVec q.u ⟨0, by omega⟩)
      (field n v 2 ⟨0, by omega⟩ + ξ * (Dm n a b 1).mulVec q.p ⟨0, by omega⟩) (m * ξ - σ / (q0s (q1s hn q)).cs) σ k
    rw [hg]
    refine HasDerivAt.congr_deriv key ?_
    have f0 : field n v 0 ⟨0, by omega⟩ = v 0 := by simp [field]
    have f1 : field n v 1 ⟨0, by omega⟩ = v n := by simp [field]
    have f2 : field n v 2 ⟨0, by omega⟩ = v (2 * n) := by simp [field]
    rw [f0, f1, f2]
    have hcs := hv0.cs_pos.ne'
    have d1 : (q1s hn (deriv (Dm n a b 1) q)).rho = (Dm n a b 1).mulVec q.rho ⟨0, by omega⟩ := rfl
    have d2 : (q1s hn (deriv (Dm n a b 1) q)).u = (Dm n a b 1).mulVec q.u ⟨0, by omega⟩ := rfl
    have d3 : (q1s hn (deriv (Dm n a b 1) q)).p = (Dm n a b 1).mulVec q.p ⟨0, by omega⟩ := rfl
    have hdx : dx = xv n a b ⟨1, by omega⟩ - xv n a b ⟨0, by omega⟩ := rfl
    have hξ : v (3 * n) = ξ := rfl
    have hσ : w (3 * n) = σ := rfl
    rw [hξ, hσ]
    unfold rhCoef
    rw [← hdx]
    simp only [rhC, d1, d2, d3]
    fin_cases k
    · norm_num; ring
    · norm_num; ring
    · norm_num; ring

/-- the density returned by `state_isentropic_Mach` never exceeds 1, whatever the density of the state -/
theorem isentropic_rho_le {s s' : State} (h : s.Valid) {M : ℝ} (hs : s.state_isentropic_Mach M = .ok s') : s'.rho ≤ 1 := by
  obtain ⟨hT, he⟩ := state_isentropic_Mach_ok h M _ h.rTtot
  rw [he, compute_from_pt_rtt_M_ok h.gamma hT hT] at hs
  cases hs
  show _ / Isentropic.tt M s.gamma ^ (s.gamma / (s.gamma - 1)) / (_ / Isentropic.tt M s.gamma) ≤ 1
  have h1 := Isentropic.one_le_tt (M := M) h.gamma
  have hg : 0 < s.gamma - 1 := by have := h.gamma; linarith
  have hle : Isentropic.tt M s.gamma ≤ Isentropic.tt M s.gamma ^ (s.gamma / (s.gamma - 1)) := by
    have := Real.rpow_le_rpow_of_exponent_le h1 (show (1:ℝ) ≤ s.gamma / (s.gamma - 1) by rw [le_div_iff₀ hg]; linarith)
    rwa [Real.rpow_one] at this
  have h0 : 0 < Isentropic.tt M s.gamma := by linarith
  have hw : 0 < Isentropic.tt M s.gamma ^ (s.gamma / (s.gamma - 1)) := Real.rpow_pos_of_pos h0 _
  generalize s.p / s.rho + (s.gamma - 1) / (2 * s.gamma) * s.u ^ 2 = T at hT
  have e : T / Isentropic.tt M s.gamma ^ (s.gamma / (s.gamma - 1)) / (T / Isentropic.tt M s.gamma)
      = Isentropic.tt M s.gamma / Isentropic.tt M s.gamma ^ (s.gamma / (s.gamma - 1)) := by
    field_simp
  rw [e, div_le_one hw]
  exact hle

/-- C81 fails: a steady shock between two uniform flows (`ρ = 4` upstream, `ρ = 14` downstream, no upstream gradient:
`dM0dx = 0`) may be moved without changing any flow quantity, but the density boundary equation is not satisfied by a pure
displacement (`v` is zero except the displacement, `w = 0`): the flow perturbations are coupled to the position of the
shock through the defect of `state_isentropic_Mach`. -/
theorem C81_false (hn : 2 ≤ n) (hab : a ≠ b) :
    ∃ (calls : List (EulerCall n)) (s1 s2 : Obj n) (B At : Mat ℝ),
      Euler1D.set_BC (.dict 0) (.str "sym") (eulerAfter n a b (some (unif n 14 (1 / 2) 10 1.4)) ⟨0, fun _ => ⟨none, []⟩⟩ calls) = (.ok (), s1) ∧
      (s1.heap.at' 0) = ⟨some "RH", [("dM0dx", some 0)]⟩ ∧
      Euler1D.compute_operators s1 = (.ok (), s2) ∧ s2.B = some B ∧ s2.At = some At ∧
      B.mulVec (fun j => if j = 3 * n then 1 else 0) 0 ≠ At.mulVec (fun _ => 0) 0 := by
  obtain ⟨q, hqd⟩ : ∃ q, q = unif n 14 (1 / 2) 10 1.4 := ⟨_, rfl⟩
  rw [← hqd]
  obtain ⟨h1, h2, h3, hr⟩ : 0 < q.rho ⟨0, by omega⟩ ∧ 0 < q.p ⟨0, by omega⟩ ∧
      1 / 7 < q.rho ⟨0, by omega⟩ * q.u ⟨0, by omega⟩ ^ 2 / (1.4 * q.p ⟨0, by omega⟩) ∧ ∀ i, q.rho i ≠ 0 := by
    rw [hqd]
    simp only [unif]
    refine ⟨by norm_num, by norm_num, by norm_num, fun _ => by norm_num⟩
  obtain ⟨hv, hd⟩ := first_point hn h1 h2 h3
  let calls : List (EulerCall n) := [.newDict ⟨some "RH", [("dM0dx", some 0)]⟩]
  have hI := einv_after hn hab (some q) ⟨0, fun _ => ⟨none, []⟩⟩ calls
  have hrd : (eulerAfter n a b (some q) ⟨0, fun _ => ⟨none, []⟩⟩ calls).heap.at' 0 = ⟨some "RH", [("dM0dx", some 0)]⟩ := rfl
  obtain ⟨s2, q0p, A, B, hq0p, h4, h5, h6, h7, h8, h9, h10⟩ := RH_left_ok (r := 0) (m := 0) hn hab hI (q := q) rfl hr hv hd
    (by show 0 < 0 + 1; norm_num) hrd
  refine ⟨calls, _, s2, B, A, set_BC_dict_sym _ (t := "RH") (by simp [BC_names]) (by rw [hrd]), rfl, h4, h5, h6, ?_⟩
  have eA : A.mulVec (fun _ => 0) 0 = 0 := by
    have := rhA_mulVec h8 (h9 0) (fun _ => 0)
    simpa [rhRow] using this
  have eB := rhB_mulVec hn h7 (h10 0) (fun j => if j = 3 * n then 1 else 0)
  simp only [rhRow, if_true, mul_one] at eB
  rw [if_neg (by omega), if_neg (by omega), if_neg (by omega)] at eB
  rw [eA]
  show B.mulVec (fun j => if j = 3 * n then 1 else 0) 0 ≠ 0
  rw [eB]
  have hv0 := q0s_valid hv hd
  have hle := isentropic_rho_le hv0 hq0p
  have hcs : (q1s hn q).cs = 1 := by
    unfold State.cs
    show Real.sqrt (DefaultGas.gamma0 * q.p _ / q.rho _) = 1
    rw [hqd, Isentropic.gamma0_eq]
    simp only [unif]
    norm_num
  have hM1 : (q1s hn q).u / (q1s hn q).cs = 1 / 2 := by
    rw [hcs, hqd]; simp [q1s, State.initDefault, unif]
  have hrho : (q0s (q1s hn q)).rho = 4 := by
    unfold q0s
    simp only [hM1]
    show q.rho _ * rhr (1 / 2) DefaultGas.gamma0 = 4
    rw [hqd, Isentropic.gamma0_eq]
    unfold rhr
    simp only [unif]
    norm_num
  have hD : (Dm n a b 1).mulVec q.rho ⟨0, by omega⟩ = 0 := by
    have := Dm_exact (N := n) hn hab 1 (C 14) (lt_of_le_of_lt degree_C_le (by exact_mod_cast (by omega : 0 < n))) ⟨0, by omega⟩
    rw [hqd]
    simpa [Matrix.mulVec, dotProduct, unif] using this
  have hdx := xv_ne hn hab
  unfold rhCoef
  generalize hX : xv n a b ⟨1, by omega⟩ - xv n a b ⟨0, by omega⟩ = dx at hdx ⊢
  have d1 : (q1s hn (deriv (Dm n a b 1) q)).rho = (Dm n a b 1).mulVec q.rho ⟨0, by omega⟩ := rfl
  simp only [rhC, d1, hD, hrho, Fin.val_zero, if_true]
  have hrp : 0 < rhr (M0s (q1s hn q)) (q1s hn q).gamma := rhr_pos hv.gamma (Real.sqrt_pos.2 (mn2_pos hv.gamma hd)).ne'
  have hne : q0p.rho - 4 ≠ 0 := by linarith
  simp only [mul_zero, add_zero, zero_sub, neg_mul, zero_mul]
  refine fun e => ?_
  have e2 : rhr (M0s (q1s hn q)) (q1s hn q).gamma / 4 * ((q0p.rho - 4) / dx) = 0 := by linarith
  exact mul_ne_zero (div_ne_zero hrp.ne' (by norm_num)) (div_ne_zero hne hdx) e2

/-- C45, conditions that go wrong only when they are applied: `sym` with extra keywords raises TypeError, `per` on the left only
raises AssertionError, `per` on the right only raises whatever the left condition is. -/
theorem C45_apply (s : Obj n) (l r : ℕ) (hBC : s.BC_type = some (l, r)) :
    ((s.heap.at' l).type = some "sym" → (s.heap.at' l).kwargs ≠ [] → (Euler1D.compute_BC s).1 = .error .typeError) ∧
    (∀ t, (s.heap.at' l).type = some "per" → (s.heap.at' r).type = some t → t ≠ "per" →
      (Euler1D.compute_BC s).1 = .error .assertionError) ∧
    (∀ t, (s.heap.at' l).type = some t → t ≠ "per" → (s.heap.at' r).type = some "per" →
      ∃ e, (Euler1D.compute_BC s).1 = .error e) := by
  refine ⟨fun h hk => ?_, fun t h h' ht => ?_, fun t h ht h' => ?_⟩
  · simp [Euler1D.compute_BC, bind, Meth.get, hBC, Meth.lift, getType, h, applyBC, onHeap, popType, Heap.set, callBC, Meth.throw,
      List.isEmpty_eq_false_iff.2 hk]
  · simp [Euler1D.compute_BC, bind, Meth.get, hBC, Meth.lift, getType, h, h', ht, Meth.throw]
  · have e : Euler1D.compute_BC s = (do applyBC l 0; applyBC r (n - 1) : Meth (Obj n) Unit) s := by
      simp [Euler1D.compute_BC, bind, Meth.get, hBC, Meth.lift, getType, h, ht]
    rw [e]
    let Q : Heap → Prop := fun h => (h.at' r).type = some "per" ∨ (h.at' r).type = none
    have hQ : PopStable Q := by
      intro h k hh
      by_cases e : r = k
      · right; simp [Heap.set, e]
      · simpa [Q, Heap.set, e] using hh
    have keep : Q (applyBC l 0 s).2.heap := hp_applyBC hQ l 0 s (.inl h')
    rcases e1 : applyBC l 0 s with ⟨er | u, s1⟩
    · exact ⟨er, by rw [Meth.bind_err e1]⟩
    · rw [Meth.bind_ok e1]
      rw [e1] at keep
      rcases keep with k | k
      · have e2 : s1.heap.at' r = ⟨some "per", (s1.heap.at' r).kwargs⟩ := by
          cases e : s1.heap.at' r with
          | mk t k' => rw [e] at k; simp only at k; subst k; rfl
        exact ⟨.typeError, by rw [applyBC_eq e2]; rfl⟩
      · exact ⟨.keyError, by rw [applyBC_err k]⟩

/-- C45: a jump condition (`RH`) given with a parameter other than `dM0dx` is refused when the conditions are applied, whatever the state of the object. -/
theorem C45_RH_keywords (s : Obj n) (l r : ℕ) (hBC : s.BC_type = some (l, r)) (h : (s.heap.at' l).type = some "RH")
    (hk : ∃ kv ∈ (s.heap.at' l).kwargs, kv.1 ≠ "dM0dx") : ∃ e, (Euler1D.compute_BC s).1 = .error e := by
  have e : Euler1D.compute_BC s = (do applyBC l 0; applyBC r (n - 1) : Meth (Obj n) Unit) s := by
    simp [Euler1D.compute_BC, bind, Meth.get, hBC, Meth.lift, getType, h]
  have hl : s.heap.at' l = ⟨some "RH", (s.heap.at' l).kwargs⟩ := by
    cases e : s.heap.at' l with
    | mk t k' => rw [e] at h; simp only at h; subst h; rfl
  have hne : ((s.heap.at' l).kwargs.filter (fun kv => kv.1 ≠ "dM0dx")).isEmpty = false := by
    obtain ⟨kv, h1, h2⟩ := hk
    rw [List.isEmpty_eq_false_iff]
    exact List.ne_nil_of_mem (List.mem_filter.2 ⟨h1, by simpa using h2⟩)
  have key : ∀ (t : Obj n), ∃ er, (setBC_RH 0 (some 0) (s.heap.at' l).kwargs t).1 = .error er := by
    intro t
    unfold setBC_RH
    rcases e1 : matder 1 t with ⟨er | D, t1⟩
    · exact ⟨er, by rw [Meth.bind_err e1]⟩
    · rw [Meth.bind_ok e1]
      have e2 : Meth.require (((s.heap.at' l).kwargs.filter (fun kv => kv.1 ≠ "dM0dx")).isEmpty = true) .valueError t1 = (.error .valueError, t1) := by
        unfold Meth.require
        rw [if_neg (by rw [hne]; decide)]
        rfl
      exact ⟨_, by rw [Meth.bind_err e2]⟩
  have hf : ∃ er, (applyBC l 0 s).1 = .error er := by
    rw [applyBC_eq hl]
    unfold callBC
    simp only []
    split
    · exact ⟨_, rfl⟩
    · exact key _
  obtain ⟨er, hf⟩ := hf
  rcases e1 : applyBC l 0 s with ⟨x, s1⟩
  rw [e1] at hf
  simp only at hf
  subst hf
  exact ⟨er, by rw [e, Meth.bind_err e1]⟩

/-- the hypotheses are met: `set_BC` accepts a `sym` dictionary with an extra keyword, and `per` on one side only -/
example : check_BCs Euler1D.BC_names (.dict 0) (.str "per") ⟨1, fun _ => ⟨some "sym", [("wall", none)]⟩⟩
    = (.ok (0, 1), ⟨2, fun k => if k = 1 then ⟨some "per", []⟩ else ⟨some "sym", [("wall", none)]⟩⟩) := by
  simp [check_BCs, check_BC, bind, Euler1D.BC_names, Heap.alloc, pure]

/-- the hypotheses of `C45_RH_keywords` are met: `set_BC` accepts a jump condition with an unknown parameter -/
example : check_BCs Euler1D.BC_names (.dict 0) (.str "sym") ⟨1, fun _ => ⟨some "RH", [("dMdx", none)]⟩⟩
    = (.ok (0, 1), ⟨2, fun k => if k = 1 then ⟨some "sym", []⟩ else ⟨some "RH", [("dMdx", none)]⟩⟩) := by
  simp [check_BCs, check_BC, bind, Euler1D.BC_names, Heap.alloc, pure]

end Aerokit.Props
