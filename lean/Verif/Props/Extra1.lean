import Verif.Props.EulerRH
import Verif.Props.Riemann

/-! # Properties C82 (indexing of states), C83 (failed computations), C84 (initial guess of the Riemann solver) -/

namespace Aerokit.Props
open LinOperator NumSpectral Model1D Euler1D Spec Unsteady1D Riemann
open MassFlow (RootFinder)

/-! ## C82 -/

theorem npIndex_nat {n : ℕ} (v : Fin n → ℝ) (k : Fin n) : npIndex v (k:ℕ) = .ok (v k) := by
  unfold npIndex
  simp only [show ¬ (((k:ℕ):ℤ) < 0) by omega, if_false]
  rw [dif_pos (by have := k.2; omega)]
  simp

theorem npIndex_neg {n : ℕ} (v : Fin n → ℝ) (k : Fin n) : npIndex v ((k:ℕ) - n : ℤ) = .ok (v k) := by
  have := k.2
  unfold npIndex
  simp only [show (((k:ℕ):ℤ) - n < 0) by omega, if_true, sub_add_cancel]
  rw [dif_pos (by omega)]
  simp

theorem npIndex_out {n : ℕ} (v : Fin n → ℝ) (i : ℤ) (h : i < -n ∨ (n:ℤ) ≤ i) : npIndex v i = .error .indexError := by
  unfold npIndex
  simp only []
  rw [dif_neg]
  split_ifs <;> omega

/-- C82 (what holds): `q[k]` and `q[k - n]` are the state at point `k` (density, velocity, pressure), any other index raises
IndexError, and indexing a scalar state raises AssertionError.  Missing: gamma (see `C82_false`). -/
theorem C82_index_partial {n : ℕ} (q : StateV n) :
    (∀ k : Fin n, ∀ i : ℤ, (i = k ∨ i = (k:ℤ) - n) →
      ∃ s, q.getitem i = .ok s ∧ s.rho = q.rho k ∧ s.u = q.u k ∧ s.p = q.p k) ∧
    (∀ i : ℤ, (i < -n ∨ (n:ℤ) ≤ i) → q.getitem i = .error .indexError) ∧
    (∀ (s : State) (i : ℤ), s.getitem i = .error .assertionError) := by
  refine ⟨fun k i hi => ?_, fun i hi => ?_, fun _ _ => rfl⟩
  · refine ⟨State.initDefault (q.rho k) (q.u k) (q.p k), ?_, rfl, rfl, rfl⟩
    unfold StateV.getitem
    rcases hi with rfl | rfl
    · rw [npIndex_nat, npIndex_nat, npIndex_nat]; rfl
    · rw [npIndex_neg, npIndex_neg, npIndex_neg]; rfl
  · unfold StateV.getitem
    rw [npIndex_out _ _ hi]; rfl

/-- C82 fails for gamma: the state of a point of a flow of any other gas has gamma 1.4, and a different Mach number. -/
theorem C82_false {n : ℕ} (q : StateV n) (hg : q.gamma ≠ 1.4) (i : ℤ) (s : State) (h : q.getitem i = .ok s) :
    s.gamma ≠ q.gamma := by
  have hs : s.gamma = DefaultGas.gamma0 := by
    unfold StateV.getitem at h
    cases e1 : npIndex q.rho i with
    | error e => rw [e1] at h; cases h
    | ok x =>
      rw [e1, Py.ok_bind] at h
      cases e2 : npIndex q.u i with
      | error e => rw [e2] at h; cases h
      | ok y =>
        rw [e2, Py.ok_bind] at h
        cases e3 : npIndex q.p i with
        | error e => rw [e3] at h; cases h
        | ok z =>
          rw [e3, Py.ok_bind] at h
          cases h; rfl
  rw [hs, Isentropic.gamma0_eq]
  intro e
  exact hg (by rw [← e]; norm_num)

/-- helium (gamma = 5/3) on three points -/
example : (⟨fun _ => 1, fun _ => 2, fun _ => 1, 5 / 3⟩ : StateV 3).gamma ≠ 1.4 ∧
    ∃ s, (⟨fun _ => 1, fun _ => 2, fun _ => 1, 5 / 3⟩ : StateV 3).getitem (-1) = .ok s := by
  refine ⟨by norm_num, ?_⟩
  obtain ⟨s, h, -⟩ := (C82_index_partial (⟨fun _ => 1, fun _ => 2, fun _ => 1, 5 / 3⟩ : StateV 3)).1 2 (-1) (.inr (by norm_num))
  exact ⟨s, h⟩

/-! ## C83 -/

/-- C83 fails: the same final configuration (a base state and periodic conditions) gives different matrices according to
whether a request was made, and failed, before the boundary conditions were set: the first row of `At` is zero (boundary
equation) in one case, the identity in the other. -/
theorem C83_false {n : ℕ} {a b : ℝ} (hn : 2 ≤ n) (hab : a ≠ b) (q : StateV n) (hr : ∀ i, q.rho i ≠ 0) (hp : Heap) :
    ∃ B1 A1 B2 A2, (Euler1D.get_RHS_time_matrices (eulerAfter n a b (some q) hp [.set_BC (.str "per") (.str "per")])).1 = .ok (B1, A1) ∧
      (Euler1D.get_RHS_time_matrices (eulerAfter n a b (some q) hp [])).1 = .error .valueError ∧
      (Euler1D.get_RHS_time_matrices
        (eulerAfter n a b (some q) hp [.get_RHS_time_matrices, .set_BC (.str "per") (.str "per")])).1 = .ok (B2, A2) ∧
      (∀ w : ℕ → ℝ, A1.mulVec w 0 = 0 ∧ A2.mulVec w 0 = w 0) := by
  obtain ⟨h1, B2, A2, s', h2, h3⟩ := C44_after_exception_false hn hab q hr hp
  obtain ⟨d, hc, -⟩ := per_ok hn hab (withBC_inv (einv_after hn hab (some q) hp []) "per" "per") (q := q) rfl hr rfl
    (by rw [withBC_left]) (by rw [withBC_right])
  have e : eulerAfter n a b (some q) hp [.set_BC (.str "per") (.str "per")] = withBC (eulerAfter n a b (some q) hp []) "per" "per" := by
    show (Euler1D.set_BC (.str "per") (.str "per") (eulerAfter n a b (some q) hp [])).2 = _
    rw [set_BC_str _ (by simp [BC_names]) (by simp [BC_names])]
  refine ⟨perB (Dm n a b 1) (rawM a b q), perA n (eye (n * 3)), B2, A2, ?_, h1, by rw [h2], fun w => ⟨?_, h3 w 0 (by omega)⟩⟩
  · rw [e, get_compute (s := withBC (eulerAfter n a b (some q) hp []) "per" "per") rfl hc rfl rfl]
  · have := fun j => perA_end hn (eye (n * 3)) 0 (i := 0) (.inl rfl) j
    exact row_zero (by simpa using this) w

/-- C83 for calls that fail before any array is stored: without base state, requests fail and leave the operators unset, so
that later requests are not affected. -/
theorem C83_no_basestate_partial {n : ℕ} {a b : ℝ} (hn : 2 ≤ n) (hab : a ≠ b) (hp : Heap) (m : ℕ) :
    let s := eulerAfter n a b none hp (List.replicate m .get_RHS_time_matrices)
    (Euler1D.get_RHS_time_matrices s).1 = .error .attributeError ∧ s.B = none ∧ s.At = none ∧ s.basestate = none ∧ s.heap = hp := by
  have key : ∀ s : Obj n, EInv a b s → s.B = none → s.nvar = none →
      ∃ d, Euler1D.get_RHS_time_matrices s = (.error .attributeError, { s with diffop := d }) := by
    intro s hs hB hnv
    obtain ⟨d, hd, -⟩ := matder_ok hn hab hs (m := 1) le_rfl
    refine ⟨d, get_compute_err hB ?_⟩
    unfold Euler1D.compute_operators
    rw [Meth.bind_ok hd, Meth.bind_ok (Meth.get_apply _ _)]
    simp only []
    rw [hnv]
    rfl
  have inv : ∀ m, let s := eulerAfter n a b none hp (List.replicate m .get_RHS_time_matrices)
      s.B = none ∧ s.nvar = none ∧ s.At = none ∧ s.basestate = none ∧ s.heap = hp := by
    intro m
    induction m with
    | zero => exact ⟨rfl, rfl, rfl, rfl, rfl⟩
    | succ m ih =>
      simp only at ih ⊢
      obtain ⟨i1, i2, i3, i4, i5⟩ := ih
      obtain ⟨d, e⟩ := key _ (einv_after hn hab none hp (List.replicate m .get_RHS_time_matrices)) i1 i2
      have : eulerAfter n a b none hp (List.replicate (m + 1) .get_RHS_time_matrices)
          = (Euler1D.get_RHS_time_matrices (eulerAfter n a b none hp (List.replicate m .get_RHS_time_matrices))).2 := by
        unfold eulerAfter
        rw [List.replicate_succ', List.foldl_append]
        rfl
      rw [this, e]
      exact ⟨i1, i2, i3, i4, i5⟩
  intro s
  obtain ⟨i1, i2, i3, i4, i5⟩ := inv m
  obtain ⟨d, e⟩ := key s (einv_after hn hab none hp _) i1 i2
  exact ⟨by rw [e], i1, i3, i4, i5⟩

/-! ## C84 -/

/-- C84 (equal gammas): whenever the Riemann problem has a solution (no vacuum), the initial guess handed to the root finder
is a positive number. -/
theorem C84_equal_gamma_partial (qL qR : UState) (hL : qL.Valid) (hR : qR.Valid) (hg : qL.gamma = qR.gamma)
    (h : ∃ p, 0 < p ∧ du qL qR p = .ok 0) : ∃ p0, 0 < p0 ∧ pstar_estimate_expansion qL qR = .ok p0 := by
  refine estimate_finite hL hR hg ((duf_root hL hR).1 ?_)
  obtain ⟨p, hp, e⟩ := h
  rw [du_ok hL hR hp.le] at e
  exact ⟨p, hp, Except.ok.inj e⟩

/-- C84 fails for two gases: gamma 1.5 and 3, same pressure and sound speed, moving apart at velocity 4: the Riemann problem
has a solution, but the initial guess is not a number, so the problem cannot be built whatever the root finder. -/
theorem C84_two_gases_false : ∃ qL qR : UState, qL.Valid ∧ qR.Valid ∧ (∃ p, 0 < p ∧ du qL qR p = .ok 0) ∧
    pstar_estimate_expansion qL qR = .error .nonFinite ∧
    ∀ newton : RootFinder, Riemann.init newton qL qR = .error .nonFinite := by
  have hL : State.Valid (⟨1.5, 0, 1, 1.5⟩ : UState) := ⟨by norm_num, by norm_num, by norm_num⟩
  have hR : State.Valid (⟨3, 4, 1, 3⟩ : UState) := ⟨by norm_num, by norm_num, by norm_num⟩
  have cL : State.cs (⟨1.5, 0, 1, 1.5⟩ : UState) = 1 := by unfold State.cs; norm_num
  have cR : State.cs (⟨3, 4, 1, 3⟩ : UState) = 1 := by unfold State.cs; norm_num
  have he : pstar_estimate_expansion (⟨1.5, 0, 1, 1.5⟩ : UState) ⟨3, 4, 1, 3⟩ = .error .nonFinite := by
    unfold pstar_estimate_expansion
    simp only []
    rw [hL.asound, hR.asound, cL, cR, Py.ok_bind, Py.ok_bind, Py.div_ok (by norm_num), Py.ok_bind, Py.pow_ok _ (by norm_num), Py.ok_bind,
      Real.one_rpow, Py.div_ok one_ne_zero, Py.ok_bind, Py.ok_bind, Py.div_ok one_ne_zero, Py.ok_bind, Py.div_ok (by norm_num), Py.ok_bind,
      Py.div_ok (by norm_num), Py.ok_bind]
    unfold Py.pow
    rw [if_neg]
    rintro (h | ⟨h, -⟩ | ⟨-, k, hk⟩)
    · norm_num at h
    · norm_num at h
    · have : (18:ℝ) / 5 = k := by rw [← hk]; norm_num
      have h2 : (5 * k : ℤ) = 18 := by
        have : (5:ℝ) * k = 18 := by rw [← this]; norm_num
        exact_mod_cast this
      omega
  refine ⟨⟨1.5, 0, 1, 1.5⟩, ⟨3, 4, 1, 3⟩, hL, hR, ?_, he, fun newton => ?_⟩
  · obtain ⟨p, hp, e⟩ := (duf_root hL hR).2 (by unfold NoVacuum; rw [cL, cR]; norm_num)
    exact ⟨p, hp, by rw [du_ok hL hR hp.le, e]⟩
  · unfold Riemann.init
    rw [he]; rfl

end Aerokit.Props
