import Verif.Props.Eig
import Mathlib.Analysis.SpecialFunctions.ExpDeriv
import Mathlib.Analysis.Calculus.Deriv.Mul

/-! # Properties C99, C100 : what the eigenpairs of `LinOperator` mean -/

namespace Aerokit.Props
open LinOperator Spec

/-! ## C99: outcome of `converge_eigenpair` -/

/-- `ω` is an eigenvalue of the stability problem `B v = -i ω At v` -/
def IsEigenvalue {N : ℕ} (B At : Matrix (Fin N) (Fin N) ℂ) (ω : ℂ) : Prop :=
  ∃ v : Fin N → ℂ, v ≠ 0 ∧ B.mulVec v = (-Complex.I * ω) • At.mulVec v

theorem det_zero_iff {N : ℕ} {B At : Matrix (Fin N) (Fin N) ℂ} {ω : ℂ} :
    (B - ω • harmonic_time_coef • At).det = 0 ↔ IsEigenvalue B At ω := by
  rw [← Matrix.exists_mulVec_eq_zero_iff]
  unfold IsEigenvalue
  refine exists_congr fun v => and_congr_right fun _ => ?_
  rw [Matrix.sub_mulVec, Matrix.smul_mulVec, Matrix.smul_mulVec, smul_smul, sub_eq_zero]
  have : ω * harmonic_time_coef = -Complex.I * ω := by unfold harmonic_time_coef; ring
  rw [this]

/-- one pass of the loop: either the matrix is singular and nothing changes, or the new mode is the normalised
solution of the shifted system and the new value its quotient -/
theorem rayleigh_step_inv (solve : SolverC) (hs : SoundSolveC solve) {N : ℕ} (B M : Matrix (Fin N) (Fin N) ℂ) (om : ℂ) (v : Fin N → ℂ)
    (p : ℂ × (Fin N → ℂ)) (h : rayleigh_step solve B M om v = .ok p) :
    (B - om • M).det ≠ 0 ∧ (∃ c : ℝ, 0 < c ∧ (B - om • M).mulVec p.2 = fun i => (c : ℂ) * v i) ∧
      vdot p.2 (M.mulVec p.2) ≠ 0 ∧ vdot p.2 (B.mulVec p.2) = p.1 * vdot p.2 (M.mulVec p.2) := by
  unfold rayleigh_step at h
  by_cases hd : (B - om • M).det = 0
  · rw [(hs N _ v).2 hd] at h; cases h
  refine ⟨hd, ?_⟩
  obtain ⟨w, e1, hw⟩ := (hs N _ v).1 hd
  rw [e1, Py.ok_bind] at h
  cases e2 : vdivR w (LinOperator.norm w) with
  | error e' => rw [e2] at h; cases h
  | ok u =>
    rw [e2, Py.ok_bind] at h
    cases e3 : cdiv (vdot u (B.mulVec u)) (vdot u (M.mulVec u)) with
    | error e' => rw [e3] at h; cases h
    | ok z =>
      rw [e3, Py.ok_bind] at h
      cases h
      unfold vdivR at e2
      split_ifs at e2 with hn
      cases e2
      unfold cdiv at e3
      split_ifs at e3 with hm
      cases e3
      refine ⟨⟨1 / LinOperator.norm w, ?_, ?_⟩, hm, ?_⟩
      · have := norm_nonneg' w; positivity
      · have : (fun i => w i / (LinOperator.norm w : ℂ)) = ((1 / LinOperator.norm w : ℝ) : ℂ) • w := by
          funext i; simp only [Pi.smul_apply, smul_eq_mul]; push_cast; ring
        simp only [this]
        rw [Matrix.mulVec_smul, hw]
        rfl
      · exact (div_mul_cancel₀ _ hm).symm

theorem vdot_add {N : ℕ} (a b c : Fin N → ℂ) : vdot a (b - c) = vdot a b - vdot a c := by
  unfold vdot
  rw [← Finset.sum_sub_distrib]
  exact Finset.sum_congr rfl fun i _ => by simp only [Pi.sub_apply]; ring

theorem vdot_smul' {N : ℕ} (a b : Fin N → ℂ) (z : ℂ) : vdot a (z • b) = z * vdot a b := by
  unfold vdot
  rw [Finset.mul_sum]
  exact Finset.sum_congr rfl fun i _ => by simp only [Pi.smul_apply, smul_eq_mul]; ring

theorem vdot_self_unit {N : ℕ} {v : Fin N → ℂ} (h : ∑ i, Complex.normSq (v i) = 1) : vdot v v = 1 := by
  unfold vdot
  have : ∀ i, (starRingEnd ℂ) (v i) * v i = ((Complex.normSq (v i) : ℝ) : ℂ) := fun i => by
    rw [Complex.normSq_eq_conj_mul_self]
  rw [Finset.sum_congr rfl fun i _ => this i, ← Complex.ofReal_sum, h, Complex.ofReal_one]

theorem loop_snoc (solve : SolverC) {N : ℕ} (B M : Matrix (Fin N) (Fin N) ℂ) : ∀ (k : ℕ) (om : ℂ) (v : Fin N → ℂ),
    rayleigh_loop solve B M (k + 1) om v = (do
      let p ← rayleigh_loop solve B M k om v
      rayleigh_loop solve B M 1 p.1 p.2)
  | 0, om, v => by
    conv_rhs => unfold rayleigh_loop
    rfl
  | k + 1, om, v => by
    rw [rayleigh_loop]
    conv_rhs => rw [rayleigh_loop]
    cases hs : rayleigh_step solve B M om v with
    | ok p => simp only []; exact loop_snoc solve B M k p.1 p.2
    | error e => cases e <;> first | exact loop_snoc solve B M k om v | rfl

/-- C99: when one more iteration does not change the pair any more, the value is an exact eigenvalue of the
stability problem. -/
theorem C99_stationary (solve : SolverC) (hs : SoundSolveC solve) {N : ℕ} (B At : Matrix (Fin N) (Fin N) ℂ)
    (omega : ℂ) (v : Fin N → ℂ) (niter : ℕ) (om' : ℂ) (v' : Fin N → ℂ)
    (h : converge_eigenpair solve B At omega v niter = .ok (om', v'))
    (h1 : converge_eigenpair solve B At omega v (niter + 1) = .ok (om', v')) : IsEigenvalue B At om' := by
  have hu := C53_unit solve B At omega v niter om' v' h
  simp only [← Complex.normSq_eq_norm_sq] at hu
  unfold converge_eigenpair at h h1
  simp only [] at h h1
  cases e : vdivR v (LinOperator.norm v) with
  | error e' => rw [e] at h; cases h
  | ok w =>
    rw [e, Py.ok_bind] at h h1
    rw [loop_snoc, h, Py.ok_bind] at h1
    simp only [rayleigh_loop] at h1
    rw [← det_zero_iff]
    by_contra hd
    cases hst : rayleigh_step solve B (harmonic_time_coef • At) om' v' with
    | ok p =>
      rw [hst] at h1
      have hp : p = (om', v') := by
        have h1' := Except.ok.inj h1
        exact h1'
      subst hp
      obtain ⟨_, ⟨c, hc, hcv⟩, hm, hq⟩ := rayleigh_step_inv solve hs B _ om' v' _ hst
      simp only [] at hcv hm hq
      have h2 : vdot v' ((B - om' • harmonic_time_coef • At).mulVec v') = c := by
        rw [hcv, show (fun i => (c : ℂ) * v' i) = (c : ℂ) • v' from rfl, vdot_smul', vdot_self_unit hu, mul_one]
      rw [Matrix.sub_mulVec, Matrix.smul_mulVec, vdot_add, vdot_smul', hq, sub_self] at h2
      exact hc.ne' (by exact_mod_cast h2.symm)
    | error e =>
      have : rayleigh_step solve B (harmonic_time_coef • At) om' v' ≠ .error .linAlgError := by
        unfold rayleigh_step
        obtain ⟨x, hx, _⟩ := (hs N _ v').1 hd
        rw [hx, Py.ok_bind]
        unfold vdivR
        split_ifs
        · intro hh; cases hh
        · rw [Py.ok_bind]; unfold cdiv
          split_ifs
          · intro hh; cases hh
          · intro hh; cases hh
      rw [hst] at h1
      cases e <;> first | exact this hst | cases h1

/-- C99: after at least one iteration, either the residual is orthogonal to the mode (the value is the quotient of the mode), or the
given value was already an exact eigenvalue and the normalised starting pair is returned. -/
theorem C99_quotient (solve : SolverC) (hs : SoundSolveC solve) {N : ℕ} (B At : Matrix (Fin N) (Fin N) ℂ)
    (omega : ℂ) (v : Fin N → ℂ) (niter : ℕ) (hn : 1 ≤ niter) (om' : ℂ) (v' : Fin N → ℂ)
    (h : converge_eigenpair solve B At omega v niter = .ok (om', v')) :
    (∑ i, (starRingEnd ℂ) (v' i) * (B.mulVec v' i - -Complex.I * om' * At.mulVec v' i) = 0) ∨
    (IsEigenvalue B At omega ∧ om' = omega ∧ v' = fun i => v i / LinOperator.norm v) := by
  unfold converge_eigenpair at h
  simp only [] at h
  cases e : vdivR v (LinOperator.norm v) with
  | error e' => rw [e] at h; cases h
  | ok w =>
    rw [e, Py.ok_bind] at h
    have hw : w = fun i => v i / LinOperator.norm v := by
      unfold vdivR at e
      split_ifs at e
      cases e; rfl
    rw [← hw]
    clear hw e
    have key : ∀ (k : ℕ) (om : ℂ) (w : Fin N → ℂ) (om' : ℂ) (v' : Fin N → ℂ),
        rayleigh_loop solve B (harmonic_time_coef • At) k om w = .ok (om', v') →
        vdot v' (B.mulVec v') = om' * vdot v' ((harmonic_time_coef • At).mulVec v') ∨
        ((k = 0 ∨ IsEigenvalue B At om) ∧ om' = om ∧ v' = w) := by
      intro k
      induction k with
      | zero => intro om w om' v' h; unfold rayleigh_loop at h; cases h; exact Or.inr ⟨Or.inl rfl, rfl, rfl⟩
      | succ k ih =>
        intro om w om' v' h
        unfold rayleigh_loop at h
        cases hst : rayleigh_step solve B (harmonic_time_coef • At) om w with
        | ok p =>
          rw [hst] at h
          obtain ⟨_, _, _, hq⟩ := rayleigh_step_inv solve hs B _ om w _ hst
          rcases ih p.1 p.2 om' v' h with h' | ⟨_, h1, h2⟩
          · exact Or.inl h'
          · subst h1; subst h2; exact Or.inl hq
        | error er =>
          rw [hst] at h
          have hd : er = .linAlgError → IsEigenvalue B At om := by
            intro her
            rw [← det_zero_iff]
            by_contra hd
            subst her
            unfold rayleigh_step at hst
            obtain ⟨x, hx, _⟩ := (hs N _ w).1 hd
            rw [hx, Py.ok_bind] at hst
            unfold vdivR at hst
            split_ifs at hst
            · cases hst
            · rw [Py.ok_bind] at hst
              unfold cdiv at hst
              split_ifs at hst
              · cases hst
              · cases hst
          cases er <;> first
            | (rcases ih om w om' v' h with h' | ⟨_, h1, h2⟩
               · exact Or.inl h'
               · exact Or.inr ⟨Or.inr (hd rfl), h1, h2⟩)
            | cases h
    rcases key niter omega w om' v' h with h' | ⟨h0 | h0, h1, h2⟩
    · left
      rw [Matrix.smul_mulVec, vdot_smul'] at h'
      unfold vdot at h'
      rw [← sub_eq_zero, Finset.mul_sum, Finset.mul_sum, ← Finset.sum_sub_distrib] at h'
      rw [← h']
      refine Finset.sum_congr rfl fun i _ => ?_
      unfold harmonic_time_coef
      ring
    · omega
    · exact Or.inr ⟨h0, h1, h2⟩

/-- C99: only the direction of the starting mode matters: multiplying it by a positive number changes nothing. -/
theorem C99_scale (solve : SolverC) {N : ℕ} (B At : Matrix (Fin N) (Fin N) ℂ) (omega : ℂ) (v : Fin N → ℂ) (niter : ℕ)
    (c : ℝ) (hc : 0 < c) :
    converge_eigenpair solve B At omega (fun i => c * v i) niter = converge_eigenpair solve B At omega v niter := by
  have hn : LinOperator.norm (fun i => (c : ℂ) * v i) = c * LinOperator.norm v := by
    unfold LinOperator.norm
    have : ∑ i, Complex.normSq ((c : ℂ) * v i) = c ^ 2 * ∑ i, Complex.normSq (v i) := by
      rw [Finset.mul_sum]
      refine Finset.sum_congr rfl fun i _ => ?_
      rw [Complex.normSq_mul, Complex.normSq_ofReal]; ring
    rw [this, Real.sqrt_mul (sq_nonneg c), Real.sqrt_sq hc.le]
  unfold converge_eigenpair
  simp only []
  congr 1
  rw [hn]
  unfold vdivR
  have hc' : (c : ℂ) ≠ 0 := by exact_mod_cast hc.ne'
  by_cases h0 : LinOperator.norm v = 0
  · rw [if_pos (by rw [h0, mul_zero]), if_pos h0]
  · rw [if_neg (mul_ne_zero hc.ne' h0), if_neg h0]
    congr 1
    funext i
    push_cast
    rw [mul_div_mul_left _ _ hc']

/-- C99 fails for the mode: started from an exact eigenvalue, `converge_eigenpair` returns the starting mode (normalised),
whatever it is and however many iterations are asked: the singular matrix is met with `exit`, which does nothing. -/
theorem C99_mode_false (solve : SolverC) (hs : SoundSolveC solve) {N : ℕ} (B At : Matrix (Fin N) (Fin N) ℂ) (omega : ℂ)
    (he : IsEigenvalue B At omega) (v : Fin N → ℂ) (hv : v ≠ 0) (niter : ℕ) :
    converge_eigenpair solve B At omega v niter = .ok (omega, fun i => v i / LinOperator.norm v) := by
  have hdet := det_zero_iff.2 he
  have loop : ∀ k w, rayleigh_loop solve B (harmonic_time_coef • At) k omega w = .ok (omega, w) := by
    intro k
    induction k with
    | zero => intro w; rfl
    | succ k ih =>
      intro w
      unfold rayleigh_loop
      have : rayleigh_step solve B (harmonic_time_coef • At) omega w = .error .linAlgError := by
        unfold rayleigh_step
        rw [(hs N _ w).2 hdet]
        rfl
      rw [this]
      exact ih w
  unfold converge_eigenpair
  simp only []
  unfold vdivR
  rw [if_neg fun h => hv (norm_eq_zero'.1 h), Py.ok_bind, loop]

/-- a case of the failure: the operator `diag(1, 2)` with the eigenvalue `i` (growth rate 1) and the starting mode `(0, 1)`, which
belongs to the other eigenvalue: it comes back unchanged although it is not a mode for `i`; the hypotheses of `C99_stationary`
hold here too -/
example : ∃ solve : SolverC, SoundSolveC solve ∧ ∃ (B At : Matrix (Fin 2) (Fin 2) ℂ) (v : Fin 2 → ℂ), IsEigenvalue B At Complex.I ∧
    v ≠ 0 ∧ (∀ niter, ∃ v' : Fin 2 → ℂ, converge_eigenpair solve B At Complex.I v niter = .ok (Complex.I, v') ∧
      B.mulVec v' ≠ (-Complex.I * Complex.I) • At.mulVec v') := by
  obtain ⟨f, hf⟩ := exists_soundSolveC
  have he : IsEigenvalue (!![1, 0; 0, 2] : Matrix (Fin 2) (Fin 2) ℂ) 1 Complex.I := by
    refine ⟨![1, 0], fun h => by simpa using congrFun h 0, ?_⟩
    funext i
    fin_cases i <;> simp [Matrix.mulVec, dotProduct]
  have hv : (![0, 1] : Fin 2 → ℂ) ≠ 0 := fun h => by simpa using congrFun h 1
  refine ⟨f, hf, _, 1, ![0, 1], he, hv, fun niter => ⟨_, C99_mode_false f hf _ 1 _ he _ hv niter, fun h => ?_⟩⟩
  have hn : LinOperator.norm (![0, 1] : Fin 2 → ℂ) = 1 := by
    unfold LinOperator.norm; simp
  rw [hn] at h
  have := congrFun h 1
  simp [Matrix.mulVec, dotProduct] at this

/-! ## C100: the modes of `solve_eig` -/

/-- `q` solves the linear system of equations `At dq/dt = B q` -/
def SolvesLinear (B At : Mat ℂ) (q : ℝ → ℕ → ℂ) : Prop :=
  ∃ q' : ℝ → ℕ → ℂ, (∀ t, ∀ j < B.size, HasDerivAt (fun s => q s j) (q' t j) t) ∧
    ∀ t, ∀ i < B.size, At.mulVec (q' t) i = B.mulVec (q t) i

theorem mode_solves_iff {B At : Mat ℂ} (hsz : At.size = B.size) (ω : ℂ) (v : ℕ → ℂ) :
    SolvesLinear B At (fun t j => Complex.exp (-Complex.I * ω * t) * v j) ↔
      ∀ i < B.size, B.mulVec v i = ω * (-Complex.I * At.mulVec v i) := by
  have hd : ∀ (t : ℝ) (j : ℕ), HasDerivAt (fun s : ℝ => Complex.exp (-Complex.I * ω * s) * v j)
      (-Complex.I * ω * Complex.exp (-Complex.I * ω * t) * v j) t := by
    intro t j
    have h0 : HasDerivAt (fun s : ℝ => -Complex.I * ω * (s : ℂ)) (-Complex.I * ω) t := by
      simpa using (Complex.ofRealCLM.hasDerivAt (x := t)).const_mul (-Complex.I * ω)
    exact ((h0.cexp).mul_const (v j)).congr_deriv (by ring)
  have hB : ∀ (c : ℂ) (M : Mat ℂ) (i : ℕ), M.mulVec (fun j => c * v j) i = c * M.mulVec v i := by
    intro c M i
    unfold Mat.mulVec
    rw [Finset.mul_sum]
    exact Finset.sum_congr rfl fun j _ => by ring
  constructor
  · rintro ⟨q', h1, h2⟩ i hi
    have e : ∀ j < B.size, q' 0 j = -Complex.I * ω * v j := fun j hj => by
      have := (h1 0 j hj).unique (hd 0 j)
      rw [this]; simp
    have := h2 0 i hi
    have e2 : At.mulVec (q' 0) i = -Complex.I * ω * At.mulVec v i := by
      rw [← hB]
      unfold Mat.mulVec
      refine Finset.sum_congr rfl fun j hj => ?_
      rw [e j (by rw [← hsz]; exact Finset.mem_range.1 hj)]
    rw [e2] at this
    simp only [Complex.ofReal_zero, mul_zero, Complex.exp_zero, one_mul] at this
    rw [← this]; ring
  · intro h
    refine ⟨fun t j => -Complex.I * ω * Complex.exp (-Complex.I * ω * t) * v j, fun t j _ => hd t j, fun t i hi => ?_⟩
    rw [hB, hB, h i hi]; ring

/-- C100: every eigenpair `(ω, v)` returned by `solve_eig` is a mode of the stability problem: `q(t) = exp(-i ω t) v` is a non-zero solution of
`At dq/dt = B q` (evolution equations and boundary rows alike), whose amplitude is multiplied by `exp(Im(ω) t)`. -/
theorem C100_modes (eig : Eig) (he : SoundEig eig) (B At : Mat ℂ) (hsz : At.size = B.size) (vals : List ℂ) (vects : List (ℕ → ℂ))
    (h : solve_eig eig B At = .ok (vals, vects)) :
    vals.length = vects.length ∧ ∀ p ∈ vals.zip vects,
      SolvesLinear B At (fun t j => Complex.exp (-Complex.I * p.1 * t) * p.2 j) ∧ (∃ j < B.size, p.2 j ≠ 0) ∧
      ∀ (t : ℝ) (j : ℕ), ‖Complex.exp (-Complex.I * p.1 * t) * p.2 j‖ = Real.exp (p.1.im * t) * ‖p.2 j‖ := by
  unfold solve_eig at h
  obtain ⟨h1, h2⟩ := he _ _ _ _ h
  refine ⟨h1, fun p hp => ?_⟩
  obtain ⟨h3, h4⟩ := h2 p hp
  refine ⟨(mode_solves_iff hsz p.1 p.2).2 fun i hi => ?_, h3, fun t j => ?_⟩
  · rw [h4 i hi]
    congr 1
    unfold Mat.mulVec harmonic_time_coef
    simp only []
    rw [Finset.mul_sum]
    exact Finset.sum_congr rfl fun j _ => by ring
  · rw [norm_mul, Complex.norm_exp]
    congr 2
    simp

/-- C100: conversely nothing else is asked of a mode: `exp(-i ω t) v` solves `At dq/dt = B q` exactly when `(ω, v)` is an eigenpair of the
problem handed to `scipy.linalg.eig`. -/
theorem C100_converse (B At : Mat ℂ) (hsz : At.size = B.size) (ω : ℂ) (v : ℕ → ℂ) :
    SolvesLinear B At (fun t j => Complex.exp (-Complex.I * ω * t) * v j) ↔
      ∀ i < B.size, B.mulVec v i = (-Complex.I * ω) * At.mulVec v i := by
  rw [mode_solves_iff hsz]
  refine forall₂_congr fun i _ => ?_
  constructor <;> intro h <;> rw [h] <;> ring

/-- the problem handed to `eig` is `B v = ω (-i At) v`: an `eig` that returns a value and a mode for a 1×1 problem -/
example : ∃ eig : Eig, SoundEig eig ∧ ∃ (B At : Mat ℂ) (vals : List ℂ) (vects : List (ℕ → ℂ)), At.size = B.size ∧
    solve_eig eig B At = .ok (vals, vects) ∧ vals = [2 * Complex.I] := by
  classical
  refine ⟨fun A M => if A.size = 1 ∧ M.size = 1 ∧ M.e 0 0 ≠ 0 then .ok ([A.e 0 0 / M.e 0 0], [fun _ => 1]) else .error .linAlgError, ?_,
    ⟨1, fun _ _ => 2⟩, ⟨1, fun _ _ => 1⟩, [2 * Complex.I], [fun _ => 1], rfl, ?_, rfl⟩
  · intro A M vals vects h
    simp only [] at h
    split_ifs at h with hc
    cases h
    refine ⟨rfl, fun p hp => ?_⟩
    simp only [List.zip_cons_cons, List.zip_nil_left, List.mem_singleton] at hp
    subst hp
    refine ⟨⟨0, by omega, one_ne_zero⟩, fun i hi => ?_⟩
    have : i = 0 := by omega
    subst this
    unfold Mat.mulVec
    rw [hc.1, hc.2.1]
    simp [hc.2.2]
  · unfold solve_eig harmonic_time_coef
    simp only []
    rw [if_pos (by simp)]
    congr 3
    have := Complex.I_ne_zero
    field_simp
    simp

end Aerokit.Props
