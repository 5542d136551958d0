import Verif.Model.Tube
import Verif.Lemmas.ModeStable
import Verif.Props.EulerModes
import Verif.Lemmas.Isentropic

/-! # Property C145 : no growing modes over a uniform flow -/

namespace Aerokit.Props
open LinOperator NumSpectral Model1D Euler1D Spec

variable {n : ℕ} {a b : ℝ}

/-- C145: over a uniform flow with periodic conditions, every eigenvalue of the computed matrices is real: no mode grows or
decays, whatever the flow, the interval and the Mach number.  Proved for every even number of points and for every odd number
up to 101 (missing: larger odd numbers). -/
theorem C145_periodic_partial (hn : 3 ≤ n) (hsize : Even n ∨ n ≤ 101) (hab : a ≠ b) (q0 : Option (StateV n)) (hp : Heap)
    (calls : List (EulerCall n)) {R U P g : ℝ} (hR : 0 < R) (hP : 0 < P) (hg : 0 < g) (B At : Mat ℝ)
    (hc : Computes a b q0 hp calls "per" (unif n R U P g) B At) (ω : ℂ) (v : ℕ → ℂ) (hv : IsMode B At ω v) : ω.im = 0 := by
  have hD : Derivative a b q0 hp calls 1 (Dm n a b 1) := (derivative_eq (by omega) hab le_rfl).2 rfl
  obtain ⟨s, -, w, hw⟩ := (C113_dispersion (by omega) hab q0 hp calls hR hP hg B At _ hc hD ω).1 ⟨v, hv⟩
  exact ChebStable.wave_neutral hn hsize hab hw

/-- C145: in a gas at rest between two walls every eigenvalue is real, up to 101 points (missing: larger numbers). -/
theorem C145_walls_partial (hn : 3 ≤ n) (hsize : n ≤ 101) (hab : a < b) (q0 : Option (StateV n)) (hp : Heap)
    (calls : List (EulerCall n)) {R P g : ℝ} (hR : 0 < R) (hP : 0 < P) (hg : 0 < g) (B At : Mat ℝ)
    (hc : Computes a b q0 hp calls "sym" (unif n R 0 P g) B At) (ω : ℂ) (v : ℕ → ℂ) (hv : IsMode B At ω v) : ω.im = 0 := by
  by_cases hω : ω = 0
  · rw [hω]; rfl
  obtain ⟨h1, h2, h3⟩ := C113_pressure hn hab q0 hp calls hR hP hg B At (Dm n a b 1) (Dm n a b 2) hc
    ((derivative_eq (by omega) hab.ne le_rfl).2 rfl) ((derivative_eq (by omega) hab.ne (by norm_num)).2 rfl) ω hω v hv
  exact ChebStable.wave_walls hn hab.ne (by positivity) h1 h2 h3 (.inl hsize)

/-- C145: in a gas at rest between two walls, for any number of points, the eigenvalues of the modes whose pressure is
symmetric (even number of points) or antisymmetric (odd number of points) are real. -/
theorem C145_walls_parity_partial (hn : 3 ≤ n) (hab : a < b) (q0 : Option (StateV n)) (hp : Heap)
    (calls : List (EulerCall n)) {R P g : ℝ} (hR : 0 < R) (hP : 0 < P) (hg : 0 < g) (B At : Mat ℝ)
    (hc : Computes a b q0 hp calls "sym" (unif n R 0 P g) B At) (ω : ℂ) (v : ℕ → ℂ) (hv : IsMode B At ω v)
    (hpar : ∀ i : Fin n, cfield n v 2 i.rev = (-1) ^ n * cfield n v 2 i) : ω.im = 0 := by
  by_cases hω : ω = 0
  · rw [hω]; rfl
  obtain ⟨h1, h2, h3⟩ := C113_pressure hn hab q0 hp calls hR hP hg B At (Dm n a b 1) (Dm n a b 2) hc
    ((derivative_eq (by omega) hab.ne le_rfl).2 rfl) ((derivative_eq (by omega) hab.ne (by norm_num)).2 rfl) ω hω v hv
  exact ChebStable.wave_walls hn hab.ne (by positivity) h1 h2 h3 (.inr hpar)

/-- C145, the example `euler1d.py`: for every Mach number and every even number of points, or odd number up to 101 (the script
uses 101), the object is built, its matrices are computed, their modes are the periodic waves at the speeds `100 (Mach - 1)`,
`100 Mach`, `100 (Mach + 1)` on `[0, 1]`, and no eigenvalue has an imaginary part. -/
theorem C145_tube_partial (hn : 3 ≤ n) (hsize : Even n ∨ n ≤ 101) (Mach : ℝ) (hp : Heap) :
    ∃ (s s' : Obj n) (d : Cheb n) (D : Matrix (Fin n) (Fin n) ℝ) (B At : Mat ℝ), Tube.new n Mach hp = .ok s ∧
      Euler1D.compute_operators s = (.ok (), s') ∧ s'.B = some B ∧ s'.At = some At ∧ B.size = 3 * n ∧ At.size = 3 * n ∧
      NumSpectral.matder s.diffop 1 = .ok (d, D) ∧
      ∀ ω : ℂ, ((∃ v, IsMode B At ω v) ↔ ∃ c : ℝ, (c = 100 * (Mach - 1) ∨ c = 100 * Mach ∨ c = 100 * (Mach + 1)) ∧
          ∃ w, PeriodicWave (by omega) D c ω w) ∧ ∀ v, IsMode B At ω v → ω.im = 0 := by
  have hn2 : 2 ≤ n := by omega
  have hg0 : DefaultGas.gamma0 = 7/5 := Isentropic.gamma0_eq
  have e0 : (0.0:ℝ) = 0 := by norm_num
  have e1 : (1.0:ℝ) = 1 := by norm_num
  have hQ : Tube.Q n Mach = unif n (7/5) (100 * Mach) 10000 (7/5) := by
    unfold Tube.Q unif
    rw [hg0]
    simp only []
    congr 1
    · funext _; norm_num
    · funext _; norm_num; ring
    · funext _; norm_num
  have hab : (0:ℝ) ≠ 1 := by norm_num
  obtain ⟨q, hq⟩ : ∃ q, q = unif n (7/5) (100 * Mach) 10000 (7/5) := ⟨_, rfl⟩
  obtain ⟨B, At, hc⟩ := (C113_periodic hn2 hab (some (Tube.Q n Mach)) hp [] (Tube.Q n Mach) rfl
    (fun _ => by rw [hQ]; unfold unif; norm_num)).1
  have hc' := hc
  have hsz := (computes_per hn2 hab (fun _ => by rw [hQ]; unfold unif; norm_num) rfl).1 hc
  obtain ⟨-, s, s', h1, h2, h3, h4⟩ := hc
  rw [hQ] at hc'
  have hcs : Real.sqrt (7/5 * 10000 / (7/5)) = 100 := by
    rw [show (7/5 * 10000 / (7/5) : ℝ) = 100 ^ 2 by norm_num]; exact Real.sqrt_sq (by norm_num)
  have hset := set_BC_str (eulerAfter n 0 1 (some (Tube.Q n Mach)) hp []) (t := "per") (t' := "per") (by simp [BC_names]) (by simp [BC_names])
  have hI := withBC_inv (einv_after hn2 hab (some (Tube.Q n Mach)) hp []) "per" "per"
  have hs : s = withBC (eulerAfter n 0 1 (some (Tube.Q n Mach)) hp []) "per" "per" := by
    rw [hset] at h1; cases h1; rfl
  obtain ⟨d, hd, -⟩ := matder_spec hn2 hab hI.diff (m := 1) le_rfl
  refine ⟨s, s', d, Dm n 0 1 1, B, At, ?_, h2, h3, h4, ?_, ?_, by rw [hs]; exact hd, fun ω => ⟨?_, fun v hv => ?_⟩⟩
  · unfold Tube.new
    rw [e0, e1]
    show (match Euler1D.set_BC (.str "per") (.str "per") (eulerAfter n 0 1 (some (Tube.Q n Mach)) hp []) with
      | (.ok _, s) => Except.ok s
      | (.error e, _) => Except.error e) = _
    rw [h1]
  · rw [hsz.1]; exact Nat.mul_comm _ _
  · rw [hsz.2]; exact Nat.mul_comm _ _
  · have hdis := C113_dispersion hn2 hab (some (unif n (7/5) (100 * Mach) 10000 (7/5))) hp [] (by norm_num) (by norm_num) (by norm_num)
      B At (Dm n 0 1 1) hc' ((derivative_eq hn2 hab le_rfl).2 rfl) ω
    rw [hcs] at hdis
    rw [hdis]
    refine exists_congr fun c => and_congr_left fun _ => ?_
    rw [show 100 * (Mach - 1) = 100 * Mach - 100 by ring, show 100 * (Mach + 1) = 100 * Mach + 100 by ring]
  · exact C145_periodic_partial hn hsize hab _ hp [] (by norm_num) (by norm_num) (by norm_num) B At hc' ω v hv

/-! ## non-vacuity -/

/-- six points on `[-1, 1]`: a travelling wave with the wave number `sqrt(48/5)` (the exact one is `π`) -/
example (hp : Heap) {R U P g : ℝ} (hR : 0 < R) (hP : 0 < P) (hg : 0 < g) :
    ∃ B At v, Computes (n := 6) (-1) 1 (some (unif 6 R U P g)) hp [] "per" (unif 6 R U P g) B At ∧
      IsMode B At ((U + Real.sqrt (g * P / R)) * Real.sqrt (48/5) : ℝ) v := by
  have hab : (-1:ℝ) ≠ 1 := by norm_num
  have hn : 2 ≤ 6 := by norm_num
  obtain ⟨B, At, hc⟩ := (C113_periodic (n := 6) hn hab (some (unif 6 R U P g)) hp [] (unif 6 R U P g) rfl
    (fun _ => hR.ne')).1
  obtain ⟨k, hk⟩ : ∃ k, k = Real.sqrt (48/5) := ⟨_, rfl⟩
  have hk0 : 0 < k := by rw [hk]; exact Real.sqrt_pos.2 (by norm_num)
  have hkk : k ^ 2 = 48/5 := by rw [hk]; exact Real.sq_sqrt (by norm_num)
  obtain ⟨s, hs⟩ : ∃ s, s = U + Real.sqrt (g * P / R) := ⟨_, rfl⟩
  rw [← hk, ← hs]
  obtain ⟨pa, hpa⟩ : ∃ pa : Polynomial ℝ, pa = Polynomial.X ^ 4 - Polynomial.C 2 * Polynomial.X ^ 2 + Polynomial.C (23/48) := ⟨_, rfl⟩
  obtain ⟨pb, hpb⟩ : ∃ pb : Polynomial ℝ, pb = Polynomial.C (-4/k) * Polynomial.X ^ 3 + Polynomial.C (4/k) * Polynomial.X := ⟨_, rfl⟩
  have da : pa.degree < ((6:ℕ) : WithBot ℕ) := by
    rw [hpa]; refine lt_of_le_of_lt (b := ((4:ℕ) : WithBot ℕ)) ?_ (by exact_mod_cast (by norm_num : 4 < 6)); compute_degree; exact le_rfl
  have db : pb.degree < ((6:ℕ) : WithBot ℕ) := by
    rw [hpb]; refine lt_of_le_of_lt (b := ((3:ℕ) : WithBot ℕ)) ?_ (by exact_mod_cast (by norm_num : 3 < 6)); compute_degree; exact le_rfl
  obtain ⟨w, hw⟩ : ∃ w : Fin 6 → ℂ, w = fun j => 1 * ((pa.eval (xv 6 (-1) 1 j) : ℝ) : ℂ) + Complex.I * ((pb.eval (xv 6 (-1) 1 j) : ℝ) : ℂ) := ⟨_, rfl⟩
  have hdw : ∀ i, dC (Dm 6 (-1) 1 1) w i = ((4 * (xv 6 (-1) 1 i) ^ 3 - 4 * xv 6 (-1) 1 i : ℝ) : ℂ)
      + Complex.I * ((-12/k * (xv 6 (-1) 1 i) ^ 2 + 4/k : ℝ) : ℂ) := by
    intro i
    rw [hw, dC_lin, dC_poly hn hab 1 pa da, dC_poly hn hab 1 pb db, hpa, hpb]
    rw [Function.iterate_one]
    simp [Polynomial.derivative_X_pow]
    ring
  have hwv : ∀ i, w i = (((xv 6 (-1) 1 i) ^ 4 - 2 * (xv 6 (-1) 1 i) ^ 2 + 23/48 : ℝ) : ℂ)
      + Complex.I * ((-4/k * (xv 6 (-1) 1 i) ^ 3 + 4/k * xv 6 (-1) 1 i : ℝ) : ℂ) := by
    intro i
    rw [hw, hpa, hpb]
    simp
  have hxv : ∀ i : Fin 6, xv 6 (-1) 1 i = -Welfert.node 6 i := by
    intro i; unfold xv; ring
  have x0 : xv 6 (-1) 1 ⟨0, by norm_num⟩ = -1 := by rw [hxv, Welfert.node_zero]
  have x5 : xv 6 (-1) 1 ⟨6 - 1, by norm_num⟩ = 1 := by rw [hxv, Welfert.node_last hn]; norm_num
  suffices hw' : PeriodicWave hn (Dm 6 (-1) 1 1) s ((s * k : ℝ) : ℂ) w by
    obtain ⟨v, hv⟩ := (C113_dispersion hn hab _ _ _ hR hP hg B At _ hc ((derivative_eq hn hab le_rfl).2 rfl) ((s * k : ℝ) : ℂ)).2
      ⟨s, .inr (.inr hs), w, hw'⟩
    exact ⟨B, At, v, hc, hv⟩
  refine ⟨?_, ?_, ?_⟩
  · intro h0
    have := congrFun h0 ⟨0, by norm_num⟩
    rw [hwv, x0] at this
    have h2 := congrArg Complex.re this
    simp at h2
    norm_num at h2
  · refine ⟨?_, ?_⟩
    · rw [hwv, hwv, x0, x5]; push_cast; ring
    · rw [hdw, hdw, x0, x5]; push_cast; ring
  · intro i h0 h1
    have hom := Welfert.Om_eval (N := 6) hn i.2
    have hU4 : Polynomial.Chebyshev.U ℝ (((6 - 1 : ℕ) : ℤ) - 1) = 16 * Polynomial.X ^ 4 - 12 * Polynomial.X ^ 2 + 1 := by
      have u2 := Polynomial.Chebyshev.U_add_two ℝ 0
      have u3 := Polynomial.Chebyshev.U_add_two ℝ 1
      have u4 := Polynomial.Chebyshev.U_add_two ℝ 2
      norm_num at u2 u3 u4 ⊢
      rw [u4, u3, u2]
      ring
    unfold Welfert.Om at hom
    rw [hU4] at hom
    simp only [Polynomial.eval_mul, Polynomial.eval_sub, Polynomial.eval_add, Polynomial.eval_pow, Polynomial.eval_X, Polynomial.eval_one,
      Polynomial.eval_ofNat] at hom
    have hx : xv 6 (-1) 1 i = -Welfert.node 6 i := hxv i
    have hne : (Welfert.node 6 i) ^ 2 - 1 ≠ 0 := by
      have a1 : Welfert.node 6 i < 1 := by
        rw [← Welfert.node_zero 6]; exact Welfert.node_lt hn h0 i.2
      have a2 : -1 < Welfert.node 6 i := by
        rw [← Welfert.node_last hn]; exact Welfert.node_lt hn h1 (by norm_num)
      nlinarith
    have hf := (mul_eq_zero.1 hom).resolve_left hne
    have hf' : 16 * (xv 6 (-1) 1 i) ^ 4 - 12 * (xv 6 (-1) 1 i) ^ 2 + 1 = 0 := by rw [hx]; linear_combination hf
    rw [hdw, hwv]
    obtain ⟨x, hx'⟩ : ∃ x, x = xv 6 (-1) 1 i := ⟨_, rfl⟩
    rw [← hx'] at hf' ⊢
    have r1 : s * (4 * x ^ 3 - 4 * x) = -(s * k) * (-4/k * x ^ 3 + 4/k * x) := by field_simp; ring
    have r2 : s * (-12/k * x ^ 2 + 4/k) = (s * k) * (x ^ 4 - 2 * x ^ 2 + 23/48) := by
      field_simp
      linear_combination (-(x ^ 4 - 2 * x ^ 2 + 23/48) * 48 * s) * hkk + (-(48/5) * 3 * s) * hf'
    apply Complex.ext
    · simp only [Complex.mul_re, Complex.mul_im, Complex.add_re, Complex.add_im, Complex.ofReal_re, Complex.ofReal_im, Complex.I_re, Complex.I_im]
      linear_combination r1
    · simp only [Complex.mul_re, Complex.mul_im, Complex.add_re, Complex.add_im, Complex.ofReal_re, Complex.ofReal_im, Complex.I_re, Complex.I_im]
      linear_combination r2

/-- the tube of the script -/
example (hp : Heap) : ∃ s, Tube.new 101 0.55 hp = .ok s := by
  obtain ⟨s, -, -, -, -, -, h, -⟩ := C145_tube_partial (n := 101) (by norm_num) (.inr le_rfl) 0.55 hp
  exact ⟨s, h⟩

end Aerokit.Props
