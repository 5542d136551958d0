import Verif.Lemmas.EulerModes
import Verif.Props.ChebAlgebra
import Mathlib.Analysis.Calculus.LocalExtr.Polynomial
import Mathlib.Analysis.SpecialFunctions.Pow.Real

/-! # Property C113 : modes of `Euler1D` -/

namespace Aerokit.Props
open LinOperator NumSpectral Model1D Euler1D Spec

variable {n : ℕ} {a b : ℝ}

/-- `Euler1D(n, a, b, q0)`, after any history of calls leaving the base state `q`, then `set_BC(t, t)` and
`compute_operators()`: `B` and `At` are the matrices of the object -/
def Computes (a b : ℝ) (q0 : Option (StateV n)) (hp : Heap) (calls : List (EulerCall n)) (t : String) (q : StateV n)
    (B At : Mat ℝ) : Prop :=
  (eulerAfter n a b q0 hp calls).basestate = some q ∧
    ∃ s1 s2, Euler1D.set_BC (.str t) (.str t) (eulerAfter n a b q0 hp calls) = (.ok (), s1) ∧
      Euler1D.compute_operators s1 = (.ok (), s2) ∧ s2.B = some B ∧ s2.At = some At

/-- `D` is the derivative matrix of order `m` of the object -/
def Derivative (a b : ℝ) (q0 : Option (StateV n)) (hp : Heap) (calls : List (EulerCall n)) (m : ℕ)
    (D : Matrix (Fin n) (Fin n) ℝ) : Prop :=
  ∃ d, NumSpectral.matder (eulerAfter n a b q0 hp calls).diffop m = .ok (d, D)

theorem derivative_eq (hn : 2 ≤ n) (hab : a ≠ b) {q0 : Option (StateV n)} {hp : Heap} {calls : List (EulerCall n)} {m : ℕ}
    (hm : 1 ≤ m) {D : Matrix (Fin n) (Fin n) ℝ} : Derivative a b q0 hp calls m D ↔ D = Dm n a b m := by
  have hI := einv_after hn hab q0 hp calls
  obtain ⟨d, hd, -⟩ := matder_spec hn hab hI.diff (m := m) hm
  unfold Derivative
  constructor
  · rintro ⟨d', h⟩
    rw [hd] at h
    exact (congrArg Prod.snd (Except.ok.inj h)).symm
  · rintro rfl; exact ⟨d, hd⟩

theorem computes_per (hn : 2 ≤ n) (hab : a ≠ b) {q0 : Option (StateV n)} {hp : Heap} {calls : List (EulerCall n)}
    {q : StateV n} {B At : Mat ℝ} (hr : ∀ i, q.rho i ≠ 0) (hq : (eulerAfter n a b q0 hp calls).basestate = some q) :
    Computes a b q0 hp calls "per" q B At ↔ B = perB (Dm n a b 1) (rawM a b q) ∧ At = perA n (eye (n * 3)) := by
  have hI := einv_after hn hab q0 hp calls
  obtain ⟨d', hc, -⟩ := per_ok hn hab (withBC_inv hI "per" "per") hq hr rfl (by rw [withBC_left]) (by rw [withBC_right])
  have hset := set_BC_str (eulerAfter n a b q0 hp calls) (t := "per") (t' := "per") (by simp [BC_names]) (by simp [BC_names])
  constructor
  · rintro ⟨-, s1, s2, h1, h2, h3, h4⟩
    rw [hset] at h1
    cases h1
    rw [hc] at h2
    cases h2
    simp only [Option.some.injEq] at h3 h4
    exact ⟨h3.symm, h4.symm⟩
  · rintro ⟨rfl, rfl⟩
    exact ⟨hq, _, _, hset, hc, rfl, rfl⟩

theorem computes_sym (hn : 2 ≤ n) (hab : a ≠ b) {q0 : Option (StateV n)} {hp : Heap} {calls : List (EulerCall n)}
    {q : StateV n} {B At : Mat ℝ} (hr : ∀ i, q.rho i ≠ 0) (hq : (eulerAfter n a b q0 hp calls).basestate = some q) :
    Computes a b q0 hp calls "sym" q B At ↔ B = symB (Dm n a b 1) (n - 1) (symB (Dm n a b 1) 0 (rawM a b q)) ∧
      At = symA n (n - 1) (symA n 0 (eye (n * 3))) := by
  have hI := einv_after hn hab q0 hp calls
  obtain ⟨d', hc, -⟩ := sym_ok hn hab (withBC_inv hI "sym" "sym") hq hr rfl (by rw [withBC_left]) (by rw [withBC_right])
    (by omega)
  have hset := set_BC_str (eulerAfter n a b q0 hp calls) (t := "sym") (t' := "sym") (by simp [BC_names]) (by simp [BC_names])
  constructor
  · rintro ⟨-, s1, s2, h1, h2, h3, h4⟩
    rw [hset] at h1
    cases h1
    rw [hc] at h2
    cases h2
    simp only [Option.some.injEq] at h3 h4
    exact ⟨h3.symm, h4.symm⟩
  · rintro ⟨rfl, rfl⟩
    exact ⟨hq, _, _, hset, hc, rfl, rfl⟩

/-! ## the linearised problem -/

/-- C113: with periodic conditions, `(ω, v)` is a mode exactly when the three fields of `v` and their derivatives match
at both ends and satisfy the linearised Euler equations at every interior node; such matrices are obtained
for every base state without zero density. -/
theorem C113_periodic (hn : 2 ≤ n) (hab : a ≠ b) (q0 : Option (StateV n)) (hp : Heap) (calls : List (EulerCall n))
    (q : StateV n) (hq : (eulerAfter n a b q0 hp calls).basestate = some q) (hr : ∀ i, q.rho i ≠ 0) :
    (∃ B At, Computes a b q0 hp calls "per" q B At) ∧
    ∀ B At D, Computes a b q0 hp calls "per" q B At → Derivative a b q0 hp calls 1 D → ∀ ω v,
      IsMode B At ω v ↔ (∃ k i, cfield n v k i ≠ 0) ∧ (∀ k, Periodic hn D (cfield n v k)) ∧
        ∀ i : Fin n, 0 < (i:ℕ) → (i:ℕ) < n - 1 →
          LinEuler D q.gamma q.rho q.u q.p ω (cfield n v 0) (cfield n v 1) (cfield n v 2) i := by
  refine ⟨⟨_, _, (computes_per hn hab hr hq).2 ⟨rfl, rfl⟩⟩, fun B At D hc hD ω v => ?_⟩
  obtain ⟨rfl, rfl⟩ := (computes_per hn hab hr hq).1 hc
  obtain rfl := (derivative_eq hn hab le_rfl).1 hD
  have hs : (perB (Dm n a b 1) (rawM a b q)).size = 3 * n := Nat.mul_comm _ _
  unfold IsMode
  rw [hs, per_modes hn]
  refine and_congr_left fun _ => ⟨?_, ?_⟩
  · rintro ⟨j, hj, hv⟩
    obtain ⟨k, i, rfl⟩ := idx_cases hj
    exact ⟨k, i, hv⟩
  · rintro ⟨k, i, h⟩
    exact ⟨_, idx_lt k i.2, h⟩

/-- C113: with symmetry conditions, `(ω, v)` is a mode exactly when at both ends the velocity and the derivatives of
density and pressure vanish, and the linearised Euler equations hold at every interior node. -/
theorem C113_walls (hn : 2 ≤ n) (hab : a ≠ b) (q0 : Option (StateV n)) (hp : Heap) (calls : List (EulerCall n))
    (q : StateV n) (hq : (eulerAfter n a b q0 hp calls).basestate = some q) (hr : ∀ i, q.rho i ≠ 0) :
    (∃ B At, Computes a b q0 hp calls "sym" q B At) ∧
    ∀ B At D, Computes a b q0 hp calls "sym" q B At → Derivative a b q0 hp calls 1 D → ∀ ω v,
      IsMode B At ω v ↔ (∃ k i, cfield n v k i ≠ 0) ∧
        (∀ i : Fin n, ((i:ℕ) = 0 ∨ (i:ℕ) = n - 1) → cfield n v 1 i = 0 ∧ dC D (cfield n v 0) i = 0 ∧ dC D (cfield n v 2) i = 0) ∧
        ∀ i : Fin n, 0 < (i:ℕ) → (i:ℕ) < n - 1 →
          LinEuler D q.gamma q.rho q.u q.p ω (cfield n v 0) (cfield n v 1) (cfield n v 2) i := by
  refine ⟨⟨_, _, (computes_sym hn hab hr hq).2 ⟨rfl, rfl⟩⟩, fun B At D hc hD ω v => ?_⟩
  obtain ⟨rfl, rfl⟩ := (computes_sym hn hab hr hq).1 hc
  obtain rfl := (derivative_eq hn hab le_rfl).1 hD
  have hs : (symB (Dm n a b 1) (n - 1) (symB (Dm n a b 1) 0 (rawM a b q))).size = 3 * n := Nat.mul_comm _ _
  unfold IsMode
  rw [hs, sym_modes hn]
  refine and_congr_left fun _ => ⟨?_, ?_⟩
  · rintro ⟨j, hj, hv⟩
    obtain ⟨k, i, rfl⟩ := idx_cases hj
    exact ⟨k, i, hv⟩
  · rintro ⟨k, i, h⟩
    exact ⟨_, idx_lt k i.2, h⟩

/-! ## uniform base flow -/

theorem dC_lin (D : Matrix (Fin n) (Fin n) ℝ) (α β : ℂ) (f g : Fin n → ℂ) (i : Fin n) :
    dC D (fun j => α * f j + β * g j) i = α * dC D f i + β * dC D g i := by
  unfold dC
  rw [Finset.mul_sum, Finset.mul_sum, ← Finset.sum_add_distrib]
  exact Finset.sum_congr rfl fun j _ => by ring

theorem dC_smul (D : Matrix (Fin n) (Fin n) ℝ) (α : ℂ) (f : Fin n → ℂ) (i : Fin n) :
    dC D (fun j => α * f j) i = α * dC D f i := by
  unfold dC
  rw [Finset.mul_sum]
  exact Finset.sum_congr rfl fun j _ => by ring

theorem dC_zero (D : Matrix (Fin n) (Fin n) ℝ) (i : Fin n) : dC D (fun _ => 0) i = 0 := by
  unfold dC; simp

theorem Dm_const (hn : 2 ≤ n) (hab : a ≠ b) (c : ℝ) (i : Fin n) : (Dm n a b 1).mulVec (fun _ => c) i = 0 := by
  have := congrFun (Dm_mulVec hn hab 1 (Polynomial.C c) (lt_of_le_of_lt Polynomial.degree_C_le (by exact_mod_cast (by omega : 0 < n)))) i
  simpa using this

/-- long vector with given fields -/
noncomputable def pack (n : ℕ) (r v q : Fin n → ℂ) (j : ℕ) : ℂ :=
  if j < n then ix r j else if j < 2 * n then ix v (j - n) else ix q (j - 2 * n)

theorem pack_0 (r v q : Fin n → ℂ) : cfield n (pack n r v q) 0 = r := by
  funext i
  have := i.2
  unfold cfield pack
  simp [ix]

theorem pack_1 (r v q : Fin n → ℂ) : cfield n (pack n r v q) 1 = v := by
  funext i
  have := i.2
  unfold cfield pack
  simp only [Fin.val_one, one_mul]
  rw [if_neg (by omega), if_pos (by omega), Nat.add_sub_cancel_left, ix, dif_pos i.2]

theorem pack_2 (r v q : Fin n → ℂ) : cfield n (pack n r v q) 2 = q := by
  funext i
  have := i.2
  unfold cfield pack
  simp only [Fin.val_two]
  rw [if_neg (by omega), if_neg (by omega), Nat.add_sub_cancel_left, ix, dif_pos i.2]

theorem linEuler_unif (hn : 2 ≤ n) (hab : a ≠ b) (R U P g : ℝ) (ω : ℂ) (r v q : Fin n → ℂ) (i : Fin n) :
    LinEuler (Dm n a b 1) g (unif n R U P g).rho (unif n R U P g).u (unif n R U P g).p ω r v q i ↔
      Complex.I * ω * r i = U * dC (Dm n a b 1) r i + R * dC (Dm n a b 1) v i ∧
      Complex.I * ω * v i = U * dC (Dm n a b 1) v i + dC (Dm n a b 1) q i / R ∧
      Complex.I * ω * q i = U * dC (Dm n a b 1) q i + g * P * dC (Dm n a b 1) v i := by
  unfold LinEuler unif
  simp only [Dm_const hn hab]
  constructor
  · rintro ⟨h1, h2, h3⟩
    push_cast at h1 h2 h3
    refine ⟨?_, ?_, ?_⟩
    · linear_combination -h1
    · linear_combination -h2
    · linear_combination -h3
  · rintro ⟨h1, h2, h3⟩
    push_cast
    refine ⟨?_, ?_, ?_⟩
    · linear_combination -h1
    · linear_combination -h2
    · linear_combination -h3

theorem periodic_lin (hn : 2 ≤ n) {D : Matrix (Fin n) (Fin n) ℝ} {f g : Fin n → ℂ} (hf : Periodic hn D f) (hg : Periodic hn D g)
    (α β : ℂ) : Periodic hn D (fun j => α * f j + β * g j) := by
  refine ⟨?_, ?_⟩
  · show α * _ + β * _ = α * _ + β * _
    rw [hf.1, hg.1]
  · rw [dC_lin, dC_lin, hf.2, hg.2]

theorem periodic_smul (hn : 2 ≤ n) {D : Matrix (Fin n) (Fin n) ℝ} {f : Fin n → ℂ} (hf : Periodic hn D f)
    (α : ℂ) : Periodic hn D (fun j => α * f j) := by
  refine ⟨?_, ?_⟩
  · show α * _ = α * _
    rw [hf.1]
  · rw [dC_smul, dC_smul, hf.2]

/-- C113: over a uniform flow with periodic conditions, the eigenvalues are exactly those of the three scalar waves
carried at the characteristic speeds `U - c`, `U` and `U + c`. -/
theorem C113_dispersion (hn : 2 ≤ n) (hab : a ≠ b) (q0 : Option (StateV n)) (hp : Heap) (calls : List (EulerCall n))
    {R U P g : ℝ} (hR : 0 < R) (hP : 0 < P) (hg : 0 < g) (B At : Mat ℝ) (D : Matrix (Fin n) (Fin n) ℝ)
    (hc : Computes a b q0 hp calls "per" (unif n R U P g) B At) (hD : Derivative a b q0 hp calls 1 D) (ω : ℂ) :
    (∃ v, IsMode B At ω v) ↔
      ∃ s : ℝ, (s = U - Real.sqrt (g * P / R) ∨ s = U ∨ s = U + Real.sqrt (g * P / R)) ∧ ∃ w, PeriodicWave hn D s ω w := by
  have hm := (C113_periodic hn hab q0 hp calls _ hc.1 (fun _ => hR.ne')).2 B At D hc hD ω
  obtain rfl := (derivative_eq hn hab le_rfl).1 hD
  obtain ⟨c, hcdef⟩ : ∃ c, c = Real.sqrt (g * P / R) := ⟨_, rfl⟩
  rw [← hcdef]
  have hc0 : 0 < c := by rw [hcdef]; exact Real.sqrt_pos.2 (by positivity)
  have hcc : c ^ 2 * R = g * P := by
    rw [hcdef, Real.sq_sqrt (by positivity)]; field_simp
  have hRC : (R:ℂ) ≠ 0 := by exact_mod_cast hR.ne'
  have hcC : (c:ℂ) ≠ 0 := by exact_mod_cast hc0.ne'
  have hccC : (c:ℂ) ^ 2 * R = g * P := by exact_mod_cast hcc
  constructor
  · rintro ⟨v, hv⟩
    obtain ⟨hne, hper, hin⟩ := (hm v).1 hv
    obtain ⟨r, hr⟩ : ∃ r, r = cfield n v 0 := ⟨_, rfl⟩
    obtain ⟨u, hu⟩ : ∃ u, u = cfield n v 1 := ⟨_, rfl⟩
    obtain ⟨p, hp'⟩ : ∃ p, p = cfield n v 2 := ⟨_, rfl⟩
    rw [← hr, ← hu, ← hp'] at hin
    have pr : Periodic hn (Dm n a b 1) r := hr ▸ hper 0
    have pu : Periodic hn (Dm n a b 1) u := hu ▸ hper 1
    have pp : Periodic hn (Dm n a b 1) p := hp' ▸ hper 2
    by_cases h0 : (fun j => (c:ℂ) ^ 2 * r j + (-1) * p j) = 0
    · by_cases h1 : (fun j => (1:ℂ) * p j + (R * c) * u j) = 0
      · have h2 : (fun j => (1:ℂ) * p j + (-(R * c)) * u j) ≠ 0 := by
          intro h2
          have e : ∀ i, p i = 0 ∧ u i = 0 ∧ r i = 0 := by
            intro i
            have a0 := congrFun h0 i
            have a1 := congrFun h1 i
            have a2 := congrFun h2 i
            simp only [Pi.zero_apply] at a0 a1 a2
            have b1 : p i = 0 := by linear_combination (a1 + a2) / 2
            have b2 : (R * c : ℂ) * u i = 0 := by linear_combination (a1 - a2) / 2
            have b3 : (c : ℂ) ^ 2 * r i = 0 := by linear_combination a0 + b1
            refine ⟨b1, ?_, ?_⟩
            · rcases mul_eq_zero.1 b2 with h | h
              · exact absurd h (mul_ne_zero hRC hcC)
              · exact h
            · rcases mul_eq_zero.1 b3 with h | h
              · exact absurd h (pow_ne_zero 2 hcC)
              · exact h
          obtain ⟨k, i, hk⟩ := hne
          apply hk
          obtain ⟨e1, e2, e3⟩ := e i
          fin_cases k
          · show cfield n v 0 i = 0; rw [← hr]; exact e3
          · show cfield n v 1 i = 0; rw [← hu]; exact e2
          · show cfield n v 2 i = 0; rw [← hp']; exact e1
        refine ⟨U - c, .inl rfl, _, h2, periodic_lin hn pp pu _ _, fun i hi0 hi1 => ?_⟩
        obtain ⟨e1, e2, e3⟩ := (linEuler_unif hn hab R U P g ω r u p i).1 (hin i hi0 hi1)
        rw [dC_lin]
        push_cast
        have e2' : Complex.I * ω * u i * R = U * dC (Dm n a b 1) u i * R + dC (Dm n a b 1) p i := by
          rw [e2]; field_simp
        linear_combination -e3 + c * e2' + dC (Dm n a b 1) u i * hccC
      · refine ⟨U + c, .inr (.inr rfl), _, h1, periodic_lin hn pp pu _ _, fun i hi0 hi1 => ?_⟩
        obtain ⟨e1, e2, e3⟩ := (linEuler_unif hn hab R U P g ω r u p i).1 (hin i hi0 hi1)
        rw [dC_lin]
        push_cast
        have e2' : Complex.I * ω * u i * R = U * dC (Dm n a b 1) u i * R + dC (Dm n a b 1) p i := by
          rw [e2]; field_simp
        linear_combination -e3 - c * e2' + dC (Dm n a b 1) u i * hccC
    · refine ⟨U, .inr (.inl rfl), _, h0, periodic_lin hn pr pp _ _, fun i hi0 hi1 => ?_⟩
      obtain ⟨e1, e2, e3⟩ := (linEuler_unif hn hab R U P g ω r u p i).1 (hin i hi0 hi1)
      rw [dC_lin]
      linear_combination -(c:ℂ) ^ 2 * e1 + e3 - dC (Dm n a b 1) u i * hccC
  · rintro ⟨s, hs, w, hw, hwp, hwi⟩
    -- a wave at an acoustic speed `U + σ c`, `σ = ±1`
    have acoustic : ∀ σ : ℝ, σ ^ 2 = 1 → s = U + σ * c → ∃ v, IsMode B At ω v := by
      intro σ hσ hsσ
      have hσC : (σ:ℂ) ^ 2 = 1 := by exact_mod_cast hσ
      refine ⟨pack n (fun j => (1 / (c:ℂ) ^ 2) * w j) (fun j => (σ / (R * c) : ℂ) * w j) w, (hm _).2 ⟨?_, ?_, ?_⟩⟩
      · obtain ⟨i, hi⟩ := Function.ne_iff.1 hw
        exact ⟨2, i, by rw [pack_2]; exact hi⟩
      · intro k
        fin_cases k
        · show Periodic hn _ (cfield n _ 0); rw [pack_0]; exact periodic_smul hn hwp _
        · show Periodic hn _ (cfield n _ 1); rw [pack_1]; exact periodic_smul hn hwp _
        · show Periodic hn _ (cfield n _ 2); rw [pack_2]; exact hwp
      · intro i hi0 hi1
        rw [pack_0, pack_1, pack_2]
        refine (linEuler_unif hn hab R U P g ω _ _ _ i).2 ?_
        have e := hwi i hi0 hi1
        rw [hsσ] at e
        push_cast at e
        rw [dC_smul, dC_smul]
        refine ⟨?_, ?_, ?_⟩
        · field_simp
          linear_combination -e
        · field_simp
          linear_combination -σ * e + dC (Dm n a b 1) w i * c * hσC
        · rw [← hccC]; field_simp
          linear_combination -e
    rcases hs with h | h | h
    · exact acoustic (-1) (by norm_num) (by rw [h]; ring)
    · refine ⟨pack n w (fun _ => 0) (fun _ => 0), (hm _).2 ⟨?_, ?_, ?_⟩⟩
      · obtain ⟨i, hi⟩ := Function.ne_iff.1 hw
        exact ⟨0, i, by rw [pack_0]; exact hi⟩
      · intro k
        have hz : Periodic hn (Dm n a b 1) (fun _ => 0) := ⟨rfl, by rw [dC_zero, dC_zero]⟩
        fin_cases k
        · show Periodic hn _ (cfield n _ 0); rw [pack_0]; exact hwp
        · show Periodic hn _ (cfield n _ 1); rw [pack_1]; exact hz
        · show Periodic hn _ (cfield n _ 2); rw [pack_2]; exact hz
      · intro i hi0 hi1
        rw [pack_0, pack_1, pack_2]
        refine (linEuler_unif hn hab R U P g ω _ _ _ i).2 ?_
        have e := hwi i hi0 hi1
        rw [h] at e
        rw [dC_zero]
        refine ⟨?_, ?_, ?_⟩
        · linear_combination -e
        · simp
        · simp
    · exact acoustic 1 (by norm_num) (by rw [h]; ring)

/-! ## symmetries of the spectrum -/

/-- C113: the matrices being real, the spectrum is symmetric about the imaginary axis: the conjugate of a mode is a
mode, with the same growth rate and the opposite frequency. -/
theorem C113_conjugate (B At : Mat ℝ) (ω : ℂ) (v : ℕ → ℂ) :
    IsMode B At ω v ↔ IsMode B At (-(starRingEnd ℂ) ω) (fun j => (starRingEnd ℂ) (v j)) := by
  have key : ∀ (M : Mat ℝ) (v : ℕ → ℂ) (i : ℕ),
      M.toComplex.mulVec (fun j => (starRingEnd ℂ) (v j)) i = (starRingEnd ℂ) (M.toComplex.mulVec v i) := by
    intro M v i
    unfold Mat.mulVec Mat.toComplex
    rw [map_sum]
    exact Finset.sum_congr rfl fun j _ => by simp
  have fwd : ∀ (ω : ℂ) (v : ℕ → ℂ), IsMode B At ω v → IsMode B At (-(starRingEnd ℂ) ω) (fun j => (starRingEnd ℂ) (v j)) := by
    rintro ω v ⟨⟨j, hj, hv⟩, h⟩
    refine ⟨⟨j, hj, by simpa using hv⟩, fun i hi => ?_⟩
    rw [key, key, h i hi]
    simp
  refine ⟨fwd ω v, fun h => ?_⟩
  have := fwd _ _ h
  simpa using this

theorem Dm_rev (hn : 2 ≤ n) (hab : a ≠ b) (i j : Fin n) : Dm n a b 1 i.rev j.rev = -Dm n a b 1 i j := by
  obtain ⟨s', D, s'', X, h1, -, -, h2⟩ := C111_symmetry hn hab [] (m := 1) le_rfl
  obtain ⟨s1, h3, -⟩ := matder_spec hn hab (inv_after hn hab []) (m := 1) le_rfl
  rw [h1] at h3
  have hD : D = Dm n a b 1 := congrArg Prod.snd (Except.ok.inj h3)
  subst hD
  have := h2 i j
  simpa using this

theorem mulVec_rev (hn : 2 ≤ n) (hab : a ≠ b) (f : Fin n → ℝ) (i : Fin n) :
    (Dm n a b 1).mulVec (fun j => f j.rev) i = -(Dm n a b 1).mulVec f i.rev := by
  unfold Matrix.mulVec dotProduct
  rw [← Finset.sum_neg_distrib, ← Equiv.sum_comp Fin.revPerm]
  refine Finset.sum_congr rfl fun j _ => ?_
  have := Dm_rev hn hab i (Fin.rev j)
  rw [Fin.rev_rev] at this
  simp only [Fin.revPerm_apply, Fin.rev_rev]
  rw [this]; ring

theorem dC_rev (hn : 2 ≤ n) (hab : a ≠ b) (f : Fin n → ℂ) (i : Fin n) :
    dC (Dm n a b 1) (fun j => f j.rev) i = -dC (Dm n a b 1) f i.rev := by
  rw [dC_eq, dC_eq]
  have h1 := mulVec_rev hn hab (fun j => (f j).re) i
  have h2 := mulVec_rev hn hab (fun j => (f j).im) i
  rw [h1, h2]; push_cast; ring

theorem dC_rev_neg (hn : 2 ≤ n) (hab : a ≠ b) (f : Fin n → ℂ) (i : Fin n) :
    dC (Dm n a b 1) (fun j => -f j.rev) i = dC (Dm n a b 1) f i.rev := by
  have h := dC_smul (Dm n a b 1) (-1) (fun j => f j.rev) i
  rw [dC_rev hn hab] at h
  simpa using h

/-- the flow seen in a mirror placed at the middle of the grid -/
def mirrorState (q : StateV n) : StateV n := ⟨fun i => q.rho i.rev, fun i => -q.u i.rev, fun i => q.p i.rev, q.gamma⟩

/-- the perturbation seen in the mirror -/
noncomputable def mirrorMode (n : ℕ) (v : ℕ → ℂ) : ℕ → ℂ :=
  pack n (fun i => cfield n v 0 i.rev) (fun i => -cfield n v 1 i.rev) (fun i => cfield n v 2 i.rev)

theorem linEuler_mirror (hn : 2 ≤ n) (hab : a ≠ b) (q : StateV n) (ω : ℂ) (v : ℕ → ℂ) (i : Fin n)
    (h : LinEuler (Dm n a b 1) q.gamma q.rho q.u q.p ω (cfield n v 0) (cfield n v 1) (cfield n v 2) i.rev) :
    LinEuler (Dm n a b 1) q.gamma (mirrorState q).rho (mirrorState q).u (mirrorState q).p ω (cfield n (mirrorMode n v) 0)
      (cfield n (mirrorMode n v) 1) (cfield n (mirrorMode n v) 2) i := by
  unfold mirrorMode
  rw [pack_0, pack_1, pack_2]
  have m1 : (Dm n a b 1).mulVec (fun i => -q.u i.rev) i = (Dm n a b 1).mulVec q.u i.rev := by
    have := mulVec_rev hn hab (fun j => -q.u j) i
    rw [this]
    have e : (fun j => -q.u j) = -q.u := rfl
    rw [e, Matrix.mulVec_neg]; simp
  have m2 : dC (Dm n a b 1) (fun i => -cfield n v 1 i.rev) i = dC (Dm n a b 1) (cfield n v 1) i.rev := dC_rev_neg hn hab _ i
  unfold LinEuler mirrorState at *
  simp only [] at *
  rw [m1, m2, mulVec_rev hn hab, mulVec_rev hn hab, dC_rev hn hab, dC_rev hn hab]
  obtain ⟨h1, h2, h3⟩ := h
  push_cast
  refine ⟨?_, ?_, ?_⟩
  · linear_combination h1
  · linear_combination -h2
  · linear_combination h3

/-- C113: mirror symmetry: when the base flow is reversed (mirror image of the profiles, opposite velocity), the
spectrum is the same and the modes are the mirror images, for periodic and for symmetry conditions. -/
theorem C113_mirror (hn : 2 ≤ n) (hab : a ≠ b) (q0 q0' : Option (StateV n)) (hp hp' : Heap) (calls calls' : List (EulerCall n))
    (q : StateV n) (hr : ∀ i, q.rho i ≠ 0) (t : String) (ht : t = "per" ∨ t = "sym") (B At B' At' : Mat ℝ)
    (hc : Computes a b q0 hp calls t q B At) (hc' : Computes a b q0' hp' calls' t (mirrorState q) B' At') (ω : ℂ) (v : ℕ → ℂ)
    (hv : IsMode B At ω v) : IsMode B' At' ω (mirrorMode n v) := by
  have hr' : ∀ i, (mirrorState q).rho i ≠ 0 := fun i => hr _
  have hD := (derivative_eq hn hab (q0 := q0) (hp := hp) (calls := calls) le_rfl).2 (rfl : Dm n a b 1 = Dm n a b 1)
  have hD' := (derivative_eq hn hab (q0 := q0') (hp := hp') (calls := calls') le_rfl).2 (rfl : Dm n a b 1 = Dm n a b 1)
  have hne : (∃ k i, cfield n v k i ≠ 0) → ∃ k i, cfield n (mirrorMode n v) k i ≠ 0 := by
    rintro ⟨k, i, h⟩
    refine ⟨k, i.rev, ?_⟩
    unfold mirrorMode
    fin_cases k
    · show cfield n _ 0 _ ≠ 0; rw [pack_0]; simpa using h
    · show cfield n _ 1 _ ≠ 0; rw [pack_1]; simpa using h
    · show cfield n _ 2 _ ≠ 0; rw [pack_2]; simpa using h
  have hm1 : ∀ i, dC (Dm n a b 1) (fun i => -cfield n v 1 i.rev) i = dC (Dm n a b 1) (cfield n v 1) i.rev := fun i => dC_rev_neg hn hab _ i
  have r0 : (⟨0, by omega⟩ : Fin n).rev = ⟨n - 1, by omega⟩ := by ext; simp [Fin.val_rev]
  have r1 : (⟨n - 1, by omega⟩ : Fin n).rev = ⟨0, by omega⟩ := by rw [← r0, Fin.rev_rev]
  have hint : (∀ i : Fin n, 0 < (i:ℕ) → (i:ℕ) < n - 1 →
        LinEuler (Dm n a b 1) q.gamma q.rho q.u q.p ω (cfield n v 0) (cfield n v 1) (cfield n v 2) i) →
      ∀ i : Fin n, 0 < (i:ℕ) → (i:ℕ) < n - 1 →
        LinEuler (Dm n a b 1) (mirrorState q).gamma (mirrorState q).rho (mirrorState q).u (mirrorState q).p ω (cfield n (mirrorMode n v) 0)
          (cfield n (mirrorMode n v) 1) (cfield n (mirrorMode n v) 2) i := by
    intro h i h0 h1
    refine linEuler_mirror hn hab q ω v i (h _ ?_ ?_)
    · rw [Fin.val_rev]; omega
    · rw [Fin.val_rev]; omega
  rcases ht with rfl | rfl
  · obtain ⟨h1, h2, h3⟩ := ((C113_periodic hn hab q0 hp calls q hc.1 hr).2 B At _ hc hD ω v).1 hv
    refine ((C113_periodic hn hab q0' hp' calls' _ hc'.1 hr').2 B' At' _ hc' hD' ω _).2 ⟨hne h1, fun k => ?_, hint h3⟩
    have h2k := h2 k
    unfold mirrorMode
    have hp : ∀ f : Fin n → ℂ, Periodic hn (Dm n a b 1) f → Periodic hn (Dm n a b 1) (fun i => f i.rev) := by
      rintro f ⟨e1, e2⟩
      refine ⟨?_, ?_⟩
      · show f _ = f _
        rw [r0, r1]; exact e1.symm
      · rw [dC_rev hn hab, dC_rev hn hab, r0, r1, e2]
    fin_cases k
    · show Periodic hn _ (cfield n _ 0); rw [pack_0]; exact hp _ h2k
    · show Periodic hn _ (cfield n _ 1); rw [pack_1]
      have := periodic_smul hn (hp _ h2k) (-1)
      simp only [neg_mul, one_mul] at this
      exact this
    · show Periodic hn _ (cfield n _ 2); rw [pack_2]; exact hp _ h2k
  · obtain ⟨h1, h2, h3⟩ := ((C113_walls hn hab q0 hp calls q hc.1 hr).2 B At _ hc hD ω v).1 hv
    refine ((C113_walls hn hab q0' hp' calls' _ hc'.1 hr').2 B' At' _ hc' hD' ω _).2 ⟨hne h1, fun i hi => ?_, hint h3⟩
    have hi' : (i.rev : ℕ) = 0 ∨ (i.rev : ℕ) = n - 1 := by rw [Fin.val_rev]; have := i.2; omega
    obtain ⟨e1, e2, e3⟩ := h2 i.rev hi'
    unfold mirrorMode
    rw [pack_0, pack_1, pack_2, dC_rev hn hab, dC_rev hn hab, e1, e2, e3]
    simp

/-! ## acoustic modes between two walls -/

theorem xv_strictMono (hn : 2 ≤ n) (hab : a < b) : StrictMono (xv n a b) := by
  obtain ⟨s', X, h1, h2, -⟩ := C40_nodes hn hab []
  obtain ⟨_, h3, -, -⟩ := x_spec hn (inv_after hn hab.ne [])
  rw [h1] at h3
  have : X = xv n a b := congrArg Prod.snd (Except.ok.inj h3)
  rw [← this]; exact h2

/-- a real sampled function which is zero inside and has zero end derivatives is zero -/
theorem neumann_zero_real (hn : 3 ≤ n) (hab : a < b) (u : Fin n → ℝ) (h0 : ∀ i : Fin n, 0 < (i:ℕ) → (i:ℕ) < n - 1 → u i = 0)
    (h1 : ∀ i : Fin n, ((i:ℕ) = 0 ∨ (i:ℕ) = n - 1) → (Dm n a b 1).mulVec u i = 0) : u = 0 := by
  have hn2 : 2 ≤ n := by omega
  obtain ⟨p, hp, hv⟩ := nodal_poly hn2 hab.ne u
  have hmono := xv_strictMono hn2 hab
  have hd : ∀ i : Fin n, ((i:ℕ) = 0 ∨ (i:ℕ) = n - 1) → (Polynomial.derivative p).eval (xv n a b i) = 0 := by
    intro i hi
    have := h1 i hi
    rw [← (funext hv : (fun i => p.eval (xv n a b i)) = u), Dm_mulVec hn2 hab.ne 1 p hp] at this
    simpa using this
  -- one zero of the derivative per interval
  have key : ∀ i : Fin (n - 1), ∃ t, xv n a b ⟨i, by omega⟩ ≤ t ∧ t ≤ xv n a b ⟨i + 1, by omega⟩ ∧
      ((i:ℕ) < n - 2 → t < xv n a b ⟨i + 1, by omega⟩) ∧ (Polynomial.derivative p).eval t = 0 := by
    intro i
    have hi := i.2
    have hlt : xv n a b ⟨i, by omega⟩ < xv n a b ⟨i + 1, by omega⟩ := hmono (by rw [Fin.mk_lt_mk]; omega)
    by_cases hi0 : (i:ℕ) = 0
    · exact ⟨_, le_rfl, hlt.le, fun _ => hlt, hd _ (.inl hi0)⟩
    by_cases hi1 : (i:ℕ) = n - 2
    · refine ⟨xv n a b ⟨i + 1, by omega⟩, hlt.le, le_rfl, fun h => by omega, hd _ (.inr ?_)⟩
      show (i:ℕ) + 1 = n - 1
      omega
    · have e0 : p.eval (xv n a b ⟨i, by omega⟩) = 0 := by
        rw [hv]; exact h0 _ (by show 0 < (i:ℕ); omega) (by show (i:ℕ) < n - 1; omega)
      have e1 : p.eval (xv n a b ⟨i + 1, by omega⟩) = 0 := by
        rw [hv]; exact h0 _ (by show 0 < (i:ℕ) + 1; omega) (by show (i:ℕ) + 1 < n - 1; omega)
      obtain ⟨c, hc, hc'⟩ := exists_hasDerivAt_eq_zero hlt p.continuous.continuousOn (e0.trans e1.symm)
        (fun x _ => p.hasDerivAt x)
      exact ⟨c, hc.1.le, hc.2.le, fun _ => hc.2, hc'⟩
  choose t ht using key
  have htm : StrictMono t := by
    intro i j hij
    have hj := j.2
    have hij' : (i:ℕ) < j := hij
    calc t i < xv n a b ⟨i + 1, by omega⟩ := (ht i).2.2.1 (by omega)
      _ ≤ xv n a b ⟨j, by omega⟩ := hmono.monotone (by rw [Fin.mk_le_mk]; omega)
      _ ≤ t j := (ht j).1
  have hp' : Polynomial.derivative p = 0 := by
    refine Polynomial.eq_zero_of_degree_lt_of_eval_index_eq_zero (s := Finset.univ) (v := t) htm.injective.injOn ?_
      fun i _ => (ht i).2.2.2
    rw [Finset.card_univ, Fintype.card_fin]
    by_cases h00 : Polynomial.derivative p = 0
    · rw [h00, Polynomial.degree_zero]; exact WithBot.bot_lt_coe _
    · have hp0 : p ≠ 0 := by rintro rfl; exact h00 (by simp)
      have h3 := Polynomial.degree_derivative_lt hp0
      rw [Polynomial.degree_eq_natDegree hp0] at h3 hp
      rw [Polynomial.degree_eq_natDegree h00] at h3 ⊢
      have h3' : (Polynomial.derivative p).natDegree < p.natDegree := by exact_mod_cast h3
      have hp3 : p.natDegree < n := by exact_mod_cast hp
      exact_mod_cast (by omega : (Polynomial.derivative p).natDegree < n - 1)
  have hc := Polynomial.eq_C_of_natDegree_eq_zero (Polynomial.natDegree_eq_zero_of_derivative_eq_zero hp')
  have e1 := h0 ⟨1, by omega⟩ (by show 0 < 1; omega) (by show 1 < n - 1; omega)
  rw [← hv, hc, Polynomial.eval_C] at e1
  funext i
  rw [← hv i, hc, Polynomial.eval_C, e1]; rfl

theorem neumann_zero (hn : 3 ≤ n) (hab : a < b) (u : Fin n → ℂ) (h0 : ∀ i : Fin n, 0 < (i:ℕ) → (i:ℕ) < n - 1 → u i = 0)
    (h1 : ∀ i : Fin n, ((i:ℕ) = 0 ∨ (i:ℕ) = n - 1) → dC (Dm n a b 1) u i = 0) : u = 0 := by
  have hre := neumann_zero_real hn hab (fun i => (u i).re) (fun i h h' => by rw [h0 i h h']; rfl) (fun i hi => by
    have := congrArg Complex.re (h1 i hi)
    rw [dC_eq] at this
    simpa using this)
  have him := neumann_zero_real hn hab (fun i => (u i).im) (fun i h h' => by rw [h0 i h h']; rfl) (fun i hi => by
    have := congrArg Complex.im (h1 i hi)
    rw [dC_eq] at this
    simpa using this)
  funext i
  exact Complex.ext (congrFun hre i) (congrFun him i)

theorem dC_two (hn : 2 ≤ n) (hab : a ≠ b) (w : Fin n → ℂ) (i : Fin n) :
    dC (Dm n a b 1) (fun j => dC (Dm n a b 1) w j) i = dC (Dm n a b 2) w i := by
  have h2 : ∀ f : Fin n → ℝ, (Dm n a b 1).mulVec ((Dm n a b 1).mulVec f) = (Dm n a b 2).mulVec f := by
    intro f
    rw [Matrix.mulVec_mulVec, Dm_one_pow hn hab 2, pow_two]
  have h2' : ∀ (f : Fin n → ℝ) j, (Dm n a b 1).mulVec (fun k => (Dm n a b 1).mulVec f k) j = (Dm n a b 2).mulVec f j :=
    fun f j => congrFun (h2 f) j
  rw [dC_eq, dC_eq]
  have e1 : ∀ j, (dC (Dm n a b 1) w j).re = (Dm n a b 1).mulVec (fun j => (w j).re) j := by
    intro j; rw [dC_eq]; simp
  have e2 : ∀ j, (dC (Dm n a b 1) w j).im = (Dm n a b 1).mulVec (fun j => (w j).im) j := by
    intro j; rw [dC_eq]; simp
  simp only [e1, e2, h2']

/-- C113: the pressure of a mode between two walls, in a gas at rest, satisfies the wave equation with no gradient at the walls. -/
theorem C113_pressure (hn : 3 ≤ n) (hab : a < b) (q0 : Option (StateV n)) (hp : Heap) (calls : List (EulerCall n))
    {R P g : ℝ} (hR : 0 < R) (hP : 0 < P) (hg : 0 < g) (B At : Mat ℝ) (D D2 : Matrix (Fin n) (Fin n) ℝ)
    (hc : Computes a b q0 hp calls "sym" (unif n R 0 P g) B At) (hD : Derivative a b q0 hp calls 1 D)
    (hD2 : Derivative a b q0 hp calls 2 D2) (ω : ℂ) (hω : ω ≠ 0) (v : ℕ → ℂ) (hv : IsMode B At ω v) :
    cfield n v 2 ≠ 0 ∧ (∀ i : Fin n, ((i:ℕ) = 0 ∨ (i:ℕ) = n - 1) → dC D (cfield n v 2) i = 0) ∧
      ∀ i : Fin n, 0 < (i:ℕ) → (i:ℕ) < n - 1 → (g * P / R : ℝ) * dC D2 (cfield n v 2) i = -ω ^ 2 * cfield n v 2 i := by
  have hn2 : 2 ≤ n := by omega
  have hm := (C113_walls hn2 hab.ne q0 hp calls _ hc.1 (fun _ => hR.ne')).2 B At D hc hD ω
  obtain rfl := (derivative_eq hn2 hab.ne le_rfl).1 hD
  obtain rfl := (derivative_eq hn2 hab.ne (by norm_num)).1 hD2
  have hRC : (R:ℂ) ≠ 0 := by exact_mod_cast hR.ne'
  have hgC : (g:ℂ) ≠ 0 := by exact_mod_cast hg.ne'
  have hPC : (P:ℂ) ≠ 0 := by exact_mod_cast hP.ne'
  have hI := Complex.I_ne_zero
  have hII := Complex.I_sq
  obtain ⟨hne, hb, hin⟩ := (hm v).1 hv
  obtain ⟨r, hr⟩ : ∃ r, r = cfield n v 0 := ⟨_, rfl⟩
  obtain ⟨u, hu⟩ : ∃ u, u = cfield n v 1 := ⟨_, rfl⟩
  obtain ⟨p, hp'⟩ : ∃ p, p = cfield n v 2 := ⟨_, rfl⟩
  rw [← hr, ← hu, ← hp'] at hin hb
  have hin' : ∀ i : Fin n, 0 < (i:ℕ) → (i:ℕ) < n - 1 → _ := fun i h0 h1 =>
    (linEuler_unif hn2 hab.ne R 0 P g ω r u p i).1 (hin i h0 h1)
  have hu' : ∀ i : Fin n, u i = (1 / (Complex.I * ω * R)) * dC (Dm n a b 1) p i := by
    intro i
    by_cases hi : (i:ℕ) = 0 ∨ (i:ℕ) = n - 1
    · rw [(hb i hi).1, (hb i hi).2.2, mul_zero]
    · have := (hin' i (by omega) (by have := i.2; omega)).2.1
      rw [Complex.ofReal_zero, zero_mul, zero_add] at this
      field_simp
      field_simp at this
      linear_combination this
  have hdu : ∀ i, dC (Dm n a b 1) u i = (1 / (Complex.I * ω * R)) * dC (Dm n a b 2) p i := by
    intro i
    rw [funext hu', dC_smul, dC_two hn2 hab.ne]
  rw [← hp']
  refine ⟨fun h0 => ?_, fun i hi => (hb i hi).2.2, fun i h0 h1 => ?_⟩
  · -- pressure zero: everything is zero
    have u0 : ∀ i, u i = 0 := by
      intro i; rw [hu' i, h0]
      have : dC (Dm n a b 1) (0 : Fin n → ℂ) i = 0 := dC_zero _ i
      rw [this, mul_zero]
    have r0 : r = 0 := by
      refine neumann_zero hn hab r (fun i h0' h1' => ?_) fun i hi => (hb i hi).2.1
      have := (hin' i h0' h1').1
      rw [funext u0, dC_zero, Complex.ofReal_zero, zero_mul, mul_zero, add_zero] at this
      rcases mul_eq_zero.1 this with h | h
      · exact absurd h (mul_ne_zero hI hω)
      · exact h
    obtain ⟨k, i, hk⟩ := hne
    apply hk
    fin_cases k
    · show cfield n v 0 i = 0; rw [← hr, r0]; rfl
    · show cfield n v 1 i = 0; rw [← hu]; exact u0 i
    · show cfield n v 2 i = 0; rw [← hp', h0]; rfl
  · have := (hin' i h0 h1).2.2
    rw [Complex.ofReal_zero, zero_mul, zero_add, hdu] at this
    push_cast
    field_simp
    field_simp at this
    linear_combination -this + ω ^ 2 * R * p i * hII

/-- C113: between two walls, in a gas at rest, the non-zero eigenvalues are exactly the acoustic ones: those of the wave
equation `c² p'' = -ω² p` of the pressure with `p' = 0` at the walls. -/
theorem C113_acoustic (hn : 3 ≤ n) (hab : a < b) (q0 : Option (StateV n)) (hp : Heap) (calls : List (EulerCall n))
    {R P g : ℝ} (hR : 0 < R) (hP : 0 < P) (hg : 0 < g) (B At : Mat ℝ) (D D2 : Matrix (Fin n) (Fin n) ℝ)
    (hc : Computes a b q0 hp calls "sym" (unif n R 0 P g) B At) (hD : Derivative a b q0 hp calls 1 D)
    (hD2 : Derivative a b q0 hp calls 2 D2) (ω : ℂ) (hω : ω ≠ 0) :
    (∃ v, IsMode B At ω v) ↔ ∃ p : Fin n → ℂ, p ≠ 0 ∧ (∀ i : Fin n, ((i:ℕ) = 0 ∨ (i:ℕ) = n - 1) → dC D p i = 0) ∧
      ∀ i : Fin n, 0 < (i:ℕ) → (i:ℕ) < n - 1 → (g * P / R : ℝ) * dC D2 p i = -ω ^ 2 * p i := by
  have hn2 : 2 ≤ n := by omega
  have hm := (C113_walls hn2 hab.ne q0 hp calls _ hc.1 (fun _ => hR.ne')).2 B At D hc hD ω
  obtain rfl := (derivative_eq hn2 hab.ne le_rfl).1 hD
  obtain rfl := (derivative_eq hn2 hab.ne (by norm_num)).1 hD2
  have hRC : (R:ℂ) ≠ 0 := by exact_mod_cast hR.ne'
  have hgC : (g:ℂ) ≠ 0 := by exact_mod_cast hg.ne'
  have hPC : (P:ℂ) ≠ 0 := by exact_mod_cast hP.ne'
  have hI := Complex.I_ne_zero
  have hII := Complex.I_sq
  constructor
  · rintro ⟨v, hv⟩
    exact ⟨_, C113_pressure hn hab q0 hp calls hR hP hg B At _ _ hc hD hD2 ω hω v hv⟩
  · rintro ⟨p, hp0, hpb, hpi⟩
    obtain ⟨α, hα⟩ : ∃ α : ℂ, α = 1 / (Complex.I * ω * R) := ⟨_, rfl⟩
    have hdu : ∀ i, dC (Dm n a b 1) (fun j => α * dC (Dm n a b 1) p j) i = α * dC (Dm n a b 2) p i := by
      intro i
      rw [dC_smul, dC_two hn2 hab.ne]
    refine ⟨pack n (fun j => (R / (g * P) : ℂ) * p j) (fun j => α * dC (Dm n a b 1) p j) p, (hm _).2 ⟨?_, ?_, ?_⟩⟩
    · obtain ⟨i, hi⟩ := Function.ne_iff.1 hp0
      exact ⟨2, i, by rw [pack_2]; exact hi⟩
    · intro i hi
      rw [pack_0, pack_1, pack_2, dC_smul, hpb i hi]
      simp
    · intro i h0 h1
      rw [pack_0, pack_1, pack_2]
      refine (linEuler_unif hn2 hab.ne R 0 P g ω _ _ _ i).2 ?_
      have e := hpi i h0 h1
      push_cast at e
      rw [hdu, Complex.ofReal_zero]
      have e' : g * P * dC (Dm n a b 2) p i = -ω ^ 2 * p i * R := by
        field_simp at e; linear_combination e
      refine ⟨?_, ?_, ?_⟩
      · rw [hα]; field_simp
        linear_combination -e' + ω ^ 2 * R * p i * hII
      · rw [hα]; field_simp
        ring
      · rw [hα]; field_simp
        linear_combination -e' + ω ^ 2 * R * p i * hII

/-! ## non-vacuity -/

/-- samples of a real polynomial -/
theorem dC_poly (hn : 2 ≤ n) (hab : a ≠ b) (m : ℕ) (p : Polynomial ℝ) (hp : p.degree < n) (i : Fin n) :
    dC (Dm n a b m) (fun j => ((p.eval (xv n a b j) : ℝ) : ℂ)) i = (((Polynomial.derivative^[m] p).eval (xv n a b i) : ℝ) : ℂ) := by
  rw [dC_eq]
  have := congrFun (Dm_mulVec hn hab m p hp) i
  simp only [Complex.ofReal_re, Complex.ofReal_im]
  rw [this]
  have h0 : (Dm n a b m).mulVec (fun _ => (0:ℝ)) i = 0 := by
    have : (fun _ => (0:ℝ)) = (0 : Fin n → ℝ) := rfl
    rw [this, Matrix.mulVec_zero]; rfl
  rw [h0]; simp

/-- a uniform flow has periodic waves: the constants, for every characteristic speed -/
example (hn : 2 ≤ n) (hab : a ≠ b) (hp : Heap) {R U P g : ℝ} (hR : 0 < R) (hP : 0 < P) (hg : 0 < g) :
    ∃ B At, Computes a b (some (unif n R U P g)) hp [] "per" (unif n R U P g) B At ∧ ∃ v, IsMode B At 0 v := by
  obtain ⟨B, At, hc⟩ := (C113_periodic hn hab (some (unif n R U P g)) hp [] (unif n R U P g) rfl (fun _ => hR.ne')).1
  refine ⟨B, At, hc, ?_⟩
  refine (C113_dispersion hn hab _ _ _ hR hP hg B At _ hc ((derivative_eq hn hab le_rfl).2 rfl) 0).2 ⟨U, .inr (.inl rfl), fun _ => 1, ?_, ?_, ?_⟩
  · intro h; exact one_ne_zero (congrFun h ⟨0, by omega⟩)
  · have h1 : ∀ i, dC (Dm n a b 1) (fun _ => 1) i = 0 := by
      intro i
      have := dC_poly hn hab 1 (Polynomial.C 1) (lt_of_le_of_lt Polynomial.degree_C_le (by exact_mod_cast (by omega : 0 < n))) i
      simpa using this
    exact ⟨rfl, by rw [h1, h1]⟩
  · intro i _ _
    have := dC_poly hn hab 1 (Polynomial.C 1) (lt_of_le_of_lt Polynomial.degree_C_le (by exact_mod_cast (by omega : 0 < n))) i
    simp at this
    simp [this]

/-- four points on `[-1, 1]`: the first acoustic mode between the walls, `ω² = 24/11` (the exact one is `(π/2)² c²`) -/
example (hp : Heap) : ∃ B At v, Computes (n := 4) (-1) 1 (some (unif 4 1.4 0 1 1.4)) hp [] "sym" (unif 4 1.4 0 1 1.4) B At ∧
    IsMode B At (Real.sqrt (24 / 11) : ℝ) v := by
  have hab : (-1:ℝ) < 1 := by norm_num
  obtain ⟨B, At, hc⟩ := (C113_walls (n := 4) (by norm_num) hab.ne (some (unif 4 1.4 0 1 1.4)) hp [] (unif 4 1.4 0 1 1.4) rfl
    (fun _ => by unfold unif; norm_num)).1
  have hx : ∀ i : Fin 4, xv 4 (-1) 1 i = -Real.cos (i * Real.pi / 3) := by
    intro i
    unfold xv Aerokit.Welfert.node
    push_cast
    rw [show ((4:ℝ) - 1) = 3 by norm_num]; ring
  have x0 : xv 4 (-1) 1 0 = -1 := by rw [hx]; simp
  have x1 : xv 4 (-1) 1 1 = -1 / 2 := by
    rw [hx, show (((1 : Fin 4) : ℕ) : ℝ) * Real.pi / 3 = Real.pi / 3 by norm_num, Real.cos_pi_div_three]; ring
  have x2 : xv 4 (-1) 1 2 = 1 / 2 := by
    rw [hx, show (((2 : Fin 4) : ℕ) : ℝ) * Real.pi / 3 = Real.pi - Real.pi / 3 by
      rw [show (((2 : Fin 4) : ℕ) : ℝ) = 2 by norm_num]; ring, Real.cos_pi_sub,
      Real.cos_pi_div_three]; ring
  have x3 : xv 4 (-1) 1 3 = 1 := by
    rw [hx, show (((3 : Fin 4) : ℕ) : ℝ) * Real.pi / 3 = Real.pi by
      rw [show (((3 : Fin 4) : ℕ) : ℝ) = 3 by norm_num]; ring, Real.cos_pi]; ring
  let p : Polynomial ℝ := Polynomial.X ^ 3 - Polynomial.C 3 * Polynomial.X
  have hpd : p.degree < (4 : ℕ) := by
    refine lt_of_le_of_lt (Polynomial.degree_sub_le _ _) (max_lt ?_ ?_)
    · rw [Polynomial.degree_X_pow]; norm_num
    · refine lt_of_le_of_lt (Polynomial.degree_C_mul_X_le _) (by norm_num)
  have hd1 : ∀ x, (Polynomial.derivative^[1] p).eval x = 3 * x ^ 2 - 3 := by
    intro x; simp [p]; norm_num
  have hd2 : ∀ x, (Polynomial.derivative^[2] p).eval x = 6 * x := by
    intro x; simp [p]; ring
  have hs0 : Real.sqrt (24 / 11) ≠ 0 := (Real.sqrt_pos.2 (by norm_num)).ne'
  have hs2 : ((Real.sqrt (24 / 11) : ℝ) : ℂ) ^ 2 = 24 / 11 := by
    have : Real.sqrt (24 / 11) ^ 2 = 24 / 11 := Real.sq_sqrt (by norm_num)
    rw [← Complex.ofReal_pow, this]; push_cast; rfl
  suffices h : ∃ v, IsMode B At (Real.sqrt (24 / 11) : ℝ) v by
    obtain ⟨v, hv⟩ := h
    exact ⟨B, At, v, hc, hv⟩
  refine (C113_acoustic (n := 4) (by norm_num) hab _ _ _ (by norm_num) (by norm_num) (by norm_num) B At _ _ hc
    ((derivative_eq (by norm_num) hab.ne le_rfl).2 rfl) ((derivative_eq (by norm_num) hab.ne (by norm_num)).2 rfl)
    (Real.sqrt (24 / 11) : ℝ) (by exact_mod_cast hs0)).2 ⟨fun j => ((p.eval (xv 4 (-1) 1 j) : ℝ) : ℂ), ?_, ?_, ?_⟩
  · intro h
    have := congrFun h 3
    simp only [x3, p] at this
    norm_num at this
  · intro i hi
    rw [dC_poly (by norm_num) hab.ne 1 p hpd, hd1]
    rcases hi with h | h
    · have : i = 0 := Fin.ext h
      rw [this, x0]; norm_num
    · have : i = 3 := Fin.ext h
      rw [this, x3]; norm_num
  · intro i h0 h1
    rw [dC_poly (by norm_num) hab.ne 2 p hpd, hd2, hs2]
    have : i = 1 ∨ i = 2 := by
      have := i.2
      rcases (by omega : (i:ℕ) = 1 ∨ (i:ℕ) = 2) with h | h
      · exact .inl (Fin.ext h)
      · exact .inr (Fin.ext h)
    rcases this with rfl | rfl
    · simp only [x1, p]; norm_num
    · simp only [x2, p]; norm_num

end Aerokit.Props
