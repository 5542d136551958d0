import Verif.Props.Arrays
import Verif.Lemmas.ArraySecant
import Verif.Lemmas.Degree
import Mathlib.Analysis.SpecialFunctions.Trigonometric.Bounds
import Mathlib.Analysis.Real.Pi.Bounds
import Verif.Props.SecantUses
import Verif.Props.ConicalSearch

/-!
# C143: searches and branches on arrays
-/

namespace Aerokit.Props
open Nd Spec ArrayFns
variable {ι : Type}

theorem exists_num {X : Nd ι} (h : X.isArr = false) : ∃ x, X = num x := by
  cases X with
  | num x => exact ⟨x, rfl⟩
  | arr v => cases h

theorem eq_num {X : Nd ι} (h : X.isArr = false) (i : ι) : X = num (X.at' i) := by
  cases X with
  | num x => rfl
  | arr v => cases h

theorem exists_arr {X : Nd ι} (h : X.isArr = true) : ∃ v, X = arr v := by
  cases X with
  | num x => cases h
  | arr v => exact ⟨v, rfl⟩

/-- A closed form with float parameters, given to `secant_solve`, sends floats to floats. -/
theorem floats_of {F : Nd ι → Nd ι} {f : ℝ → Py ℝ} [Nonempty ι] (h : Elementwise₁ F f) :
    Floats (fun X => .ok (F X)) ∧
      ∀ x d, f x = .ok d → (.ok (F (num (some x))) : Py (Nd ι)) = .ok (num (some d)) := by
  refine ⟨fun x => ?_, fun x d hd => ?_⟩
  · obtain ⟨y, hy⟩ := exists_num (X := F (num x)) (h.1 _)
    exact ⟨y, by simp only [hy]⟩
  · obtain ⟨i⟩ := ‹Nonempty ι›
    rw [eq_num (X := F (num (some x))) (h.1 _) i, h.2 (num (some x)) i x rfl, hd]; rfl

/-- C143 (Prandtl–Meyer search on arrays): `old_Mach_PrandtlMeyer` accepts a float or an array of turning angles, never
raises, and every entry for which the float call returns a Mach number is that Mach number. -/
theorem C143_search_PM [Nonempty ι] (g : ℝ) (Omega : Nd ι) :
    ∃ R, old_Mach_PrandtlMeyer Omega (num (some g)) = .ok R ∧ R.isArr = Omega.isArr ∧
      ∀ i w m, Omega.at' i = some w → Supersonic.old_Mach_PrandtlMeyer w g = .ok m →
        R.at' i = some m := by
  have hE : Elementwise₁ (fun X : Nd ι => ArrayFns.PrandtlMeyer_Mach X (num (some g)))
      (fun x => Supersonic.PrandtlMeyer_Mach x g) := by
    nd_elem₁ [ArrayFns.PrandtlMeyer_Mach, Supersonic.PrandtlMeyer_Mach]
  obtain ⟨h1, h2⟩ := floats_of hE
  obtain ⟨R, hR, hs, he⟩ := secant_solve_elem h1 h2 Omega 2.0
  refine ⟨R, hR, ?_, fun i w m hw hm => he i w 2.0 m hw rfl hm⟩
  rw [hs, isArr_ofScientific, Bool.or_false]

/-- C143 (empty arrays): unlike the closed forms, which give back an empty array, the secant searches raise `ValueError` on
an array without entries. -/
theorem C143_search_empty_false [IsEmpty ι] (m g : ℝ) (v : ι → Option ℝ) (init : Option (Nd ι)) :
    old_Mach_PrandtlMeyer (arr v) (num (some g)) = .error .valueError ∧
      ArrayFns.sigma_Mach_deflection (num (some m)) (arr v) init (num (some g)) = .error .valueError ∧
      (ArrayFns.PrandtlMeyer_Mach (arr v) (num (some g))).isArr = true := by
  refine ⟨?_, ?_, by unfold ArrayFns.PrandtlMeyer_Mach; nd_shape; try rfl⟩
  · unfold old_Mach_PrandtlMeyer ArrayFns.secant_solve
    simp only []
    rw [if_pos (by infer_instance)]
  · obtain ⟨w, hw⟩ : ∃ w, abs (arr v) = (arr w : Nd ι) := ⟨_, rfl⟩
    unfold ArrayFns.sigma_Mach_deflection
    simp only []
    rw [hw]
    unfold ArrayFns.secant_solve
    simp only []
    rw [if_pos (by infer_instance)]
    rfl

example : IsEmpty (Fin 0) := inferInstance

/-- C143 (shock angle search on arrays): with a float Mach number, `sigma_Mach_deflection` accepts a float or an array of
deflections, and a float or an array of initial guesses, never raises, and every entry for which the float call
returns a shock angle is that angle. -/
theorem C143_search_sigma [Nonempty ι] (m g : ℝ) (Defl : Nd ι) (init : Option (Nd ι)) :
    ∃ R, ArrayFns.sigma_Mach_deflection (num (some m)) Defl init (num (some g)) = .ok R ∧
      R.isArr = (Defl.isArr || (init.elim false (·.isArr))) ∧
      ∀ i d s0 s, Defl.at' i = some d → (init.map (·.at' i)) = s0.map some →
        ShockWave.sigma_Mach_deflection m d s0 g = .ok s → R.at' i = some s := by
  have hE : Elementwise₁ (fun X : Nd ι => ArrayFns.deflection_Mach_sigma (num (some m)) X (num (some g)))
      (fun x => ShockWave.deflection_Mach_sigma m x g) := by
    nd_elem₁ [ArrayFns.deflection_Mach_sigma, ShockWave.deflection_Mach_sigma, ArrayFns.Rho_ratio,
      ShockWave.Rho_ratio]
  obtain ⟨h1, h2⟩ := floats_of hE
  unfold ArrayFns.sigma_Mach_deflection
  cases init with
  | none =>
    obtain ⟨R, hR, hs, he⟩ := secant_solve_elem h1 h2 (abs Defl)
      (ArrayFns.degAsin (1.0 / num (some m)) + Defl)
    refine ⟨R * sign Defl, ?_, ?_, fun i d s0 s hd hi hsc => ?_⟩
    · simp only []; rw [hR]; rfl
    · nd_shape; rw [hs]; unfold ArrayFns.degAsin; nd_shape; cases Defl <;> rfl
    · cases s0 with
      | some s0 => simp at hi
      | none =>
        unfold ShockWave.sigma_Mach_deflection at hsc
        simp only [] at hsc
        cases hq : Py.div 1.0 m with
        | error e => rw [hq] at hsc; cases hsc
        | ok q =>
          cases hmu : degree.asin q with
          | error e => rw [hq, Py.ok_bind, hmu] at hsc; cases hsc
          | ok mu =>
            rw [hq, Py.ok_bind, hmu, Py.ok_bind, Py.pure_eq, Py.ok_bind] at hsc
            cases hz : IterativeSolve.secant_solve (fun sig => ShockWave.deflection_Mach_sigma m sig g)
                |d| (mu + d) with
            | error e => rw [hz] at hsc; cases hsc
            | ok z =>
              rw [hz] at hsc
              have hs' := Except.ok.inj hsc
              have hR' := he i |d| (mu + d) z (by rw [at_abs, hd]; rfl)
                (by
                  unfold degree.asin at hmu
                  cases ha : Py.arcsin q with
                  | error e => rw [ha] at hmu; cases hmu
                  | ok a =>
                    rw [ha] at hmu
                    have hmu' := Except.ok.inj hmu
                    unfold ArrayFns.degAsin
                    nd_entry [hd, hq, ha, hmu'] ) hz
              rw [at_mul, at_sign, hR', hd]
              simp only [Option.bind_some, hs']
  | some S =>
    obtain ⟨R, hR, hs, he⟩ := secant_solve_elem h1 h2 (abs Defl) S
    refine ⟨R * sign Defl, ?_, ?_, fun i d s0 s hd hi hsc => ?_⟩
    · simp only []; rw [hR]; rfl
    · nd_shape; rw [hs]; nd_shape; cases Defl <;> cases S <;> rfl
    · cases s0 with
      | none => simp at hi
      | some s0 =>
        have hS : S.at' i = some s0 := by simpa using hi
        unfold ShockWave.sigma_Mach_deflection at hsc
        simp only [Py.pure_eq, Py.ok_bind] at hsc
        cases hz : IterativeSolve.secant_solve (fun sig => ShockWave.deflection_Mach_sigma m sig g)
            |d| s0 with
        | error e => rw [hz] at hsc; cases hsc
        | ok z =>
          rw [hz] at hsc
          have hs' := Except.ok.inj hsc
          have hR' := he i |d| s0 z (by rw [at_abs, hd]; rfl) hS hz
          rw [at_mul, at_sign, hR', hd]
          simp only [Option.bind_some, hs']

/-- C143 (conical shock search on arrays): with a float Mach number, `conical_sigma_Mach_walldeflection` returns on an array
of cone angles as soon as the float calls return, with the same entries. -/
theorem C143_search_conical [Nonempty ι] (fuel : ℕ) (m g : ℝ) (d s : ι → ℝ)
    (h : ∀ i, ShockWave.conical_sigma_Mach_walldeflection fuel m (d i) g = .ok (s i)) :
    ArrayFns.conical_sigma_Mach_walldeflection fuel (num (some m)) (arr fun i => some (d i)) (num (some g))
      = .ok (arr fun i => some (s i)) := by
  have hE : ∀ x D, ShockWave.conical_deflection_Mach_sigma fuel m x g 1.0e-6 = .ok D →
      (ArrayFns.conical_deflection_Mach_sigma fuel (num (some m)) (num (some x)) (num (some g)) : Py (Nd ι))
        = .ok (num (some D)) := by
    intro x D hD
    unfold ArrayFns.conical_deflection_Mach_sigma
    simp only [hD]
  unfold ArrayFns.conical_sigma_Mach_walldeflection
  have key : ∀ i, secantElem (ι := ι) (fun sig => ArrayFns.conical_deflection_Mach_sigma fuel (num (some m)) sig (num (some g)))
      (num ((arr fun i => some (d i) : Nd ι).at' i))
      (num ((ArrayFns.degAsin (1.0 / num (some m)) + arr fun i => some (d i) : Nd ι).at' i)) = .ok (num (some (s i))) := by
    intro i
    have hi := h i
    unfold ShockWave.conical_sigma_Mach_walldeflection at hi
    cases hq : Py.div 1.0 m with
    | error e => rw [hq] at hi; cases hi
    | ok q =>
      cases hmu : degree.asin q with
      | error e => rw [hq, Py.ok_bind, hmu] at hi; cases hi
      | ok mu =>
        rw [hq, Py.ok_bind, hmu, Py.ok_bind] at hi
        have h0 : (ArrayFns.degAsin (1.0 / num (some m)) + arr fun i => some (d i) : Nd ι).at' i = some (mu + d i) := by
          unfold degree.asin at hmu
          cases ha : Py.arcsin q with
          | error e => rw [ha] at hmu; cases hmu
          | ok a =>
            rw [ha] at hmu
            have hmu' := Except.ok.inj hmu
            unfold ArrayFns.degAsin
            nd_entry [hq, ha, hmu']
        rw [h0]
        exact secantElem_scalar hE hi
  obtain ⟨R, hR, ha, hv⟩ := vectorize_ok (fun i => ⟨_, key i⟩) (Or.inl rfl)
  rw [hR]
  obtain ⟨v, rfl⟩ := exists_arr ha
  have : v = fun i => some (s i) := by
    funext i
    have h1 := hv i
    rw [key i] at h1
    have h2 := Except.ok.inj h1
    injection h2 with h3
    exact h3.symm
  rw [this]

theorem cubic_num (i : ι) (m d g : ℝ) :
    (ArrayFns.cubic (num (some m)) (num (some d)) (num (some g)) : Nd ι × Nd ι × Nd ι)
      = (num ((ShockWave.cubic m d g).toOption.map (·.ka)), num ((ShockWave.cubic m d g).toOption.map (·.kd)),
        num ((ShockWave.cubic m d g).toOption.map (·.ke))) := by
  refine Prod.ext ?_ (Prod.ext ?_ ?_)
  all_goals
    refine (eq_num (by unfold ArrayFns.cubic ArrayFns.degTan; nd_shape) i).trans ?_
    congr 1
    unfold ArrayFns.cubic ShockWave.cubic degree.tan
    nd_entry [ArrayFns.degTan]
    generalize (Py.tan (Py.radians d)).toOption = o
    cases o
    · rfl
    · nd_entry [Option.map_some]

/-- C143 (floats): on floats, the array models of the functions that branch on their arguments are the float models. -/
theorem C143_branch_floats (i : ι) (m d g p : ℝ) :
    (ArrayFns.weaksigma_Mach_deflection (num (some m)) (num (some d)) (num (some g)) : Py (Nd ι))
      = .ok (num (ShockWave.weaksigma_Mach_deflection m d g).toOption) ∧
    (ArrayFns.strongsigma_Mach_deflection (num (some m)) (num (some d)) (num (some g)) : Py (Nd ι))
      = .ok (num (ShockWave.strongsigma_Mach_deflection m d g).toOption) ∧
    ∀ r, ShockWave.Mn_Pt_ratio p g = .ok r →
      (ArrayFns.Mn_Pt_ratio (num (some p)) (num (some g)) : Py (Nd ι)) = .ok (num (some r)) := by
  refine ⟨?_, ?_, fun r hr => ?_⟩
  · unfold ArrayFns.weaksigma_Mach_deflection ShockWave.weaksigma_Mach_deflection
    rw [cubic_num i]
    cases hc : ShockWave.cubic m d g with
    | error e => rfl
    | ok c =>
      simp only [toOption_ok, Option.map_some, Py.ok_bind]
      rw [show (num (some c.ke) ^ 2 - 4.0 * num (some c.kd) ^ 3 : Nd ι) = num (some (c.ke ^ 2 - 4.0 * c.kd ^ 3)) from rfl,
        show (0 : Nd ι) = num (some 0) from rfl, truthGt_num, Py.ok_bind]
      by_cases hp : c.ke ^ 2 - 4.0 * c.kd ^ 3 > 0
      · rw [if_pos (by simpa [gtEntry] using hp), if_pos hp]
        rw [Py.pure_eq, eq_num (X := ArrayFns.degAsin _) (by unfold ArrayFns.degAsin; nd_shape) i]
        congr 2
        nd_entry [ArrayFns.degAsin, degree.asin]
        nd_chain
      · rw [if_neg (by simpa [gtEntry] using hp), if_neg hp]
        rw [Py.pure_eq, eq_num (X := ArrayFns.degAtan _) (by unfold ArrayFns.degAtan; nd_shape) i]
        congr 2
        nd_entry [ArrayFns.degAtan, degree.atan]
        nd_chain
  · unfold ArrayFns.strongsigma_Mach_deflection ShockWave.strongsigma_Mach_deflection
    rw [cubic_num i]
    cases hc : ShockWave.cubic m d g with
    | error e => rfl
    | ok c =>
      simp only [toOption_ok, Option.map_some, Py.ok_bind]
      rw [show (num (some c.ke) ^ 2 - 4.0 * num (some c.kd) ^ 3 : Nd ι) = num (some (c.ke ^ 2 - 4.0 * c.kd ^ 3)) from rfl,
        show (0 : Nd ι) = num (some 0) from rfl, truthGt_num, Py.ok_bind]
      by_cases hp : c.ke ^ 2 - 4.0 * c.kd ^ 3 > 0
      · rw [if_pos (by simpa [gtEntry] using hp), if_pos hp]
        rfl
      · rw [if_neg (by simpa [gtEntry] using hp), if_neg hp]
        rw [Py.pure_eq, eq_num (X := ArrayFns.degAtan _) (by unfold ArrayFns.degAtan; nd_shape) i]
        congr 2
        nd_entry [ArrayFns.degAtan, degree.atan]
        nd_chain
  · haveI : Nonempty ι := ⟨i⟩
    have hE : Elementwise₁ (fun X : Nd ι => ArrayFns.Pt_ratio X (num (some g))) (fun x => ShockWave.Pt_ratio x g) := by
      nd_elem₁ [ArrayFns.Pt_ratio, ShockWave.Pt_ratio, ArrayFns.Ps_ratio, ShockWave.Ps_ratio, ArrayFns.downstream_Mn,
        ShockWave.downstream_Mn, ArrayFns.PtPs_Mach, Isentropic.PtPs_Mach]
    unfold ArrayFns.Mn_Pt_ratio
    unfold ShockWave.Mn_Pt_ratio at hr
    rw [show (1 : Nd ι) = num (some 1) from rfl, truthGt_num, Py.ok_bind]
    by_cases hp : p > 1
    · rw [if_pos hp] at hr
      rw [if_pos (by simpa [gtEntry] using hp), ← Except.ok.inj hr]; rfl
    · rw [if_neg hp] at hr
      rw [if_neg (by simpa [gtEntry] using hp)]
      exact secantElem_scalar (f := fun m => .ok (ArrayFns.Pt_ratio m (num (some g)))) (floats_of hE).2 hr

/-- C143 (wave angle formulas on arrays): false.  `weaksigma_Mach_deflection`, `strongsigma_Mach_deflection` and `Mn_Pt_ratio` test their
arguments with `if`: an array of two or more entries in any argument of the first two, or in the pressure ratio of the
last, raises `ValueError` (use `np.vectorize`, or the elementwise `deflection_Mach_sigma`). -/
theorem C143_branch_false (hs : Several ι) (Mach Defl Gam P G : Nd ι)
    (h : Mach.isArr = true ∨ Defl.isArr = true ∨ Gam.isArr = true) (hP : P.isArr = true) :
    ArrayFns.weaksigma_Mach_deflection Mach Defl Gam = .error .valueError ∧
    ArrayFns.strongsigma_Mach_deflection Mach Defl Gam = .error .valueError ∧
    ArrayFns.Mn_Pt_ratio P G = .error .valueError := by
  have hk : ((ArrayFns.cubic Mach Defl Gam).2.2 ^ 2 - 4.0 * (ArrayFns.cubic Mach Defl Gam).2.1 ^ 3).isArr = true := by
    unfold ArrayFns.cubic ArrayFns.degTan
    nd_shape
    rcases h with h | h | h <;> simp [h]
  refine ⟨?_, ?_, ?_⟩
  · unfold ArrayFns.weaksigma_Mach_deflection
    simp only []
    rw [truthGt_arr hs _ _ (Or.inl hk)]; rfl
  · unfold ArrayFns.strongsigma_Mach_deflection
    simp only []
    rw [truthGt_arr hs _ _ (Or.inl hk)]; rfl
  · unfold ArrayFns.Mn_Pt_ratio
    rw [truthGt_arr hs _ _ (Or.inl hP)]; rfl

/-- The default initial guess of the shock angle searches, for a Mach number between 1 and 5000. -/
theorem sig0_large (m d : ℝ) (h1 : 1 ≤ m) (h2 : m ≤ 5000) (hd : 0 ≤ d) :
    ∃ q a, Py.div 1.0 m = .ok q ∧ Py.arcsin q = .ok a ∧ 0.0101 ≤ |Py.degrees a + d| := by
  have hm : 0 < m := by linarith
  refine ⟨1.0 / m, Real.arcsin (1.0 / m), Py.div_ok hm.ne', Py.arcsin_ok ?_ ?_, ?_⟩
  · have : 0 ≤ 1.0 / m := by positivity
    linarith
  · rw [div_le_one hm]; norm_num; exact h1
  · have hq : 1 / 5000 ≤ 1.0 / m := by
      rw [div_le_div_iff₀ (by norm_num) hm]; norm_num; linarith
    have hq0 : 0 ≤ 1.0 / m := by positivity
    have hq1 : 1.0 / m ≤ 1 := by rw [div_le_one hm]; norm_num; exact h1
    have ha : 1.0 / m ≤ Real.arcsin (1.0 / m) := by
      have h0 : 0 ≤ Real.arcsin (1.0 / m) := Real.arcsin_nonneg.mpr hq0
      have := Real.sin_le h0
      rwa [Real.sin_arcsin (by linarith) hq1] at this
    have hp := Real.pi_lt_d2
    have hp0 := Real.pi_pos
    have h3 : 57 ≤ 180 / Real.pi := by rw [le_div_iff₀ hp0]; linarith
    have h4 : 0.0101 ≤ Py.degrees (Real.arcsin (1.0 / m)) := by
      unfold Py.degrees
      calc (0.0101:ℝ) ≤ 1 / 5000 * 57 := by norm_num
        _ ≤ _ := by
          apply mul_le_mul (hq.trans ha) h3 (by norm_num)
          exact Real.arcsin_nonneg.mpr hq0
    rw [abs_of_nonneg (by linarith)]
    linarith

/-- C143 (shock angle search, array of Mach numbers): false.  `sigma_Mach_deflection` called with an array of two or more Mach
numbers (between 1 and 5000) raises `ValueError`, whatever the deflections (floats or array, nonnegative): the elementwise
`secant_solve` calls a function that has captured the whole array. -/
theorem C143_sigma_Mach_false (hs : Several ι) (m : ι → ℝ) (Defl Gam : Nd ι) (h1 : ∀ i, 1 ≤ m i) (h2 : ∀ i, m i ≤ 5000)
    (hd : ∀ i, ∃ d, Defl.at' i = some d ∧ 0 ≤ d) :
    ArrayFns.sigma_Mach_deflection (arr fun i => some (m i)) Defl none Gam = .error .valueError := by
  unfold ArrayFns.sigma_Mach_deflection
  simp only []
  have hf : ∀ x, ∃ v, (.ok (ArrayFns.deflection_Mach_sigma (arr fun i => some (m i)) (num x) Gam) : Py (Nd ι)) = .ok (arr v) := by
    intro x
    obtain ⟨v, hv⟩ := exists_arr (X := ArrayFns.deflection_Mach_sigma (arr fun i => some (m i)) (num x) Gam) (by
      unfold ArrayFns.deflection_Mach_sigma ArrayFns.Rho_ratio
      nd_shape; simp)
    exact ⟨v, by rw [hv]⟩
  have hrun : ∀ i, secantElem (ι := ι) (fun sig => .ok (ArrayFns.deflection_Mach_sigma (arr fun i => some (m i)) sig Gam))
      (num ((abs Defl).at' i)) (num ((ArrayFns.degAsin (1.0 / arr fun i => some (m i)) + Defl : Nd ι).at' i))
      = .error .valueError := by
    intro i
    obtain ⟨d, hdi, hd0⟩ := hd i
    obtain ⟨q, a, hq, ha, hl⟩ := sig0_large (m i) d (h1 i) (h2 i) hd0
    have h0 : (ArrayFns.degAsin (1.0 / arr fun i => some (m i)) + Defl : Nd ι).at' i = some (Py.degrees a + d) := by
      unfold ArrayFns.degAsin
      nd_entry [hq, ha, hdi]
    rw [h0]
    exact secantElem_arr hs hf _ _ hl
  obtain ⟨i, _, _⟩ := hs
  rw [vectorize_err (fun i e he => by rw [hrun i] at he; exact (Except.error.inj he).symm) ⟨i, _, hrun i⟩]
  · rfl
  · right; unfold ArrayFns.degAsin; nd_shape; rfl

/-- C143 (conical shocks on arrays): false.  An array of two or more entries as shock angle, or as Mach number with a shock angle
of at least a millionth of a degree, makes `conical_deflection_Mach_sigma` raise `ValueError`; so do an array of Mach numbers
for `conical_sigma_Mach_walldeflection` and any array for `conical_Mach_walldeflection_sigma`. -/
theorem C143_conical_false (hs : Several ι) (fuel : ℕ) (m : ι → ℝ) (s g : ℝ) (Sig Mach Gam Defl D S : Nd ι)
    (hS : Sig.isArr = true) (hm : 1.0e-6 ≤ |s|) (h1 : ∀ i, 1 ≤ m i) (h2 : ∀ i, m i ≤ 5000)
    (hd : ∀ i, ∃ d, Defl.at' i = some d ∧ 0 ≤ d) (hDS : D.isArr = true ∨ S.isArr = true) :
    ArrayFns.conical_deflection_Mach_sigma fuel Mach Sig Gam = .error .valueError ∧
    ArrayFns.conical_deflection_Mach_sigma fuel (arr fun i => some (m i)) (num (some s)) Gam = .error .valueError ∧
    ArrayFns.conical_sigma_Mach_walldeflection fuel (arr fun i => some (m i)) Defl Gam = .error .valueError ∧
    ArrayFns.conical_Mach_walldeflection_sigma fuel D S Gam = .error .valueError := by
  have hu := not_unique_of_several hs
  have hmach : ∀ s : ℝ, 1.0e-6 ≤ |s| →
      ArrayFns.conical_deflection_Mach_sigma fuel (arr fun i => some (m i)) (num (some s)) Gam = .error .valueError := by
    intro s hm
    unfold ArrayFns.conical_deflection_Mach_sigma
    cases Gam <;> simp [hu, hm]
  refine ⟨?_, hmach s hm, ?_, ?_⟩
  · obtain ⟨v, rfl⟩ := exists_arr hS
    unfold ArrayFns.conical_deflection_Mach_sigma
    cases Mach <;> cases Gam <;> simp [hu]
  · unfold ArrayFns.conical_sigma_Mach_walldeflection
    have hrun : ∀ i, secantElem (ι := ι) (fun sig => ArrayFns.conical_deflection_Mach_sigma fuel (arr fun i => some (m i)) sig Gam)
        (num (Defl.at' i)) (num ((ArrayFns.degAsin (1.0 / arr fun i => some (m i)) + Defl : Nd ι).at' i))
        = .error .valueError := by
      intro i
      obtain ⟨d, hdi, hd0⟩ := hd i
      obtain ⟨q, a, hq, ha, hl⟩ := sig0_large (m i) d (h1 i) (h2 i) hd0
      have h0 : (ArrayFns.degAsin (1.0 / arr fun i => some (m i)) + Defl : Nd ι).at' i = some (Py.degrees a + d) := by
        unfold ArrayFns.degAsin
        nd_entry [hq, ha, hdi]
      rw [h0]
      unfold secantElem
      simp only []
      rw [hmach _ (le_trans (by norm_num) hl)]; rfl
    obtain ⟨i, _, _⟩ := hs
    refine vectorize_err (fun i e he => by rw [hrun i] at he; exact (Except.error.inj he).symm) ⟨i, _, hrun i⟩ ?_
    right; unfold ArrayFns.degAsin; nd_shape; rfl
  · unfold ArrayFns.conical_Mach_walldeflection_sigma
    rw [truthGt_arr hs _ _ hDS.symm]; rfl

/-- C143 with C96: an array of turning angles, each that of a Mach number of at least 2, is inverted entry by entry; no entry
overshoots its Mach number. -/
theorem C143_PM_array_partial [Nonempty ι] (g : ℝ) (hg : 1.11 ≤ g) (M w : ι → ℝ) (hM : ∀ i, 2 ≤ M i)
    (hw : ∀ i, Supersonic.PrandtlMeyer_Mach (M i) g = .ok (w i)) :
    ∃ m : ι → ℝ, old_Mach_PrandtlMeyer (arr fun i => some (w i)) (num (some g)) = .ok (arr fun i => some (m i)) ∧
      ∀ i, 2 ≤ m i ∧ m i ≤ M i := by
  choose res w' h0 h1 h2 h3 h4 using fun i => C96_prandtlMeyer_partial (M i) g (w i) hg (hM i) (hw i)
  obtain ⟨R, hR, hs, he⟩ := C143_search_PM g (arr fun i => some (w i))
  obtain ⟨v, rfl⟩ := exists_arr hs
  refine ⟨fun i => (res i).x, ?_, fun i => ⟨h2 i, h3 i⟩⟩
  rw [hR]
  congr 2
  funext i
  exact he i (w i) _ rfl (h1 i)

/-- Arrays with two entries. -/
theorem several_fin2 : Several (Fin 2) := ⟨0, 1, by decide⟩

/-- `TtTs_Mach(np.array([1., 2.]), 1.4)` is `[1.2, 1.8]`. -/
example : ArrayFns.TtTs_Mach (arr ![some 1, some 2] : Nd (Fin 2)) (num (some 1.4)) = arr ![some 1.2, some 1.8] := by
  obtain ⟨h1, h2⟩ := (C143_isentropic (ι := Fin 2)).1
  obtain ⟨v, hv⟩ := exists_arr (X := ArrayFns.TtTs_Mach (arr ![some 1, some 2] : Nd (Fin 2)) (num (some 1.4)))
    (by rw [h1]; rfl)
  have a0 := h2 (arr ![some 1, some 2]) (num (some 1.4)) 0 1 1.4 rfl rfl
  have a1 := h2 (arr ![some 1, some 2]) (num (some 1.4)) 1 2 1.4 rfl rfl
  rw [hv] at a0 a1 ⊢
  congr 1
  funext i
  fin_cases i
  · simp only [at_arr, Isentropic.TtTs_Mach, Py.pure_eq, toOption_ok] at a0
    simp only [Fin.zero_eta, a0, Matrix.cons_val_zero]; norm_num
  · simp only [at_arr, Isentropic.TtTs_Mach, Py.pure_eq, toOption_ok] at a1
    simp only [Fin.mk_one, a1, Matrix.cons_val_one]; norm_num

/-- The array of Mach numbers `[2., 3.]` with a deflection of 10 degrees: `ValueError`. -/
example : ArrayFns.sigma_Mach_deflection (arr fun i => some (![2, 3] i) : Nd (Fin 2)) (num (some 10)) none (num (some 1.4))
    = .error .valueError := by
  refine C143_sigma_Mach_false several_fin2 _ _ _ ?_ ?_ (fun i => ⟨10, rfl, by norm_num⟩)
  · intro i; fin_cases i <;> norm_num
  · intro i; fin_cases i <;> norm_num

/-- The hypotheses of `C143_PM_array_partial` are met by the Mach numbers 2 and 3. -/
example : ∃ (M w : Fin 2 → ℝ), (∀ i, 2 ≤ M i) ∧ ∀ i, Supersonic.PrandtlMeyer_Mach (M i) 1.4 = .ok (w i) := by
  refine ⟨![2, 3], fun i => pmDeg 1.4 (![2, 3] i), ?_, ?_⟩
  · intro i; fin_cases i <;> norm_num
  · intro i; exact PM_ok (by norm_num) (by fin_cases i <;> norm_num)

/-- The hypotheses of `C143_branch_false` and `C143_conical_false`. -/
example : Several (Fin 2) ∧ (arr ![some 2, some 3] : Nd (Fin 2)).isArr = true := ⟨several_fin2, rfl⟩

/-- The hypothesis of `C143_search_conical` is met. -/
example : ∃ (m : ℝ) (d s : Fin 2 → ℝ), ∀ i, ShockWave.conical_sigma_Mach_walldeflection 0 m (d i) 1.4 = .ok (s i) := by
  obtain ⟨m, d, s, h⟩ := conical_sigma_returns
  exact ⟨m, fun _ => d, fun _ => s, fun _ => h⟩

end Aerokit.Props
