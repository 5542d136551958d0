import Verif.Props.ArraySearch

/-!
# C143: arrays with one entry

The functions that test their arguments with `if` accept arrays with exactly one entry.
-/

namespace Aerokit.Props
open Nd Spec ArrayFns
variable {ι : Type}

theorem truthGt_one [Unique ι] (X Y : Nd ι) : truthGt X Y = .ok (gtEntry (X.at' default) (Y.at' default)) := by
  have h : Nonempty (Unique ι) := ⟨inferInstance⟩
  have e : h.some.default = (default : ι) := Subsingleton.elim _ _
  cases X <;> cases Y <;> simp [truthGt, h, e]

theorem cubic_entry (i : ι) {Mach Defl Gam : Nd ι} {m d g : ℝ} (hm : Mach.at' i = some m) (hd : Defl.at' i = some d) (hg : Gam.at' i = some g) :
    (ArrayFns.cubic Mach Defl Gam).1.at' i = (ShockWave.cubic m d g).toOption.map (·.ka) ∧
    (ArrayFns.cubic Mach Defl Gam).2.1.at' i = (ShockWave.cubic m d g).toOption.map (·.kd) ∧
    (ArrayFns.cubic Mach Defl Gam).2.2.at' i = (ShockWave.cubic m d g).toOption.map (·.ke) := by
  refine ⟨?_, ?_, ?_⟩
  all_goals
    unfold ArrayFns.cubic ShockWave.cubic degree.tan
    nd_entry [ArrayFns.degTan, hm, hd, hg]
    generalize (Py.tan (Py.radians d)).toOption = o
    cases o
    · rfl
    · nd_entry [Option.map_some]

/-- C143 (one entry): the functions that branch on their arguments accept arrays with exactly one entry, and the entry of the result is
what the float call returns; `Mn_Pt_ratio` of a ratio above 1 is the float 1, not an array. -/
theorem C143_one_entry [Unique ι] (Mach Defl Gam P : Nd ι) (m d g p : ℝ) (hm : Mach.at' default = some m) (hd : Defl.at' default = some d)
    (hg : Gam.at' default = some g) (hp : P.at' default = some p) :
    (∃ R, ArrayFns.weaksigma_Mach_deflection Mach Defl Gam = .ok R ∧ R.at' default = (ShockWave.weaksigma_Mach_deflection m d g).toOption) ∧
    (∃ R, ArrayFns.strongsigma_Mach_deflection Mach Defl Gam = .ok R ∧ R.at' default = (ShockWave.strongsigma_Mach_deflection m d g).toOption) ∧
    ∀ r, ShockWave.Mn_Pt_ratio p g = .ok r →
      ∃ R, ArrayFns.Mn_Pt_ratio P (num (some g)) = .ok R ∧ R.at' default = some r ∧ R.isArr = (P.isArr && decide (p ≤ 1)) := by
  obtain ⟨ca, cd, ce⟩ := cubic_entry default hm hd hg
  obtain ⟨b, hb, ht⟩ : ∃ b, b = gtEntry (((ArrayFns.cubic Mach Defl Gam).2.2 ^ 2 - 4.0 * (ArrayFns.cubic Mach Defl Gam).2.1 ^ 3).at' default) (some 0) ∧
      truthGt ((ArrayFns.cubic Mach Defl Gam).2.2 ^ 2 - 4.0 * (ArrayFns.cubic Mach Defl Gam).2.1 ^ 3) 0 = .ok b := ⟨_, rfl, by rw [truthGt_one, at_zero]⟩
  simp only [at_sub, at_npow, at_mul, at_ofScientific, cd, ce] at hb
  refine ⟨?_, ?_, fun r hr => ?_⟩
  · unfold ArrayFns.weaksigma_Mach_deflection ShockWave.weaksigma_Mach_deflection
    simp only []
    rw [ht, Py.ok_bind]
    cases hc : ShockWave.cubic m d g with
    | error e =>
      rw [hc] at cd ce ca hb
      rw [show b = false from hb]
      refine ⟨_, rfl, ?_⟩
      nd_entry [ArrayFns.degAtan, cd, ce, ca]
      rfl
    | ok c =>
      rw [hc] at cd ce ca hb
      simp only [toOption_ok, Option.map_some, Option.bind_some, Py.ok_bind] at ca cd ce hb ⊢
      by_cases hp : c.ke ^ 2 - 4.0 * c.kd ^ 3 > 0
      · rw [if_pos hp, if_pos (by rw [hb]; simpa [gtEntry] using hp)]
        refine ⟨_, rfl, ?_⟩
        nd_entry [ArrayFns.degAsin, degree.asin, hm]
        nd_chain
      · rw [if_neg hp, if_neg (by rw [hb]; simpa [gtEntry] using hp)]
        refine ⟨_, rfl, ?_⟩
        nd_entry [ArrayFns.degAtan, degree.atan, ca, cd, ce]
        nd_chain
  · unfold ArrayFns.strongsigma_Mach_deflection ShockWave.strongsigma_Mach_deflection
    simp only []
    rw [ht, Py.ok_bind]
    cases hc : ShockWave.cubic m d g with
    | error e =>
      rw [hc] at cd ce ca hb
      rw [show b = false from hb]
      refine ⟨_, rfl, ?_⟩
      nd_entry [ArrayFns.degAtan, cd, ce, ca]
      rfl
    | ok c =>
      rw [hc] at cd ce ca hb
      simp only [toOption_ok, Option.map_some, Option.bind_some, Py.ok_bind] at ca cd ce hb ⊢
      by_cases hp : c.ke ^ 2 - 4.0 * c.kd ^ 3 > 0
      · rw [if_pos hp, if_pos (by rw [hb]; simpa [gtEntry] using hp)]
        exact ⟨_, rfl, rfl⟩
      · rw [if_neg hp, if_neg (by rw [hb]; simpa [gtEntry] using hp)]
        refine ⟨_, rfl, ?_⟩
        nd_entry [ArrayFns.degAtan, degree.atan, ca, cd, ce]
        nd_chain
  · have hE : Elementwise₁ (fun X : Nd ι => ArrayFns.Pt_ratio X (num (some g))) (fun x => ShockWave.Pt_ratio x g) := by
      nd_elem₁ [ArrayFns.Pt_ratio, ShockWave.Pt_ratio, ArrayFns.Ps_ratio, ShockWave.Ps_ratio, ArrayFns.downstream_Mn,
        ShockWave.downstream_Mn, ArrayFns.PtPs_Mach, Isentropic.PtPs_Mach]
    unfold ArrayFns.Mn_Pt_ratio
    unfold ShockWave.Mn_Pt_ratio at hr
    rw [truthGt_one, Py.ok_bind, hp, at_one]
    by_cases hq : p > 1
    · rw [if_pos hq] at hr
      rw [if_pos (by simpa [gtEntry] using hq), ← Except.ok.inj hr]
      refine ⟨1, rfl, rfl, ?_⟩
      rw [decide_eq_false (by linarith), Bool.and_false]; rfl
    · rw [if_neg hq] at hr
      rw [if_neg (by simpa [gtEntry] using hq)]
      obtain ⟨R, h1, h2, h3⟩ := secant_solve_elem (f := fun m => .ok (ArrayFns.Pt_ratio m (num (some g)))) (g := fun x => ShockWave.Pt_ratio x g) (floats_of hE).1 (floats_of hE).2 P 1.5
      refine ⟨R, h1, h3 default p 1.5 r hp rfl hr, ?_⟩
      rw [h2, decide_eq_true (by linarith)]
      simp [show (1.5 : Nd ι).isArr = false from rfl]

/-- the hypotheses of `C143_one_entry`: `np.array([2.0])` and `np.array([10.0])` -/
example : ∃ R, ArrayFns.weaksigma_Mach_deflection (arr fun _ : Unit => some 2) (arr fun _ => some 10) (num (some 1.4)) = .ok R ∧
    R.at' () = (ShockWave.weaksigma_Mach_deflection 2 10 1.4).toOption :=
  (C143_one_entry (arr fun _ : Unit => some 2) (arr fun _ => some 10) (num (some 1.4)) (num (some 1)) 2 10 1.4 1 rfl rfl rfl rfl).1

end Aerokit.Props
