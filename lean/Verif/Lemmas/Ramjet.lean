import Verif.Spec.Ramjet
import Verif.Spec.Solver
import Verif.Props.DuctFlows
import Verif.Props.NozzleShock
import Verif.Props.NozzleWitness
import Verif.Props.Plot
import Verif.Lemmas.Engine

/-! # Lemmas on the ramjet -/

namespace Aerokit.Ramjet
open ShockWave MassFlow Rayleigh Plot Isentropic Spec Nozzle
open DefaultGas (gamma0)
open Props (Ray_Ti_ok Ray_Pi_ok ray_den_pos C26_sub_right_inverse C26_sup_right_inverse C25_monotone linspace_ok ptr_continuous C120_static
  residual_of_sig CompleteRF)

theorem gam_eq : gam = gamma0 := by unfold gam DefaultGas.gamma0; norm_num
theorem hgam : 1 < gam := by rw [gam_eq]; exact one_lt_gamma0

/-- `Ti_Ticri` -/
noncomputable def rti (M : ℝ) : ℝ := 1 - ((1 - M ^ 2) / (1 + gam * M ^ 2)) ^ 2
/-- `Pi_Picri` -/
noncomputable def rpi (M : ℝ) : ℝ := (gam + 1) / (1 + gam * M ^ 2) * (2 / (gam + 1) * tt M gam) ^ (gam / (gam - 1))

theorem Ti_ok (M : ℝ) : Ti_Ticri M gam = .ok (rti M) := Ray_Ti_ok hgam
theorem Pi_ok (M : ℝ) : Pi_Picri M gam = .ok (rpi M) := Ray_Pi_ok hgam

theorem rpi_pos (M : ℝ) : 0 < rpi M := by
  have := hgam
  unfold rpi
  exact mul_pos (div_pos (by linarith) (ray_den_pos hgam)) (Real.rpow_pos_of_pos (base_pos hgam) _)

theorem rti_lt {M N : ℝ} (h0 : 0 ≤ M) (h : M < N) (h1 : N ≤ 1) : rti M < rti N := by
  obtain ⟨t, t', e, e', h2, _⟩ := C25_monotone M N gam hgam h0 h
  rw [Ti_ok] at e e'
  have e := Except.ok.inj e
  have e' := Except.ok.inj e'
  rw [e, e']; exact h2 h1

theorem rti_gt {M N : ℝ} (h0 : 1 ≤ M) (h : M < N) : rti N < rti M := by
  obtain ⟨t, t', e, e', _, h2⟩ := C25_monotone M N gam hgam (by linarith) h
  rw [Ti_ok] at e e'
  have e := Except.ok.inj e
  have e' := Except.ok.inj e'
  rw [e, e']; exact h2 h0

theorem rti_zero : rti 0 = 0 := by unfold rti; norm_num
theorem rti_one : rti 1 = 1 := by unfold rti; norm_num

theorem rti_eq (M : ℝ) : rti M = 2 * (gam + 1) * M ^ 2 * tt M gam / (1 + gam * M ^ 2) ^ 2 := by
  have hd := ray_den_pos (M := M) hgam
  unfold rti tt
  rw [div_pow, eq_div_iff (by positivity), sub_mul, div_mul_cancel₀ _ (by positivity)]
  ring

theorem rti_pos {M : ℝ} (h0 : M ≠ 0) : 0 < rti M := by
  have := hgam
  have hd := ray_den_pos (M := M) hgam
  rw [rti_eq]
  have := tt_pos (M := M) hgam
  positivity

theorem rti_le_one (M : ℝ) : rti M ≤ 1 := by
  unfold rti; nlinarith [sq_nonneg ((1 - M ^ 2) / (1 + gam * M ^ 2))]

/-- above the asymptotic ratio -/
theorem rti_sup {M : ℝ} (h0 : M ≠ 0) : 1 - 1 / gam ^ 2 < rti M ∨ M ^ 2 < 1 := by
  by_cases h1 : M ^ 2 < 1
  · exact Or.inr h1
  refine Or.inl ?_
  push Not at h1
  have hg := hgam
  have hd := ray_den_pos (M := M) hgam
  unfold rti
  have h2 : ((1 - M ^ 2) / (1 + gam * M ^ 2)) ^ 2 < 1 / gam ^ 2 := by
    rw [div_pow, div_lt_div_iff₀ (by positivity) (by positivity)]
    have : (gam * (M ^ 2 - 1)) ^ 2 < (1 + gam * M ^ 2) ^ 2 := by
      apply pow_lt_pow_left₀ _ (by nlinarith) (by norm_num)
      nlinarith
    nlinarith
  linarith

/-- mass conservation along a Rayleigh flow -/
theorem sig_rti {M : ℝ} (hM : 0 < M) : sig M gam * Real.sqrt (rti M) = rpi M := by
  have hg := hgam
  have hd := ray_den_pos (M := M) hgam
  have hb := base_pos (M := M) hgam
  have e1 : Real.sqrt (rti M) = (gam + 1) * M / (1 + gam * M ^ 2) * (2 / (gam + 1) * tt M gam) ^ ((1:ℝ) / 2) := by
    rw [← Real.sqrt_eq_rpow, Real.sqrt_eq_iff_mul_self_eq (rti_pos hM.ne').le (by positivity), rti_eq]
    have h2 := Real.mul_self_sqrt hb.le
    generalize √(2 / (gam + 1) * tt M gam) = w at h2 ⊢
    rw [show (gam + 1) * M / (1 + gam * M ^ 2) * w * ((gam + 1) * M / (1 + gam * M ^ 2) * w) =
      ((gam + 1) * M / (1 + gam * M ^ 2)) ^ 2 * (w * w) by ring, h2]
    field_simp
  have e2 : (2 / (gam + 1) * tt M gam) ^ (gam / (gam - 1)) =
      (2 / (gam + 1) * tt M gam) ^ ((gam + 1) / (2 * (gam - 1))) * (2 / (gam + 1) * tt M gam) ^ ((1:ℝ) / 2) := by
    rw [← Real.rpow_add hb]; congr 1
    have : gam - 1 ≠ 0 := by linarith
    field_simp; ring
  rw [e1]; unfold rpi; rw [e2]; unfold sig
  generalize (2 / (gam + 1) * tt M gam) ^ ((1:ℝ) / 2) = u
  generalize (2 / (gam + 1) * tt M gam) ^ ((gam + 1) / (2 * (gam - 1))) = v
  field_simp

/-- the shock does not leave the Rayleigh line -/
theorem rti_shock {M : ℝ} (hM : 1 ≤ M) : rti (√(mn2 M gam)) = rti M := by
  obtain ⟨_, _, _, _, _, _, _, _, _, _, _, _, _, _, _, T, T', _, _, _, _, _, _, _, _, _, _, _, _, _, _, _, e, e', _, _, _, _, _, _, e2⟩ :=
    C120_static M _ gam hgam hM (downstream_Mn_ok hgam (dom_of_one_le hgam hM))
  rw [Ti_ok] at e e'
  rw [Except.ok.inj e, Except.ok.inj e', e2]

theorem search_sub {nf : RootFinder} (hb : BranchRootFinder nf) {s x0 m : ℝ} (hs : 1 ≤ s) (hx : x0 ≤ 1) (h : Mach_Sigma nf s x0 gam = .ok m) :
    0 < m ∧ m ≤ 1 ∧ sig m gam = s := by
  obtain ⟨h1, h2, _⟩ := hb _ _ _ _ h
  obtain ⟨h3, h4⟩ := pos_of_Sigma hgam hs (residual_zero h1)
  exact ⟨h3, h2 hx, h4⟩

theorem search_sup {nf : RootFinder} (hb : BranchRootFinder nf) {s x0 m : ℝ} (hs : 1 ≤ s) (hx : 1 ≤ x0) (h : Mach_Sigma nf s x0 gam = .ok m) :
    1 ≤ m ∧ sig m gam = s := by
  obtain ⟨h1, _, h2⟩ := hb _ _ _ _ h
  obtain ⟨_, h4⟩ := pos_of_Sigma hgam hs (residual_zero h1)
  exact ⟨h2 hx, h4⟩

theorem exists_sub' {s : ℝ} (hs : 1 ≤ s) : ∃ m, 0 < m ∧ m ≤ 1 ∧ sig m gam = s := by
  rcases hs.eq_or_lt with e | e
  · exact ⟨1, one_pos, le_refl _, by rw [sig_one hgam, e]⟩
  · obtain ⟨m, h0, h1, h2⟩ := exists_sub hgam e
    exact ⟨m, h0, h1.le, h2⟩

theorem exists_sup' {s : ℝ} (hs : 1 ≤ s) : ∃ m, 1 ≤ m ∧ sig m gam = s := by
  rcases hs.eq_or_lt with e | e
  · exact ⟨1, le_refl _, by rw [sig_one hgam, e]⟩
  · obtain ⟨m, h0, h2⟩ := exists_sup hgam e
    exact ⟨m, h0.le, h2⟩

theorem found_sub {nf : RootFinder} (hc : CompleteRF nf) {s x0 : ℝ} (hs : 1 ≤ s) (hx : x0 < 1) :
    ∃ m, Mach_Sigma nf s x0 gam = .ok m := by
  obtain ⟨m, h0, h1, h2⟩ := exists_sub' hs
  exact hc _ _ ⟨m, residual_of_sig hgam h0 h2, fun _ => h1, fun h => absurd h (by linarith)⟩

theorem found_sup {nf : RootFinder} (hc : CompleteRF nf) {s x0 : ℝ} (hs : 1 ≤ s) (hx : 1 < x0) :
    ∃ m, Mach_Sigma nf s x0 gam = .ok m := by
  obtain ⟨m, h0, h2⟩ := exists_sup' hs
  exact hc _ _ ⟨m, residual_of_sig hgam (by linarith) h2, fun h => absurd h (by linarith), fun _ => h0⟩

theorem sig_le_sub {m n : ℝ} (h0 : 0 < m) (h : m ≤ n) (h1 : n ≤ 1) : sig n gam ≤ sig m gam :=
  (sig_strictAnti hgam).antitoneOn ⟨h0, h.trans h1⟩ ⟨h0.trans_le h, h1⟩ h

theorem sig_lt_sub {m n : ℝ} (h0 : 0 < m) (h : m < n) (h1 : n ≤ 1) : sig n gam < sig m gam :=
  (sig_strictAnti hgam) ⟨h0, h.le.trans h1⟩ ⟨h0.trans h, h1⟩ h

theorem le_of_sig_sub {m n : ℝ} (h0 : 0 < m) (h1 : m ≤ 1) (h2 : 0 < n) (h3 : n ≤ 1) (h : sig n gam ≤ sig m gam) : m ≤ n := by
  by_contra hc; push Not at hc; exact absurd (sig_lt_sub h2 hc h1) (by linarith)

theorem le_of_sig_sup {m n : ℝ} (h0 : 1 ≤ m) (h1 : 1 ≤ n) (h : sig m gam ≤ sig n gam) : m ≤ n := by
  by_contra hc; push Not at hc; exact absurd ((sig_strictMono hgam) h1 h0 hc) (by simp only [not_lt]; exact h)

/-- the Mach number before heat addition -/
theorem heat_point {t4 α mlo : ℝ} (ht : 0 < t4) (h0 : 0 < mlo) (h1 : mlo ≤ 1) (hα : t4 / rti mlo ≤ α) :
    ∃ m, SubMach_TiTicri (t4 / α) gam = .ok m ∧ 0 < m ∧ m ≤ mlo ∧ rti m = t4 / α ∧ (∀ mhi, 0 < mhi → mhi ≤ 1 → α ≤ t4 / rti mhi → mhi ≤ m) := by
  have hlo := rti_pos h0.ne'
  have hα0 : 0 < α := (div_pos ht hlo).trans_le hα
  have ht1 : t4 / α ≤ rti mlo := by rw [div_le_iff₀ hlo] at hα; rw [div_le_iff₀ hα0]; linarith
  obtain ⟨m, e, m0, m1, e2, _⟩ := C26_sub_right_inverse (t4 / α) gam hgam (by positivity) (ht1.trans (rti_le_one _))
  rw [Ti_ok] at e2
  have e2 := Except.ok.inj e2
  have hmp : 0 < m := by
    rcases m0.eq_or_lt with h | h
    · rw [← h, rti_zero] at e2
      have := div_pos ht hα0; linarith
    · exact h
  refine ⟨m, e, hmp, ?_, e2, fun mhi g0 g1 g => ?_⟩
  · by_contra hc; push Not at hc
    have := rti_lt h0.le hc m1
    linarith
  · by_contra hc; push Not at hc
    have := rti_lt m0 hc g1
    rw [le_div_iff₀ (rti_pos g0.ne')] at g
    rw [e2, div_lt_iff₀ hα0] at this
    linarith

/-- the only shock -/
theorem shock_point {Mt A3 M3 m3 : ℝ} (ht : 1 ≤ Mt) (hA : 1 ≤ A3) (h3 : 1 ≤ M3) (e3 : sig M3 gam = A3 * sig Mt gam) (hm0 : 0 < m3) (hm1 : m3 ≤ 1)
    (hlo : sig M3 gam * ptr M3 gam ≤ sig m3 gam) (hhi : sig m3 gam ≤ A3 * (sig Mt gam * ptr Mt gam)) :
    ∃! q : ℝ × ℝ, Spec.Ramjet.ShockInDiffuser gam Mt A3 q.1 q.2 m3 (sig m3 gam / sig Mt gam / A3) := by
  have hst := sig_pos hgam (show 0 < Mt by linarith)
  have hA0 : 0 < A3 := by linarith
  have hle : Mt ≤ M3 := le_of_sig_sup ht h3 (by rw [e3]; nlinarith)
  obtain ⟨p, hp⟩ : ∃ p, p = sig m3 gam / sig Mt gam / A3 := ⟨_, rfl⟩
  have hp2 : sig m3 gam = p * (A3 * sig Mt gam) := by rw [hp]; field_simp
  have hAs : 0 < A3 * sig Mt gam := by positivity
  have hp3 : ptr M3 gam ≤ p := by rw [hp2, e3] at hlo; nlinarith
  have hp4 : p ≤ ptr Mt gam := by rw [hp2] at hhi; nlinarith
  rw [← hp]
  have hpt : ∀ M, 1 ≤ M → Pt_ratio M gam = .ok (ptr M gam) := fun M h => by rw [gam_eq]; exact Pt_ratio_ok_default h
  have hcont : ContinuousOn (fun M => ptr M gam) (Set.Icc Mt M3) := by
    rw [gam_eq]; exact (ptr_continuous M3).mono (Set.Icc_subset_Icc_left ht)
  obtain ⟨Ms, hMs, eMs⟩ := intermediate_value_Icc' hle hcont ⟨hp3, hp4⟩
  have hMs1 : 1 ≤ Ms := ht.trans hMs.1
  have eMs : ptr Ms gam = p := eMs
  have mono := (sig_strictMono hgam).monotoneOn
  have s1 : sig Mt gam ≤ sig Ms gam := mono ht hMs1 hMs.1
  have s2 : sig Ms gam ≤ sig M3 gam := mono hMs1 h3 hMs.2
  have hMd := Real.sqrt_pos.2 (mn2_pos hgam (dom_of_one_le hgam hMs1))
  refine ⟨(sig Ms gam / sig Mt gam, Ms), ?_, ?_⟩
  · refine ⟨⟨by rw [le_div_iff₀ hst]; linarith, by rw [div_le_iff₀ hst, ← e3]; exact s2⟩, hMs1, ⟨hm0, hm1⟩,
      ⟨_, _, Sigma_Mach_ok hgam (by linarith), Sigma_Mach_ok hgam (by simp only []; linarith), by simp only []; field_simp⟩,
      by rw [hpt _ hMs1, eMs],
      ⟨_, _, _, downstream_Mn_ok hgam (dom_of_one_le hgam hMs1), Sigma_Mach_ok hgam hMd.ne', Sigma_Mach_ok hgam hm0.ne', ?_⟩⟩
    rw [sig_shock hgam hMs1, eMs, hp2]; field_simp
  · rintro ⟨As, M⟩ ⟨hin, hs, -, ⟨st, ss, e1, e2, e4⟩, e5, -⟩
    simp only [] at hin hs e1 e2 e4 e5
    rw [hpt _ hs] at e5
    have e5 := Except.ok.inj e5
    have hM : M = Ms := by
      have hinj := (ptr_strictAnti hgam).injOn
      exact hinj hs hMs1 (by simp only []; rw [e5, eMs])
    subst hM
    rw [Sigma_Mach_ok hgam (by linarith)] at e1
    rw [Sigma_Mach_ok hgam (by linarith)] at e2
    rw [← Except.ok.inj e1, ← Except.ok.inj e2] at e4
    rw [e4]; congr 1; field_simp

end Aerokit.Ramjet
