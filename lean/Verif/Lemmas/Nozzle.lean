import Verif.Model.Nozzle
import Verif.Spec.Solver
import Verif.Lemmas.MassFlow
import Verif.Lemmas.Oblique
import Verif.Props.MassFlow

/-! Lemmas for the nozzle: mass flow through the shock, closed form of the exit Mach number. -/

namespace Aerokit.Nozzle
open Isentropic MassFlow ShockWave Spec

/-- total over static pressure ratio -/
noncomputable def ppt (M γ : ℝ) : ℝ := tt M γ ^ (γ / (γ - 1))

theorem ppt_pos {M γ : ℝ} (h : 1 < γ) : 0 < ppt M γ := Real.rpow_pos_of_pos (tt_pos h) _

theorem ppt_lt {M N γ : ℝ} (h : 1 < γ) (hM : 0 ≤ M) (hMN : M < N) : ppt M γ < ppt N γ :=
  Real.rpow_lt_rpow (tt_pos h).le (tt_lt_tt h hM hMN) (gam_exp_pos h)

theorem ppt_zero (γ : ℝ) : ppt 0 γ = 1 := by unfold ppt tt; simp

theorem one_lt_ppt {M γ : ℝ} (h : 1 < γ) (hM : 0 < M) : 1 < ppt M γ := by
  rw [← ppt_zero γ]; exact ppt_lt h le_rfl hM

theorem PtPs_ppt {M γ : ℝ} (h : 1 < γ) : PtPs_Mach M γ = .ok (ppt M γ) := PtPs_Mach_ok h

/-- the constant of the shock-in-diffuser formula -/
noncomputable def kc (γ : ℝ) : ℝ := ((γ + 1) / 2) ^ ((γ + 1) / (2 * (γ - 1)))

theorem kc_pos {γ : ℝ} (h : 1 < γ) : 0 < kc γ := Real.rpow_pos_of_pos (by linarith) _

/-- `ppt / sig = kc * M * sqrt tt` -/
theorem ppt_div_sig {M γ : ℝ} (h : 1 < γ) (hM : 0 < M) :
    ppt M γ / sig M γ = kc γ * (M * Real.sqrt (tt M γ)) := by
  have ht := tt_pos (M := M) h
  have hg : 0 < γ + 1 := by linarith
  have hg1 : γ - 1 ≠ 0 := by linarith
  have hk := kc_pos h
  have e1 : (2 / (γ + 1) * tt M γ) ^ ((γ + 1) / (2 * (γ - 1)))
      = (kc γ)⁻¹ * tt M γ ^ ((γ + 1) / (2 * (γ - 1))) := by
    rw [Real.mul_rpow (by positivity) ht.le]
    congr 1
    unfold kc
    rw [← Real.inv_rpow (by positivity), inv_div]
  have e2 : tt M γ ^ (γ / (γ - 1)) = tt M γ ^ ((γ + 1) / (2 * (γ - 1))) * Real.sqrt (tt M γ) := by
    rw [Real.sqrt_eq_rpow, ← Real.rpow_add ht]
    congr 1
    field_simp
    ring
  have hp := Real.rpow_pos_of_pos ht ((γ + 1) / (2 * (γ - 1)))
  unfold ppt sig
  rw [e1, e2]
  field_simp

/-- the increasing quantity `M² (1 + (γ-1)/2 M²)` -/
noncomputable def kk (M γ : ℝ) : ℝ := M ^ 2 * tt M γ

theorem kk_sq {M γ : ℝ} (h : 1 < γ) : (M * Real.sqrt (tt M γ)) ^ 2 = kk M γ := by
  rw [mul_pow, Real.sq_sqrt (tt_pos h).le]; rfl

theorem flux_sq {M γ : ℝ} (h : 1 < γ) (hM : 0 < M) : (ppt M γ / sig M γ / kc γ) ^ 2 = kk M γ := by
  rw [ppt_div_sig h hM, mul_div_cancel_left₀ _ (kc_pos h).ne', kk_sq h]

theorem flux_lt {M N γ : ℝ} (h : 1 < γ) (hM : 0 < M) (hMN : M < N) :
    ppt M γ / sig M γ < ppt N γ / sig N γ := by
  rw [ppt_div_sig h hM, ppt_div_sig h (hM.trans hMN)]
  apply mul_lt_mul_of_pos_left _ (kc_pos h)
  have h1 := Real.sqrt_pos.2 (tt_pos (M := M) h)
  have h2 : Real.sqrt (tt M γ) < Real.sqrt (tt N γ) := Real.sqrt_lt_sqrt (tt_pos h).le (tt_lt_tt h hM.le hMN)
  exact mul_lt_mul hMN h2.le h1 (hM.trans hMN).le

/-- Ps-ratio through the shock from the total pressures -/
theorem ppt_div_ptr {M γ : ℝ} (h : 1 < γ) (hM : 1 ≤ M) :
    ppt (Real.sqrt (mn2 M γ)) γ / ptr M γ = ppt M γ / psr M γ := by
  have hd := dom_of_one_le h hM
  have h1 := ppt_pos (M := Real.sqrt (mn2 M γ)) h
  have h2 := ppt_pos (M := M) h
  have h3 := psr_pos h hd
  have e : ptr M γ = psr M γ * ppt (Real.sqrt (mn2 M γ)) γ / ppt M γ := rfl
  rw [e]; field_simp

/-- mass flow through a normal shock: momentum-free form `psr² kk(M₂) = kk(M₁)` -/
theorem kk_shock {M γ : ℝ} (h : 1 < γ) (hM : 1 ≤ M) :
    psr M γ ^ 2 * kk (Real.sqrt (mn2 M γ)) γ = kk M γ := by
  have hd := dom_of_one_le h hM
  have hM0 : M ≠ 0 := by linarith
  have h1 := psr_pos h hd
  have h2 := rhr_pos h hM0
  have hm := mn2_pos h hd
  unfold kk
  rw [Real.sq_sqrt hm.le, tt_mn2 h hM0 hd]
  have hdd := (dom_iff h).1 hd
  have key : mn2 M γ * psr M γ * rhr M γ = M ^ 2 := by
    unfold mn2 psr rhr
    have hE := rho_den_pos (M := M) h
    have hg : γ + 1 ≠ 0 := by linarith
    obtain ⟨E, hEe⟩ : ∃ E, E = 2 + (γ - 1) * M ^ 2 := ⟨_, rfl⟩
    rw [← hEe] at hE ⊢
    obtain ⟨D, hDe⟩ : ∃ D, D = γ * M ^ 2 - (γ - 1) / 2 := ⟨_, rfl⟩
    rw [← hDe] at hdd
    have a1 : 1 + (γ - 1) / 2 * M ^ 2 = E / 2 := by rw [hEe]; ring
    have a2 : 1 + 2 * γ / (γ + 1) * (M ^ 2 - 1) = 2 * D / (γ + 1) := by rw [hDe]; field_simp; ring
    rw [← hDe, a1, a2]
    have := hdd.ne'
    have := hE.ne'
    field_simp
  have : psr M γ ^ 2 * (mn2 M γ * (tt M γ * (rhr M γ / psr M γ))) = (mn2 M γ * psr M γ * rhr M γ) * tt M γ := by
    field_simp
  rw [← key, ← this]

/-- area ratios through the shock: `sig(M₂) = sig(M₁) ptr(M₁)` -/
theorem sig_shock {M γ : ℝ} (h : 1 < γ) (hM : 1 ≤ M) :
    sig (Real.sqrt (mn2 M γ)) γ = sig M γ * ptr M γ := by
  have hd := dom_of_one_le h hM
  have hm := Real.sqrt_pos.2 (mn2_pos h hd)
  have hM0 : 0 < M := by linarith
  have hp := psr_pos h hd
  have s1 := sig_pos h hm
  have s2 := sig_pos h hM0
  have k := kc_pos h
  have f1 := flux_sq h hm
  have f2 := flux_sq h hM0
  have f3 := kk_shock h hM
  rw [← f1, ← f2, ← mul_pow] at f3
  have q1 := ppt_pos (M := M) h
  have q2 := ppt_pos (M := Real.sqrt (mn2 M γ)) h
  have f4 := (sq_eq_sq₀ (by positivity) (by positivity)).1 f3
  have e : ptr M γ = psr M γ * ppt (Real.sqrt (mn2 M γ)) γ / ppt M γ := rfl
  rw [e]
  field_simp at f4 ⊢
  linarith

/-- a solver on its branch, subsonic guess -/
theorem MachSub_branch {newton : RootFinder} (hb : BranchRootFinder newton) {σ m γ : ℝ} (h1 : 1 < γ) (h3 : γ < 3)
    (hs : 1 ≤ σ) (h : MachSub_Sigma newton σ γ = .ok m) : 0 < m ∧ m ≤ 1 ∧ sig m γ = σ := by
  unfold MachSub_Sigma at h
  rw [Props.MachSub_init_ok hs h1 h3, Py.ok_bind] at h
  obtain ⟨hr, hsub, _⟩ := hb _ _ _ _ h
  obtain ⟨h0, hsig⟩ := pos_of_Sigma h1 hs (residual_zero hr)
  exact ⟨h0, hsub (by linarith [Real.sqrt_nonneg ((1 - 1 / σ) * (4 * (γ - 1) / (3 - γ)))]), hsig⟩

/-- a solver on its branch, supersonic guess -/
theorem MachSup_branch {newton : RootFinder} (hb : BranchRootFinder newton) {σ m γ : ℝ} (h1 : 1 < γ) (h3 : γ < 3)
    (hs : 1 ≤ σ) (h : MachSup_Sigma newton σ γ = .ok m) : 1 ≤ m ∧ sig m γ = σ := by
  unfold MachSup_Sigma at h
  rw [Props.MachSup_init_ok hs h1 h3, Py.ok_bind] at h
  obtain ⟨hr, _, hsup⟩ := hb _ _ _ _ h
  obtain ⟨h0, hsig⟩ := pos_of_Sigma h1 hs (residual_zero hr)
  exact ⟨hsup (by linarith [Real.sqrt_nonneg ((σ - 1) * (4 * (γ - 1) / (3 - γ)))]), hsig⟩

theorem g3 : DefaultGas.gamma0 < 3 := by rw [gamma0_eq]; norm_num

theorem sub_lt_one {m σ γ : ℝ} (h : 1 < γ) (hs : 1 < σ) (hm : m ≤ 1) (e : sig m γ = σ) : m < 1 := by
  rcases hm.eq_or_lt with h1 | h1
  · rw [h1, sig_one h] at e; linarith
  · exact h1

theorem one_lt_sup {m σ γ : ℝ} (h : 1 < γ) (hs : 1 < σ) (hm : 1 ≤ m) (e : sig m γ = σ) : 1 < m := by
  rcases hm.eq_or_lt with h1 | h1
  · rw [← h1, sig_one h] at e; linarith
  · exact h1

/-- closed form of the limits -/
structure IsLimits (γ A : ℝ) (l : Limits) : Prop where
  sub0 : 0 < l.Msub
  sub1 : l.Msub < 1
  sup1 : 1 < l.Msup
  hsub : sig l.Msub γ = A
  hsup : sig l.Msup γ = A
  hsh : l.Msh = Real.sqrt (mn2 l.Msup γ)
  h0 : l.NPR0 = ppt l.Msub γ
  hsw : l.NPRsw = ppt l.Msh γ / ptr l.Msup γ
  h1 : l.NPR1 = ppt l.Msup γ

theorem limits_spec {newton : RootFinder} (hb : BranchRootFinder newton) {A : ℝ} (hA : 1 < A) {l : Limits}
    (h : NPR_Ms_list newton A = .ok l) : IsLimits DefaultGas.gamma0 A l := by
  have hg := one_lt_gamma0
  unfold NPR_Ms_list at h
  cases e1 : MachSub_Sigma newton A DefaultGas.gamma0 with
  | error e => rw [e1] at h; cases h
  | ok ms =>
  rw [e1, Py.ok_bind, PtPs_ppt hg, Py.ok_bind] at h
  cases e2 : MachSup_Sigma newton A DefaultGas.gamma0 with
  | error e => rw [e2] at h; cases h
  | ok mp =>
  obtain ⟨a0, a1, a2⟩ := MachSub_branch hb hg g3 hA.le e1
  obtain ⟨b1, b2⟩ := MachSup_branch hb hg g3 hA.le e2
  have a1' := sub_lt_one hg hA a1 a2
  have b1' := one_lt_sup hg hA b1 b2
  have hd := dom_of_one_le hg b1
  rw [e2, Py.ok_bind, downstream_Mn_ok hg hd, Py.ok_bind, PtPs_ppt hg, Py.ok_bind] at h
  unfold Pi_ratio at h
  rw [Pt_ratio_ok_default b1, Py.ok_bind, Py.div_ok (ptr_pos hg hd).ne', Py.ok_bind, PtPs_ppt hg, Py.ok_bind] at h
  have := Except.ok.inj h
  rw [← this]
  exact ⟨a0, a1', b1', a2, b2, rfl, rfl, rfl, rfl⟩

namespace IsLimits
variable {γ A : ℝ} {l : Limits}

theorem sh_pos (H : IsLimits γ A l) (h : 1 < γ) : 0 < l.Msh := by
  rw [H.hsh]; exact Real.sqrt_pos.2 (mn2_pos h (dom_of_one_le h H.sup1.le))

theorem A_pos (H : IsLimits γ A l) (h : 1 < γ) : 1 < A := H.hsub ▸ one_lt_sig_sub h H.sub0 H.sub1

theorem sw_eq (H : IsLimits γ A l) (h : 1 < γ) : l.NPRsw = ppt l.Msup γ / psr l.Msup γ := by
  rw [H.hsw, H.hsh, ppt_div_ptr h H.sup1.le]

theorem sig_sh (H : IsLimits γ A l) (h : 1 < γ) : sig l.Msh γ = A * ptr l.Msup γ := by
  rw [H.hsh, sig_shock h H.sup1.le, H.hsup]

theorem psr_gt (H : IsLimits γ A l) (h : 1 < γ) : 1 < psr l.Msup γ := by
  unfold psr
  have := H.sup1
  have : 0 < 2 * γ / (γ + 1) * (l.Msup ^ 2 - 1) := by
    apply mul_pos
    · apply div_pos <;> linarith
    · nlinarith
  linarith

theorem ptr_lt (H : IsLimits γ A l) (h : 1 < γ) : ptr l.Msup γ < 1 := by
  rw [← ptr_one h]
  exact ptr_strictAnti h (Set.mem_Ici.2 le_rfl) (Set.mem_Ici.2 H.sup1.le) H.sup1

theorem sh_lt (H : IsLimits γ A l) (h : 1 < γ) : l.Msh < 1 := by
  have h1 := H.sup1
  rw [H.hsh, Real.sqrt_lt' one_pos]
  have hd := (dom_iff h).1 (dom_of_one_le h h1.le)
  unfold mn2
  rw [one_pow, div_lt_one hd]
  have : (γ + 1) * 1 < (γ + 1) * l.Msup ^ 2 := mul_lt_mul_of_pos_left (by nlinarith) (by linarith)
  nlinarith

theorem sub_lt_sh (H : IsLimits γ A l) (h : 1 < γ) : l.Msub < l.Msh := by
  by_contra hc
  push Not at hc
  have : sig l.Msub γ ≤ sig l.Msh γ :=
    (sig_strictAnti h).antitoneOn ⟨H.sh_pos h, (H.sh_lt h).le⟩ ⟨H.sub0, H.sub1.le⟩ hc
  rw [H.hsub, H.sig_sh h] at this
  nlinarith [H.ptr_lt h, H.A_pos h]

theorem NPR0_eq (H : IsLimits γ A l) (h : 1 < γ) : l.NPR0 / A = ppt l.Msub γ / sig l.Msub γ := by
  rw [H.h0, H.hsub]

theorem NPRsw_eq (H : IsLimits γ A l) (h : 1 < γ) : l.NPRsw / A = ppt l.Msh γ / sig l.Msh γ := by
  rw [H.hsw, H.sig_sh h, div_div, mul_comm]

theorem ordered (H : IsLimits γ A l) (h : 1 < γ) : 1 < l.NPR0 ∧ l.NPR0 < l.NPRsw ∧ l.NPRsw < l.NPR1 := by
  have hA : 0 < A := by linarith [H.A_pos h]
  refine ⟨by rw [H.h0]; exact one_lt_ppt h H.sub0, ?_, ?_⟩
  · have := flux_lt h H.sub0 (H.sub_lt_sh h)
    rw [← H.NPR0_eq h, ← H.NPRsw_eq h] at this
    exact (div_lt_div_iff_of_pos_right hA).1 this
  · rw [H.sw_eq h, H.h1]
    exact div_lt_self (ppt_pos h) (H.psr_gt h)

end IsLimits

/-- closed form of the shock-in-diffuser Mach number -/
noncomputable def msd (γ A n : ℝ) : ℝ :=
  Real.sqrt ((Real.sqrt (1 + 2 * (γ - 1) * (n / A / kc γ) ^ 2) - 1) / (γ - 1))

theorem msd_ok {γ A n : ℝ} (h : 1 < γ) (hA : 0 < A) :
    Ms_shock_in_diffuser γ A n = .ok (msd γ A n) := by
  have hg : 0 < γ - 1 := by linarith
  unfold Ms_shock_in_diffuser
  lits
  have e : (γ + 1) / 2 / (γ - 1) = (γ + 1) / (2 * (γ - 1)) := by rw [div_div]
  rw [Py.div_ok hA.ne', Py.ok_bind, Py.div_ok hg.ne', Py.ok_bind, Py.pow_ok _ (by linarith), Py.ok_bind, e]
  have hk := kc_pos h
  rw [Py.div_ok (by exact hk.ne'), Py.ok_bind]
  have hk' : ((γ + 1) / 2) ^ ((γ + 1) / (2 * (γ - 1))) = kc γ := rfl
  rw [hk']
  have e2 : 1 + 2 * (γ - 1) * (n / A / kc γ) * (n / A / kc γ) = 1 + 2 * (γ - 1) * (n / A / kc γ) ^ 2 := by ring
  rw [e2]
  have hpos : 0 ≤ 2 * (γ - 1) * (n / A / kc γ) ^ 2 := by positivity
  rw [Py.sqrt_ok (by linarith), Py.ok_bind, Py.div_ok hg.ne', Py.ok_bind, Py.sqrt_ok]
  · rfl
  · apply div_nonneg _ hg.le
    rw [sub_nonneg, Real.one_le_sqrt]; linarith

/-- it solves `M² (1 + (γ-1)/2 M²) = (NPR / A / kc)²` -/
theorem kk_msd {γ A n : ℝ} (h : 1 < γ) : kk (msd γ A n) γ = (n / A / kc γ) ^ 2 := by
  have hg : 0 < γ - 1 := by linarith
  obtain ⟨K, hK⟩ : ∃ K, K = (n / A / kc γ) ^ 2 := ⟨_, rfl⟩
  have hK0 : 0 ≤ K := by rw [hK]; positivity
  have hs : Real.sqrt (1 + 2 * (γ - 1) * K) ^ 2 = 1 + 2 * (γ - 1) * K := Real.sq_sqrt (by positivity)
  have h1 : 1 ≤ Real.sqrt (1 + 2 * (γ - 1) * K) := by
    rw [Real.one_le_sqrt]; nlinarith [mul_nonneg hg.le hK0]
  unfold kk tt msd
  rw [← hK, Real.sq_sqrt (div_nonneg (by linarith) hg.le)]
  obtain ⟨S, hS⟩ : ∃ S, S = Real.sqrt (1 + 2 * (γ - 1) * K) := ⟨_, rfl⟩
  rw [← hS] at hs ⊢
  field_simp
  nlinarith

theorem kk_inj {M N γ : ℝ} (h : 1 < γ) (hM : 0 ≤ M) (hN : 0 ≤ N) (e : kk M γ = kk N γ) : M = N := by
  have key : ∀ {a b : ℝ}, 0 ≤ a → a < b → kk a γ < kk b γ := by
    intro a b ha hab
    unfold kk
    have h1 : a ^ 2 < b ^ 2 := by nlinarith
    have := tt_lt_tt h ha hab
    have t1 := tt_pos (M := a) h
    exact mul_lt_mul h1 this.le t1 (by positivity)
  rcases lt_trichotomy M N with hl | hl | hl
  · have := key hM hl; linarith
  · exact hl
  · have := key hN hl; linarith

theorem msd_nonneg (γ A n : ℝ) : 0 ≤ msd γ A n := Real.sqrt_nonneg _

/-- characterisation: the unique Mach number whose mass flux matches -/
theorem msd_eq {γ A n M : ℝ} (h : 1 < γ) (hM : 0 < M) (e : n / A = ppt M γ / sig M γ) : msd γ A n = M := by
  apply kk_inj h (msd_nonneg γ A n) hM.le
  rw [kk_msd h, e, flux_sq h hM]

theorem msd_pos {γ A n : ℝ} (h : 1 < γ) (hA : 0 < A) (hn : 0 < n) : 0 < msd γ A n := by
  rcases (msd_nonneg γ A n).eq_or_lt with h0 | h0
  · have := kk_msd (A := A) (n := n) h
    rw [← h0] at this
    have hk := kc_pos h
    have h2 : 0 < (n / A / kc γ) ^ 2 := by positivity
    unfold kk at this
    have e0 : (0 : ℝ) ^ 2 * tt 0 γ = 0 := by simp
    rw [e0] at this
    exact absurd this h2.ne
  · exact h0

/-- and conversely it has that flux -/
theorem msd_flux {γ A n : ℝ} (h : 1 < γ) (hA : 0 < A) (hn : 0 < n) :
    ppt (msd γ A n) γ / sig (msd γ A n) γ = n / A := by
  have hp := msd_pos h hA hn
  have f := flux_sq h hp
  rw [kk_msd h] at f
  have hk := kc_pos h
  have h1 := ppt_pos (M := msd γ A n) h
  have h2 := sig_pos h hp
  have := (sq_eq_sq₀ (by positivity) (by positivity)).1 f
  field_simp at this ⊢
  linarith

theorem msd_lt {γ A n n' : ℝ} (h : 1 < γ) (hA : 0 < A) (hn : 0 < n) (hl : n < n') : msd γ A n < msd γ A n' := by
  by_contra hc
  push Not at hc
  have hp := msd_pos h hA (hn.trans hl)
  have := (div_lt_div_iff_of_pos_right hA).2 hl
  rw [← msd_flux h hA hn, ← msd_flux h hA (hn.trans hl)] at this
  rcases hc.eq_or_lt with he | he
  · rw [he] at this; exact lt_irrefl _ this
  · have := flux_lt h hp he; linarith

end Aerokit.Nozzle
