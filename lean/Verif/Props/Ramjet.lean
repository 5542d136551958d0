import Verif.Lemmas.Ramjet

/-! # C138: the working states drawn by `examples/ramjet-working.py` -/

namespace Aerokit.Props
open ShockWave MassFlow Rayleigh Plot Isentropic Nozzle Ramjet
open Spec (BranchRootFinder)
open Spec.Ramjet (IsPoint ShockInDiffuser Heated MassBalance)
open DefaultGas (gamma0)

/-! ## arrays -/

theorem rj_linspace (a b : ℝ) {n i : ℕ} (hi : i ≤ n) :
    (linspace (.ok a) (.ok b) n)[i]? = some (.ok (a + (i : ℝ) * ((b - a) / (n : ℝ)))) := by
  rw [linspace_ok, List.getElem?_map, List.getElem?_range (by omega)]; rfl

theorem rj_ones (c : ℝ) {n i : ℕ} (hi : i ≤ n) : (ones c n)[i]? = some (.ok c) := by
  unfold ones; rw [List.getElem?_map, List.getElem?_range (by omega)]; rfl

theorem rj_elementwise {f : ℝ → Py ℝ} {l : List (Py ℝ)} {i : ℕ} {x y : ℝ} (h : l[i]? = some (.ok x)) (hf : f x = .ok y) :
    (elementwise f l)[i]? = some (.ok y) := by
  unfold elementwise; rw [List.getElem?_map, h]; simp [hf]

theorem rj_zip {f : Py ℝ → Py ℝ → Py ℝ} {l k : List (Py ℝ)} {i : ℕ} {x y z : ℝ} (h : l[i]? = some (.ok x)) (h' : k[i]? = some (.ok y))
    (hf : f (.ok x) (.ok y) = .ok z) : (List.zipWith f l k)[i]? = some (.ok z) := by
  rw [List.getElem?_zipWith, h, h']; simp [hf]

theorem rj_between {a b : ℝ} (hab : a ≤ b) {n i : ℕ} (hi : i ≤ n) : a ≤ a + (i : ℝ) * ((b - a) / (n : ℝ)) ∧ a + (i : ℝ) * ((b - a) / (n : ℝ)) ≤ b := by
  have h0 : (0:ℝ) ≤ (b - a) / n := div_nonneg (by linarith) (Nat.cast_nonneg _)
  refine ⟨by have := mul_nonneg (Nat.cast_nonneg (α := ℝ) i) h0; linarith, ?_⟩
  have hin : (i : ℝ) ≤ n := by exact_mod_cast hi
  rcases Nat.eq_zero_or_pos n with h | h
  · subst h; have : i = 0 := by omega
    subst this; simp; exact hab
  · have hn : (0:ℝ) < n := by exact_mod_cast h
    have : (i : ℝ) * ((b - a) / n) ≤ n * ((b - a) / n) := mul_le_mul_of_nonneg_right hin h0
    rw [mul_div_cancel₀ _ hn.ne'] at this; linarith

theorem rj_unique {b : Branch} {i : ℕ} {α m3 m4 p3 p4 α' m3' m4' p3' p4' : ℝ} (h : IsPoint b i α m3 m4 p3 p4) (h' : IsPoint b i α' m3' m4' p3' p4') :
    α = α' ∧ m3 = m3' ∧ m4 = m4' ∧ p3 = p3' ∧ p4 = p4' := by
  obtain ⟨a, b, c, d, e⟩ := h
  obtain ⟨a', b', c', d', e'⟩ := h'
  rw [a] at a'; rw [b] at b'; rw [c] at c'; rw [d] at d'; rw [e] at e'
  have f : ∀ {x y : ℝ}, (some (.ok x) : Option (Py ℝ)) = some (.ok y) → x = y := fun h => Except.ok.inj (Option.some.inj h)
  exact ⟨f a', f b', f c', f d', f e'⟩

/-! ## heat addition and nozzle -/

theorem rj_heated {m3 m4 α p3 p4 : ℝ} (hα : 0 < α) (hp : 0 < p3) (e : rti m3 = rti m4 / α) (e4 : p4 = p3 * rpi m4 / rpi m3) :
    Heated gam m3 m4 α (p4 / p3) := by
  have h3 := rpi_pos m3
  refine ⟨_, _, _, _, Ti_ok _, Ti_ok _, Pi_ok _, Pi_ok _, ?_, ?_⟩
  · rw [e]; field_simp
  · rw [e4]; field_simp

theorem rj_mass {Mt A3 A8 m3 m4 α pt p3 p4 : ℝ} (hMt : 0 < Mt) (hA3 : 0 < A3) (hA8 : 0 < A8) (h3 : 0 < m3) (h4 : 0 < m4) (hα : 0 < α) (e : rti m3 = rti m4 / α)
    (ep : p3 = pt * (sig m3 gam / sig Mt gam / A3)) (e4 : p4 = p3 * rpi m4 / rpi m3) (es : sig m4 gam = A3 / A8) :
    MassBalance gam Mt pt A8 α p4 := by
  have hs := sig_pos hgam hMt
  have hs3 := sig_pos hgam h3
  have t4 := rti_pos h4.ne'
  have ht : √(rti m4) = √(rti m3) * √α := by rw [← Real.sqrt_mul (rti_pos h3.ne').le, e, div_mul_cancel₀ _ hα.ne']
  have hsa := Real.sqrt_pos.2 hα
  have hs4 := Real.sqrt_pos.2 (rti_pos h3.ne')
  refine ⟨_, Sigma_Mach_ok hgam hMt.ne', ?_⟩
  rw [e4, ep, ← sig_rti h3, ← sig_rti h4, es, ht]
  field_simp

/-- a point of a branch with a shock in the diffuser -/
theorem rj_point {Mt A3 M3 m4 mhi α : ℝ} (ht : 1 ≤ Mt) (hA : 1 ≤ A3) (h3 : 1 ≤ M3) (e3 : sig M3 gam = A3 * sig Mt gam) (h4 : 0 < m4)
    (hh0 : 0 < mhi) (hh1 : mhi ≤ 1) (eh : sig mhi gam = A3 * (sig Mt gam * ptr Mt gam)) (hlo : rti m4 / rti M3 ≤ α) (hhi : α ≤ rti m4 / rti mhi) :
    ∃ m3, SubMach_TiTicri (rti m4 / α) gam = .ok m3 ∧ 0 < m3 ∧ m3 ≤ 1 ∧ 0 < α ∧ rti m3 = rti m4 / α ∧ ptr M3 gam ≤ sig m3 gam / sig Mt gam / A3 ∧
      ∃! q : ℝ × ℝ, ShockInDiffuser gam Mt A3 q.1 q.2 m3 (sig m3 gam / sig Mt gam / A3) := by
  have hd := dom_of_one_le hgam h3
  have hmd := Real.sqrt_pos.2 (mn2_pos hgam hd)
  have hmd1 : √(mn2 M3 gam) ≤ 1 := by
    refine Real.sqrt_le_iff.2 ⟨zero_le_one, ?_⟩
    rw [one_pow]
    have := (dom_iff hgam).1 hd
    unfold mn2; rw [div_le_one this]
    have := hgam
    nlinarith [one_le_pow₀ h3 (n := 2)]
  rw [← rti_shock h3] at hlo
  obtain ⟨m3, e, m0, m1, et, hb⟩ := heat_point (rti_pos h4.ne') hmd hmd1 hlo
  have hα : 0 < α := (div_pos (rti_pos h4.ne') (rti_pos hmd.ne')).trans_le hlo
  have hm := hb mhi hh0 hh1 hhi
  have hs1 : sig M3 gam * ptr M3 gam ≤ sig m3 gam := by rw [← sig_shock hgam h3]; exact sig_le_sub m0 m1 hmd1
  have hst := sig_pos hgam (show 0 < Mt by linarith)
  refine ⟨m3, e, m0, m1.trans hmd1, hα, et, ?_, shock_point ht hA h3 e3 m0 (m1.trans hmd1) hs1 (by rw [← eh]; exact sig_le_sub hh0 hm (m1.trans hmd1))⟩
  rw [div_div, le_div_iff₀ (by nlinarith)]
  rw [e3] at hs1; linarith

/-! ## inversion of the script -/

/-- closed forms of the branches -/
noncomputable def fsB (n : ℕ) (M3 M4 : ℝ) : Branch :=
  let alpha := linspace (.ok 1.0) (.ok (rti M4 / rti M3)) n
  let m4 := elementwise (fun a => do let r ← Py.div a (rti M4 / rti M3); SupMach_TiTicri (r * rti M4) gam) alpha
  ⟨alpha, ones M3 n, m4, ones 1.0 n, elementwise (fun m => do let p ← Pi_Picri m gam; let p3 ← Pi_Picri M3 gam; Py.div p p3) m4⟩

noncomputable def heatB (n : ℕ) (a b m4 : ℝ) (g : List (Py ℝ) → List (Py ℝ)) : Branch :=
  let alpha := linspace (.ok a) (.ok b) n
  let m3 := elementwise (fun a => do let r ← Py.div (rti m4) a; SubMach_TiTicri r gam) alpha
  ⟨alpha, m3, ones m4 n, g m3, List.zipWith (fun p m => do
    let p ← p; let m ← m; let a ← Pi_Picri m4 gam; let b ← Pi_Picri m gam; Py.div (p * a) b) (g m3) m3⟩

theorem fs_inv {nf : RootFinder} (hb : BranchRootFinder nf) {n : ℕ} {M2 A3 A8 : ℝ} {r : ℝ × Branch} (h2 : 1 ≤ M2) (hA : 1 ≤ A3) (h8 : A8 = 0.8 * A3)
    (h : fs nf n M2 A3 A8 = .ok r) : ∃ M3 M4, 1 ≤ M3 ∧ sig M3 gam = A3 * sig M2 gam ∧ 1 ≤ M4 ∧ sig M4 gam = A3 / A8 ∧ r = (M3, fsB n M3 M4) := by
  unfold fs at h
  have hq : 1 ≤ A3 / A8 := by rw [h8]; rw [le_div_iff₀ (by linarith)]; linarith
  have hs2 := one_le_sig hgam (show 0 < M2 by linarith)
  rw [Sigma_Mach_ok hgam (by linarith), Py.ok_bind] at h
  obtain ⟨M3, e3, h⟩ := Py.bind_inv h
  rw [← gam_eq] at e3
  obtain ⟨a1, a2⟩ := search_sup hb (by nlinarith) hgam.le e3
  rw [Py.div_ok (by rw [h8]; nlinarith), Py.ok_bind] at h
  obtain ⟨M4, e4, h⟩ := Py.bind_inv h
  obtain ⟨b1, b2⟩ := search_sup hb hq (by norm_num) e4
  rw [Ti_ok, Py.ok_bind, Ti_ok, Py.ok_bind, Py.div_ok (rti_pos (by linarith)).ne', Py.ok_bind] at h
  exact ⟨M3, M4, a1, a2, b1, b2, (Except.ok.inj h).symm⟩

/-- the total pressure of the conventional branch -/
noncomputable def cwP (M2 A3 : ℝ) : List (Py ℝ) → List (Py ℝ) := elementwise (fun m => do
    let s ← Sigma_Mach m gam; let s2 ← Sigma_Mach M2 gam; let r ← Py.div s s2; Py.div r A3)

theorem cw_inv {nf : RootFinder} (hb : BranchRootFinder nf) {n : ℕ} {M2 A3 A8 M3 : ℝ} {r : ℝ × Branch} (h2 : 1 ≤ M2) (hA : 1 ≤ A3) (h8 : A8 = 0.8 * A3)
    (h3 : 1 ≤ M3) (h : cw nf n M2 A3 A8 M3 = .ok r) : ∃ m4 mhi, 0 < m4 ∧ m4 ≤ 1 ∧ sig m4 gam = A3 / A8 ∧ 0 < mhi ∧ mhi ≤ 1 ∧
      sig mhi gam = A3 * (sig M2 gam * ptr M2 gam) ∧
      r = (rti m4 / rti mhi, heatB n (rti m4 / rti M3) (rti m4 / rti mhi) m4 (cwP M2 A3)) := by
  unfold cw at h
  have hq : 1 ≤ A3 / A8 := by rw [h8]; rw [le_div_iff₀ (by linarith)]; linarith
  have hd2 := dom_of_one_le hgam h2
  have hd3 := dom_of_one_le hgam h3
  have q2 := Real.sqrt_pos.2 (mn2_pos hgam hd2)
  have q3 := Real.sqrt_pos.2 (mn2_pos hgam hd3)
  rw [Py.div_ok (by rw [h8]; nlinarith), Py.ok_bind] at h
  obtain ⟨m4, e4, h⟩ := Py.bind_inv h
  obtain ⟨a1, a2, a3⟩ := search_sub hb hq (by norm_num) e4
  rw [downstream_Mn_ok hgam hd3, Py.ok_bind, Ti_ok, Py.ok_bind, Ti_ok, Py.ok_bind, Py.div_ok (rti_pos q3.ne').ne', Py.ok_bind,
    downstream_Mn_ok hgam hd2, Py.ok_bind, Sigma_Mach_ok hgam q2.ne', Py.ok_bind] at h
  obtain ⟨mhi, eh, h⟩ := Py.bind_inv h
  have := one_le_sig hgam q2
  obtain ⟨b1, b2, b3⟩ := search_sub hb (by nlinarith) (by norm_num) eh
  rw [Ti_ok, Py.ok_bind, Py.div_ok (rti_pos b1.ne').ne', Py.ok_bind, rti_shock h3] at h
  exact ⟨m4, mhi, a1, a2, a3, b1, b2, by rw [b3, sig_shock hgam h2], (Except.ok.inj h).symm⟩

theorem uc_inv {nf : RootFinder} (hb : BranchRootFinder nf) {n : ℕ} {M0 A3 A8 cwmax : ℝ} {r : ℝ × Branch} (h0 : 1 ≤ M0) (hA : 1 ≤ A3) (h8 : A8 = 0.8 * A3)
    (h : uc nf n M0 A3 A8 cwmax = .ok r) : ∃ m4 mlo, 0 < m4 ∧ m4 ≤ 1 ∧ sig m4 gam = A3 / A8 ∧ 0 < mlo ∧ mlo ≤ 1 ∧ sig mlo gam = A3 ∧
      r = (rti m4 / rti mlo, heatB n (rti m4 / rti mlo) (1.1 * cwmax) m4 (fun _ => ones (ptr M0 gam) n)) := by
  unfold uc at h
  have hq : 1 ≤ A3 / A8 := by rw [h8]; rw [le_div_iff₀ (by linarith)]; linarith
  have hd := dom_of_one_le hgam h0
  have q := Real.sqrt_pos.2 (mn2_pos hgam hd)
  simp only [] at h
  rw [Py.div_ok (by rw [h8]; nlinarith), Py.ok_bind] at h
  obtain ⟨m4, e4, h⟩ := Py.bind_inv h
  obtain ⟨a1, a2, a3⟩ := search_sub hb hq (by norm_num) e4
  obtain ⟨mlo, eh, h⟩ := Py.bind_inv h
  obtain ⟨b1, b2, b3⟩ := search_sub hb hA (by norm_num) eh
  rw [Ti_ok, Py.ok_bind, Ti_ok, Py.ok_bind, Py.div_ok (rti_pos b1.ne').ne', Py.ok_bind, downstream_Mn_ok hgam hd, Py.ok_bind,
    Sigma_Mach_ok hgam q.ne', Py.ok_bind, Pt_ratio_ok_default h0, Py.ok_bind, ← gam_eq] at h
  exact ⟨m4, mlo, a1, a2, a3, b1, b2, b3, (Except.ok.inj h).symm⟩

/-- the total pressure of the restart branch -/
noncomputable def rcP (pi0 A3 : ℝ) : List (Py ℝ) → List (Py ℝ) := elementwise (fun m => do let s ← Sigma_Mach m gam; Py.div (pi0 * s) A3)

theorem rc_inv {nf : RootFinder} (hb : BranchRootFinder nf) {n : ℕ} {M0 A3 A8 ucmin : ℝ} {r : Branch} (h0 : 1 ≤ M0) (hA : 1 ≤ A3) (h8 : A8 = 0.8 * A3)
    (h : rc nf n M0 A3 A8 ucmin = .ok r) : ∃ m4 MR, 0 < m4 ∧ m4 ≤ 1 ∧ sig m4 gam = A3 / A8 ∧ 1 ≤ MR ∧ sig MR gam = A3 ∧
      r = heatB n (rti m4 / rti MR) ucmin m4 (rcP (ptr M0 gam) A3) := by
  unfold rc at h
  have hq : 1 ≤ A3 / A8 := by rw [h8]; rw [le_div_iff₀ (by linarith)]; linarith
  simp only [] at h
  rw [Py.div_ok (by rw [h8]; nlinarith), Py.ok_bind] at h
  obtain ⟨m4, e4, h⟩ := Py.bind_inv h
  obtain ⟨a1, a2, a3⟩ := search_sub hb hq (by norm_num) e4
  obtain ⟨MR, eh, h⟩ := Py.bind_inv h
  obtain ⟨b1, b3⟩ := search_sup hb hA (by norm_num) eh
  rw [Ti_ok, Py.ok_bind, Ti_ok, Py.ok_bind, Py.div_ok (rti_pos (by linarith)).ne', Py.ok_bind, Pt_ratio_ok_default h0, Py.ok_bind, ← gam_eq] at h
  exact ⟨m4, MR, a1, a2, a3, b1, b3, (Except.ok.inj h).symm⟩

theorem sig_inj_sub {m n : ℝ} (h0 : 0 < m) (h1 : m ≤ 1) (h2 : 0 < n) (h3 : n ≤ 1) (h : sig m gam = sig n gam) : m = n :=
  le_antisymm (le_of_sig_sub h0 h1 h2 h3 h.ge) (le_of_sig_sub h2 h3 h0 h1 h.le)

/-- the quantities the script computes -/
structure Design (f : Figure) (n : ℕ) (M0 M2 M3 M4 m4 mhi mlo MR : ℝ) : Prop where
  hA : 1 ≤ f.A3A2
  h2 : 1 ≤ M2
  h0 : 1 ≤ M0
  s0 : sig M0 gam * 0.9 = f.A3A2 * sig M2 gam
  h8 : f.A8A2 = 0.8 * f.A3A2
  M3_one : 1 ≤ M3
  M3_sig : sig M3 gam = f.A3A2 * sig M2 gam
  M4_one : 1 ≤ M4
  M4_sig : sig M4 gam = f.A3A2 / f.A8A2
  m4_pos : 0 < m4
  m4_one : m4 ≤ 1
  m4_sig : sig m4 gam = f.A3A2 / f.A8A2
  mhi_pos : 0 < mhi
  mhi_one : mhi ≤ 1
  mhi_sig : sig mhi gam = f.A3A2 * (sig M2 gam * ptr M2 gam)
  mlo_pos : 0 < mlo
  mlo_one : mlo ≤ 1
  mlo_sig : sig mlo gam = f.A3A2
  MR_one : 1 ≤ MR
  MR_sig : sig MR gam = f.A3A2
  fs_eq : f.FS = fsB n M3 M4
  cw_eq : f.CW = heatB n (rti m4 / rti M3) (rti m4 / rti mhi) m4 (cwP M2 f.A3A2)
  uc_eq : f.UC = heatB n (rti m4 / rti mlo) (1.1 * (rti m4 / rti mhi)) m4 (fun _ => ones (ptr M0 gam) n)
  rc_eq : f.RC = heatB n (rti m4 / rti MR) (rti m4 / rti mlo) m4 (rcP (ptr M0 gam) f.A3A2)

theorem ramjet_inv {nf : RootFinder} (hb : BranchRootFinder nf) {n : ℕ} {M0 M2 : ℝ} {f : Figure} (h0 : 1 ≤ M0) (h2 : 1 ≤ M2) (hA : 1 ≤ f.A3A2)
    (h : ramjet nf n M0 M2 = .ok f) : ∃ M3 M4 m4 mhi mlo MR, Design f n M0 M2 M3 M4 m4 mhi mlo MR := by
  unfold ramjet at h
  have s2 := sig_pos hgam (show 0 < M2 by linarith)
  have s0 := sig_pos hgam (show 0 < M0 by linarith)
  rw [Sigma_Mach_ok hgam (by linarith), Py.ok_bind, Sigma_Mach_ok hgam (by linarith), Py.ok_bind, Py.div_ok s0.ne', Py.ok_bind,
    Py.div_ok (by positivity), Py.ok_bind] at h
  simp only [] at h
  obtain ⟨⟨M3, bF⟩, eF, h⟩ := Py.bind_inv h
  obtain ⟨⟨c, bC⟩, eC, h⟩ := Py.bind_inv h
  obtain ⟨⟨u, bU⟩, eU, h⟩ := Py.bind_inv h
  obtain ⟨bR, eR, h⟩ := Py.bind_inv h
  have h := Except.ok.inj h
  subst h
  simp only [] at hA
  obtain ⟨M3', M4, a1, a2, a3, a4, a5⟩ := fs_inv hb h2 hA rfl eF
  obtain ⟨rfl, rfl⟩ := Prod.mk.inj a5
  obtain ⟨m4, mhi, b1, b2, b3, b4, b5, b6, b7⟩ := cw_inv hb h2 hA rfl a1 eC
  obtain ⟨rfl, rfl⟩ := Prod.mk.inj b7
  obtain ⟨m4', mlo, c1, c2, c3, c4, c5, c6, c7⟩ := uc_inv hb h0 hA rfl eU
  obtain ⟨rfl, rfl⟩ := Prod.mk.inj c7
  obtain ⟨m4'', MR, d1, d2, d3, d4, d5, d6⟩ := rc_inv hb h0 hA rfl eR
  obtain rfl := sig_inj_sub b1 b2 c1 c2 (b3.trans c3.symm)
  obtain rfl := sig_inj_sub b1 b2 d1 d2 (b3.trans d3.symm)
  exact ⟨M3, M4, m4, mhi, mlo, MR, hA, h2, h0, by simp only []; field_simp; norm_num, rfl, a1, a2, a3, a4, b1, b2, b3, b4, b5, b6, c4, c5, c6, d4, d5, rfl, rfl, rfl, d6⟩

/-! ## points -/

theorem heatB_point {n i : ℕ} (hi : i ≤ n) {a b m4 m3 p3 : ℝ} {g : List (Py ℝ) → List (Py ℝ)} (hα : 0 < a + (i : ℝ) * ((b - a) / (n : ℝ)))
    (h3 : SubMach_TiTicri (rti m4 / (a + (i : ℝ) * ((b - a) / (n : ℝ)))) gam = .ok m3)
    (hg : ∀ l : List (Py ℝ), l[i]? = some (.ok m3) → (g l)[i]? = some (.ok p3)) :
    IsPoint (heatB n a b m4 g) i (a + (i : ℝ) * ((b - a) / (n : ℝ))) m3 m4 p3 (p3 * rpi m4 / rpi m3) := by
  have e1 := rj_linspace a b hi
  have e2 := rj_elementwise (f := fun a => do let r ← Py.div (rti m4) a; SubMach_TiTicri r gam) e1 (y := m3)
    (by rw [Py.div_ok hα.ne', Py.ok_bind, h3])
  refine ⟨e1, e2, rj_ones _ hi, hg _ e2, rj_zip (hg _ e2) e2 ?_⟩
  simp only [Py.ok_bind]
  rw [Pi_ok, Py.ok_bind, Pi_ok, Py.ok_bind, Py.div_ok (rpi_pos _).ne']

theorem rj_order {Mt A3 M3 mhi : ℝ} (ht : 1 ≤ Mt) (hA : 1 ≤ A3) (h3 : 1 ≤ M3) (e3 : sig M3 gam = A3 * sig Mt gam)
    (hh0 : 0 < mhi) (hh1 : mhi ≤ 1) (eh : sig mhi gam = A3 * (sig Mt gam * ptr Mt gam)) :
    rti mhi ≤ rti M3 ∧ (1 < A3 → rti mhi < rti M3) := by
  have hd := dom_of_one_le hgam h3
  have hmd := Real.sqrt_pos.2 (mn2_pos hgam hd)
  have hmd1 : √(mn2 M3 gam) ≤ 1 := by
    refine Real.sqrt_le_iff.2 ⟨zero_le_one, ?_⟩
    rw [one_pow]
    have := (dom_iff hgam).1 hd
    unfold mn2; rw [div_le_one this]
    have := hgam
    nlinarith [one_le_pow₀ h3 (n := 2)]
  have hst := sig_pos hgam (show 0 < Mt by linarith)
  have hle : Mt ≤ M3 := le_of_sig_sup ht h3 (by rw [e3]; nlinarith)
  have hanti := (ptr_strictAnti hgam).antitoneOn ht h3 hle
  have hAs : 0 < A3 * sig Mt gam := by positivity
  have hsle : sig (√(mn2 M3 gam)) gam ≤ sig mhi gam := by
    rw [sig_shock hgam h3, e3, eh]; nlinarith
  have hm := le_of_sig_sub hh0 hh1 hmd hmd1 hsle
  rw [← rti_shock h3]
  refine ⟨?_, fun h1 => ?_⟩
  · rcases hm.eq_or_lt with e | e
    · rw [e]
    · exact (rti_lt hh0.le e hmd1).le
  · have hlt : Mt < M3 := by
      rcases hle.eq_or_lt with e | e
      · rw [← e] at e3; nlinarith
      · exact e
    have hs := (ptr_strictAnti hgam) ht h3 hlt
    have : sig (√(mn2 M3 gam)) gam < sig mhi gam := by
      rw [sig_shock hgam h3, e3, eh]; nlinarith
    refine rti_lt hh0.le (lt_of_le_of_ne hm fun e => ?_) hmd1
    rw [e] at this; exact lt_irrefl _ this

theorem rj_uc_order {M2 A3 mhi mlo : ℝ} (h2 : 1 ≤ M2) (hA : 1 ≤ A3) (hh0 : 0 < mhi) (hh1 : mhi ≤ 1) (hl0 : 0 < mlo) (hl1 : mlo ≤ 1)
    (eh : sig mhi gam = A3 * (sig M2 gam * ptr M2 gam)) (el : sig mlo gam = A3) : rti mhi ≤ rti mlo := by
  have hmd := Real.sqrt_pos.2 (mn2_pos hgam (dom_of_one_le hgam h2))
  have := one_le_sig hgam hmd
  rw [sig_shock hgam h2] at this
  have := le_of_sig_sub hh0 hh1 hl0 hl1 (by rw [eh, el]; nlinarith)
  rcases this.eq_or_lt with e | e
  · rw [e]
  · exact (rti_lt hh0.le e hl1).le

theorem cwP_get {M2 A3 m3 : ℝ} (h2 : 1 ≤ M2) (hA : 1 ≤ A3) (hm : 0 < m3) {l : List (Py ℝ)} {i : ℕ} (h : l[i]? = some (.ok m3)) :
    (cwP M2 A3 l)[i]? = some (.ok (sig m3 gam / sig M2 gam / A3)) := by
  refine rj_elementwise h ?_
  have := sig_pos hgam (show 0 < M2 by linarith)
  rw [Sigma_Mach_ok hgam hm.ne', Py.ok_bind, Sigma_Mach_ok hgam (by linarith), Py.ok_bind, Py.div_ok this.ne', Py.ok_bind, Py.div_ok (by linarith)]

theorem rcP_get {c A3 m3 : ℝ} (hA : 1 ≤ A3) (hm : 0 < m3) {l : List (Py ℝ)} {i : ℕ} (h : l[i]? = some (.ok m3)) :
    (rcP c A3 l)[i]? = some (.ok (c * sig m3 gam / A3)) := by
  refine rj_elementwise h ?_
  rw [Sigma_Mach_ok hgam hm.ne', Py.ok_bind, Py.div_ok (by linarith)]

/-- C138: every point of the conventional branch is a possible flow: exactly one normal shock in the diffuser gives the Mach number and the total
pressure before the combustor; the heat released multiplies the total temperature by the abscissa `α`; the nozzle throat is sonic; mass is conserved
between the inlet throat and the nozzle throat. -/
theorem C138_conventional (nf : RootFinder) (hb : BranchRootFinder nf) (n : ℕ) (M0 M2 : ℝ) (f : Figure) (h0 : 1 ≤ M0) (h2 : 1 ≤ M2) (hA : 1 ≤ f.A3A2)
    (h : ramjet nf n M0 M2 = .ok f) (i : ℕ) (hi : i ≤ n) :
    ∃ α m3 m4 p3 p4, IsPoint f.CW i α m3 m4 p3 p4 ∧ (∃! q : ℝ × ℝ, ShockInDiffuser 1.4 M2 f.A3A2 q.1 q.2 m3 p3) ∧ Heated 1.4 m3 m4 α (p4 / p3) ∧
      m4 ≤ 1 ∧ Sigma_Mach m4 1.4 = .ok (f.A3A2 / f.A8A2) ∧ MassBalance 1.4 M2 1 f.A8A2 α p4 := by
  obtain ⟨M3, M4, m4, mhi, mlo, MR, D⟩ := ramjet_inv hb h0 h2 hA h
  have t4 := rti_pos D.m4_pos.ne'
  have th := rti_pos D.mhi_pos.ne'
  obtain ⟨ho, _⟩ := rj_order h2 hA D.M3_one D.M3_sig D.mhi_pos D.mhi_one D.mhi_sig
  obtain ⟨hα1, hα2⟩ := rj_between (div_le_div_of_nonneg_left t4.le th ho) hi
  obtain ⟨m3, e, m0, m1, α0, et, hp, hs⟩ := rj_point h2 hA D.M3_one D.M3_sig D.m4_pos D.mhi_pos D.mhi_one D.mhi_sig hα1 hα2
  have hpos : 0 < sig m3 gam / sig M2 gam / f.A3A2 := (ptr_pos hgam (dom_of_one_le hgam D.M3_one)).trans_le hp
  have h8 : 0 < f.A8A2 := by rw [D.h8]; linarith
  refine ⟨_, m3, m4, sig m3 gam / sig M2 gam / f.A3A2, _, D.cw_eq ▸ heatB_point hi α0 e (fun l hl => cwP_get h2 hA m0 hl), hs, rj_heated α0 hpos et rfl,
    D.m4_one, ?_, rj_mass (by linarith) (by linarith) h8 m0 D.m4_pos α0 et (one_mul _).symm rfl D.m4_sig⟩
  show Sigma_Mach m4 gam = _
  rw [Sigma_Mach_ok hgam D.m4_pos.ne', D.m4_sig]

theorem shock_mk {Mt A3 As Ms m3 p : ℝ} (ht : 1 ≤ Mt) (ha : 1 ≤ As) (ha3 : As ≤ A3) (hs : 1 ≤ Ms) (m0 : 0 < m3) (m1 : m3 ≤ 1) (e1 : sig Ms gam = As * sig Mt gam)
    (ep : p = ptr Ms gam) (e2 : sig m3 gam * As = sig Ms gam * ptr Ms gam * A3) : ShockInDiffuser gam Mt A3 As Ms m3 p := by
  have hd := dom_of_one_le hgam hs
  refine ⟨⟨ha, ha3⟩, hs, ⟨m0, m1⟩, ⟨_, _, Sigma_Mach_ok hgam (by linarith), Sigma_Mach_ok hgam (by linarith), e1⟩, ?_,
    ⟨_, _, _, downstream_Mn_ok hgam hd, Sigma_Mach_ok hgam (Real.sqrt_pos.2 (mn2_pos hgam hd)).ne', Sigma_Mach_ok hgam m0.ne', ?_⟩⟩
  · rw [ep, gam_eq]; exact Pt_ratio_ok_default hs
  · rw [sig_shock hgam hs]; exact e2

theorem rti_inj_sub {m k : ℝ} (h0 : 0 < m) (h1 : m ≤ 1) (h2 : 0 < k) (h3 : k ≤ 1) (h : rti m = rti k) : m = k := by
  rcases lt_trichotomy m k with c | c | c
  · exact absurd h (rti_lt h0.le c h3).ne
  · exact c
  · exact absurd h (rti_lt h2.le c h1).ne'

theorem rj_last (a b : ℝ) {n : ℕ} (hn : 0 < n) : a + (n : ℝ) * ((b - a) / (n : ℝ)) = b := by
  have : (n : ℝ) ≠ 0 := by exact_mod_cast hn.ne'
  field_simp; ring

/-- C138: at the first point of the conventional branch the shock stands at the exit of the diffuser (just before the flow becomes fully supersonic), at
the last one at the throat (just before the inlet unstarts). -/
theorem C138_conventional_ends (nf : RootFinder) (hb : BranchRootFinder nf) (n : ℕ) (hn : 0 < n) (M0 M2 : ℝ) (f : Figure) (h0 : 1 ≤ M0) (h2 : 1 ≤ M2)
    (hA : 1 ≤ f.A3A2) (h : ramjet nf n M0 M2 = .ok f) :
    (∃ α m3 m4 p3 p4 M3, IsPoint f.CW 0 α m3 m4 p3 p4 ∧ ShockInDiffuser 1.4 M2 f.A3A2 f.A3A2 M3 m3 p3 ∧ downstream_Mn M3 1.4 = .ok m3) ∧
    (∃ α m3 m4 p3 p4, IsPoint f.CW n α m3 m4 p3 p4 ∧ ShockInDiffuser 1.4 M2 f.A3A2 1 M2 m3 p3) := by
  obtain ⟨M3, M4, m4, mhi, mlo, MR, D⟩ := ramjet_inv hb h0 h2 hA h
  have t4 := rti_pos D.m4_pos.ne'
  have th := rti_pos D.mhi_pos.ne'
  have s2 := sig_pos hgam (show 0 < M2 by linarith)
  have hA0 : 0 < f.A3A2 := by linarith
  obtain ⟨ho, _⟩ := rj_order h2 hA D.M3_one D.M3_sig D.mhi_pos D.mhi_one D.mhi_sig
  have hM3 := rti_pos (show M3 ≠ 0 by have := D.M3_one; linarith)
  constructor
  · obtain ⟨hα1, hα2⟩ := rj_between (div_le_div_of_nonneg_left t4.le th ho) (Nat.zero_le n)
    obtain ⟨m3, e, m0, m1, α0, et, hp, -⟩ := rj_point h2 hA D.M3_one D.M3_sig D.m4_pos D.mhi_pos D.mhi_one D.mhi_sig hα1 hα2
    have hd := dom_of_one_le hgam D.M3_one
    have hq := Real.sqrt_pos.2 (mn2_pos hgam hd)
    have hm : m3 = √(mn2 M3 gam) := by
      refine rti_inj_sub m0 m1 hq (Real.sqrt_le_iff.2 ⟨zero_le_one, ?_⟩) ?_
      · rw [one_pow]
        have := (dom_iff hgam).1 hd
        unfold mn2; rw [div_le_one this]
        nlinarith [one_le_pow₀ D.M3_one (n := 2), hgam]
      · rw [et, rti_shock D.M3_one]; simp only [Nat.cast_zero, zero_mul, add_zero]; rw [div_div_cancel₀ t4.ne']
    have es : sig m3 gam = sig M3 gam * ptr M3 gam := by rw [hm, sig_shock hgam D.M3_one]
    refine ⟨_, m3, m4, sig m3 gam / sig M2 gam / f.A3A2, _, M3, D.cw_eq ▸ heatB_point (Nat.zero_le n) α0 e (fun l hl => cwP_get h2 hA m0 hl),
      shock_mk h2 hA (le_refl _) D.M3_one m0 m1 D.M3_sig ?_ ?_, ?_⟩
    · rw [es, D.M3_sig]; field_simp
    · rw [es]
    · rw [hm]; exact downstream_Mn_ok hgam hd
  · obtain ⟨hα1, hα2⟩ := rj_between (div_le_div_of_nonneg_left t4.le th ho) (le_refl n)
    obtain ⟨m3, e, m0, m1, α0, et, hp, -⟩ := rj_point h2 hA D.M3_one D.M3_sig D.m4_pos D.mhi_pos D.mhi_one D.mhi_sig hα1 hα2
    have hm : m3 = mhi := by
      refine rti_inj_sub m0 m1 D.mhi_pos D.mhi_one ?_
      rw [et, rj_last _ _ hn, div_div_cancel₀ t4.ne']
    refine ⟨_, m3, m4, sig m3 gam / sig M2 gam / f.A3A2, _, D.cw_eq ▸ heatB_point (le_refl n) α0 e (fun l hl => cwP_get h2 hA m0 hl),
      shock_mk h2 (le_refl _) hA h2 m0 m1 (one_mul _).symm ?_ ?_⟩
    · rw [hm, D.mhi_sig]; field_simp
    · rw [hm, D.mhi_sig]; ring

/-- C138: along the conventional branch, more heat moves the shock towards the throat, lowers the Mach number at the combustor entry and raises the total
pressure before and after the combustor. -/
theorem C138_conventional_trend (nf : RootFinder) (hb : BranchRootFinder nf) (n : ℕ) (M0 M2 : ℝ) (f : Figure) (h0 : 1 ≤ M0) (h2 : 1 ≤ M2)
    (hA : 1 < f.A3A2) (h : ramjet nf n M0 M2 = .ok f) (i j : ℕ) (hij : i < j) (hj : j ≤ n) (α m3 m4 p3 p4 α' m3' m4' p3' p4' : ℝ)
    (hi : IsPoint f.CW i α m3 m4 p3 p4) (hj' : IsPoint f.CW j α' m3' m4' p3' p4') :
    α < α' ∧ m3' < m3 ∧ m4' = m4 ∧ p3 < p3' ∧ p4 < p4' ∧
    ∀ As Ms As' Ms', ShockInDiffuser 1.4 M2 f.A3A2 As Ms m3 p3 → ShockInDiffuser 1.4 M2 f.A3A2 As' Ms' m3' p3' → As' < As ∧ Ms' < Ms := by
  obtain ⟨M3, M4, k4, mhi, mlo, MR, D⟩ := ramjet_inv hb h0 h2 hA.le h
  have t4 := rti_pos D.m4_pos.ne'
  have th := rti_pos D.mhi_pos.ne'
  have s2 := sig_pos hgam (show 0 < M2 by linarith)
  have hA0 : 0 < f.A3A2 := by linarith
  obtain ⟨ho, ho'⟩ := rj_order h2 hA.le D.M3_one D.M3_sig D.mhi_pos D.mhi_one D.mhi_sig
  have hM3 := rti_pos (show M3 ≠ 0 by have := D.M3_one; linarith)
  have hlt : rti k4 / rti M3 < rti k4 / rti mhi := div_lt_div_of_pos_left t4 th (ho' hA)
  have key : ∀ l, l ≤ n → ∀ β k3 k4' q3 q4, IsPoint f.CW l β k3 k4' q3 q4 → β = rti k4 / rti M3 + (l : ℝ) * ((rti k4 / rti mhi - rti k4 / rti M3) / (n : ℝ)) ∧
      k4' = k4 ∧ 0 < k3 ∧ k3 ≤ 1 ∧ 0 < β ∧ rti k3 = rti k4 / β ∧ q3 = sig k3 gam / sig M2 gam / f.A3A2 ∧ MassBalance gam M2 1 f.A8A2 β q4 := by
    intro l hl β k3 k4' q3 q4 hp
    obtain ⟨hα1, hα2⟩ := rj_between hlt.le hl
    obtain ⟨m3, e, m0, m1, α0, et, -, -⟩ := rj_point h2 hA.le D.M3_one D.M3_sig D.m4_pos D.mhi_pos D.mhi_one D.mhi_sig hα1 hα2
    have hq : IsPoint f.CW l _ m3 k4 (sig m3 gam / sig M2 gam / f.A3A2) _ := D.cw_eq ▸ heatB_point hl α0 e (fun l hl => cwP_get h2 hA.le m0 hl)
    obtain ⟨rfl, rfl, rfl, rfl, rfl⟩ := rj_unique hp hq
    exact ⟨rfl, rfl, m0, m1, α0, et, rfl,
      rj_mass (by linarith) (by linarith) (by rw [D.h8]; linarith) m0 D.m4_pos α0 et (one_mul _).symm rfl D.m4_sig⟩
  obtain ⟨a1, rfl, a2, a3, a4, a5, a6, a7⟩ := key i (by omega) _ _ _ _ _ hi
  obtain ⟨b1, rfl, b2, b3, b4, b5, b6, b7⟩ := key j hj _ _ _ _ _ hj'
  have hn : (0:ℝ) < n := by exact_mod_cast (by omega : 0 < n)
  have hc : (i : ℝ) < j := by exact_mod_cast hij
  have hα : α < α' := by
    rw [a1, b1]
    have : 0 < (rti m4' / rti mhi - rti m4' / rti M3) / (n : ℝ) := div_pos (by linarith) hn
    nlinarith
  have hm : m3' < m3 := by
    by_contra hcon; push Not at hcon
    have : rti m3 ≤ rti m3' := by
      rcases hcon.eq_or_lt with e | e
      · rw [e]
      · exact (rti_lt a2.le e b3).le
    rw [a5, b5] at this
    exact absurd (div_lt_div_of_pos_left t4 a4 hα) (not_lt.2 this)
  have hp : p3 < p3' := by
    rw [a6, b6]
    have := sig_lt_sub b2 hm a3
    gcongr
  have hp4 : p4 < p4' := by
    obtain ⟨st, c1, c2⟩ := a7
    obtain ⟨st', d1, d2⟩ := b7
    rw [c1] at d1
    obtain rfl := Except.ok.inj d1
    have r1 := Real.sqrt_pos.2 a4
    have r2 := Real.sqrt_lt_sqrt a4.le hα
    rw [Sigma_Mach_ok hgam (by linarith)] at c1
    obtain rfl := Except.ok.inj c1
    have h8 : 0 < f.A8A2 := by rw [D.h8]; linarith
    have hc0 : 0 < 1 / sig M2 gam := by positivity
    rw [eq_div_iff r1.ne'] at c2
    rw [eq_div_iff (r1.trans r2).ne'] at d2
    have : p4 * f.A8A2 < p4' * f.A8A2 := by rw [← c2, ← d2]; nlinarith
    exact lt_of_mul_lt_mul_right this h8.le
  refine ⟨hα, hm, rfl, hp, hp4, fun As Ms As' Ms' S S' => ?_⟩
  have hpt : ∀ M, 1 ≤ M → Pt_ratio M gam = .ok (ptr M gam) := fun M h => by rw [gam_eq]; exact Pt_ratio_ok_default h
  have e1 := S.shock
  have e2 := S'.shock
  change Pt_ratio Ms gam = _ at e1
  change Pt_ratio Ms' gam = _ at e2
  rw [hpt _ S.sup] at e1
  rw [hpt _ S'.sup] at e2
  have hMs : Ms' < Ms := by
    by_contra hcon; push Not at hcon
    have := (ptr_strictAnti hgam).antitoneOn S.sup S'.sup hcon
    rw [Except.ok.inj e1, Except.ok.inj e2] at this
    linarith
  refine ⟨?_, hMs⟩
  obtain ⟨st, ss, c1, c2, c3⟩ := S.upstream
  obtain ⟨st', ss', d1, d2, d3⟩ := S'.upstream
  rw [c1] at d1
  obtain rfl := Except.ok.inj d1
  change Sigma_Mach _ gam = _ at c1 c2 d2
  rw [Sigma_Mach_ok hgam (by linarith)] at c1
  have u1 := S.sup
  have u2 := S'.sup
  rw [Sigma_Mach_ok hgam (by linarith)] at c2 d2
  obtain rfl := Except.ok.inj c1
  have : sig Ms' gam < sig Ms gam := (sig_strictMono hgam) S'.sup S.sup hMs
  rw [Except.ok.inj c2, Except.ok.inj d2, c3, d3] at this
  exact lt_of_mul_lt_mul_right this s2.le

/-- C138: every point of the fully supersonic branch: no shock, heat addition from the supersonic Mach number `M3` of the diffuser exit to a supersonic
`m4`; the nozzle throat lets the flow pass (its area is at least the critical one), and is just sonic at the last point; no heat at the first one.  `hS`
says that the throat of the nozzle lets the flow without heat pass. -/
theorem C138_supersonic (nf : RootFinder) (hb : BranchRootFinder nf) (n : ℕ) (M0 M2 : ℝ) (f : Figure) (h0 : 1 ≤ M0) (h2 : 1 ≤ M2) (hA : 1 ≤ f.A3A2)
    (s0 : ℝ) (hs0 : Sigma_Mach M0 1.4 = .ok s0) (hS : 1 ≤ 0.8 * (0.9 * s0)) (h : ramjet nf n M0 M2 = .ok f) (i : ℕ) (hi : i ≤ n) :
    ∃ α M3 m4 p4 s4, IsPoint f.FS i α M3 m4 1 p4 ∧ 1 ≤ M3 ∧ Sigma_Mach M3 1.4 = .ok (0.9 * s0) ∧ 1 ≤ m4 ∧ 1 ≤ α ∧ Heated 1.4 M3 m4 α p4 ∧
      Sigma_Mach m4 1.4 = .ok s4 ∧ f.A3A2 / f.A8A2 ≤ s4 ∧ (i = 0 → α = 1 ∧ m4 = M3 ∧ p4 = 1) ∧ (i = n → 0 < n → s4 = f.A3A2 / f.A8A2) := by
  obtain ⟨M3, M4, k4, mhi, mlo, MR, D⟩ := ramjet_inv hb h0 h2 hA h
  change Sigma_Mach M0 gam = _ at hs0
  rw [Sigma_Mach_ok hgam (by linarith)] at hs0
  obtain rfl := Except.ok.inj hs0
  have hM3 := D.M3_one
  have hM4 := D.M4_one
  have r3 := rti_pos (show M3 ≠ 0 by linarith)
  have r4 := rti_pos (show M4 ≠ 0 by linarith)
  have hq : f.A3A2 / f.A8A2 = 5 / 4 := by
    rw [D.h8, div_eq_iff (by linarith)]; ring
  have e3 : sig M3 gam = 0.9 * sig M0 gam := by rw [D.M3_sig, ← D.s0]; ring
  have h43 : M4 ≤ M3 := le_of_sig_sup hM4 hM3 (by rw [e3, D.M4_sig, hq]; linarith)
  have hr : rti M3 ≤ rti M4 := by
    rcases h43.eq_or_lt with e | e
    · rw [e]
    · exact (rti_gt hM4 e).le
  have hmax : (1.0:ℝ) ≤ rti M4 / rti M3 := by rw [le_div_iff₀ r3]; linarith
  obtain ⟨hα1, hα2⟩ := rj_between hmax hi
  obtain ⟨α, hα⟩ : ∃ α, α = 1.0 + (i : ℝ) * ((rti M4 / rti M3 - 1.0) / (n : ℝ)) := ⟨_, rfl⟩
  rw [← hα] at hα1 hα2
  have hα0 : 0 < α := by linarith
  have ht : α / (rti M4 / rti M3) * rti M4 = α * rti M3 := by field_simp
  have ht1 : α * rti M3 ≤ rti M4 := by rwa [le_div_iff₀ r3] at hα2
  have ht2 : rti M3 ≤ α * rti M3 := by nlinarith
  have has : 1 - 1 / gam ^ 2 < α * rti M3 := by
    rcases rti_sup (show M3 ≠ 0 by linarith) with c | c
    · linarith
    · nlinarith
  obtain ⟨m4, em, m1, et, -⟩ := (C26_sup_right_inverse (α * rti M3) gam hgam (ht1.trans (rti_le_one _))).1 has
  rw [Ti_ok] at et
  have et := Except.ok.inj et
  have hm4 : M4 ≤ m4 := by
    by_contra hc; push Not at hc
    have := rti_gt m1 hc
    linarith
  have el := rj_linspace 1.0 (rti M4 / rti M3) hi
  rw [← hα] at el
  have e4 := rj_elementwise (f := fun a => do let r ← Py.div a (rti M4 / rti M3); SupMach_TiTicri (r * rti M4) gam) el (y := m4)
    (by rw [Py.div_ok (by positivity), Py.ok_bind, ht, em])
  have e5 := rj_elementwise (f := fun m => do let p ← Pi_Picri m gam; let p3 ← Pi_Picri M3 gam; Py.div p p3) e4 (y := rpi m4 / rpi M3)
    (by rw [Pi_ok, Py.ok_bind, Pi_ok, Py.ok_bind, Py.div_ok (rpi_pos _).ne'])
  have hpt : IsPoint f.FS i α M3 m4 1 (rpi m4 / rpi M3) := by
    rw [D.fs_eq]
    refine ⟨el, rj_ones _ hi, e4, ?_, e5⟩
    have := rj_ones 1.0 hi
    rw [show (1.0:ℝ) = 1 by norm_num] at this
    convert this using 2
    norm_num [fsB]
  have sM : sig M4 gam ≤ sig m4 gam := (sig_strictMono hgam).monotoneOn hM4 m1 hm4
  refine ⟨α, M3, m4, rpi m4 / rpi M3, sig m4 gam, hpt, hM3, ?_, m1, by linarith, ?_, Sigma_Mach_ok hgam (by linarith), ?_, ?_, ?_⟩
  · change Sigma_Mach M3 gam = _
    rw [Sigma_Mach_ok hgam (by linarith), e3]
  · have := rpi_pos M3
    exact ⟨_, _, _, _, Ti_ok _, Ti_ok _, Pi_ok _, Pi_ok _, et, by field_simp⟩
  · rw [← D.M4_sig]; exact sM
  · rintro rfl
    have hα' : α = 1 := by rw [hα]; norm_num
    rw [hα', one_mul] at et
    have hm : m4 = M3 := by
      rcases lt_trichotomy m4 M3 with c | c | c
      · exact absurd et (rti_gt m1 c).ne'
      · exact c
      · exact absurd et (rti_gt hM3 c).ne
    exact ⟨hα', hm, by rw [hm, div_self (rpi_pos _).ne']⟩
  · rintro rfl hn
    rw [rj_last _ _ hn] at hα
    rw [hα, div_mul_cancel₀ _ r3.ne'] at et
    have hm : m4 = M4 := by
      rcases hm4.eq_or_lt with c | c
      · exact c.symm
      · exact absurd et (rti_gt hM4 c).ne
    rw [hm, D.M4_sig]

/-- C138: every point of the unstarted branch: the total pressure is the one behind a normal shock at the flight Mach number; the throat is subsonic (Mach
number `mt`), just sonic at the first point; the nozzle throat is sonic, the total temperature is multiplied by `α`, mass is conserved. -/
theorem C138_unstarted (nf : RootFinder) (hb : BranchRootFinder nf) (n : ℕ) (M0 M2 : ℝ) (f : Figure) (h0 : 1 ≤ M0) (h2 : 1 ≤ M2) (hA : 1 ≤ f.A3A2)
    (h : ramjet nf n M0 M2 = .ok f) (i : ℕ) (hi : i ≤ n) :
    ∃ α m3 m4 p3 p4 mt st, IsPoint f.UC i α m3 m4 p3 p4 ∧ Pt_ratio M0 1.4 = .ok p3 ∧ 0 < m3 ∧ m3 ≤ 1 ∧ 0 < mt ∧ mt ≤ 1 ∧ (i = 0 → mt = 1) ∧
      Sigma_Mach mt 1.4 = .ok st ∧ Sigma_Mach m3 1.4 = .ok (f.A3A2 * st) ∧ Heated 1.4 m3 m4 α (p4 / p3) ∧
      m4 ≤ 1 ∧ Sigma_Mach m4 1.4 = .ok (f.A3A2 / f.A8A2) ∧ MassBalance 1.4 mt p3 f.A8A2 α p4 := by
  obtain ⟨M3, M4, m4, mhi, mlo, MR, D⟩ := ramjet_inv hb h0 h2 hA h
  have t4 := rti_pos D.m4_pos.ne'
  have th := rti_pos D.mhi_pos.ne'
  have tl := rti_pos D.mlo_pos.ne'
  have ho := rj_uc_order h2 hA D.mhi_pos D.mhi_one D.mlo_pos D.mlo_one D.mhi_sig D.mlo_sig
  have hord : rti m4 / rti mlo ≤ 1.1 * (rti m4 / rti mhi) := by
    have : rti m4 / rti mlo ≤ rti m4 / rti mhi := div_le_div_of_nonneg_left t4.le th ho
    have : 0 < rti m4 / rti mhi := by positivity
    linarith
  obtain ⟨hα1, -⟩ := rj_between hord hi
  obtain ⟨m3, e, m0, m1, et, -⟩ := heat_point t4 D.mlo_pos D.mlo_one hα1
  have α0 : 0 < rti m4 / rti mlo + (i : ℝ) * ((1.1 * (rti m4 / rti mhi) - rti m4 / rti mlo) / (n : ℝ)) := (div_pos t4 tl).trans_le hα1
  have hA0 : 0 < f.A3A2 := by linarith
  have h8 : 0 < f.A8A2 := by rw [D.h8]; linarith
  have hs3 : f.A3A2 ≤ sig m3 gam := by rw [← D.mlo_sig]; exact sig_le_sub m0 m1 D.mlo_one
  obtain ⟨mt, c0, c1, c2⟩ := exists_sub' (show 1 ≤ sig m3 gam / f.A3A2 by rwa [one_le_div hA0])
  have hp := ptr_pos hgam (dom_of_one_le hgam h0)
  have hs3' := sig_pos hgam m0
  refine ⟨_, m3, m4, ptr M0 gam, _, mt, sig m3 gam / f.A3A2, D.uc_eq ▸ heatB_point hi α0 e (fun l hl => rj_ones _ hi), ?_, m0, m1.trans D.mlo_one, c0, c1,
    ?_, ?_, ?_, rj_heated α0 hp et rfl, D.m4_one, ?_, rj_mass c0 hA0 h8 m0 D.m4_pos α0 et ?_ rfl D.m4_sig⟩
  · change Pt_ratio M0 gam = _
    rw [gam_eq]; exact Pt_ratio_ok_default h0
  · rintro rfl
    have : m3 = mlo := by
      refine rti_inj_sub m0 (m1.trans D.mlo_one) D.mlo_pos D.mlo_one ?_
      rw [et]; simp only [Nat.cast_zero, zero_mul, add_zero]; rw [div_div_cancel₀ t4.ne']
    rw [this, D.mlo_sig, div_self hA0.ne'] at c2
    exact sig_inj_sub c0 c1 one_pos (le_refl _) (by rw [c2, sig_one hgam])
  · change Sigma_Mach mt gam = _
    rw [Sigma_Mach_ok hgam c0.ne', c2]
  · change Sigma_Mach m3 gam = _
    rw [Sigma_Mach_ok hgam m0.ne', mul_div_cancel₀ _ hA0.ne']
  · change Sigma_Mach m4 gam = _
    rw [Sigma_Mach_ok hgam D.m4_pos.ne', D.m4_sig]
  · rw [c2]; field_simp

/-- C138: every point of the restart branch (unstarted, sonic throat): the total pressure is multiplied by the loss `p0` of the normal shock ahead of the
inlet and by the loss of exactly one normal shock in the diffuser; the nozzle throat is sonic, the total temperature is multiplied by `α`, mass is
conserved.  At its last point the shock is at the throat (no jump: Mach number 1) and the point is the first one of the unstarted branch. -/
theorem C138_restart (nf : RootFinder) (hb : BranchRootFinder nf) (n : ℕ) (M0 M2 : ℝ) (f : Figure) (h0 : 1 ≤ M0) (h2 : 1 ≤ M2) (hA : 1 ≤ f.A3A2)
    (h : ramjet nf n M0 M2 = .ok f) (i : ℕ) (hi : i ≤ n) :
    ∃ α m3 m4 p0 p p4, IsPoint f.RC i α m3 m4 (p0 * p) p4 ∧ Pt_ratio M0 1.4 = .ok p0 ∧
      (∃! q : ℝ × ℝ, ShockInDiffuser 1.4 1 f.A3A2 q.1 q.2 m3 p) ∧ Heated 1.4 m3 m4 α (p4 / (p0 * p)) ∧
      m4 ≤ 1 ∧ Sigma_Mach m4 1.4 = .ok (f.A3A2 / f.A8A2) ∧ MassBalance 1.4 1 p0 f.A8A2 α p4 ∧
      (i = 0 → ∃ Ms, ShockInDiffuser 1.4 1 f.A3A2 f.A3A2 Ms m3 p) ∧
      (i = n → 0 < n → ShockInDiffuser 1.4 1 f.A3A2 1 1 m3 p ∧ p = 1 ∧ IsPoint f.UC 0 α m3 m4 p0 p4) := by
  obtain ⟨M3, M4, m4, mhi, mlo, MR, D⟩ := ramjet_inv hb h0 h2 hA h
  have t4 := rti_pos D.m4_pos.ne'
  have th := rti_pos D.mlo_pos.ne'
  have hA0 : 0 < f.A3A2 := by linarith
  have h8 : 0 < f.A8A2 := by rw [D.h8]; linarith
  have s1 := sig_one hgam
  have eR : sig MR gam = f.A3A2 * sig 1 gam := by rw [D.MR_sig, s1, mul_one]
  have eh : sig mlo gam = f.A3A2 * (sig 1 gam * ptr 1 gam) := by rw [D.mlo_sig, s1, ptr_one hgam]; ring
  obtain ⟨ho, _⟩ := rj_order (le_refl 1) hA D.MR_one eR D.mlo_pos D.mlo_one eh
  obtain ⟨hα1, hα2⟩ := rj_between (div_le_div_of_nonneg_left t4.le th ho) hi
  obtain ⟨m3, e, m0, m1, α0, et, hp, hs⟩ := rj_point (le_refl 1) hA D.MR_one eR D.m4_pos D.mlo_pos D.mlo_one eh hα1 hα2
  have hpos : 0 < sig m3 gam / sig 1 gam / f.A3A2 := (ptr_pos hgam (dom_of_one_le hgam D.MR_one)).trans_le hp
  have hp0 := ptr_pos hgam (dom_of_one_le hgam h0)
  have ep : ptr M0 gam * sig m3 gam / f.A3A2 = ptr M0 gam * (sig m3 gam / sig 1 gam / f.A3A2) := by rw [s1]; ring
  have hpt : IsPoint f.RC i _ m3 m4 (ptr M0 gam * (sig m3 gam / sig 1 gam / f.A3A2)) _ :=
    D.rc_eq ▸ heatB_point hi α0 e (fun l hl => ep ▸ rcP_get hA m0 hl)
  refine ⟨_, m3, m4, ptr M0 gam, sig m3 gam / sig 1 gam / f.A3A2, _, hpt, ?_, hs, rj_heated α0 (mul_pos hp0 hpos) et rfl, D.m4_one, ?_,
    rj_mass one_pos hA0 h8 m0 D.m4_pos α0 et rfl rfl D.m4_sig, ?_, ?_⟩
  · change Pt_ratio M0 gam = _
    rw [gam_eq]; exact Pt_ratio_ok_default h0
  · change Sigma_Mach m4 gam = _
    rw [Sigma_Mach_ok hgam D.m4_pos.ne', D.m4_sig]
  · rintro rfl
    have hd := dom_of_one_le hgam D.MR_one
    have hq := Real.sqrt_pos.2 (mn2_pos hgam hd)
    have hm : m3 = √(mn2 MR gam) := by
      refine rti_inj_sub m0 m1 hq (Real.sqrt_le_iff.2 ⟨zero_le_one, ?_⟩) ?_
      · rw [one_pow]
        have := (dom_iff hgam).1 hd
        unfold mn2; rw [div_le_one this]
        nlinarith [one_le_pow₀ D.MR_one (n := 2), hgam]
      · rw [et, rti_shock D.MR_one]; simp only [Nat.cast_zero, zero_mul, add_zero]; rw [div_div_cancel₀ t4.ne']
    have es : sig m3 gam = sig MR gam * ptr MR gam := by rw [hm, sig_shock hgam D.MR_one]
    refine ⟨MR, shock_mk (le_refl 1) hA (le_refl _) D.MR_one m0 m1 eR ?_ ?_⟩
    · rw [es, D.MR_sig, s1]; field_simp
    · rw [es]
  · rintro rfl hn
    have hm : m3 = mlo := by
      refine rti_inj_sub m0 m1 D.mlo_pos D.mlo_one ?_
      rw [et, rj_last _ _ hn, div_div_cancel₀ t4.ne']
    have hp1 : sig m3 gam / sig 1 gam / f.A3A2 = 1 := by rw [hm, D.mlo_sig, s1]; field_simp
    refine ⟨shock_mk (le_refl 1) (le_refl _) hA (le_refl 1) m0 m1 (one_mul _).symm (by rw [hp1, ptr_one hgam])
      (by rw [hm, eh]; ring), hp1, ?_⟩
    rw [hp1, mul_one, rj_last _ _ hn, D.uc_eq]
    have z : rti m4 / rti mlo + ((0:ℕ) : ℝ) * ((1.1 * (rti m4 / rti mhi) - rti m4 / rti mlo) / (i : ℝ)) = rti m4 / rti mlo := by simp
    have := heatB_point (n := i) (i := 0) (Nat.zero_le _) (a := rti m4 / rti mlo) (b := 1.1 * (rti m4 / rti mhi)) (m4 := m4) (m3 := m3) (p3 := ptr M0 gam)
      (g := fun _ => ones (ptr M0 gam) i) (by rw [z]; positivity) (by rw [z]; rw [rj_last _ _ hn] at e; exact e) (fun l hl => rj_ones _ (Nat.zero_le _))
    rwa [z] at this

/-- C138: hysteresis: the unstarted branch begins at a heat ratio the conventional branch still reaches; between them both states are possible, and the
conventional one always has the higher total pressure before the combustor. -/
theorem C138_hysteresis (nf : RootFinder) (hb : BranchRootFinder nf) (n : ℕ) (hn : 0 < n) (M0 M2 : ℝ) (f : Figure) (h0 : 1 ≤ M0) (h2 : 1 ≤ M2)
    (hA : 1 ≤ f.A3A2) (h : ramjet nf n M0 M2 = .ok f) :
    (∀ α m3 m4 p3 p4 α' m3' m4' p3' p4', IsPoint f.UC 0 α m3 m4 p3 p4 → IsPoint f.CW n α' m3' m4' p3' p4' → α ≤ α') ∧
    (∀ i j α m3 m4 p3 p4 α' m3' m4' p3' p4', i ≤ n → j ≤ n → IsPoint f.UC i α m3 m4 p3 p4 → IsPoint f.CW j α' m3' m4' p3' p4' → p3 < p3') := by
  obtain ⟨M3, M4, m4, mhi, mlo, MR, D⟩ := ramjet_inv hb h0 h2 hA h
  have t4 := rti_pos D.m4_pos.ne'
  have th := rti_pos D.mhi_pos.ne'
  constructor
  · intro α m3 k4 p3 p4 α' m3' k4' p3' p4' h1 h2'
    have e1 := h1.1
    have e2 := h2'.1
    rw [D.uc_eq] at e1
    rw [D.cw_eq] at e2
    have e1 := Except.ok.inj (Option.some.inj ((rj_linspace _ _ (Nat.zero_le n)).symm.trans e1))
    have e2 := Except.ok.inj (Option.some.inj ((rj_linspace _ _ (le_refl n)).symm.trans e2))
    rw [rj_last _ _ hn] at e2
    rw [← e1, ← e2]
    simp only [Nat.cast_zero, zero_mul, add_zero]
    exact div_le_div_of_nonneg_left t4.le th (rj_uc_order h2 hA D.mhi_pos D.mhi_one D.mlo_pos D.mlo_one D.mhi_sig D.mlo_sig)
  · intro i j α m3 k4 p3 p4 α' m3' k4' p3' p4' hi hj h1 h2'
    have e1 := h1.2.2.2.1
    rw [D.uc_eq] at e1
    have e1 : ptr M0 gam = p3 := Except.ok.inj (Option.some.inj ((rj_ones _ hi).symm.trans e1))
    obtain ⟨ho, _⟩ := rj_order h2 hA D.M3_one D.M3_sig D.mhi_pos D.mhi_one D.mhi_sig
    obtain ⟨hα1, hα2⟩ := rj_between (div_le_div_of_nonneg_left t4.le th ho) hj
    obtain ⟨q3, e, m0, m1, α0, et, hp, hs⟩ := rj_point h2 hA D.M3_one D.M3_sig D.m4_pos D.mhi_pos D.mhi_one D.mhi_sig hα1 hα2
    have hq : IsPoint f.CW j _ q3 m4 (sig q3 gam / sig M2 gam / f.A3A2) _ := D.cw_eq ▸ heatB_point hj α0 e (fun l hl => cwP_get h2 hA m0 hl)
    obtain ⟨-, -, -, e3, -⟩ := rj_unique h2' hq
    rw [e3, ← e1]
    refine lt_of_lt_of_le ?_ hp
    refine (ptr_strictAnti hgam) D.M3_one h0 ?_
    by_contra hc; push Not at hc
    have := (sig_strictMono hgam).monotoneOn h0 D.M3_one hc
    rw [D.M3_sig, ← D.s0] at this
    have := sig_pos hgam (show 0 < M0 by linarith)
    linarith

/-- C138: with a solver that finds the roots that exist, the script runs for all flight and throat Mach numbers for which the diffuser is divergent. -/
theorem C138_runs (nf : RootFinder) (hb : BranchRootFinder nf) (hc : CompleteRF nf) (n : ℕ) (M0 M2 s0 s2 : ℝ) (h0 : 1 ≤ M0) (h2 : 1 ≤ M2)
    (e0 : Sigma_Mach M0 1.4 = .ok s0) (e2 : Sigma_Mach M2 1.4 = .ok s2) (hs : s2 ≤ 0.9 * s0) :
    ∃ f, ramjet nf n M0 M2 = .ok f ∧ f.A2A0 = s2 / s0 ∧ f.A3A2 = 0.9 * s0 / s2 ∧ f.A8A2 = 0.8 * f.A3A2 ∧ 1 ≤ f.A3A2 := by
  change Sigma_Mach M0 gam = _ at e0
  change Sigma_Mach M2 gam = _ at e2
  rw [Sigma_Mach_ok hgam (by linarith)] at e0 e2
  obtain rfl := Except.ok.inj e0
  obtain rfl := Except.ok.inj e2
  have p2 := sig_pos hgam (show 0 < M2 by linarith)
  have p0 := sig_pos hgam (show 0 < M0 by linarith)
  have o2 := one_le_sig hgam (show 0 < M2 by linarith)
  have hAe : 1.0 / (sig M2 gam / sig M0 gam) * 0.9 = 0.9 * sig M0 gam / sig M2 gam := by field_simp; norm_num
  obtain ⟨A, hA⟩ : ∃ A, A = 0.9 * sig M0 gam / sig M2 gam := ⟨_, rfl⟩
  have hA1 : 1 ≤ A := by rw [hA, le_div_iff₀ p2]; linarith
  have hq : A / (0.8 * A) = 5 / 4 := by rw [div_eq_iff (by linarith)]; ring
  have d2 := dom_of_one_le hgam h2
  have d0 := dom_of_one_le hgam h0
  have w2 := Real.sqrt_pos.2 (mn2_pos hgam d2)
  have w0 := Real.sqrt_pos.2 (mn2_pos hgam d0)
  obtain ⟨M3, f3⟩ := found_sup hc (s := A * sig M2 gam) (by nlinarith) hgam
  have g3 := search_sup hb (by nlinarith) hgam.le f3
  obtain ⟨M4, f4⟩ := found_sup hc (s := 5 / 4) (by norm_num) (show (1:ℝ) < 2.0 by norm_num)
  obtain ⟨m4, k4⟩ := found_sub hc (s := 5 / 4) (by norm_num) (show (0.1:ℝ) < 1 by norm_num)
  have g4 := search_sup hb (by norm_num) (by norm_num) f4
  have ow := one_le_sig hgam w2
  obtain ⟨mh, kh⟩ := found_sub hc (s := A * sig (√(mn2 M2 gam)) gam) (by nlinarith) (show (0.1:ℝ) < 1 by norm_num)
  have gh := search_sub hb (by nlinarith) (by norm_num) kh
  obtain ⟨ml, kl⟩ := found_sub hc hA1 (show (0.1:ℝ) < 1 by norm_num)
  have gl := search_sub hb hA1 (by norm_num) kl
  obtain ⟨MR, kR⟩ := found_sup hc hA1 (show (1:ℝ) < 2.0 by norm_num)
  have gR := search_sup hb hA1 (by norm_num) kR
  have d3 := dom_of_one_le hgam g3.1
  have w3 := Real.sqrt_pos.2 (mn2_pos hgam d3)
  have a8 : 0.8 * A ≠ 0 := by linarith
  unfold ramjet
  rw [Sigma_Mach_ok hgam (by linarith), Py.ok_bind, Sigma_Mach_ok hgam (by linarith), Py.ok_bind, Py.div_ok p0.ne', Py.ok_bind,
    Py.div_ok (by positivity), Py.ok_bind]
  simp only []
  rw [hAe, ← hA]
  have efs : fs nf n M2 A (0.8 * A) = .ok (M3, fsB n M3 M4) := by
    unfold fs
    rw [Sigma_Mach_ok hgam (by linarith), Py.ok_bind, ← gam_eq, f3, Py.ok_bind, Py.div_ok a8, Py.ok_bind, hq, f4, Py.ok_bind, Ti_ok, Py.ok_bind, Ti_ok,
      Py.ok_bind, Py.div_ok (rti_pos (by linarith [g3.1])).ne', Py.ok_bind]
    rfl
  have ecw : ∃ r, cw nf n M2 A (0.8 * A) M3 = .ok r := by
    unfold cw
    rw [Py.div_ok a8, Py.ok_bind, hq, k4, Py.ok_bind, downstream_Mn_ok hgam d3, Py.ok_bind, Ti_ok, Py.ok_bind, Ti_ok, Py.ok_bind,
      Py.div_ok (rti_pos w3.ne').ne', Py.ok_bind, downstream_Mn_ok hgam d2, Py.ok_bind, Sigma_Mach_ok hgam w2.ne', Py.ok_bind, kh, Py.ok_bind, Ti_ok, Py.ok_bind,
      Py.div_ok (rti_pos gh.1.ne').ne', Py.ok_bind]
    exact ⟨_, rfl⟩
  obtain ⟨⟨c, bC⟩, ecw⟩ := ecw
  have euc : ∃ r, uc nf n M0 A (0.8 * A) c = .ok r := by
    unfold uc
    simp only []
    rw [Py.div_ok a8, Py.ok_bind, hq, k4, Py.ok_bind, kl, Py.ok_bind, Ti_ok, Py.ok_bind, Ti_ok, Py.ok_bind, Py.div_ok (rti_pos gl.1.ne').ne', Py.ok_bind,
      downstream_Mn_ok hgam d0, Py.ok_bind, Sigma_Mach_ok hgam w0.ne', Py.ok_bind, Pt_ratio_ok_default h0, Py.ok_bind]
    exact ⟨_, rfl⟩
  obtain ⟨⟨u, bU⟩, euc⟩ := euc
  have erc : ∃ r, rc nf n M0 A (0.8 * A) u = .ok r := by
    unfold rc
    simp only []
    rw [Py.div_ok a8, Py.ok_bind, hq, k4, Py.ok_bind, kR, Py.ok_bind, Ti_ok, Py.ok_bind, Ti_ok, Py.ok_bind, Py.div_ok (rti_pos (by linarith [gR.1])).ne', Py.ok_bind,
      Pt_ratio_ok_default h0, Py.ok_bind]
    exact ⟨_, rfl⟩
  obtain ⟨bR, erc⟩ := erc
  rw [efs, Py.ok_bind]
  simp only []
  rw [ecw, Py.ok_bind]
  simp only []
  rw [euc, Py.ok_bind]
  simp only []
  rw [erc, Py.ok_bind]
  exact ⟨_, rfl, rfl, rfl, rfl, hA1⟩

theorem rj_sig {M : ℝ} (hM : 0 < M) : sig M gam = ((1 + M ^ 2 / 5) * (5 / 6)) ^ 3 / M := by
  unfold sig tt gam
  rw [show ((1.4:ℝ) + 1) / (2 * (1.4 - 1)) = ((3:ℕ):ℝ) by norm_num, Real.rpow_natCast]
  congr 2
  norm_num
  ring

/-- non-vacuity of `C138_runs` and, with it, of the other theorems: the values of the script (flight Mach number 2.8, throat 1.5, 50 intervals) -/
theorem C138_script_values : ∃ (nf : RootFinder) (f : Figure) (s0 : ℝ), BranchRootFinder nf ∧ ramjet nf 50 2.8 1.5 = .ok f ∧ 1 < f.A3A2 ∧
    Sigma_Mach 2.8 1.4 = .ok s0 ∧ 1 ≤ 0.8 * (0.9 * s0) := by
  obtain ⟨nf, -, hb, hc⟩ := Spec.exists_branchRootFinder
  have e0 : Sigma_Mach 2.8 gam = .ok (sig 2.8 gam) := Sigma_Mach_ok hgam (by norm_num)
  have e2 : Sigma_Mach 1.5 gam = .ok (sig 1.5 gam) := Sigma_Mach_ok hgam (by norm_num)
  have v0 : sig 2.8 gam = ((1 + 2.8 ^ 2 / 5) * (5 / 6)) ^ 3 / 2.8 := rj_sig (by norm_num)
  have v2 : sig 1.5 gam = ((1 + 1.5 ^ 2 / 5) * (5 / 6)) ^ 3 / 1.5 := rj_sig (by norm_num)
  obtain ⟨f, hf, -, hA, -, -⟩ := C138_runs nf hb hc 50 2.8 1.5 _ _ (by norm_num) (by norm_num) e0 e2 (by rw [v0, v2]; norm_num)
  refine ⟨nf, f, _, hb, hf, ?_, e0, by rw [v0]; norm_num⟩
  rw [hA, v0, v2]; norm_num

/-- non-vacuity: on the script's values the hypotheses of all theorems of C138 hold -/
example : ∃ (nf : RootFinder) (f : Figure), ramjet nf 50 2.8 1.5 = .ok f ∧
    (∃ α m3 m4 p3 p4, IsPoint f.CW 7 α m3 m4 p3 p4 ∧ ∃! q : ℝ × ℝ, ShockInDiffuser 1.4 1.5 f.A3A2 q.1 q.2 m3 p3) ∧
    (∃ α M3 m4 p4, IsPoint f.FS 50 α M3 m4 1 p4) ∧ (∃ α m3 m4 p3 p4, IsPoint f.UC 0 α m3 m4 p3 p4 ∧ IsPoint f.RC 50 α m3 m4 p3 p4) := by
  obtain ⟨nf, f, s0, hb, h, hA, e0, hS⟩ := C138_script_values
  refine ⟨nf, f, h, ?_, ?_, ?_⟩
  · obtain ⟨α, m3, m4, p3, p4, h1, h2, -⟩ := C138_conventional nf hb 50 2.8 1.5 f (by norm_num) (by norm_num) hA.le h 7 (by norm_num)
    exact ⟨α, m3, m4, p3, p4, h1, h2⟩
  · obtain ⟨α, M3, m4, p4, s4, h1, -⟩ := C138_supersonic nf hb 50 2.8 1.5 f (by norm_num) (by norm_num) hA.le s0 e0 hS h 50 (le_refl _)
    exact ⟨α, M3, m4, p4, h1⟩
  · obtain ⟨α, m3, m4, p0, p, p4, h1, -, -, -, -, -, -, -, h2⟩ := C138_restart nf hb 50 2.8 1.5 f (by norm_num) (by norm_num) hA.le h 50 (le_refl _)
    obtain ⟨-, rfl, h3⟩ := h2 rfl (by norm_num)
    rw [mul_one] at h1
    exact ⟨α, m3, m4, p0, p4, h3, h1⟩

end Aerokit.Props
