import Verif.Lemmas.ArraySigma
import Verif.Lemmas.SecantPM4

/-! # The Prandtl–Meyer search on arrays -/

namespace Aerokit.ArrayNewton
open ScipyNewton Props

section
variable {F : ℝ → ℝ} {A B r μ ν tol : ℝ}

theorem Entry.mono {G : ℝ → ℝ} {Q Q' : ℝ → Prop} {R : ℕ → ℝ → ℝ → Prop} {D D' : ℝ → Prop} (E : Entry G tol Q r R D) (hQ : ∀ m, D m → Q m → Q' m) (hD : ∀ m, D m → D' m) :
    Entry G tol Q' r R D' :=
  ⟨fun _ _ _ h => hD _ (E.dom _ _ _ h), E.slope, fun _ _ _ h h' => hQ _ (E.stay _ _ _ h) (E.acc _ _ _ h h'), E.last, E.next, fun _ _ _ h => hD _ (E.stay _ _ _ h), E.stuck, E.root, hD _ E.rdom, hQ _ E.rdom E.rok, E.tolpos⟩

/-- a first iteration before the others, which may end the search -/
theorem Entry.prepend' {G : ℝ → ℝ} {Q : ℝ → Prop} {R : ℕ → ℝ → ℝ → Prop} {D : ℝ → Prop} (E : Entry G tol Q r R D) {n : ℕ} {x y c : ℝ} (hc : chord x y (G x) (G y) = c)
    (hne : G y ≠ G x) (hD : D y) (hDc : D c) (near : |c - y| < tol → Q c) (hst : c = y → y = r) (hR : c = y ∨ R (n + 1) y c) :
    Entry G tol Q r (fun k p p1 => R k p p1 ∨ (k = n + 2 ∧ p = x ∧ p1 = y)) D := by
  refine ⟨?_, ?_, ?_, ?_, ?_, ?_, ?_, E.root, E.rdom, E.rok, E.tolpos⟩
  · rintro k p p1 (h | ⟨-, -, rfl⟩)
    · exact E.dom _ _ _ h
    · exact hD
  · rintro k p p1 (h | ⟨-, rfl, rfl⟩)
    · exact E.slope _ _ _ h
    · exact hne
  · rintro k p p1 (h | ⟨-, rfl, rfl⟩) h'
    · exact E.acc _ _ _ h h'
    · rw [hc] at h' ⊢; exact near h'
  · rintro p p1 (h | ⟨h, -, -⟩)
    · exact E.last _ _ h
    · omega
  · rintro k p p1 (h | ⟨h, rfl, rfl⟩)
    · exact (E.next _ _ _ h).imp id Or.inl
    · rw [hc]
      have : k = n := by omega
      subst this
      exact hR.imp id Or.inl
  · rintro k p p1 (h | ⟨h, rfl, rfl⟩)
    · exact E.stay _ _ _ h
    · rw [hc]; exact hDc
  · rintro k p p1 (h | ⟨h, rfl, rfl⟩) h'
    · exact E.stuck _ _ _ h h'
    · rw [hc] at h'; exact hst h'

/-- entries whose slopes vary by a factor `1 + κ` only -/
theorem slopesEntry (S : Slopes F A B μ ν) (hμ : 0 < μ) (hr : r ∈ Set.Icc A B) (h0 : F r = 0) {κ d K : ℝ} (hκ : ν / μ - 1 ≤ κ) (κ0 : 0 ≤ κ) (κ1 : κ < 1) (ht : 0 < tol)
    (dA : A ≤ r - κ * d) (dB : r + κ * d ≤ B) (hK : κ * tol / (1 - κ) ≤ K) :
    Entry F tol (fun m => |m - r| ≤ K) r (fun k x y => x ∈ Set.Icc A B ∧ y ∈ Set.Icc A B ∧ x ≠ y ∧ ∃ e, |y - r| ≤ e ∧ e ≤ d ∧ κ ^ (k - 1) * e * (1 + κ) < tol) (fun x => x ∈ Set.Icc A B) := by
  have key : ∀ x y e : ℝ, x ∈ Set.Icc A B → y ∈ Set.Icc A B → x ≠ y → |y - r| ≤ e → e ≤ d →
      |chord x y (F x) (F y) - r| ≤ κ * |y - r| ∧ |chord x y (F x) (F y) - r| ≤ κ * e ∧ chord x y (F x) (F y) ∈ Set.Icc A B := by
    intro x y e hx hy hxy he hed
    obtain ⟨-, s2, -⟩ := S.step hμ hr h0 hx hy hxy
    have s2' := s2.trans (mul_le_mul_of_nonneg_right hκ (abs_nonneg _))
    have hcd := s2'.trans (mul_le_mul_of_nonneg_left (he.trans hed) κ0)
    obtain ⟨a1, a2⟩ := abs_le.1 hcd
    exact ⟨s2', s2'.trans (mul_le_mul_of_nonneg_left he κ0), by linarith, by linarith⟩
  refine ⟨fun _ _ _ h => h.2.1, ?_, ?_, ?_, ?_, ?_, ?_, h0, hr, ?_, ht⟩
  · rintro k x y ⟨hx, hy, hxy, -⟩
    exact (S.step hμ hr h0 hx hy hxy).1
  · rintro k x y ⟨hx, hy, hxy, e, he, hed, -⟩ hst
    obtain ⟨s1, -, -⟩ := key x y e hx hy hxy he hed
    refine le_trans ?_ hK
    rw [le_div_iff₀ (by linarith)]
    have hyr : |y - r| ≤ |chord x y (F x) (F y) - y| + |chord x y (F x) (F y) - r| := by
      have := abs_sub_le y (chord x y (F x) (F y)) r; rwa [abs_sub_comm y (chord x y (F x) (F y))] at this
    have : κ * |y - r| ≤ κ * (tol + |chord x y (F x) (F y) - r|) := mul_le_mul_of_nonneg_left (by linarith) κ0
    linarith
  · rintro x y ⟨hx, hy, hxy, e, he, hed, hk⟩
    obtain ⟨-, s1, -⟩ := key x y e hx hy hxy he hed
    have hcy : |chord x y (F x) (F y) - y| ≤ |chord x y (F x) (F y) - r| + |y - r| := by
      have := abs_sub_le (chord x y (F x) (F y)) r y; rwa [abs_sub_comm r y] at this
    rw [Nat.sub_self, pow_zero, one_mul] at hk
    linarith
  · rintro k x y ⟨hx, hy, hxy, e, he, hed, hk⟩
    obtain ⟨-, s1, s2⟩ := key x y e hx hy hxy he hed
    by_cases hc : chord x y (F x) (F y) = y
    · exact Or.inl hc
    · refine Or.inr ⟨hy, s2, fun h => hc h.symm, κ * e, s1, ?_, ?_⟩
      · have : 0 ≤ e := (abs_nonneg _).trans he
        nlinarith
      · rw [show k + 1 - 1 = k from rfl]
        rw [show k + 2 - 1 = k + 1 from rfl, pow_succ] at hk
        linarith
  · rintro k x y ⟨hx, hy, hxy, e, he, hed, -⟩
    exact (key x y e hx hy hxy he hed).2.2
  · rintro k x y ⟨hx, hy, hxy, -⟩ hc
    exact (S.step hμ hr h0 hx hy hxy).2.2 hc
  · rw [sub_self, abs_zero]
    refine le_trans ?_ hK
    exact div_nonneg (mul_nonneg κ0 ht.le) (by linarith)

/-- entries that approach the root from the left -/
theorem leftEntry {a : ℝ} (ha : 0 < a) (har : a ≤ r) (h0 : F r = 0) (hlt : ∀ x ∈ Set.Icc a r, ∀ y ∈ Set.Icc a r, x < y → F x < F y)
    (conc : ∀ x ∈ Set.Icc a r, ∀ y ∈ Set.Icc a r, x < y → -F y * (y - x) ≤ (F y - F x) * (r - y))
    (el : ∀ x ∈ Set.Icc a r, ∀ y ∈ Set.Icc a r, x < y → x * ((F y - F x) * (r - y)) ≤ r * (-F y * (y - x)))
    {L : ℝ} (l0 : 0 ≤ L) (hL : ∀ x ∈ Set.Icc a r, ∀ y ∈ Set.Icc a r, x < y → F y - F x ≤ L * (y - x)) {θ : ℝ} (θ0 : 0 ≤ θ) (ht : 0 < tol) :
    Entry F tol (fun m => r - m ≤ tol * r / a ∧ -F m ≤ L * tol) r
      (fun k x y => x ∈ Set.Icc a r ∧ y ∈ Set.Icc a r ∧ x < y ∧ ∃ j, r - x ≤ r * θ ^ Nat.fib j ∧ r - y ≤ r * θ ^ Nat.fib (j + 1) ∧ r * θ ^ Nat.fib (j + k) < tol)
      (fun x => x ∈ Set.Icc a r) := by
  have turn := left_turn ha h0 hlt conc el
  have r0 : 0 < r := ha.trans_le har
  refine ⟨fun _ _ _ h => h.2.1, ?_, ?_, ?_, ?_, ?_, ?_, h0, ⟨har, le_rfl⟩, ?_, ht⟩
  · rintro k x y ⟨hx, hy, hxy, -⟩
    exact (hlt x hx y hy hxy).ne'
  · rintro k x y ⟨hx, hy, hxy, -⟩ hst
    obtain ⟨c, hc, c1, c2, c3, c4, c5⟩ := turn x y hx hy hxy
    rw [← hc] at hst ⊢
    rw [abs_of_nonneg (by linarith)] at hst
    obtain ⟨-, -, m3, m4⟩ := left_stop ha hlt hL (tol := tol) x y c hx hy hxy c1 c2 c3 c5 hst.le
    exact ⟨m3, m4⟩
  · rintro x y ⟨hx, hy, hxy, j, h1, h2, h3⟩
    obtain ⟨c, hc, c1, c2, -⟩ := turn x y hx hy hxy
    rw [← hc, abs_of_nonneg (by linarith)]
    linarith
  · rintro k x y ⟨hx, hy, hxy, j, h1, h2, h3⟩
    obtain ⟨c, hc, c1, c2, c3, c4, c5⟩ := turn x y hx hy hxy
    rw [← hc]
    rcases hy.2.eq_or_lt with e | e
    · exact Or.inl (le_antisymm (by rw [e]; exact c2) c1)
    · refine Or.inr ⟨hy, ⟨hy.1.trans c1, c2⟩, c4 e, j + 1, h2, ?_, ?_⟩
      · have e1 : (r - x) * (r - y) ≤ (r * θ ^ Nat.fib j) * (r * θ ^ Nat.fib (j + 1)) := mul_le_mul h1 h2 (by linarith [hy.2]) (by positivity)
        have e2 : (r * θ ^ Nat.fib j) * (r * θ ^ Nat.fib (j + 1)) = r * (r * θ ^ Nat.fib (j + 2)) := by
          rw [Nat.fib_add_two, pow_add]; ring
        rw [e2] at e1
        exact le_of_mul_le_mul_left (c3.trans e1) r0
      · rw [show j + 1 + (k + 1) = j + (k + 2) by ring]; exact h3
  · rintro k x y ⟨hx, hy, hxy, -⟩
    obtain ⟨c, hc, c1, c2, -⟩ := turn x y hx hy hxy
    rw [← hc]
    exact ⟨hy.1.trans c1, c2⟩
  · rintro k x y ⟨hx, hy, hxy, -⟩ hcy
    obtain ⟨c, hc, c1, c2, c3, c4, c5⟩ := turn x y hx hy hxy
    rw [← hc] at hcy
    rcases hy.2.eq_or_lt with e | e
    · exact e
    · exact absurd hcy (c4 e).ne'
  · rw [sub_self, h0]
    constructor
    · positivity
    · rw [neg_zero]; positivity

/-- entries that approach the root from the right -/
theorem rightEntry {o : ℝ} (hor : o ≤ r) (hrB : r ≤ B) (h0 : F r = 0) (hlt : ∀ x ∈ Set.Icc r B, ∀ y ∈ Set.Icc r B, x < y → F x < F y)
    (conv : ∀ x ∈ Set.Icc r B, ∀ y ∈ Set.Icc r B, x < y → F x * (y - x) ≤ (F y - F x) * (x - r))
    (el : ∀ x ∈ Set.Icc r B, ∀ y ∈ Set.Icc r B, x < y → (F y - F x) * ((x - o) ^ 2 - (r - o) ^ 2) ≤ F x * ((y - o) ^ 2 - (x - o) ^ 2))
    {L : ℝ} (l0 : 0 ≤ L) (hL : ∀ x ∈ Set.Icc r B, ∀ y ∈ Set.Icc r B, x < y → F y - F x ≤ L * (y - x)) (ht : 0 < tol) :
    Entry F tol (fun m => F m ≤ L * tol) r
      (fun k y x => x ∈ Set.Icc r B ∧ y ∈ Set.Icc r B ∧ x < y ∧ y - r < 2 ^ ((k + 1) / 2) * tol ∧ x - r < 2 ^ (k / 2) * tol)
      (fun x => x ∈ Set.Icc r B) := by
  have turn := right_turn hor h0 hlt conv el
  refine ⟨fun _ _ _ h => h.1, ?_, ?_, ?_, ?_, ?_, ?_, h0, ⟨le_rfl, hrB⟩, ?_, ht⟩
  · rintro k y x ⟨hx, hy, hxy, -⟩
    exact (hlt x hx y hy hxy).ne
  · rintro k y x ⟨hx, hy, hxy, -⟩ hst
    obtain ⟨c, hc, c1, c2, c3, c4, c5⟩ := turn x y hx hy hxy
    rw [← hc] at hst ⊢
    rw [abs_sub_comm, abs_of_nonneg (by linarith)] at hst
    exact (right_stop hlt hL (tol := tol) x y c hx hy hxy c1 c2 c5 hst.le).2.2
  · rintro y x ⟨hx, hy, hxy, h1, h2⟩
    obtain ⟨c, hc, c1, c2, -⟩ := turn x y hx hy hxy
    rw [← hc, abs_sub_comm, abs_of_nonneg (by linarith)]
    norm_num at h2
    linarith
  · rintro k y x ⟨hx, hy, hxy, h1, h2⟩
    obtain ⟨c, hc, c1, c2, c3, c4, c5⟩ := turn x y hx hy hxy
    rw [← hc]
    rcases hx.1.eq_or_lt with e | e
    · exact Or.inl (le_antisymm c2 (by rw [← e]; exact c1))
    · refine Or.inr ⟨⟨c1, c2.trans hx.2⟩, hx, c4 e, ?_, ?_⟩
      · rw [show k + 1 + 1 = k + 2 from rfl]; exact h2
      · rw [show (k + 2 + 1) / 2 = (k + 1) / 2 + 1 by omega, pow_succ] at h1
        linarith
  · rintro k y x ⟨hx, hy, hxy, -⟩
    obtain ⟨c, hc, c1, c2, -⟩ := turn x y hx hy hxy
    rw [← hc]
    exact ⟨c1, c2.trans hx.2⟩
  · rintro k y x ⟨hx, hy, hxy, -⟩ hcx
    obtain ⟨c, hc, c1, c2, c3, c4, c5⟩ := turn x y hx hy hxy
    rw [← hc] at hcx
    rcases hx.1.eq_or_lt with e | e
    · exact e.symm
    · exact absurd hcx (c4 e).ne
  · rw [h0]; positivity

end

/-! ## the Prandtl–Meyer angle -/

/-- an entry that may be started at 2 for the angle of the Mach number `r` -/
def PMStarts (γ r : ℝ) (Q : ℝ → Prop) : Prop :=
  ∃ R, Entry (fun x => pmr γ x - pmr γ r) 1.48e-8 Q r R (fun x => 1 ≤ x) ∧ R 50 2 (second 2)

theorem PMStarts.mono {γ r : ℝ} {Q Q' : ℝ → Prop} (h : ∀ m, 1 ≤ m → Q m → Q' m) : PMStarts γ r Q → PMStarts γ r Q' := by
  rintro ⟨R, E, h2⟩
  exact ⟨R, E.mono h (fun _ h => h), h2⟩

theorem second_two : 2.000003 ≤ second 2 ∧ second 2 ≤ 2.00003 := by
  unfold second
  rw [if_pos (by norm_num)]
  have := dx_le
  have := le_dx
  norm_num at *
  constructor <;> linarith

theorem pmStarts_left {γ r : ℝ} (hγ : 1.11 ≤ γ) (h1 : second 2 ≤ r) (h2 : r ≤ 10 ^ 8) :
    PMStarts γ r (fun m => 2 ≤ m ∧ m ≤ r ∧ r - m ≤ 7.4e-9 * r ∧ pmr γ r - pmr γ m ≤ 1.48e-8) := by
  obtain ⟨y1, y2⟩ := second_two
  norm_num at y1 y2
  obtain ⟨F0, hlt, conc, el, hL⟩ := pm_left_facts (r := r) (F := fun x => pmr γ x - pmr γ r) hγ fun _ => rfl
  have r0 : 0 < r := by linarith
  have hθ : 0 ≤ 1 - 2 / r := by rw [sub_nonneg, div_le_one r0]; linarith
  have hrθ : r * (1 - 2 / r) = r - 2 := by field_simp
  have E := leftEntry (F := fun x => pmr γ x - pmr γ r) (r := r) (a := 2) (by norm_num) (by linarith) F0 hlt conc el zero_le_one hL hθ (tol := 1.48e-8) (by norm_num)
  refine ⟨_, E.mono ?_ fun m hm => by linarith [hm.1], ⟨le_rfl, by linarith⟩, ⟨by linarith, h1⟩, by linarith, 1, ?_, ?_, ?_⟩
  · rintro m hm ⟨e1, e2⟩
    refine ⟨hm.1, hm.2, ?_, ?_⟩
    · norm_num at e1 ⊢; linarith
    · linarith
  · rw [Nat.fib_one, pow_one, hrθ]
  · rw [show Nat.fib (1 + 1) = 1 from rfl, pow_one, hrθ]; linarith
  · have hfib : Nat.fib (1 + 50) = 20365011074 := by norm_num
    obtain ⟨N, hN⟩ : ∃ N, N = Nat.fib (1 + 50) := ⟨_, rfl⟩
    have hNr : (N : ℝ) = 20365011074 := by rw [hN, hfib]; norm_num
    rw [← hN]
    clear hN hfib
    have h3 : 1 - 2 / r ≤ Real.exp (-(2 / r)) := by
      have := Real.add_one_le_exp (-(2 / r)); linarith
    have h4 : (1 - 2 / r) ^ N ≤ Real.exp (-(2 / r)) ^ N := pow_le_pow_left₀ hθ h3 _
    rw [← Real.exp_nat_mul] at h4
    have h5 : (N : ℝ) * -(2 / r) ≤ -200 := by
      have : 200 / 20365011074 ≤ 2 / r := by rw [div_le_div_iff₀ (by norm_num) r0]; norm_num at h2; linarith
      rw [hNr]; linarith
    have h6 := h4.trans (Real.exp_le_exp.2 h5)
    have h7 : Real.exp (-200) ≤ (1/2) ^ 200 := by
      have : Real.exp (-200) = Real.exp (-1) ^ 200 := by rw [← Real.exp_nat_mul]; norm_num
      rw [this]
      refine pow_le_pow_left₀ (Real.exp_pos _).le ?_ _
      rw [Real.exp_neg, one_div]
      exact inv_anti₀ (by norm_num) (by have := Real.add_one_le_exp (1:ℝ); linarith)
    calc r * (1 - 2 / r) ^ N ≤ 10 ^ 8 * (1/2) ^ 200 := mul_le_mul h2 (h6.trans h7) (pow_nonneg hθ _) (by norm_num)
      _ < 1.48e-8 := by norm_num

/-! ## air, below Mach 2 -/

theorem pra_lip {m r : ℝ} (m1 : 1 ≤ m) (r1 : 1 ≤ r) : |pra m - pra r| ≤ 0.5165 * |m - r| := by
  rcases lt_trichotomy m r with h | h | h
  · have := (pra_int (lo := 0) m1 h fun M q1 q2 => ⟨sl_nonneg (by linarith), sl_top (by linarith)⟩).2
    rw [abs_of_neg (by linarith [pra_lt m1 h]), abs_of_neg (by linarith)]; linarith
  · rw [h]; simp
  · have := (pra_int (lo := 0) r1 h fun M q1 q2 => ⟨sl_nonneg (by linarith), sl_top (by linarith)⟩).2
    rw [abs_of_pos (by linarith [pra_lt r1 h]), abs_of_pos (by linarith)]; linarith

/-- the first chord -/
theorem pm_chord {r Y : ℝ} (hY : 2 < Y) (hY' : Y ≤ 20003/10000) (h1 : 1 ≤ r) (h2 : r ≤ 2) : ∃ c s, 0.481 ≤ s ∧ s ≤ 0.4812 ∧ (2 - c) * s = pra 2 - pra r ∧ c ≤ 2 ∧
    chord 2 Y (pra 2 - pra r) (pra Y - pra r) = c := by
  obtain ⟨s1, s2⟩ := pra_int (a := 2) (b := Y) (lo := 0.481) (hi := 0.4812) (by norm_num) hY (by
    intro M h1 h2
    refine ⟨sl_low (A := 2) (B := 20003/10000) (by norm_num) h1.le (h2.le.trans hY') (by norm_num) (by norm_num) (by norm_num), ?_⟩
    have : sl M ≤ sl 2 := pmSlope_antitone (by norm_num) (by norm_num) h1.le
    exact this.trans (sl_le (by norm_num) (by norm_num) (by norm_num)))
  have hW : 0 ≤ pra 2 - pra r := sub_nonneg.2 (pra_le h1 h2)
  have hd : 0 < Y - 2 := by linarith
  obtain ⟨s, hs⟩ : ∃ s, s = (pra Y - pra 2) / (Y - 2) := ⟨_, rfl⟩
  have hs' : pra Y - pra 2 = s * (Y - 2) := by rw [hs, div_mul_cancel₀ _ hd.ne']
  have hs1 : 0.481 ≤ s := by rw [hs, le_div_iff₀ hd]; exact s1
  have hs2 : s ≤ 0.4812 := by rw [hs, div_le_iff₀ hd]; exact s2
  have s0 : 0 < s := lt_of_lt_of_le (by norm_num) hs1
  have hc' := (chord_slope (x := 2) (y := Y) (Fx := pra 2 - pra r) (Fy := pra Y - pra r) (by rw [sub_sub_sub_cancel_right]; exact hs') s0.ne' (by linarith)).2
  have : 0 ≤ (pra 2 - pra r) / s := div_nonneg hW s0.le
  refine ⟨_, s, hs1, hs2, ?_, by linarith, hc'⟩
  field_simp; ring

theorem pmStarts_between {r : ℝ} (h1 : 2 < r) (h2 : r ≤ second 2) : PMStarts (7/5) r (fun m => |m - r| ≤ 1e-8) := by
  obtain ⟨y1, y2⟩ := second_two
  norm_num at y1 y2
  have S := pra_slopes_mid (pra r)
  have E := slopesEntry (κ := 0.4) (d := 0.0003) (tol := 1.48e-8) (r := r) (K := 1e-8) S (by norm_num) ⟨by norm_num; linarith, by norm_num; linarith⟩ (sub_self _) (by norm_num) (by norm_num) (by norm_num) (by norm_num)
    (by norm_num; linarith) (by norm_num; linarith) (by norm_num)
  refine ⟨_, E.mono (fun _ _ h => h) fun m hm => by have := hm.1; norm_num at this; linarith, ⟨by norm_num, by norm_num⟩, ⟨by norm_num; linarith, by norm_num; linarith⟩, by linarith, 0.0003, ?_, le_rfl, by norm_num⟩
  rw [abs_le]; constructor <;> norm_num <;> linarith

theorem pmStarts_mid {r : ℝ} (h1 : 1.2 ≤ r) (h2 : r ≤ 2) : PMStarts (7/5) r (fun m => |m - r| ≤ 1e-8) := by
  have h1' : (6/5 : ℝ) ≤ r := by norm_num at h1 ⊢; exact h1
  obtain ⟨y1, y2⟩ := second_two
  norm_num at y1 y2
  obtain ⟨c, s, s1, s2, hc, c2, hch⟩ := pm_chord (Y := second 2) (by linarith) (by linarith) (by linarith) h2
  have b : 0.429 * (2 - r) ≤ pra 2 - pra r ∧ pra 2 - pra r ≤ 0.5165 * (2 - r) := by
    rcases h2.eq_or_lt with e | e
    · rw [e]; simp
    · exact pra_int (by linarith) e (fun M m1 m2 => ⟨sl_low (A := 1.2) (B := 2) (by norm_num) (h1.trans m1.le) m2.le (by norm_num) (by norm_num) (by norm_num), sl_top (by linarith)⟩)
  norm_num at b s1 s2
  have lo : r - 3/40 * (2 - r) ≤ c := by nlinarith
  have hi : c ≤ r + 11/100 * (2 - r) := by nlinarith
  have S := pra_slopes_mid (pra r)
  have E := slopesEntry (κ := 0.4) (d := 0.088) (tol := 1.48e-8) (r := r) (K := 1e-8) S (by norm_num) ⟨by norm_num; linarith, by norm_num; linarith⟩ (sub_self _) (by norm_num) (by norm_num) (by norm_num) (by norm_num)
    (by norm_num; linarith) (by norm_num; linarith) (by norm_num)
  have E' := E.prepend (n := 48) hch (by have := pra_lt (a := 2) (b := second 2) (by norm_num) (by linarith); intro e; linarith)
    ⟨by norm_num; linarith, by norm_num; linarith⟩ (by rw [abs_sub_comm, abs_of_nonneg (by linarith)]; norm_num; linarith)
    ⟨⟨by norm_num; linarith, by norm_num; linarith⟩, ⟨by norm_num; linarith, by norm_num; linarith⟩, by intro e; linarith, 0.088, by rw [abs_le]; constructor <;> norm_num <;> linarith, le_rfl, by norm_num⟩
  exact ⟨_, E'.mono (fun _ _ h => h) fun m hm => by have := hm.1; norm_num at this; linarith, Or.inr ⟨rfl, rfl, rfl⟩⟩

theorem pra_far' {a Y : ℝ} (hY : 2 ≤ Y) (hY' : Y ≤ 20003/10000) (h1 : 1 ≤ a) (h2 : a ≤ 1.23) : sl a * (Y - a) ≤ pra Y - pra a := by
  have h2' : a ≤ 123/100 := by norm_num at h2 ⊢; exact h2
  have ha : sl a ≤ 0.4499 := (sl_mono h1 h2' (by norm_num)).trans (sl_le (by norm_num) (by norm_num) (by norm_num))
  refine (pra_int h1 (by linarith) (hi := 0.5165) fun M m1 m2 => ⟨?_, sl_top (by linarith)⟩).1
  exact sl_low (A := a) (B := 20003/10000) h1 m1.le (m2.le.trans hY') (sl_nonneg h1) (sl_sq h1).le (by
    have : sl a ^ 2 ≤ 0.4499 ^ 2 := pow_le_pow_left₀ (sl_nonneg h1) ha 2
    norm_num at this ⊢
    nlinarith)

set_option maxHeartbeats 1000000 in
/-- the first two chords, when the first one ends at the right of the root -/
theorem pmEntry_right {r c Y : ℝ} (hY : 2 < Y) (hY' : Y ≤ 20003/10000) (h1 : 1 ≤ r) (hrc : r ≤ c) (hc : c ≤ 1.23) (hd : c - r ≤ 0.24) :
    ∃ R, Entry (fun x => pra x - pra r) 1.48e-8 (fun m => |pra m - pra r| ≤ 1.48e-8) r R (fun x => 1 ≤ x) ∧ R 49 Y c := by
  have hc' : c ≤ 123/100 := by norm_num at hc ⊢; exact hc
  have c1 : 1 ≤ c := h1.trans hrc
  have hsq : c ^ 2 ≤ 5/2 := by nlinarith
  have hlt := pra_lt (a := c) (b := Y) c1 (by linarith)
  obtain ⟨F, hF⟩ : ∃ F : ℝ → ℝ, F = fun x => pra x - pra r := ⟨_, rfl⟩
  have hFx : ∀ x, F x = pra x - pra r := fun x => by rw [hF]
  have far := pra_far' hY.le hY' c1 hc
  have near := (pra_near h1 hrc hsq).2
  have hFc : 0 ≤ F c := by rw [hFx]; linarith [pra_le h1 hrc]
  have far' : sl c * (Y - c) ≤ F Y - F c := by rw [hFx, hFx]; linarith
  have near' : F c ≤ sl c * (c - r) := by rw [hFx]; exact near
  have hD : 0 < F Y - F c := by rw [hFx, hFx]; linarith
  obtain ⟨p, hp⟩ : ∃ p, p = chord Y c (F Y) (F c) := ⟨_, rfl⟩
  have hp' : (c - p) * (F Y - F c) = F c * (Y - c) := by
    rw [hp]; unfold chord
    have : F c - F Y ≠ 0 := by linarith
    field_simp; ring
  have pc : p ≤ c := by
    by_contra hn
    push Not at hn
    have : (c - p) * (F Y - F c) < 0 := mul_neg_of_neg_of_pos (by linarith) hD
    have : 0 ≤ F c * (Y - c) := mul_nonneg hFc (by linarith)
    linarith
  have rp : r ≤ p := by
    have e1 : F c * (Y - c) ≤ sl c * (c - r) * (Y - c) := mul_le_mul_of_nonneg_right near' (by linarith)
    have e2 : sl c * (Y - c) * (c - r) ≤ (F Y - F c) * (c - r) := mul_le_mul_of_nonneg_right far' (by linarith)
    have e3 : (c - p) * (F Y - F c) ≤ (c - r) * (F Y - F c) := by linarith
    have := le_of_mul_le_mul_right e3 hD
    linarith
  have top : F Y - F c ≤ 0.5165 * (Y - c) := by
    have := (pra_int (lo := 0) (hi := 0.5165) c1 (by linarith : c < Y) fun M m1 m2 => ⟨sl_nonneg (by linarith), sl_top (by linarith)⟩).2
    rw [hFx, hFx]; linarith
  have sqle : ∀ x, r ≤ x → x ≤ c → x ^ 2 ≤ 5/2 := fun x x1 x2 => (pow_le_pow_left₀ (by linarith) x2 2).trans hsq
  have E := rightEntry (o := 1) (B := c) (r := r) (F := F) (L := 0.5165) (tol := 1.48e-8) h1 hrc (by rw [hFx, sub_self])
      (fun x hx y hy h => by rw [hFx, hFx]; linarith [pra_lt (h1.trans hx.1) h])
      (fun x hx y hy h => by
        have a1 := (pra_near h1 hx.1 (sqle x hx.1 hx.2)).2
        have a2 := (pra_near (h1.trans hx.1) h.le (sqle y hy.1 hy.2)).1
        rw [hFx, hFx, sub_sub_sub_cancel_right]
        have b1 := mul_le_mul_of_nonneg_right a1 (by linarith : 0 ≤ y - x)
        have b2 := mul_le_mul_of_nonneg_right a2 (by linarith [hx.1] : 0 ≤ x - r)
        linarith)
      (fun x hx y hy h => by
        rw [hFx, hFx, sub_sub_sub_cancel_right]
        exact pra_el h1 hx.1 h)
      (by norm_num)
      (fun x hx y hy h => by
        rw [hFx, hFx, sub_sub_sub_cancel_right]
        exact (pra_int (lo := 0) (h1.trans hx.1) h fun M m1 m2 => ⟨sl_nonneg (by linarith [hx.1]), sl_top (by linarith [hx.1])⟩).2)
      (by norm_num)
  have E1 := E.mono (Q' := fun m => |pra m - pra r| ≤ 1.48e-8) (D' := fun x => 1 ≤ x) (by
    intro m hm h
    rw [hFx] at h
    rw [abs_of_nonneg (by linarith [pra_le h1 hm.1])]
    exact h.trans (by norm_num)) (fun m hm => h1.trans hm.1)
  have stk : p = c → c = r := by
    intro e
    rw [e, sub_self, zero_mul] at hp'
    have hF0 : F c = 0 := by
      rcases mul_eq_zero.1 hp'.symm with h | h
      · exact h
      · linarith
    rcases hrc.eq_or_lt with e | e
    · exact e.symm
    · have := pra_lt h1 e
      rw [hFx] at hF0; linarith
  have E2 := E1.prepend' (n := 47) (x := Y) (y := c) hp.symm (by linarith) c1 (h1.trans rp) (by
      intro h
      rw [abs_sub_comm, abs_of_nonneg (by linarith)] at h
      have e1 : F c * (Y - c) ≤ 0.5165 * (c - p) * (Y - c) := by
        rw [← hp']
        have := mul_le_mul_of_nonneg_left top (by linarith : 0 ≤ c - p)
        linarith
      have e2 := le_of_mul_le_mul_right e1 (by linarith)
      have e3 := pra_le (h1.trans rp) pc
      rw [hFx] at e2
      rw [abs_of_nonneg (by linarith [pra_le h1 rp])]
      norm_num at h e2 ⊢
      linarith) stk (by
      rcases pc.eq_or_lt with e | e
      · exact Or.inl e
      · refine Or.inr ⟨⟨rp, pc⟩, ⟨hrc, le_rfl⟩, e, ?_, ?_⟩ <;> norm_num at hd ⊢ <;> linarith)
  rw [hF] at E2
  exact ⟨_, E2, Or.inr ⟨rfl, rfl, rfl⟩⟩

set_option maxHeartbeats 1000000 in
/-- the first two chords, when the first one ends at the left of the root -/
theorem pmEntry_left {r c Y : ℝ} (hY : 2 < Y) (hY' : Y ≤ 20003/10000) (h2 : r ≤ 1.2) (hcr : c < r) (hc : 1 + (r - 1) / 2 ≤ c) :
    ∃ R, Entry (fun x => pra x - pra r) 1.48e-8 (fun m => |pra m - pra r| ≤ 1.48e-8) r R (fun x => 1 ≤ x) ∧ R 49 Y c := by
  have h2' : r ≤ 6/5 := by norm_num at h2 ⊢; exact h2
  have r1 : 1 < r := by linarith
  have c1 : 1 ≤ c := by linarith
  have hsq : r ^ 2 ≤ 5/2 := by nlinarith
  have hlt := pra_lt (a := r) (b := Y) r1.le (by linarith)
  have hlt2 := pra_lt c1 hcr
  obtain ⟨F, hF⟩ : ∃ F : ℝ → ℝ, F = fun x => pra x - pra r := ⟨_, rfl⟩
  have hFx : ∀ x, F x = pra x - pra r := fun x => by rw [hF]
  have far := pra_far' hY.le hY' r1.le (h2.trans (by norm_num))
  have near := (pra_near c1 hcr.le hsq).2
  have hFc : F c < 0 := by rw [hFx]; linarith
  have far' : sl r * (Y - r) ≤ F Y := by rw [hFx]; exact far
  have near' : -F c ≤ sl r * (r - c) := by rw [hFx]; linarith
  have hD : 0 < F Y - F c := by rw [hFx, hFx]; linarith
  obtain ⟨p, hp⟩ : ∃ p, p = chord Y c (F Y) (F c) := ⟨_, rfl⟩
  have hp' : (p - c) * (F Y - F c) = -F c * (Y - c) := by
    rw [hp]; unfold chord
    have : F c - F Y ≠ 0 := by linarith
    field_simp; ring
  have cp : c < p := by
    by_contra hn
    push Not at hn
    have : (p - c) * (F Y - F c) ≤ 0 := mul_nonpos_of_nonpos_of_nonneg (by linarith) hD.le
    have : 0 < -F c * (Y - c) := mul_pos (by linarith) (by linarith)
    linarith
  have pr : p ≤ r := by
    have e1 : -F c * (Y - r) ≤ sl r * (r - c) * (Y - r) := mul_le_mul_of_nonneg_right near' (by linarith)
    have e2 : sl r * (Y - r) * (r - c) ≤ F Y * (r - c) := mul_le_mul_of_nonneg_right far' (by linarith)
    have e3 : (p - c) * (F Y - F c) ≤ (r - c) * (F Y - F c) := by rw [hp']; linarith
    have := le_of_mul_le_mul_right e3 hD
    linarith
  have top : F Y - F c ≤ 0.5165 * (Y - c) := by
    have := (pra_int (lo := 0) (hi := 0.5165) c1 (by linarith : c < Y) fun M m1 m2 => ⟨sl_nonneg (by linarith), sl_top (by linarith)⟩).2
    rw [hFx, hFx]; linarith
  obtain ⟨A, hA⟩ : ∃ A, A = 1 + (r - 1) / 2 := ⟨_, rfl⟩
  obtain ⟨B, hB⟩ : ∃ B, B = 1 + 1.31 * (r - 1) := ⟨_, rfl⟩
  norm_num at hB
  have hAB : A ≤ B := by rw [hA, hB]; linarith
  have hA1 : 1 < A := by rw [hA]; linarith
  have hB2 : B ^ 2 ≤ 5/2 := by nlinarith
  have S : Slopes F A B (sl A) (sl B) := by
    rw [hF]
    exact pra_slopes hA1 fun M hM => ⟨sl_mono hA1.le hM.1 (by nlinarith [hM.1, hM.2]), sl_mono (hA1.le.trans hM.1) hM.2 hB2⟩
  have hs0 : 0 < sl A := by
    have h := sl_sq hA1.le
    rcases (sl_nonneg hA1.le).eq_or_lt with e | e
    · rw [← e] at h; nlinarith
    · exact e
  have ratio : sl B ≤ 1.62 * sl A := sl_ratio hA1 hAB (by rw [hA, hB]; norm_num; ring)
  have E := slopesEntry (κ := 0.62) (d := (r - 1) / 2) (tol := 1.48e-8) (r := r) (K := 2.5e-8) S hs0 ⟨by rw [hA]; linarith, by rw [hB]; linarith⟩ (by rw [hFx, sub_self])
      (by rw [sub_le_iff_le_add, div_le_iff₀ hs0]; norm_num at ratio ⊢; exact ratio) (by norm_num) (by norm_num) (by norm_num)
      (by rw [hA]; norm_num; linarith) (by rw [hB]; norm_num; linarith) (by norm_num)
  have E1 := E.mono (Q' := fun m => |pra m - pra r| ≤ 1.48e-8) (D' := fun x => 1 ≤ x) (by
    intro m hm h
    refine (pra_lip (hA1.le.trans hm.1) r1.le).trans ?_
    norm_num at h ⊢
    linarith) (fun m hm => hA1.le.trans hm.1)
  have E2 := E1.prepend' (n := 47) (x := Y) (y := c) hp.symm (by linarith) c1 (by linarith) (by
      intro h
      rw [abs_of_nonneg (by linarith)] at h
      have e1 : -F c * (Y - c) ≤ 0.5165 * (p - c) * (Y - c) := by
        rw [← hp']
        have := mul_le_mul_of_nonneg_left top (by linarith : 0 ≤ p - c)
        linarith
      have e2 := le_of_mul_le_mul_right e1 (by linarith)
      have e3 := pra_le c1 cp.le
      have e4 := pra_le (c1.trans cp.le) pr
      rw [hFx] at e2
      rw [abs_of_nonpos (by linarith)]
      norm_num at h e2 ⊢
      linarith) (fun e => absurd e cp.ne') (by
      refine Or.inr ⟨⟨by rw [hA]; exact hc, by rw [hB]; linarith⟩, ⟨by rw [hA]; linarith, by rw [hB]; linarith⟩, cp.ne, (r - 1) / 2, by rw [abs_le]; constructor <;> linarith, le_rfl, ?_⟩
      have : (r - 1) / 2 ≤ 1/10 := by linarith
      rw [show 47 + 1 - 1 = 47 from rfl]
      calc (0.62 : ℝ) ^ 47 * ((r - 1) / 2) * (1 + 0.62) ≤ 0.62 ^ 47 * (1/10) * (1 + 0.62) := by
            apply mul_le_mul_of_nonneg_right _ (by norm_num)
            exact mul_le_mul_of_nonneg_left this (by norm_num)
        _ < _ := by norm_num)
  rw [hF] at E2
  exact ⟨_, E2, Or.inr ⟨rfl, rfl, rfl⟩⟩

theorem pmStarts_low {r : ℝ} (h1 : 1 ≤ r) (h2 : r ≤ 1.2) : PMStarts (7/5) r (fun m => |pra m - pra r| ≤ 1.48e-8) := by
  have h2' : r ≤ 6/5 := by norm_num at h2 ⊢; exact h2
  obtain ⟨y1, y2⟩ := second_two
  norm_num at y1 y2
  obtain ⟨c, s, s1, s2, hc, c2, hch⟩ := pm_chord (Y := second 2) (by linarith) (by linarith) h1 (by linarith)
  have w1 : 0.374 ≤ pra 2 - pra r := by
    have := pra_12
    have := pra_le h1 h2
    linarith
  have w2 : pra 2 - pra r ≤ 0.4656 - 0.2498 * (r - 1.05) := by
    have a := pra_105
    have b : 0.2498 ≤ sl 1.05 := le_sl (by norm_num) (by norm_num) (by norm_num)
    have b' : sl 1.05 ≤ 0.2499 := sl_le (by norm_num) (by norm_num) (by norm_num)
    rcases le_total r 1.05 with h | h
    · have := (pra_near h1 h (by norm_num)).2
      have : sl 1.05 * (1.05 - r) ≤ 0.2499 * (1.05 - r) := mul_le_mul_of_nonneg_right b' (by linarith)
      norm_num at *
      linarith
    · have := (pra_near (by norm_num) h (by nlinarith)).1
      have : 0.2498 * (r - 1.05) ≤ sl 1.05 * (r - 1.05) := mul_le_mul_of_nonneg_right b (by linarith)
      linarith
  rw [← hc] at w1 w2
  norm_num at w1 w2 s1 s2
  have hcl : 1 + (r - 1) / 2 ≤ c := by nlinarith
  have hch' : c ≤ 1.223 := by norm_num; nlinarith
  obtain ⟨R, E, hR⟩ : ∃ R, Entry (fun x => pra x - pra r) 1.48e-8 (fun m => |pra m - pra r| ≤ 1.48e-8) r R (fun x => 1 ≤ x) ∧ R 49 (second 2) c := by
    rcases le_or_gt r c with h | h
    · exact pmEntry_right (by linarith) (by linarith) h1 h (hch'.trans (by norm_num)) (by norm_num at hch' ⊢; linarith)
    · exact pmEntry_left (by linarith) (by linarith) h2 h hcl
  have E' := E.prepend (n := 48) hch (by have := pra_lt (a := 2) (b := second 2) (by norm_num) (by linarith); intro e; linarith)
    (by linarith) (by rw [abs_sub_comm, abs_of_nonneg (by linarith)]; norm_num; linarith) hR
  exact ⟨_, E', Or.inr ⟨rfl, rfl, rfl⟩⟩

/-- all Mach numbers of air up to 10⁸ -/
theorem pmStarts_air {r : ℝ} (h1 : 1 ≤ r) (h2 : r ≤ 10 ^ 8) : PMStarts (7/5) r (fun m => |pmr (7/5) m - pmr (7/5) r| ≤ 1.48e-8 ∧ (1.2 ≤ r → |m - r| ≤ 1e-8 * r)) := by
  rcases le_or_gt r 1.2 with h | h
  · rcases h.eq_or_lt with e | e
    · refine PMStarts.mono ?_ (pmStarts_mid e.ge (by rw [e]; norm_num))
      intro m m1 hm
      refine ⟨(pra_lip m1 h1).trans ?_, fun _ => hm.trans ?_⟩
      · norm_num at hm ⊢; linarith
      · norm_num; linarith
    · refine PMStarts.mono ?_ (pmStarts_low h1 h)
      intro m m1 hm
      exact ⟨hm, fun h' => absurd e (not_lt.2 h')⟩
  rcases le_or_gt r 2 with h' | h'
  · refine PMStarts.mono ?_ (pmStarts_mid h.le h')
    intro m m1 hm
    refine ⟨(pra_lip m1 h1).trans ?_, fun _ => hm.trans ?_⟩
    · norm_num at hm ⊢; linarith
    · norm_num; linarith
  rcases le_total r (second 2) with h'' | h''
  · refine PMStarts.mono ?_ (pmStarts_between h' h'')
    intro m m1 hm
    refine ⟨(pra_lip m1 h1).trans ?_, fun _ => hm.trans ?_⟩
    · norm_num at hm ⊢; linarith
    · norm_num; linarith
  · refine PMStarts.mono ?_ (pmStarts_left (by norm_num) h'' h2)
    rintro m m1 ⟨e1, e2, e3, e4⟩
    have := pra_le m1 e2
    unfold pra at this
    refine ⟨by rw [abs_sub_comm, abs_of_nonneg (by linarith)]; exact e4, fun _ => ?_⟩
    rw [abs_sub_comm, abs_of_nonneg (by linarith)]
    norm_num at e3 ⊢
    linarith

end Aerokit.ArrayNewton
