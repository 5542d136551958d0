import Verif.Props.OrrSommerfeld
import Verif.Props.EulerModes
import Verif.Spec.OSModes

/-! # Property C114 : modes and symmetries of the Orr–Sommerfeld problem -/

namespace Aerokit.Props
open LinOperator NumSpectral Spec

variable {n : ℕ} {a b : ℝ}

/-- `OrrSommerfeldModel(n, a, b)`, after any history of calls leaving the wave number `α`, the Reynolds number `Re` and
the profile `up`, then `compute_operators()`: `B` and `At` are the matrices of the object -/
def ComputesOS (n : ℕ) (a b : ℝ) (h : Heap) (calls : List OSCall) (α : ℂ) (Re : ℝ) (up : ℝ → ℝ) (B At : Mat ℂ) : Prop :=
  (∃ ot, (osAfter n a b h calls).basestate = some ⟨some α, some Re, some up, ot⟩) ∧
    ∃ s', OrrSommerfeld.compute_operators (osAfter n a b h calls) = (.ok (), s') ∧ s'.B = some B ∧ s'.At = some At

/-- nodes and differentiation matrices of the object -/
def Grid (n : ℕ) (a b : ℝ) (h : Heap) (calls : List OSCall) (X : Fin n → ℝ) (D1 D2 D4 : Matrix (Fin n) (Fin n) ℝ) : Prop :=
  (∃ d, NumSpectral.x (osAfter n a b h calls).diffop = .ok (d, X)) ∧
  (∃ d, NumSpectral.matder (osAfter n a b h calls).diffop 1 = .ok (d, D1)) ∧
  (∃ d, NumSpectral.matder (osAfter n a b h calls).diffop 2 = .ok (d, D2)) ∧
  (∃ d, NumSpectral.matder (osAfter n a b h calls).diffop 4 = .ok (d, D4))

theorem grid_eq (hn : 2 ≤ n) (hab : a ≠ b) {h : Heap} {calls : List OSCall} {X : Fin n → ℝ} {D1 D2 D4 : Matrix (Fin n) (Fin n) ℝ} :
    Grid n a b h calls X D1 D2 D4 ↔ X = xv n a b ∧ D1 = Dm n a b 1 ∧ D2 = Dm n a b 2 ∧ D4 = Dm n a b 4 := by
  have hg := os_good_after (n := n) hn hab h calls
  obtain ⟨d0, h0, -, -⟩ := x_spec hn hg.inv
  obtain ⟨d1, h1, -⟩ := matder_spec hn hab hg.inv (m := 1) le_rfl
  obtain ⟨d2, h2, -⟩ := matder_spec hn hab hg.inv (m := 2) (by norm_num)
  obtain ⟨d4, h4, -⟩ := matder_spec hn hab hg.inv (m := 4) (by norm_num)
  unfold Grid
  constructor
  · rintro ⟨⟨_, e0⟩, ⟨_, e1⟩, ⟨_, e2⟩, ⟨_, e4⟩⟩
    rw [h0] at e0
    rw [h1] at e1
    rw [h2] at e2
    rw [h4] at e4
    exact ⟨(congrArg Prod.snd (Except.ok.inj e0)).symm, (congrArg Prod.snd (Except.ok.inj e1)).symm,
      (congrArg Prod.snd (Except.ok.inj e2)).symm, (congrArg Prod.snd (Except.ok.inj e4)).symm⟩
  · rintro ⟨rfl, rfl, rfl, rfl⟩
    exact ⟨⟨_, h0⟩, ⟨_, h1⟩, ⟨_, h2⟩, ⟨_, h4⟩⟩

/-- the matrices -/
noncomputable def osB (n : ℕ) (a b : ℝ) (α : ℂ) (Re : ℝ) (up : ℝ → ℝ) : Mat ℂ :=
  OrrSommerfeld.wallB (Dm n a b 1) (n - 1) (n - 2) (OrrSommerfeld.wallB (Dm n a b 1) 0 0 (OrrSommerfeld.B0m a b n α Re up))
/-- the matrices -/
noncomputable def osA (n : ℕ) (a b : ℝ) (α : ℂ) : Mat ℂ := OrrSommerfeld.wallA (n - 2) (OrrSommerfeld.wallA 0 (OrrSommerfeld.A0m a b n α))

theorem computesOS_eq (hn : 2 ≤ n) (hab : a ≠ b) {h : Heap} {calls : List OSCall} {α : ℂ} {Re : ℝ} {up : ℝ → ℝ} {B At : Mat ℂ}
    (hR : Re ≠ 0) (hc : ComputesOS n a b h calls α Re up B At) : B = osB n a b α Re up ∧ At = osA n a b α := by
  obtain ⟨⟨ot, hq⟩, s', e, hB, hA⟩ := hc
  have hg := os_good_after (n := n) hn hab h calls
  cases hbc : (osAfter n a b h calls).BC_type with
  | none =>
    exfalso
    obtain ⟨d, h1, -⟩ := OrrSommerfeld.compute_pre hn hab hg.inv hq hR
    rw [h1] at e
    unfold OrrSommerfeld.compute_BC at e
    rw [Meth.bind_ok (Meth.get_apply _ _)] at e
    simp only [show (OrrSommerfeld.pre (osAfter n a b h calls) d a b α Re up).BC_type = none from hbc] at e
    cases e
  | some lr =>
    obtain ⟨l, r⟩ := lr
    obtain ⟨-, -, hl, hr⟩ := hg.bc l r hbc
    obtain ⟨d, hc, -⟩ := OrrSommerfeld.wall_ok hn hab hg.inv hq hR hbc hl hr
    rw [hc] at e
    cases e
    simp only [Option.some.injEq] at hB hA
    exact ⟨hB.symm, hA.symm⟩

theorem ent_dC (D : Matrix (Fin n) (Fin n) ℝ) (v : ℕ → ℂ) (i : Fin n) :
    ∑ j ∈ Finset.range n, OrrSommerfeld.ent D i j * v j = dC D (fun j : Fin n => v j) i := by
  rw [Finset.sum_range (fun j => OrrSommerfeld.ent D i j * v j)]
  unfold dC
  exact Finset.sum_congr rfl fun j _ => by rw [OrrSommerfeld.ent_eq]

theorem os_mode_iff (hn : 4 ≤ n) {α : ℂ} {Re : ℝ} (hR : Re ≠ 0) (up : ℝ → ℝ) (ω : ℂ) (v : ℕ → ℂ) :
    IsModeC (osB n a b α Re up) (osA n a b α) ω v ↔
      OSMode hn (Dm n a b 1) (Dm n a b 2) (Dm n a b 4) (fun i => up (xv n a b i)) α Re ω (fun j => v j) := by
  have sB : (osB n a b α Re up).size = n := rfl
  have sA : (osA n a b α).size = n := rfl
  have hI := Complex.I_ne_zero
  have hII := Complex.I_sq
  have hR' : (Re : ℂ) ≠ 0 := by exact_mod_cast hR
  have hdelta : ∀ k : ℕ, (hk : k < n) → ∑ j ∈ Finset.range n, (if j = k then (1:ℂ) else 0) * v j = v k := by
    intro k hk
    simp only [ite_mul, one_mul, zero_mul]
    rw [Finset.sum_ite_eq' (Finset.range n) k, if_pos (Finset.mem_range.2 hk)]
  have zA : ∀ i : ℕ, i = 0 ∨ i = 1 ∨ i = n - 2 ∨ i = n - 1 → (osA n a b α).mulVec v i = 0 := by
    intro i hi
    unfold Mat.mulVec
    refine Finset.sum_eq_zero fun j _ => ?_
    have : (osA n a b α).e i j = 0 := by
      unfold osA
      by_cases h : i = n - 2 ∨ i = n - 2 + 1
      · exact OrrSommerfeld.wallA_at h
      · rw [OrrSommerfeld.wallA_ne (by omega) (by omega)]
        exact OrrSommerfeld.wallA_at (by omega)
    rw [this, zero_mul]
  have b0 : (osB n a b α Re up).mulVec v 0 = v 0 := by
    unfold Mat.mulVec
    rw [sB, ← hdelta 0 (by omega)]
    refine Finset.sum_congr rfl fun j _ => ?_
    unfold osB
    rw [OrrSommerfeld.wallB_ne (by omega) (by omega), OrrSommerfeld.wallB_val]
  have b1 : (osB n a b α Re up).mulVec v 1 = dC (Dm n a b 1) (fun j : Fin n => v j) ⟨0, by omega⟩ := by
    unfold Mat.mulVec
    rw [sB, ← ent_dC]
    refine Finset.sum_congr rfl fun j hj => ?_
    unfold osB
    show (OrrSommerfeld.wallB _ _ _ _).e (0 + 1) _ * _ = _
    rw [OrrSommerfeld.wallB_ne (by omega) (by omega), OrrSommerfeld.wallB_der (Finset.mem_range.1 hj)]
  have b2 : (osB n a b α Re up).mulVec v (n - 2) = v (n - 1) := by
    unfold Mat.mulVec
    rw [sB, ← hdelta (n - 1) (by omega)]
    refine Finset.sum_congr rfl fun j _ => ?_
    unfold osB
    rw [OrrSommerfeld.wallB_val]
  have b3 : (osB n a b α Re up).mulVec v (n - 1) = dC (Dm n a b 1) (fun j : Fin n => v j) ⟨n - 1, by omega⟩ := by
    unfold Mat.mulVec
    rw [sB, ← ent_dC]
    refine Finset.sum_congr rfl fun j hj => ?_
    have hw := OrrSommerfeld.wallB_der (D := Dm n a b 1) (M := OrrSommerfeld.wallB (Dm n a b 1) 0 0 (OrrSommerfeld.B0m a b n α Re up))
      (i := n - 1) (r := n - 2) (Finset.mem_range.1 hj)
    rw [show n - 2 + 1 = n - 1 by omega] at hw
    unfold osB
    rw [hw]
  have inner : ∀ i : Fin n, 2 ≤ (i:ℕ) → (i:ℕ) < n - 2 →
      (osB n a b α Re up).mulVec v i - (-Complex.I * ω) * (osA n a b α).mulVec v i
        = Complex.I * orrSommerfeld α ω Re (up (xv n a b i)) ((Dm n a b 2).mulVec (fun i => up (xv n a b i)) i) (v i)
          (dC (Dm n a b 2) (fun j : Fin n => v j) i) (dC (Dm n a b 4) (fun j : Fin n => v j) i) := by
    intro i h1 h2
    have eA : ∀ j, (osA n a b α).e i j = OrrSommerfeld.At0 α (Dm n a b 2) i j := fun j => by
      show (OrrSommerfeld.wallA _ _).e _ _ = _
      rw [OrrSommerfeld.wallA_ne (by omega) (by omega), OrrSommerfeld.wallA_ne (by omega) (by omega)]; rfl
    have eB : ∀ j, (osB n a b α Re up).e i j = OrrSommerfeld.B0 α Re (Dm n a b 2) (Dm n a b 4) (fun i => up (xv n a b i)) i j := fun j => by
      show (OrrSommerfeld.wallB _ _ _ _).e _ _ = _
      rw [OrrSommerfeld.wallB_ne (by omega) (by omega), OrrSommerfeld.wallB_ne (by omega) (by omega)]; rfl
    have s2 := ent_dC (Dm n a b 2) v i
    have s4 := ent_dC (Dm n a b 4) v i
    have hA : ∑ j ∈ Finset.range n, OrrSommerfeld.At0 α (Dm n a b 2) i j * v j
        = dC (Dm n a b 2) (fun j : Fin n => v j) i - α ^ 2 * v i := by
      rw [← s2, ← OrrSommerfeld.delta_sum v (α ^ 2) i, ← Finset.sum_sub_distrib]
      exact Finset.sum_congr rfl fun j _ => by unfold OrrSommerfeld.At0; ring
    have hu : ix (fun i => up (xv n a b i)) (i:ℕ) = up (xv n a b i) := by rw [ix_eq _ i.2]
    obtain ⟨W, hW⟩ : ∃ W, W = (Dm n a b 2).mulVec (fun i => up (xv n a b i)) i := ⟨_, rfl⟩
    have hdd : ix ((Dm n a b 2).mulVec fun i => up (xv n a b i)) (i:ℕ) = W := by rw [ix_eq _ i.2, hW]
    have hB : ∑ j ∈ Finset.range n, OrrSommerfeld.B0 α Re (Dm n a b 2) (Dm n a b 4) (fun i => up (xv n a b i)) i j * v j
        = -1 * Complex.I * α * ((up (xv n a b i) : ℝ) : ℂ) * (dC (Dm n a b 2) (fun j : Fin n => v j) i - α ^ 2 * v i)
          + 1 * Complex.I * α * (W : ℂ) * v i
          + (dC (Dm n a b 4) (fun j : Fin n => v j) i - 2 * α ^ 2 * dC (Dm n a b 2) (fun j : Fin n => v j) i
            + α ^ 4 * v i) / (Re : ℂ) := by
      rw [← hA, ← s2, ← s4, ← OrrSommerfeld.delta_sum v (1 * Complex.I * α * (W : ℂ)) i,
        ← OrrSommerfeld.delta_sum v (α ^ 4) i, Finset.mul_sum, Finset.mul_sum, ← Finset.sum_sub_distrib, ← Finset.sum_add_distrib,
        ← Finset.sum_add_distrib, Finset.sum_div, ← Finset.sum_add_distrib]
      refine Finset.sum_congr rfl fun j _ => ?_
      unfold OrrSommerfeld.B0
      simp only [hu, hdd]
      by_cases hij : (i:ℕ) = j
      · simp only [hij, if_true]; ring
      · simp only [if_neg hij]; ring
    unfold Mat.mulVec
    rw [sB, sA]
    simp only [eA, eB]
    rw [hA, hB, ← hW]
    unfold orrSommerfeld
    have hI' : Complex.I * (1 / (Complex.I * (Re : ℂ))) = 1 / (Re : ℂ) := by field_simp
    linear_combination (-dC (Dm n a b 4) (fun j : Fin n => v j) i + 2 * α ^ 2 * dC (Dm n a b 2) (fun j : Fin n => v j) i
            - α ^ 4 * v i) * hI'
  unfold IsModeC OSMode
  rw [sB]
  refine and_congr ?_ ⟨fun h => ⟨⟨?_, ?_, ?_, ?_⟩, fun i h1 h2 => ?_⟩, ?_⟩
  · rw [Function.ne_iff]
    exact ⟨fun ⟨j, hj, h⟩ => ⟨⟨j, hj⟩, h⟩, fun ⟨j, h⟩ => ⟨j, j.2, h⟩⟩
  · have := h 0 (by omega); rwa [zA 0 (by omega), mul_zero, b0] at this
  · have := h 1 (by omega); rwa [zA 1 (by omega), mul_zero, b1] at this
  · have := h (n - 2) (by omega); rwa [zA (n - 2) (by omega), mul_zero, b2] at this
  · have := h (n - 1) (by omega); rwa [zA (n - 1) (by omega), mul_zero, b3] at this
  · have e := inner i h1 h2
    rw [h i i.2, sub_self] at e
    rcases mul_eq_zero.1 e.symm with h | h
    · exact absurd h hI
    · exact h
  · rintro ⟨⟨c0, c1, c2, c3⟩, hin⟩ i hi
    by_cases h0 : i = 0
    · rw [h0, zA 0 (by omega), mul_zero, b0]; exact c0
    by_cases h1 : i = 1
    · rw [h1, zA 1 (by omega), mul_zero, b1]; exact c1
    by_cases h2 : i = n - 2
    · rw [h2, zA (n - 2) (by omega), mul_zero, b2]; exact c2
    by_cases h3 : i = n - 1
    · rw [h3, zA (n - 1) (by omega), mul_zero, b3]; exact c3
    · have e := inner ⟨i, hi⟩ (by show 2 ≤ i; omega) (by show i < n - 2; omega)
      rw [hin ⟨i, hi⟩ (by show 2 ≤ i; omega) (by show i < n - 2; omega), mul_zero, sub_eq_zero] at e
      exact e

/-- C114: `(ω, v)` is a mode of the matrices computed by an `OrrSommerfeldModel` exactly when `v` solves the collocated
Orr–Sommerfeld problem with walls; such matrices exist as soon as boundary conditions were accepted and
the Reynolds number is not zero. -/
theorem C114_equation (hn : 4 ≤ n) (hab : a ≠ b) (h : Heap) (calls : List OSCall) {α : ℂ} {Re : ℝ} (hR : Re ≠ 0) {up : ℝ → ℝ} :
    ((∃ ot, (osAfter n a b h calls).basestate = some ⟨some α, some Re, some up, ot⟩) → (osAfter n a b h calls).BC_type ≠ none →
      ∃ B At, ComputesOS n a b h calls α Re up B At) ∧
    ∀ B At X D1 D2 D4, ComputesOS n a b h calls α Re up B At → Grid n a b h calls X D1 D2 D4 → ∀ ω v,
      IsModeC B At ω v ↔ OSMode hn D1 D2 D4 (fun i => up (X i)) α Re ω (fun j => v j) := by
  refine ⟨?_, ?_⟩
  · rintro ⟨ot, hq⟩ hbc
    have hg := os_good_after (n := n) (by omega) hab h calls
    obtain ⟨⟨l, r⟩, hlr⟩ := Option.ne_none_iff_exists'.1 hbc
    obtain ⟨-, -, hl, hr⟩ := hg.bc l r hlr
    obtain ⟨d, hc, -⟩ := OrrSommerfeld.wall_ok (by omega) hab hg.inv hq hR hlr hl hr
    exact ⟨_, _, ⟨ot, hq⟩, _, hc, rfl, rfl⟩
  · intro B At X D1 D2 D4 hc hG ω v
    obtain ⟨rfl, rfl⟩ := computesOS_eq (by omega) hab hR hc
    obtain ⟨rfl, rfl, rfl, rfl⟩ := (grid_eq (by omega) hab).1 hG
    exact os_mode_iff hn hR up ω v

/-! ## symmetries -/

theorem dC_conj (D : Matrix (Fin n) (Fin n) ℝ) (w : Fin n → ℂ) (i : Fin n) :
    dC D (fun j => (starRingEnd ℂ) (w j)) i = (starRingEnd ℂ) (dC D w i) := by
  unfold dC
  rw [map_sum]
  exact Finset.sum_congr rfl fun j _ => by simp

/-- C114: conjugation: `ω` is an eigenvalue at the wave number `α` with mode `v` iff `-conj ω` is one at `-conj α`, with the conjugate
mode (same growth rate, wave travelling the other way). -/
theorem C114_conjugate (hn : 4 ≤ n) (hab : a ≠ b) (h h' : Heap) (calls calls' : List OSCall) {α : ℂ} {Re : ℝ} (hR : Re ≠ 0)
    {up : ℝ → ℝ} (B At B' At' : Mat ℂ) (hc : ComputesOS n a b h calls α Re up B At)
    (hc' : ComputesOS n a b h' calls' (-(starRingEnd ℂ) α) Re up B' At') (ω : ℂ) (v : ℕ → ℂ) (hv : IsModeC B At ω v) :
    IsModeC B' At' (-(starRingEnd ℂ) ω) (fun j => (starRingEnd ℂ) (v j)) := by
  obtain ⟨rfl, rfl⟩ := computesOS_eq (by omega) hab hR hc
  obtain ⟨rfl, rfl⟩ := computesOS_eq (by omega) hab hR hc'
  rw [os_mode_iff hn hR] at hv ⊢
  obtain ⟨h0, ⟨h1, h2, h3, h4⟩, h5⟩ := hv
  refine ⟨?_, ⟨?_, ?_, ?_, ?_⟩, fun i hi hi' => ?_⟩
  · obtain ⟨i, hi⟩ := Function.ne_iff.1 h0
    exact Function.ne_iff.2 ⟨i, by simpa using hi⟩
  · simp only [] at h1 ⊢; rw [h1, map_zero]
  · rw [dC_conj, h2, map_zero]
  · simp only [] at h3 ⊢; rw [h3, map_zero]
  · rw [dC_conj, h4, map_zero]
  · have e := congrArg (starRingEnd ℂ) (h5 i hi hi')
    rw [map_zero] at e
    rw [dC_conj, dC_conj]
    unfold orrSommerfeld at e ⊢
    simp only [map_add, map_sub, map_mul, map_div₀, map_one, map_pow, Complex.conj_I, Complex.conj_ofReal, map_ofNat] at e
    have hII : ((Complex.I : ℂ) * Re)⁻¹ = -((-Complex.I) * (Re:ℂ))⁻¹ := by
      rw [neg_mul, inv_neg, neg_neg]
    rw [one_div] at e ⊢
    rw [hII]
    linear_combination -e

/-- C114: Galilean invariance: adding a constant to the velocity profile translates the eigenvalues by `α U₀` and keeps
the modes. -/
theorem C114_galilean (hn : 4 ≤ n) (hab : a ≠ b) (h h' : Heap) (calls calls' : List OSCall) {α : ℂ} {Re : ℝ} (hR : Re ≠ 0)
    {up : ℝ → ℝ} (U₀ : ℝ) (B At B' At' : Mat ℂ) (hc : ComputesOS n a b h calls α Re up B At)
    (hc' : ComputesOS n a b h' calls' α Re (fun y => up y + U₀) B' At') (ω : ℂ) (v : ℕ → ℂ) :
    IsModeC B At ω v ↔ IsModeC B' At' (ω + α * U₀) v := by
  obtain ⟨rfl, rfl⟩ := computesOS_eq (by omega) hab hR hc
  obtain ⟨rfl, rfl⟩ := computesOS_eq (by omega) hab hR hc'
  rw [os_mode_iff hn hR, os_mode_iff hn hR]
  unfold OSMode
  refine and_congr_right fun _ => and_congr_right fun _ => forall_congr' fun i => forall₂_congr fun _ _ => ?_
  have hd : (Dm n a b 2).mulVec (fun i => up (xv n a b i) + U₀) i = (Dm n a b 2).mulVec (fun i => up (xv n a b i)) i := by
    have e : (fun i => up (xv n a b i) + U₀) = (fun i => up (xv n a b i)) + fun _ => U₀ := rfl
    rw [e, Matrix.mulVec_add]
    have hz : (Dm n a b 2).mulVec (fun _ => U₀) i = 0 := by
      have := congrFun (Dm_mulVec (a := a) (b := b) (by omega : 2 ≤ n) hab 2 (Polynomial.C U₀)
        (lt_of_le_of_lt Polynomial.degree_C_le (by exact_mod_cast (by omega : 0 < n)))) i
      simpa using this
    rw [Pi.add_apply, hz, add_zero]
  rw [hd]
  unfold orrSommerfeld
  push_cast
  constructor <;> intro h <;> linear_combination h

theorem Dm_rev' (hn : 2 ≤ n) (hab : a ≠ b) {m : ℕ} (hm : 1 ≤ m) (i j : Fin n) :
    Dm n a b m i.rev j.rev = (-1) ^ m * Dm n a b m i j := by
  obtain ⟨s', D, s'', X, h1, -, -, h2⟩ := C111_symmetry hn hab [] (m := m) hm
  obtain ⟨s1, h3, -⟩ := matder_spec hn hab (inv_after hn hab []) (m := m) hm
  rw [h1] at h3
  have hD : D = Dm n a b m := congrArg Prod.snd (Except.ok.inj h3)
  subst hD
  exact h2 i j

theorem dC_rev' (hn : 2 ≤ n) (hab : a ≠ b) {m : ℕ} (hm : 1 ≤ m) (f : Fin n → ℂ) (i : Fin n) :
    dC (Dm n a b m) (fun j => f j.rev) i = (-1) ^ m * dC (Dm n a b m) f i.rev := by
  unfold dC
  rw [Finset.mul_sum, ← Equiv.sum_comp Fin.revPerm]
  refine Finset.sum_congr rfl fun j _ => ?_
  have := Dm_rev' hn hab hm i (Fin.rev j)
  rw [Fin.rev_rev] at this
  simp only [Fin.revPerm_apply, Fin.rev_rev]
  rw [this, ← mul_assoc]
  push_cast
  rw [← mul_assoc, ← mul_pow]
  norm_num

theorem mulVec_rev' (hn : 2 ≤ n) (hab : a ≠ b) {m : ℕ} (hm : 1 ≤ m) (f : Fin n → ℝ) (i : Fin n) :
    (Dm n a b m).mulVec (fun j => f j.rev) i = (-1) ^ m * (Dm n a b m).mulVec f i.rev := by
  unfold Matrix.mulVec dotProduct
  rw [Finset.mul_sum, ← Equiv.sum_comp Fin.revPerm]
  refine Finset.sum_congr rfl fun j _ => ?_
  have := Dm_rev' hn hab hm i (Fin.rev j)
  rw [Fin.rev_rev] at this
  simp only [Fin.revPerm_apply, Fin.rev_rev]
  rw [this, ← mul_assoc, ← mul_assoc, ← mul_pow]
  norm_num

/-- the perturbation seen in a mirror at the middle of the grid -/
noncomputable def revMode (n : ℕ) (v : ℕ → ℂ) (j : ℕ) : ℂ := v (n - 1 - j)

theorem revMode_fin (v : ℕ → ℂ) : (fun j : Fin n => revMode n v j) = fun j : Fin n => v (j.rev : Fin n) := by
  funext j
  unfold revMode
  rw [Fin.val_rev]
  congr 1
  omega

theorem os_mirror (hn : 4 ≤ n) (hab : a ≠ b) {α : ℂ} {Re : ℝ} {U : Fin n → ℝ} {ω : ℂ} {v : Fin n → ℂ}
    (hv : OSMode hn (Dm n a b 1) (Dm n a b 2) (Dm n a b 4) U α Re ω v) :
    OSMode hn (Dm n a b 1) (Dm n a b 2) (Dm n a b 4) (fun i => U i.rev) α Re ω (fun j => v j.rev) := by
  have r0 : (⟨0, by omega⟩ : Fin n).rev = ⟨n - 1, by omega⟩ := by ext; simp [Fin.val_rev]
  have r1 : (⟨n - 1, by omega⟩ : Fin n).rev = ⟨0, by omega⟩ := by rw [← r0, Fin.rev_rev]
  obtain ⟨h0, ⟨h1, h2, h3, h4⟩, h5⟩ := hv
  have hn2 : 2 ≤ n := by omega
  refine ⟨?_, ⟨?_, ?_, ?_, ?_⟩, fun i hi hi' => ?_⟩
  · obtain ⟨i, hi⟩ := Function.ne_iff.1 h0
    exact Function.ne_iff.2 ⟨i.rev, by simpa using hi⟩
  · simp only []; rw [r0]; exact h3
  · rw [dC_rev' hn2 hab le_rfl, r0, h4, mul_zero]
  · simp only []; rw [r1]; exact h1
  · rw [dC_rev' hn2 hab le_rfl, r1, h2, mul_zero]
  · have := h5 i.rev (by rw [Fin.val_rev]; omega) (by rw [Fin.val_rev]; omega)
    rw [dC_rev' hn2 hab (by norm_num), dC_rev' hn2 hab (by norm_num), mulVec_rev' hn2 hab (by norm_num)]
    norm_num
    exact this

/-- C114: mirror symmetry: for the profile seen in a mirror at the middle of the interval the spectrum is the same and the modes are
the mirror images. -/
theorem C114_mirror (hn : 4 ≤ n) (hab : a ≠ b) (h h' : Heap) (calls calls' : List OSCall) {α : ℂ} {Re : ℝ} (hR : Re ≠ 0)
    {up : ℝ → ℝ} (B At B' At' : Mat ℂ) (hc : ComputesOS n a b h calls α Re up B At)
    (hc' : ComputesOS n a b h' calls' α Re (fun y => up (a + b - y)) B' At') (ω : ℂ) (v : ℕ → ℂ) (hv : IsModeC B At ω v) :
    IsModeC B' At' ω (revMode n v) := by
  obtain ⟨rfl, rfl⟩ := computesOS_eq (by omega) hab hR hc
  obtain ⟨rfl, rfl⟩ := computesOS_eq (by omega) hab hR hc'
  rw [os_mode_iff hn hR] at hv ⊢
  rw [revMode_fin]
  have hx : (fun i => up (a + b - xv n a b i)) = fun i => (fun k => up (xv n a b k)) i.rev := by
    funext i; simp only []; rw [xv_rev (by omega)]
  rw [hx]
  exact os_mirror hn hab hv

/-- C114: for a profile symmetric about the middle (such as Poiseuille flow), the even part and the odd part of a mode
are each zero or a mode for the same eigenvalue. -/
theorem C114_parity (hn : 4 ≤ n) (hab : a ≠ b) (h : Heap) (calls : List OSCall) {α : ℂ} {Re : ℝ} (hR : Re ≠ 0)
    {up : ℝ → ℝ} (hup : ∀ y, up (a + b - y) = up y) (B At : Mat ℂ) (hc : ComputesOS n a b h calls α Re up B At)
    (ω : ℂ) (v : ℕ → ℂ) (hv : IsModeC B At ω v) (σ : ℂ) (hne : ∃ j < n, v j + σ * v (n - 1 - j) ≠ 0) :
    IsModeC B At ω (fun j => v j + σ * v (n - 1 - j)) := by
  have hc' : ComputesOS n a b h calls α Re (fun y => up (a + b - y)) B At := by
    have : (fun y => up (a + b - y)) = up := funext hup
    rw [this]; exact hc
  have h2 := C114_mirror hn hab h h calls calls hR B At B At hc hc' ω v hv
  have hsz : B.size = n := by
    obtain ⟨rfl, rfl⟩ := computesOS_eq (by omega) hab hR hc
    rfl
  obtain ⟨-, e1⟩ := hv
  obtain ⟨-, e2⟩ := h2
  refine ⟨by rw [hsz]; exact hne, fun i hi => ?_⟩
  have hl : ∀ M : Mat ℂ, M.mulVec (fun j => v j + σ * v (n - 1 - j)) i = M.mulVec v i + σ * M.mulVec (revMode n v) i := by
    intro M
    unfold Mat.mulVec
    rw [Finset.mul_sum, ← Finset.sum_add_distrib]
    exact Finset.sum_congr rfl fun j _ => by unfold revMode; ring
  rw [hl, hl, e1 i hi, e2 i hi]
  ring

/-! ## similarity -/

theorem xv_affine (a b l t : ℝ) (i : Fin n) : xv n (l * a + t) (l * b + t) i = l * xv n a b i + t := by
  unfold xv; ring

theorem Dm_affine (a b : ℝ) {l : ℝ} (hl : l ≠ 0) (t : ℝ) (m : ℕ) :
    Dm n (l * a + t) (l * b + t) m = (1 / l) ^ m • Dm n a b m := by
  ext i j
  rw [Matrix.smul_apply, smul_eq_mul]
  show Rc n m i j * (-2 / (l * b + t - (l * a + t))) ^ m = (1 / l) ^ m * (Rc n m i j * (-2 / (b - a)) ^ m)
  have : -2 / (l * b + t - (l * a + t)) = (1 / l) * (-2 / (b - a)) := by
    rw [show l * b + t - (l * a + t) = l * (b - a) by ring, div_mul_div_comm, one_mul]
  rw [this, mul_pow]; ring

theorem dC_scale (c : ℝ) (D : Matrix (Fin n) (Fin n) ℝ) (w : Fin n → ℂ) (i : Fin n) : dC (c • D) w i = c * dC D w i := by
  unfold dC
  rw [Finset.mul_sum]
  refine Finset.sum_congr rfl fun j _ => ?_
  rw [Matrix.smul_apply, smul_eq_mul]; push_cast; ring

/-- C114: similarity: with lengths multiplied by `l` (and any shift `t`) and velocities multiplied by `V`, the problem
with wave number `α / l` and Reynolds number `Re / (V l)` has the same modes, with eigenvalues multiplied by `V / l`. -/
theorem C114_similarity (hn : 4 ≤ n) (hab : a ≠ b) (h h' : Heap) (calls calls' : List OSCall) {α : ℂ} {Re : ℝ} (hR : Re ≠ 0)
    {up : ℝ → ℝ} {l V : ℝ} (hl : l ≠ 0) (hV : V ≠ 0) (t : ℝ) (B At B' At' : Mat ℂ) (hc : ComputesOS n a b h calls α Re up B At)
    (hc' : ComputesOS n (l * a + t) (l * b + t) h' calls' (α / l) (Re / (V * l)) (fun y => V * up ((y - t) / l)) B' At')
    (ω : ℂ) (v : ℕ → ℂ) : IsModeC B At ω v ↔ IsModeC B' At' (ω * V / l) v := by
  have hab' : l * a + t ≠ l * b + t := by
    intro h
    have : l * a = l * b := by linarith
    exact hab (mul_left_cancel₀ hl this)
  have hR' : Re / (V * l) ≠ 0 := div_ne_zero hR (mul_ne_zero hV hl)
  obtain ⟨rfl, rfl⟩ := computesOS_eq (by omega) hab hR hc
  obtain ⟨rfl, rfl⟩ := computesOS_eq (by omega) hab' hR' hc'
  rw [os_mode_iff hn hR, os_mode_iff hn hR']
  have hx : (fun i => V * up ((xv n (l * a + t) (l * b + t) i - t) / l)) = V • fun i => up (xv n a b i) := by
    funext i
    rw [xv_affine, add_sub_cancel_right, mul_div_cancel_left₀ _ hl]; rfl
  rw [hx, Dm_affine a b hl t, Dm_affine a b hl t, Dm_affine a b hl t]
  have hlC : (l : ℂ) ≠ 0 := by exact_mod_cast hl
  have hVC : (V : ℂ) ≠ 0 := by exact_mod_cast hV
  have hRC : (Re : ℂ) ≠ 0 := by exact_mod_cast hR
  have h1l : ((1 / l : ℝ) : ℂ) ≠ 0 := by push_cast; exact div_ne_zero one_ne_zero hlC
  unfold OSMode
  simp only [dC_scale, pow_one]
  refine and_congr_right fun _ => and_congr ?_ (forall_congr' fun i => forall₂_congr fun _ _ => ?_)
  · simp only [mul_eq_zero, h1l, false_or]
  · have hm : ((1 / l) ^ 2 • Dm n a b 2).mulVec (V • fun i => up (xv n a b i)) i
        = (1 / l) ^ 2 * V * (Dm n a b 2).mulVec (fun i => up (xv n a b i)) i := by
      rw [Matrix.smul_mulVec, Matrix.mulVec_smul]
      simp only [Pi.smul_apply, smul_eq_mul]; ring
    rw [hm]
    obtain ⟨d2, hd2⟩ : ∃ d, d = dC (Dm n a b 2) (fun j : Fin n => v j) i := ⟨_, rfl⟩
    obtain ⟨d4, hd4⟩ : ∃ d, d = dC (Dm n a b 4) (fun j : Fin n => v j) i := ⟨_, rfl⟩
    obtain ⟨w, hw⟩ : ∃ d, d = (Dm n a b 2).mulVec (fun i => up (xv n a b i)) i := ⟨_, rfl⟩
    rw [← hd2, ← hd4, ← hw]
    have key : orrSommerfeld (α / l) (ω * V / l) (Re / (V * l)) ((V • fun i => up (xv n a b i)) i) ((1 / l) ^ 2 * V * w) (v i)
        (((1 / l) ^ 2 : ℝ) * d2) (((1 / l) ^ 4 : ℝ) * d4)
        = V / l ^ 3 * orrSommerfeld α ω Re (up (xv n a b i)) w (v i) d2 d4 := by
      unfold orrSommerfeld
      simp only [Pi.smul_apply, smul_eq_mul]
      push_cast
      have hI := Complex.I_ne_zero
      field_simp
    rw [key, mul_eq_zero]
    have : (V : ℂ) / l ^ 3 ≠ 0 := div_ne_zero hVC (pow_ne_zero 3 hlC)
    simp only [this, false_or]

/-- non-vacuity of C114: the `Poiseuille` object on 5 points with `α = Re = 1` computes its operators (whatever was allocated
before) and `(1 - y²)²` at the nodes is a mode, with `ω = (3 - 33 i) / 5` (damped) -/
example (h : Heap) : ∃ calls B At v, OrrSommerfeld.Poiseuille 5 1 1 h = .ok (osAfter 5 (-1) 1 h calls) ∧
    ComputesOS 5 (-1) 1 h calls 1 1 (fun y => 1 - y ^ 2) B At ∧ IsModeC B At ((3 - 33 * Complex.I) / 5) v := by
  obtain ⟨calls, h1, h2, h3, -⟩ := C50_Poiseuille (n := 5) (by norm_num) 1 1 h
  have hab : (-1:ℝ) ≠ 1 := by norm_num
  obtain ⟨e1, e2⟩ := C114_equation (n := 5) (by norm_num) hab h calls (α := 1) (Re := 1) (by norm_num) (up := fun y => 1 - y ^ 2)
  obtain ⟨B, At, hc⟩ := e1 ⟨_, h2⟩ h3
  have hg : Grid 5 (-1) 1 h calls (xv 5 (-1) 1) (Dm 5 (-1) 1 1) (Dm 5 (-1) 1 2) (Dm 5 (-1) 1 4) :=
    (grid_eq (by norm_num) hab).2 ⟨rfl, rfl, rfl, rfl⟩
  let p : Polynomial ℝ := Polynomial.X ^ 4 - Polynomial.C 2 * Polynomial.X ^ 2 + Polynomial.C 1
  let q : Polynomial ℝ := Polynomial.C 1 - Polynomial.X ^ 2
  have hpd : p.degree < (5 : ℕ) := by
    refine lt_of_le_of_lt (Polynomial.degree_add_le _ _) (max_lt (lt_of_le_of_lt (Polynomial.degree_sub_le _ _) (max_lt ?_ ?_)) ?_)
    · rw [Polynomial.degree_X_pow]; norm_num
    · exact lt_of_le_of_lt (Polynomial.degree_C_mul_X_pow_le _ _) (by norm_num)
    · exact lt_of_le_of_lt Polynomial.degree_C_le (by norm_num)
  have hqd : q.degree < (5 : ℕ) := by
    refine lt_of_le_of_lt (Polynomial.degree_sub_le _ _) (max_lt ?_ ?_)
    · exact lt_of_le_of_lt Polynomial.degree_C_le (by norm_num)
    · rw [Polynomial.degree_X_pow]; norm_num
  have p1 : ∀ x, (Polynomial.derivative^[1] p).eval x = 4 * x ^ 3 - 4 * x := by intro x; simp [p]; ring
  have p2 : ∀ x, (Polynomial.derivative^[2] p).eval x = 12 * x ^ 2 - 4 := by intro x; simp [p]; ring
  have p4 : ∀ x, (Polynomial.derivative^[4] p).eval x = 24 := by intro x; simp [p]; norm_num
  have q2 : ∀ x, (Polynomial.derivative^[2] q).eval x = -2 := by intro x; simp [q]; norm_num
  have hx : ∀ i : Fin 5, xv 5 (-1) 1 i = -Real.cos (i * Real.pi / 4) := by
    intro i
    unfold xv Aerokit.Welfert.node
    push_cast
    rw [show ((5:ℝ) - 1) = 4 by norm_num]; ring
  have x0 : xv 5 (-1) 1 0 = -1 := by rw [hx]; simp
  have x2 : xv 5 (-1) 1 2 = 0 := by
    rw [hx, show (((2 : Fin 5) : ℕ) : ℝ) * Real.pi / 4 = Real.pi / 2 by
      rw [show (((2 : Fin 5) : ℕ) : ℝ) = 2 by norm_num]; ring, Real.cos_pi_div_two]; ring
  have x4 : xv 5 (-1) 1 4 = 1 := by
    rw [hx, show (((4 : Fin 5) : ℕ) : ℝ) * Real.pi / 4 = Real.pi by
      rw [show (((4 : Fin 5) : ℕ) : ℝ) = 4 by norm_num]; ring, Real.cos_pi]; ring
  let v : ℕ → ℂ := fun j => if hj : j < 5 then ((p.eval (xv 5 (-1) 1 ⟨j, hj⟩) : ℝ) : ℂ) else 0
  have hv : (fun j : Fin 5 => v j) = fun j => ((p.eval (xv 5 (-1) 1 j) : ℝ) : ℂ) := by
    funext j
    simp only [v, j.2, dif_pos]
  have hU : (fun i : Fin 5 => 1 - (xv 5 (-1) 1 i) ^ 2) = fun j => q.eval (xv 5 (-1) 1 j) := by
    funext j; simp [q]
  refine ⟨calls, B, At, v, h1, hc, (e2 B At _ _ _ _ hc hg _ v).2 ?_⟩
  rw [hv]
  refine ⟨?_, ⟨?_, ?_, ?_, ?_⟩, ?_⟩
  · intro h
    have := congrFun h 2
    simp only [x2, p] at this
    norm_num at this
  · show (((p.eval (xv 5 (-1) 1 0) : ℝ) : ℂ)) = 0
    rw [x0]; simp only [p]; norm_num
  · rw [dC_poly (by norm_num) hab 1 p hpd, p1]
    show (((4 * (xv 5 (-1) 1 0) ^ 3 - 4 * xv 5 (-1) 1 0 : ℝ)) : ℂ) = 0
    rw [x0]; norm_num
  · show (((p.eval (xv 5 (-1) 1 4) : ℝ) : ℂ)) = 0
    rw [x4]; simp only [p]; norm_num
  · rw [dC_poly (by norm_num) hab 1 p hpd, p1]
    show (((4 * (xv 5 (-1) 1 4) ^ 3 - 4 * xv 5 (-1) 1 4 : ℝ)) : ℂ) = 0
    rw [x4]; norm_num
  · intro i h0 h1
    obtain rfl : i = 2 := Fin.ext (by show (i:ℕ) = 2; omega)
    rw [dC_poly (by norm_num) hab 2 p hpd, dC_poly (by norm_num) hab 4 p hpd, p2, p4, hU, Dm_mulVec (by norm_num) hab 2 q hqd]
    simp only [q2, x2]
    have hI := Complex.I_ne_zero
    have hII := Complex.I_sq
    have ep : p.eval 0 = 1 := by simp [p]
    have eq' : q.eval 0 = 1 := by simp [q]
    rw [ep, eq']
    unfold orrSommerfeld
    push_cast
    field_simp
    ring_nf
    rw [hII]
    ring

end Aerokit.Props
