import Verif.Lemmas.OrrSommerfeld
import Verif.Spec.OrrSommerfeld
import Verif.Props.Euler1D
import Mathlib.Algebra.BigOperators.Field

/-! # Properties C50, C51, C85 : the Orr–Sommerfeld model -/

namespace Aerokit.Props
open LinOperator NumSpectral Spec Polynomial

variable {n : ℕ} {a b : ℝ}

/-- a call on an `OrrSommerfeldModel` object, or the creation of a dictionary by the caller -/
inductive OSCall
  | set_basestate (q : OrrSommerfeld.Base)
  | set_BC (L R : BCArg)
  | compute_operators
  | get_RHS_time_matrices
  | x
  | newDict (d : BCDict)

open Classical in
/-- the object after a call (a dictionary argument is one of the existing dictionaries) -/
noncomputable def osStep (s : OrrSommerfeld.Obj n) : OSCall → OrrSommerfeld.Obj n
  | .set_basestate q => (OrrSommerfeld.set_basestate q s).2
  | .set_BC L R => if bcKnown s.heap L ∧ bcKnown s.heap R then (OrrSommerfeld.set_BC L R s).2 else s
  | .compute_operators => (OrrSommerfeld.compute_operators s).2
  | .get_RHS_time_matrices => (OrrSommerfeld.get_RHS_time_matrices s).2
  | .x => (OrrSommerfeld.x s).2
  | .newDict d => { s with heap := (s.heap.alloc d).2 }

/-- `OrrSommerfeldModel(n, a, b)` -/
noncomputable def osNew (n : ℕ) (a b : ℝ) (h : Heap) : OrrSommerfeld.Obj n := ⟨NumSpectral.mk n (some a) (some b), none, none, none, none, h⟩

example (h : Heap) : OrrSommerfeld.init n (some a) (some b) none h = .ok (osNew n a b h) := rfl

/-- `OrrSommerfeldModel(n, a, b)` after an arbitrary history of calls, some of which may have raised -/
noncomputable def osAfter (n : ℕ) (a b : ℝ) (h : Heap) (calls : List OSCall) : OrrSommerfeld.Obj n :=
  calls.foldl osStep (osNew n a b h)

/-- invariant of the reachable objects -/
structure OSGood (a b : ℝ) (s : OrrSommerfeld.Obj n) : Prop where
  inv : OrrSommerfeld.OInv a b s
  bc : ∀ l r, s.BC_type = some (l, r) → l < s.heap.next ∧ r < s.heap.next ∧ (s.heap.at' l).type = some "wall" ∧
    (s.heap.at' r).type = some "wall"

theorem os_good_of {s s' : OrrSommerfeld.Obj n} (h : OSGood a b s) (hi : OrrSommerfeld.OInv a b s') (h1 : s'.heap = s.heap)
    (h2 : s'.BC_type = s.BC_type) : OSGood a b s' := ⟨hi, by rw [h1, h2]; exact h.bc⟩

theorem os_set_BC_eq (L R : BCArg) (s : OrrSommerfeld.Obj n) : OrrSommerfeld.set_BC L R s =
    match check_BCs OrrSommerfeld.BC_names L R s.heap with
    | (.ok lr, h) => (.ok (), { s with heap := h, BC_type := some lr })
    | (.error e, h) => (.error e, { s with heap := h }) := rfl

open Classical in
/-- what `set_BC` does -/
theorem os_set_BC_spec (s : OrrSommerfeld.Obj n) (L R : BCArg) (kL : bcKnown s.heap L) (kR : bcKnown s.heap R) :
    ∃ h', (∀ r, r < s.heap.next → h'.at' r = s.heap.at' r) ∧ s.heap.next ≤ h'.next ∧
      ((bcValid ["wall"] s.heap L ∧ bcValid ["wall"] s.heap R ∧ ∃ l r, l < h'.next ∧ r < h'.next ∧
          (h'.at' l).type = some "wall" ∧ (h'.at' r).type = some "wall" ∧
          OrrSommerfeld.set_BC L R s = (.ok (), { s with heap := h', BC_type := some (l, r) })) ∨
        (¬ (bcValid ["wall"] s.heap L ∧ bcValid ["wall"] s.heap R) ∧
          OrrSommerfeld.set_BC L R s = (.error (if bcValid ["wall"] s.heap L then bcError s.heap R else bcError s.heap L), { s with heap := h' }))) := by
  have hw : ∀ {h : Heap} {A : BCArg}, bcValid ["wall"] h A → bcName h A = some "wall" := by
    rintro h A ⟨t, ht, he⟩
    rw [List.mem_singleton.1 ht] at he
    exact he
  obtain ⟨h1, e1, m1, c1⟩ := check_BC_spec OrrSommerfeld.BC_names s.heap L
  rcases c1 with ⟨v1, l, c1, a1, t1, d1, k1⟩ | ⟨v1, c1⟩
  · obtain ⟨h2, e2, m2, c2⟩ := check_BC_spec OrrSommerfeld.BC_names h1 R
    obtain ⟨nR, eR⟩ := name_congr kR e1
    have hv : bcValid OrrSommerfeld.BC_names h1 R ↔ bcValid OrrSommerfeld.BC_names s.heap R := by unfold bcValid; rw [nR]
    have hl := a1 kL
    have hold : ∀ r, r < s.heap.next → h2.at' r = s.heap.at' r := fun r hr => by rw [e2 r (by omega), e1 r hr]
    have kR' : bcKnown h1 R := by cases R <;> first | trivial | exact lt_of_lt_of_le kR m1
    rcases c2 with ⟨v2, r, c2, a2, t2, d2, k2⟩ | ⟨v2, c2⟩
    · refine ⟨h2, hold, m1.trans m2, .inl ⟨v1, hv.1 v2, l, r, lt_of_lt_of_le hl m2, a2 kR', ?_, ?_, ?_⟩⟩
      · rw [e2 l hl, t1, hw v1]
      · rw [t2, hw v2]
      · rw [os_set_BC_eq]
        unfold check_BCs
        rw [Meth.bind_ok c1, Meth.bind_ok c2]
        rfl
    · refine ⟨h2, hold, m1.trans m2, .inr ⟨fun h => v2 (hv.2 h.2), ?_⟩⟩
      rw [if_pos (show bcValid ["wall"] s.heap L from v1), os_set_BC_eq]
      unfold check_BCs
      rw [Meth.bind_ok c1, Meth.bind_err c2, eR]
  · refine ⟨h1, e1, m1, .inr ⟨fun h => v1 h.1, ?_⟩⟩
    rw [if_neg (show ¬ bcValid ["wall"] s.heap L from v1), os_set_BC_eq]
    unfold check_BCs
    rw [Meth.bind_err c1]

theorem os_good_after (hn : 2 ≤ n) (hab : a ≠ b) (h : Heap) (calls : List OSCall) : OSGood a b (osAfter n a b h calls) := by
  have h0 : OSGood a b (osNew n a b h) := ⟨inv_mk a b, fun l r h => by cases h⟩
  have : ∀ (l : List OSCall) (s : OrrSommerfeld.Obj n), OSGood a b s → OSGood a b (l.foldl osStep s) := by
    intro l
    induction l with
    | nil => intro s hs; exact hs
    | cons c l ih =>
      intro s hs
      refine ih _ ?_
      cases c with
      | set_basestate q =>
        have : ((OrrSommerfeld.set_basestate q s).2).heap = s.heap ∧ ((OrrSommerfeld.set_basestate q s).2).BC_type = s.BC_type := by
          unfold OrrSommerfeld.set_basestate
          split
          · exact ⟨rfl, rfl⟩
          · split <;> exact ⟨rfl, rfl⟩
        exact os_good_of hs (OrrSommerfeld.keeps_set_basestate q s hs.inv) this.1 this.2
      | set_BC L R =>
        show OSGood a b (osStep s (.set_BC L R))
        unfold osStep
        simp only []
        split_ifs with hk
        · obtain ⟨h', e, m, c⟩ := os_set_BC_spec s L R hk.1 hk.2
          rcases c with ⟨-, -, l, r, h1, h2, h3, h4, c⟩ | ⟨-, c⟩
          · rw [c]
            refine ⟨hs.inv, fun l' r' h => ?_⟩
            cases h
            exact ⟨h1, h2, h3, h4⟩
          · rw [c]
            refine ⟨hs.inv, fun l r h => ?_⟩
            obtain ⟨b1, b2, b3, b4⟩ := hs.bc l r h
            exact ⟨lt_of_lt_of_le b1 m, lt_of_lt_of_le b2 m, by show (h'.at' l).type = _; rw [e l b1, b3], by show (h'.at' r).type = _; rw [e r b2, b4]⟩
        · exact hs
      | compute_operators =>
        have := OrrSommerfeld.fix_compute_operators (n := n) s ⟨rfl, rfl, rfl⟩
        exact os_good_of hs (OrrSommerfeld.keeps_compute_operators hn hab s hs.inv) this.1 this.2.1
      | get_RHS_time_matrices =>
        have := OrrSommerfeld.fix_get (n := n) s ⟨rfl, rfl, rfl⟩
        exact os_good_of hs (OrrSommerfeld.keeps_get hn hab s hs.inv) this.1 this.2.1
      | x =>
        have := OrrSommerfeld.fix_x (n := n) s ⟨rfl, rfl, rfl⟩
        exact os_good_of hs (OrrSommerfeld.keeps_x hn s hs.inv) this.1 this.2.1
      | newDict d =>
        refine ⟨hs.inv, fun l r h => ?_⟩
        obtain ⟨b1, b2, b3, b4⟩ := hs.bc l r h
        refine ⟨Nat.lt_succ_of_lt b1, Nat.lt_succ_of_lt b2, ?_, ?_⟩
        · show (if l = s.heap.next then d else s.heap.at' l).type = _
          rw [if_neg (by omega), b3]
        · show (if r = s.heap.next then d else s.heap.at' r).type = _
          rw [if_neg (by omega), b4]
  exact this calls _ h0

/-! ## C50 -/

theorem xv_mem (hn : 2 ≤ n) (j : Fin n) : xv n a b j ∈ Set.uIcc a b := by
  have h1 : Welfert.node n j ≤ 1 := by unfold Welfert.node; exact Real.cos_le_one _
  have h2 : -1 ≤ Welfert.node n j := by unfold Welfert.node; exact Real.neg_one_le_cos _
  unfold xv
  rcases le_total a b with h | h
  · rw [Set.uIcc_of_le h]
    constructor <;> nlinarith
  · rw [Set.uIcc_of_ge h]
    constructor <;> nlinarith

/-- rows of the matrices computed by `compute_operators` -/
theorem os_rows (hn : 4 ≤ n) (hab : a ≠ b) {α : ℂ} {Re : ℝ} (hR : Re ≠ 0) {up : ℝ → ℝ} {U : ℝ[X]} (hU : U.degree < n)
    (hup : ∀ j : Fin n, up (xv n a b j) = U.eval (xv n a b j)) (ω : ℂ) (V : ℂ[X]) (hV : V.degree < n) (v : ℕ → ℂ)
    (hv : ∀ j : Fin n, v j = V.eval ((xv n a b j : ℝ) : ℂ)) :
    let B := OrrSommerfeld.wallB (Dm n a b 1) (n - 1) (n - 2) (OrrSommerfeld.wallB (Dm n a b 1) 0 0 (OrrSommerfeld.B0m a b n α Re up))
    let At := OrrSommerfeld.wallA (n - 2) (OrrSommerfeld.wallA 0 (OrrSommerfeld.A0m a b n α))
    (∀ i : Fin n, 2 ≤ (i:ℕ) → (i:ℕ) < n - 2 → B.mulVec v i - harmonic_time_coef * ω * At.mulVec v i =
        Complex.I * orrSommerfeld α ω Re (U.eval (xv n a b i)) ((derivative^[2] U).eval (xv n a b i))
          (V.eval ((xv n a b i : ℝ) : ℂ)) ((derivative^[2] V).eval ((xv n a b i : ℝ) : ℂ)) ((derivative^[4] V).eval ((xv n a b i : ℝ) : ℂ))) ∧
      (∀ i : ℕ, i = 0 ∨ i = 1 ∨ i = n - 2 ∨ i = n - 1 → At.mulVec v i = 0) ∧
      B.mulVec v 0 = V.eval (a : ℂ) ∧ B.mulVec v 1 = (derivative V).eval (a : ℂ) ∧
      B.mulVec v (n - 2) = V.eval (b : ℂ) ∧ B.mulVec v (n - 1) = (derivative V).eval (b : ℂ) := by
  intro B At
  have sB : B.size = n := rfl
  have sA : At.size = n := rfl
  have x0 : xv n a b ⟨0, by omega⟩ = a := by unfold xv; rw [Welfert.node_zero]; ring
  have x1 : xv n a b ⟨n - 1, by omega⟩ = b := by unfold xv; rw [Welfert.node_last (by omega)]; ring
  have hdelta : ∀ k : ℕ, (hk : k < n) → ∑ j ∈ Finset.range n, (if j = k then (1:ℂ) else 0) * v j = v k := by
    intro k hk
    simp only [ite_mul, one_mul, zero_mul]
    rw [Finset.sum_ite_eq' (Finset.range n) k, if_pos (Finset.mem_range.2 hk)]
  have hder : ∀ k : Fin n, ∑ j ∈ Finset.range n, OrrSommerfeld.ent (Dm n a b 1) k j * v j = (derivative V).eval ((xv n a b k : ℝ) : ℂ) :=
    fun k => OrrSommerfeld.ent_sum (by omega) hab 1 V hV k v hv
  refine ⟨fun i h1 h2 => ?_, fun i hi => ?_, ?_, ?_, ?_, ?_⟩
  · have eA : ∀ j, At.e i j = OrrSommerfeld.At0 α (Dm n a b 2) i j := fun j => by
      show (OrrSommerfeld.wallA _ _).e _ _ = _
      rw [OrrSommerfeld.wallA_ne (by omega) (by omega), OrrSommerfeld.wallA_ne (by omega) (by omega)]; rfl
    have eB : ∀ j, B.e i j = OrrSommerfeld.B0 α Re (Dm n a b 2) (Dm n a b 4) (fun i => up (xv n a b i)) i j := fun j => by
      show (OrrSommerfeld.wallB _ _ _ _).e _ _ = _
      rw [OrrSommerfeld.wallB_ne (by omega) (by omega), OrrSommerfeld.wallB_ne (by omega) (by omega)]; rfl
    have s2 := OrrSommerfeld.ent_sum (by omega) hab 2 V hV i v hv
    have s4 := OrrSommerfeld.ent_sum (by omega) hab 4 V hV i v hv
    have hA : ∑ j ∈ Finset.range n, OrrSommerfeld.At0 α (Dm n a b 2) i j * v j
        = (derivative^[2] V).eval ((xv n a b i : ℝ) : ℂ) - α ^ 2 * V.eval ((xv n a b i : ℝ) : ℂ) := by
      rw [← s2, ← hv i, ← OrrSommerfeld.delta_sum v (α ^ 2) i, ← Finset.sum_sub_distrib]
      exact Finset.sum_congr rfl fun j _ => by unfold OrrSommerfeld.At0; ring
    have hu : ix (fun i => up (xv n a b i)) (i:ℕ) = U.eval (xv n a b i) := by rw [ix_eq _ i.2]; exact hup i
    have hdd : ix ((Dm n a b 2).mulVec fun i => up (xv n a b i)) (i:ℕ) = (derivative^[2] U).eval (xv n a b i) := by
      rw [ix_eq _ i.2, ← Dm_exact (by omega) hab 2 U hU i]
      show ∑ j, Dm n a b 2 i j * up (xv n a b j) = _
      exact Finset.sum_congr rfl fun j _ => by rw [hup]
    have hB : ∑ j ∈ Finset.range n, OrrSommerfeld.B0 α Re (Dm n a b 2) (Dm n a b 4) (fun i => up (xv n a b i)) i j * v j
        = -1 * Complex.I * α * ((U.eval (xv n a b i) : ℝ) : ℂ) * ((derivative^[2] V).eval ((xv n a b i : ℝ) : ℂ) - α ^ 2 * V.eval ((xv n a b i : ℝ) : ℂ))
          + 1 * Complex.I * α * (((derivative^[2] U).eval (xv n a b i) : ℝ) : ℂ) * V.eval ((xv n a b i : ℝ) : ℂ)
          + ((derivative^[4] V).eval ((xv n a b i : ℝ) : ℂ) - 2 * α ^ 2 * (derivative^[2] V).eval ((xv n a b i : ℝ) : ℂ)
            + α ^ 4 * V.eval ((xv n a b i : ℝ) : ℂ)) / (Re : ℂ) := by
      rw [← hA, ← s2, ← s4, ← hv i, ← OrrSommerfeld.delta_sum v (1 * Complex.I * α * (((derivative^[2] U).eval (xv n a b i) : ℝ) : ℂ)) i,
        ← OrrSommerfeld.delta_sum v (α ^ 4) i, Finset.mul_sum, Finset.mul_sum, ← Finset.sum_sub_distrib, ← Finset.sum_add_distrib,
        ← Finset.sum_add_distrib, Finset.sum_div, ← Finset.sum_add_distrib]
      refine Finset.sum_congr rfl fun j _ => ?_
      unfold OrrSommerfeld.B0
      simp only [hu, hdd]
      by_cases hij : (i:ℕ) = j
      · simp only [hij, if_true]; ring
      · simp only [if_neg hij]; ring
    unfold Mat.mulVec
    rw [sB, sA]
    simp only [eA, eB]
    rw [hA, hB]
    unfold harmonic_time_coef orrSommerfeld
    have hR' : (Re : ℂ) ≠ 0 := by exact_mod_cast hR
    have hI : Complex.I * (1 / (Complex.I * (Re : ℂ))) = 1 / (Re : ℂ) := by field_simp
    linear_combination (-(derivative^[4] V).eval ((xv n a b i : ℝ) : ℂ) + 2 * α ^ 2 * (derivative^[2] V).eval ((xv n a b i : ℝ) : ℂ)
            - α ^ 4 * V.eval ((xv n a b i : ℝ) : ℂ)) * hI
  · unfold Mat.mulVec
    refine Finset.sum_eq_zero fun j _ => ?_
    have : At.e i j = 0 := by
      show (OrrSommerfeld.wallA _ _).e _ _ = _
      by_cases h : i = n - 2 ∨ i = n - 2 + 1
      · exact OrrSommerfeld.wallA_at h
      · rw [OrrSommerfeld.wallA_ne (by omega) (by omega)]
        exact OrrSommerfeld.wallA_at (by omega)
    rw [this, zero_mul]
  · unfold Mat.mulVec
    rw [sB, ← x0, ← hv ⟨0, by omega⟩, ← hdelta 0 (by omega)]
    refine Finset.sum_congr rfl fun j _ => ?_
    show (OrrSommerfeld.wallB _ _ _ _).e _ _ * _ = _
    rw [OrrSommerfeld.wallB_ne (by omega) (by omega), OrrSommerfeld.wallB_val]
  · unfold Mat.mulVec
    rw [sB, ← x0, ← hder ⟨0, by omega⟩]
    refine Finset.sum_congr rfl fun j hj => ?_
    show (OrrSommerfeld.wallB _ _ _ _).e (0 + 1) _ * _ = _
    rw [OrrSommerfeld.wallB_ne (by omega) (by omega), OrrSommerfeld.wallB_der (Finset.mem_range.1 hj)]
  · unfold Mat.mulVec
    rw [sB, ← x1, ← hv ⟨n - 1, by omega⟩, ← hdelta (n - 1) (by omega)]
    refine Finset.sum_congr rfl fun j _ => ?_
    show (OrrSommerfeld.wallB _ _ _ _).e _ _ * _ = _
    rw [OrrSommerfeld.wallB_val]
  · unfold Mat.mulVec
    rw [sB, ← x1, ← hder ⟨n - 1, by omega⟩]
    refine Finset.sum_congr rfl fun j hj => ?_
    show (OrrSommerfeld.wallB _ _ _ _).e _ _ * _ = _
    have hw := OrrSommerfeld.wallB_der (D := Dm n a b 1) (M := OrrSommerfeld.wallB (Dm n a b 1) 0 0 (OrrSommerfeld.B0m a b n α Re up))
      (i := n - 1) (r := n - 2) (Finset.mem_range.1 hj)
    rw [show n - 2 + 1 = n - 1 by omega] at hw
    rw [hw]

/-- C50.  For every history of an `OrrSommerfeldModel(n, a, b)` object, `n ≥ 4`, `a ≠ b`, such that a boundary condition was accepted and the
base state has `Reynolds ≠ 0` and a profile equal on the interval to a polynomial `U` of degree `< n`: `compute_operators` succeeds, and
for every polynomial perturbation `V` of degree `< n` and every `ω` the interior rows of `B - (-i ω) At` applied to
the values of `V` at the nodes are `i` times the Orr–Sommerfeld operator; the four other rows of `At` vanish and those of `B` are
`V(a)`, `V'(a)`, `V(b)`, `V'(b)`. -/
theorem C50_operator (hn : 4 ≤ n) (hab : a ≠ b) (h : Heap) (calls : List OSCall) {α : ℂ} {Re : ℝ} {up : ℝ → ℝ} {ot : List String}
    (hq : (osAfter n a b h calls).basestate = some ⟨some α, some Re, some up, ot⟩) (hR : Re ≠ 0)
    (hbc : (osAfter n a b h calls).BC_type ≠ none) (U : ℝ[X]) (hU : U.degree < n)
    (hup : ∀ t ∈ Set.uIcc a b, up t = U.eval t) :
    ∃ d X s' B At, NumSpectral.x (osAfter n a b h calls).diffop = .ok (d, X) ∧
      OrrSommerfeld.compute_operators (osAfter n a b h calls) = (.ok (), s') ∧ s'.B = some B ∧ s'.At = some At ∧
      B.size = n ∧ At.size = n ∧
      ∀ (ω : ℂ) (V : ℂ[X]), V.degree < n → ∀ v : ℕ → ℂ, (∀ j : Fin n, v j = V.eval ((X j : ℝ) : ℂ)) →
        (∀ i : Fin n, 2 ≤ (i:ℕ) → (i:ℕ) < n - 2 → B.mulVec v i - harmonic_time_coef * ω * At.mulVec v i =
          Complex.I * orrSommerfeld α ω Re (U.eval (X i)) ((derivative^[2] U).eval (X i))
            (V.eval ((X i : ℝ) : ℂ)) ((derivative^[2] V).eval ((X i : ℝ) : ℂ)) ((derivative^[4] V).eval ((X i : ℝ) : ℂ))) ∧
        (∀ i : ℕ, i = 0 ∨ i = 1 ∨ i = n - 2 ∨ i = n - 1 → At.mulVec v i = 0) ∧
        B.mulVec v 0 = V.eval (a : ℂ) ∧ B.mulVec v 1 = (derivative V).eval (a : ℂ) ∧
        B.mulVec v (n - 2) = V.eval (b : ℂ) ∧ B.mulVec v (n - 1) = (derivative V).eval (b : ℂ) := by
  have hg := os_good_after (n := n) (by omega) hab h calls
  obtain ⟨⟨l, r⟩, hlr⟩ := Option.ne_none_iff_exists'.1 hbc
  obtain ⟨-, -, hl, hr⟩ := hg.bc l r hlr
  obtain ⟨d', hX, -, -⟩ := x_spec (by omega) hg.inv
  obtain ⟨d, hc, -⟩ := OrrSommerfeld.wall_ok (by omega) hab hg.inv hq hR hlr hl hr
  refine ⟨d', _, _, _, _, hX, hc, rfl, rfl, rfl, rfl, fun ω V hV v hv => ?_⟩
  exact os_rows hn hab hR hU (fun j => hup _ (xv_mem (by omega) j)) ω V hV v hv

/-- `Poiseuille(n, alpha, Re)` is the object created on `[-1, 1]` with profile `1 - y²` and walls: it meets the hypotheses of C50, with
`U = 1 - X²`. -/
theorem C50_Poiseuille (hn : 4 ≤ n) (α : ℂ) (Re : ℝ) (h : Heap) :
    ∃ calls, OrrSommerfeld.Poiseuille n α Re h = .ok (osAfter n (-1) 1 h calls) ∧
      (osAfter n (-1) 1 h calls).basestate = some ⟨some α, some Re, some fun y => 1 - y ^ 2, []⟩ ∧
      (osAfter n (-1) 1 h calls).BC_type ≠ none ∧ (1 - X ^ 2 : ℝ[X]).degree < n ∧
      ∀ y, 1 - y ^ 2 = (1 - X ^ 2 : ℝ[X]).eval y := by
  have hb : ∀ s : OrrSommerfeld.Obj n, OrrSommerfeld.set_basestate ⟨some α, some Re, some fun y => 1 - y ^ 2, []⟩ s
      = (.ok (), { s with basestate := some ⟨some α, some Re, some fun y => 1 - y ^ 2, []⟩ }) := by
    intro s
    unfold OrrSommerfeld.set_basestate
    simp [OrrSommerfeld.req_keys, OrrSommerfeld.Base.keys]
  obtain ⟨h2, hh2⟩ : ∃ h2 : Heap, h2 = ((h.alloc ⟨some "wall", []⟩).2.alloc ⟨some "wall", []⟩).2 := ⟨_, rfl⟩
  have hs : ∀ s : OrrSommerfeld.Obj n, s.heap = h2 → OrrSommerfeld.set_BC (.dict h.next) (.dict (h.next + 1)) s
      = (.ok (), { s with BC_type := some (h.next, h.next + 1) }) := by
    intro s hs
    obtain ⟨d0, q, B, At, bc, hp⟩ := s
    simp only at hs
    subst hs hh2
    rw [os_set_BC_eq]
    unfold check_BCs
    have c1 : check_BC OrrSommerfeld.BC_names (.dict h.next) ((h.alloc ⟨some "wall", []⟩).2.alloc ⟨some "wall", []⟩).2
      = (.ok h.next, ((h.alloc ⟨some "wall", []⟩).2.alloc ⟨some "wall", []⟩).2) := by
      simp [check_BC, Heap.alloc, OrrSommerfeld.BC_names]
    have c2 : check_BC OrrSommerfeld.BC_names (.dict (h.next + 1)) ((h.alloc ⟨some "wall", []⟩).2.alloc ⟨some "wall", []⟩).2
      = (.ok (h.next + 1), ((h.alloc ⟨some "wall", []⟩).2.alloc ⟨some "wall", []⟩).2) := by
      simp [check_BC, Heap.alloc, OrrSommerfeld.BC_names]
    rw [Meth.bind_ok c1, Meth.bind_ok c2]
    rfl
  have e : osAfter n (-1) 1 h [.set_basestate ⟨some α, some Re, some fun y => 1 - y ^ 2, []⟩, .newDict ⟨some "wall", []⟩,
      .newDict ⟨some "wall", []⟩, .set_BC (.dict h.next) (.dict (h.next + 1))]
      = ⟨NumSpectral.mk n (some (-1)) (some 1), some ⟨some α, some Re, some fun y => 1 - y ^ 2, []⟩, none, none,
        some (h.next, h.next + 1), h2⟩ := by
    unfold osAfter
    simp only [List.foldl]
    have s1 : osStep (osNew n (-1) 1 h) (.set_basestate ⟨some α, some Re, some fun y => 1 - y ^ 2, []⟩)
        = { osNew n (-1) 1 h with basestate := some ⟨some α, some Re, some fun y => 1 - y ^ 2, []⟩ } := by
      unfold osStep
      simp only []
      rw [hb]
    rw [s1]
    unfold osStep
    simp only []
    rw [hs _ hh2.symm, if_pos ⟨by show h.next < h.next + 1 + 1; omega, by show h.next + 1 < h.next + 1 + 1; omega⟩, hh2]
    rfl
  have e1 : OrrSommerfeld.Poiseuille n α Re h = .ok ⟨NumSpectral.mk n (some (-1)) (some 1),
      some ⟨some α, some Re, some fun y => 1 - y ^ 2, []⟩, none, none, some (h.next, h.next + 1), h2⟩ := by
    unfold OrrSommerfeld.Poiseuille OrrSommerfeld.init
    simp only [Py.ok_bind]
    rw [hb]
    show (match OrrSommerfeld.set_BC (n := n) (.dict h.next) (.dict (h.next + 1)) ⟨NumSpectral.mk n (some (-1.0)) (some 1.0),
        some ⟨some α, some Re, some fun y => 1 - y ^ 2, []⟩, none, none, none, ((h.alloc ⟨some "wall", []⟩).2.alloc ⟨some "wall", []⟩).2⟩ with
      | (.error e, _) => (.error e : Py (OrrSommerfeld.Obj n)) | (.ok _, s) => .ok s) = _
    rw [hs _ hh2.symm, ← hh2, show (-1.0:ℝ) = -1 by norm_num, show (1.0:ℝ) = 1 by norm_num]
  refine ⟨[.set_basestate ⟨some α, some Re, some fun y => 1 - y ^ 2, []⟩, .newDict ⟨some "wall", []⟩, .newDict ⟨some "wall", []⟩,
    .set_BC (.dict h.next) (.dict (h.next + 1))], ?_, ?_, ?_, ?_, ?_⟩
  · rw [e, e1]
  · rw [e]
  · rw [e]; simp
  · refine lt_of_le_of_lt (b := 2) (by compute_degree) (by exact_mod_cast (by omega : 2 < n))
  · intro y; simp

/-- non-vacuity of C50: a Poiseuille object on 10 points -/
example (h : Heap) : ∃ calls s', OrrSommerfeld.Poiseuille 10 1 10000 h = .ok (osAfter 10 (-1) 1 h calls) ∧
    OrrSommerfeld.compute_operators (osAfter 10 (-1) 1 h calls) = (.ok (), s') := by
  obtain ⟨calls, h1, h2, h3, h4, h5⟩ := C50_Poiseuille (n := 10) (by norm_num) 1 10000 h
  obtain ⟨d, X, s', B, At, -, h6, -⟩ := C50_operator (n := 10) (by norm_num) (by norm_num : (-1:ℝ) ≠ 1) h calls h2 (by norm_num) h3 (1 - X ^ 2) h4
    fun t _ => h5 t
  exact ⟨calls, s', h1, h6⟩

/-! ## C51 -/

/-- C51: whatever the object (hence after any history), `set_basestate` raises `DictKeyError` exactly when one of the three required
keys is missing, and then changes nothing; otherwise it only replaces the base state. -/
theorem C51_set_basestate (s : OrrSommerfeld.Obj n) (q : OrrSommerfeld.Base) :
    ((q.alpha = none ∨ q.Reynolds = none ∨ q.uprofile = none) → OrrSommerfeld.set_basestate q s = (.error .dictKeyError, s)) ∧
    (¬ (q.alpha = none ∨ q.Reynolds = none ∨ q.uprofile = none) →
      OrrSommerfeld.set_basestate q s = (.ok (), { s with basestate := some q })) := by
  obtain ⟨al, re, up, ot⟩ := q
  unfold OrrSommerfeld.set_basestate
  cases al <;> cases re <;> cases up <;>
    simp [OrrSommerfeld.req_keys, OrrSommerfeld.Base.keys, List.filter_cons]

/-- C51: the constructor called with a base state raises in the same cases, and else gives the object created without base state,
followed by `set_basestate`. -/
theorem C51_init (a b : ℝ) (h : Heap) (q : OrrSommerfeld.Base) :
    ((q.alpha = none ∨ q.Reynolds = none ∨ q.uprofile = none) → OrrSommerfeld.init n (some a) (some b) (some q) h = .error .dictKeyError) ∧
    (¬ (q.alpha = none ∨ q.Reynolds = none ∨ q.uprofile = none) →
      OrrSommerfeld.init n (some a) (some b) (some q) h = .ok (osAfter n a b h [.set_basestate q])) := by
  have hc := C51_set_basestate (osNew n a b h) q
  refine ⟨fun hq => ?_, fun hq => ?_⟩
  · have := hc.1 hq
    unfold osNew at this
    unfold OrrSommerfeld.init
    simp only []
    rw [this]
  · have := hc.2 hq
    have e : osAfter n a b h [.set_basestate q] = (OrrSommerfeld.set_basestate q (osNew n a b h)).2 := rfl
    rw [e, this]
    unfold osNew at this
    unfold OrrSommerfeld.init
    simp only []
    rw [this]
    rfl

example : (⟨some 1, none, some fun y => 1 - y ^ 2, ["re"]⟩ : OrrSommerfeld.Base).Reynolds = none := rfl

/-! ## C85 -/

/-- C85: the matrices computed by an Orr–Sommerfeld object depend only on the grid and on the current base state, not on the history:
two objects with the same `n`, interval and base state (`Reynolds ≠ 0`) on which boundary conditions were set compute the same matrices,
and computing again after that succeeds with the same result. -/
theorem C85_history_independent (hn : 2 ≤ n) (hab : a ≠ b) (h h' : Heap) (calls calls' : List OSCall) {α : ℂ} {Re : ℝ} {up : ℝ → ℝ}
    {ot : List String} (hq : (osAfter n a b h calls).basestate = some ⟨some α, some Re, some up, ot⟩)
    (hq' : (osAfter n a b h' calls').basestate = some ⟨some α, some Re, some up, ot⟩) (hR : Re ≠ 0)
    (hbc : (osAfter n a b h calls).BC_type ≠ none) (hbc' : (osAfter n a b h' calls').BC_type ≠ none) :
    ∃ B At s s' s'', OrrSommerfeld.compute_operators (osAfter n a b h calls) = (.ok (), s) ∧
      OrrSommerfeld.compute_operators (osAfter n a b h' calls') = (.ok (), s') ∧ OrrSommerfeld.compute_operators s = (.ok (), s'') ∧
      s.B = some B ∧ s'.B = some B ∧ s''.B = some B ∧ s.At = some At ∧ s'.At = some At ∧ s''.At = some At := by
  have main : ∀ (h : Heap) (calls : List OSCall), (osAfter n a b h calls).basestate = some ⟨some α, some Re, some up, ot⟩ →
      (osAfter n a b h calls).BC_type ≠ none → ∃ s, OrrSommerfeld.compute_operators (osAfter n a b h calls) = (.ok (), s) ∧
      s.B = some (OrrSommerfeld.wallB (Dm n a b 1) (n - 1) (n - 2) (OrrSommerfeld.wallB (Dm n a b 1) 0 0 (OrrSommerfeld.B0m a b n α Re up))) ∧
      s.At = some (OrrSommerfeld.wallA (n - 2) (OrrSommerfeld.wallA 0 (OrrSommerfeld.A0m a b n α))) ∧
      s.basestate = some ⟨some α, some Re, some up, ot⟩ ∧ s.BC_type ≠ none := by
    intro h calls hq hbc
    have hg := os_good_after (n := n) hn hab h calls
    obtain ⟨⟨l, r⟩, hlr⟩ := Option.ne_none_iff_exists'.1 hbc
    obtain ⟨-, -, hl, hr⟩ := hg.bc l r hlr
    obtain ⟨d, hc, -⟩ := OrrSommerfeld.wall_ok hn hab hg.inv hq hR hlr hl hr
    exact ⟨_, hc, rfl, rfl, hq, hbc⟩
  obtain ⟨s, h1, h2, h3, h4, h5⟩ := main h calls hq hbc
  obtain ⟨s', h1', h2', h3', -⟩ := main h' calls' hq' hbc'
  have e : osAfter n a b h (calls ++ [.compute_operators]) = s := by
    unfold osAfter
    rw [List.foldl_append]
    show (OrrSommerfeld.compute_operators (osAfter n a b h calls)).2 = s
    rw [h1]
  obtain ⟨s'', h1'', h2'', h3'', -⟩ := main h (calls ++ [.compute_operators]) (by rw [e]; exact h4) (by rw [e]; exact h5)
  rw [e] at h1''
  exact ⟨_, _, s, s', s'', h1, h1', h1'', h2, h2', h2'', h3, h3', h3''⟩

/-- C83 fails for `OrrSommerfeldModel` too: computing before `set_BC` raises `TypeError` but leaves the matrices without boundary rows,
which `get_RHS_time_matrices` then returns, even after walls have been set: the wall rows are not imposed. -/
theorem C83_orrsommerfeld_false (hn : 4 ≤ n) (hab : a ≠ b) (h : Heap) {α : ℂ} {Re : ℝ} {up : ℝ → ℝ} (hR : Re ≠ 0) :
    ∃ B At s' s'', OrrSommerfeld.get_RHS_time_matrices (osAfter n a b h [.set_basestate ⟨some α, some Re, some up, []⟩])
        = (.error .typeError, s') ∧
      (osAfter n a b h [.set_basestate ⟨some α, some Re, some up, []⟩, .get_RHS_time_matrices, .set_BC (.str "wall") (.str "wall")]).BC_type
        ≠ none ∧
      OrrSommerfeld.get_RHS_time_matrices
        (osAfter n a b h [.set_basestate ⟨some α, some Re, some up, []⟩, .get_RHS_time_matrices, .set_BC (.str "wall") (.str "wall")])
        = (.ok (B, At), s'') ∧
      ∃ v : ℕ → ℂ, At.mulVec v 0 ≠ 0 := by
  have hg := os_good_after (n := n) (by omega) hab h [.set_basestate ⟨some α, some Re, some up, []⟩]
  obtain ⟨s0, hs0⟩ : ∃ s0, s0 = osAfter n a b h [.set_basestate ⟨some α, some Re, some up, []⟩] := ⟨_, rfl⟩
  have hq : s0 = { osNew n a b h with basestate := some ⟨some α, some Re, some up, []⟩ } := by
    have := (C51_set_basestate (osNew n a b h) ⟨some α, some Re, some up, []⟩).2 (by simp)
    rw [hs0]
    show (OrrSommerfeld.set_basestate _ (osNew n a b h)).2 = _
    rw [this]
  rw [← hs0] at hg ⊢
  obtain ⟨d, h1, -⟩ := OrrSommerfeld.compute_pre (by omega) hab hg.inv (s := s0) (by rw [hq]) hR
  have h2 : OrrSommerfeld.compute_BC (OrrSommerfeld.pre s0 d a b α Re up) = (.error .typeError, OrrSommerfeld.pre s0 d a b α Re up) := by
    unfold OrrSommerfeld.compute_BC
    rw [Meth.bind_ok (Meth.get_apply _ _), show (OrrSommerfeld.pre s0 d a b α Re up).BC_type = none by
      show s0.BC_type = none
      rw [hq]; rfl]
    rfl
  have h3 : OrrSommerfeld.get_RHS_time_matrices s0 = (.error .typeError, OrrSommerfeld.pre s0 d a b α Re up) := by
    unfold OrrSommerfeld.get_RHS_time_matrices LinOperator.get_RHS_time_matrices
    rw [Meth.bind_ok (Meth.get_apply _ _), Meth.when_pos (by rw [hq]; rfl), Meth.bind_err (h1.trans h2)]
  obtain ⟨h', -, -, c⟩ := os_set_BC_spec (OrrSommerfeld.pre s0 d a b α Re up) (.str "wall") (.str "wall") trivial trivial
  have hv : bcValid ["wall"] (OrrSommerfeld.pre s0 d a b α Re up).heap (.str "wall") := ⟨"wall", by simp, rfl⟩
  rcases c with ⟨-, -, l, r, -, -, -, -, c⟩ | ⟨c, -⟩
  swap
  · exact absurd ⟨hv, hv⟩ c
  have e : osAfter n a b h [.set_basestate ⟨some α, some Re, some up, []⟩, .get_RHS_time_matrices, .set_BC (.str "wall") (.str "wall")]
      = { OrrSommerfeld.pre s0 d a b α Re up with heap := h', BC_type := some (l, r) } := by
    have e1 : osAfter n a b h [.set_basestate ⟨some α, some Re, some up, []⟩, .get_RHS_time_matrices, .set_BC (.str "wall") (.str "wall")]
      = osStep (osStep s0 .get_RHS_time_matrices) (.set_BC (.str "wall") (.str "wall")) := by rw [hs0]; rfl
    have e2 : osStep s0 .get_RHS_time_matrices = OrrSommerfeld.pre s0 d a b α Re up := by
      show (OrrSommerfeld.get_RHS_time_matrices s0).2 = _
      rw [h3]
    rw [e1, e2]
    unfold osStep
    simp only []
    rw [if_pos ⟨trivial, trivial⟩, c]
  refine ⟨OrrSommerfeld.B0m a b n α Re up, OrrSommerfeld.A0m a b n α, _,
    { OrrSommerfeld.pre s0 d a b α Re up with heap := h', BC_type := some (l, r) }, h3, by rw [e]; simp, ?_, ?_⟩
  · rw [e]
    rfl
  · have key : ∀ V : ℂ[X], V.degree < n → (OrrSommerfeld.A0m a b n α).mulVec (fun j => if hj : j < n then V.eval ((xv n a b ⟨j, hj⟩ : ℝ) : ℂ) else 0) 0
        = (derivative^[2] V).eval ((xv n a b ⟨0, by omega⟩ : ℝ) : ℂ) - α ^ 2 * V.eval ((xv n a b ⟨0, by omega⟩ : ℝ) : ℂ) := by
      intro V hV
      generalize hw : (fun j => if hj : j < n then V.eval ((xv n a b ⟨j, hj⟩ : ℝ) : ℂ) else 0) = w
      have hv : ∀ j : Fin n, w (j:ℕ) = V.eval ((xv n a b j : ℝ) : ℂ) := fun j => by rw [← hw]; simp
      rw [← OrrSommerfeld.ent_sum (by omega) hab 2 V hV ⟨0, by omega⟩ w hv, ← hv ⟨0, by omega⟩,
        ← OrrSommerfeld.delta_sum _ (α ^ 2) ⟨0, by omega⟩, ← Finset.sum_sub_distrib]
      refine Finset.sum_congr rfl fun j _ => ?_
      show OrrSommerfeld.At0 α (Dm n a b 2) 0 j * _ = _
      unfold OrrSommerfeld.At0
      ring
    by_cases hα : α = 0
    · have k := key (X ^ 2) (lt_of_le_of_lt (degree_X_pow_le 2) (by exact_mod_cast (by omega : 2 < n)))
      refine Exists.intro _ (k.trans_ne ?_)
      rw [hα]
      simp
    · have k := key 1 (lt_of_le_of_lt degree_one_le (by exact_mod_cast (by omega : 0 < n)))
      refine Exists.intro _ (k.trans_ne ?_)
      simp [hα]

end Aerokit.Props
