import Verif.Model.Rounded
import Verif.Model.Ode
import Verif.Lemmas.Nearest

/-!
# C130: the abscissas of `RK4` in floating point
-/

namespace Aerokit.Props
open Rounded (Arith Flt Nearest)

variable {E : Type} {p : ℕ} {F : Arith}

/-- **C130 (same program).** Without rounding, the loop below is the one of the exact model. -/
theorem C130_exact {E : Type} [AddCommGroup E] [Module ℝ E] (G : ℝ → E → Py E) (fuel : ℕ) (x : ℝ) (y : E) (xStop h : ℝ) :
    Rounded.RK4 Rounded.exact fuel (fun x y h => do let dy ← Ode.run_kut4 G x y h; return y + dy) x y xStop h
      = Ode.RK4 fuel G x y xStop h := by
  have loop : ∀ (fuel : ℕ) (x : ℝ) (y : E) (h : ℝ),
      Rounded.RK4loop Rounded.exact (fun x y h => do let dy ← Ode.run_kut4 G x y h; return y + dy) xStop fuel x y h
        = Ode.RK4loop G xStop fuel x y h := by
    intro fuel
    induction fuel with
    | zero => intro x y h; unfold Rounded.RK4loop Ode.RK4loop; rfl
    | succ n ih =>
      intro x y h
      unfold Rounded.RK4loop Ode.RK4loop
      split_ifs
      · have e1 : ∀ a b, Rounded.exact.sub a b = a - b := fun _ _ => rfl
        have e2 : ∀ a b, Rounded.exact.add a b = a + b := fun _ _ => rfl
        simp only [Py.pure_eq] at ih
        simp only [e1, e2, bind_assoc, Py.pure_eq, Py.ok_bind, ih]
      · rfl
  unfold Rounded.RK4 Ode.RK4
  rw [loop]

/-- the abscissas increase, stay below `xStop` except the last one, which is in `[xStop, xStop + δ]` -/
def Ends (δ xStop : ℝ) : ℝ → List ℝ → Prop
  | x, [] => xStop ≤ x ∧ x ≤ xStop + δ
  | x, z :: l => x < xStop ∧ x < z ∧ Ends δ xStop z l

/-- the loop started from `x` with the step `h` ends in at most `K` steps -/
def Stops (F : Arith) (upd : ℝ → E → ℝ → E) (δ xStop : ℝ) (K : ℕ) (x h : ℝ) : Prop :=
  ∀ (y : E) (fuel : ℕ), K ≤ fuel → ∃ l, Rounded.RK4loop F (fun x y h => .ok (upd x y h)) xStop fuel x y h = .ok l ∧
    l.length ≤ K ∧ Ends δ xStop x (l.map Prod.fst)

theorem Stops.done {upd : ℝ → E → ℝ → E} {δ xStop x h : ℝ} (h1 : xStop ≤ x) (h2 : x ≤ xStop + δ) (K : ℕ) :
    Stops F upd δ xStop K x h := fun y fuel _ => by
  refine ⟨[], ?_, by simp, h1, h2⟩
  unfold Rounded.RK4loop
  rw [if_neg (not_lt.2 h1)]

theorem Stops.step {upd : ℝ → E → ℝ → E} {δ xStop x h x' h' : ℝ} {K : ℕ} (hx : x < xStop) (eh : min h (F.rnd (xStop - x)) = h')
    (ex : F.rnd (x + h') = x') (hlt : x < x') (hs : Stops F upd δ xStop K x' h') : Stops F upd δ xStop (K + 1) x h := fun y fuel hf => by
  obtain ⟨n, rfl⟩ : ∃ n, fuel = n + 1 := ⟨fuel - 1, by omega⟩
  obtain ⟨l, hl, hlen, hend⟩ := hs (upd x y h') n (by omega)
  refine ⟨(x', upd x y h') :: l, ?_, by simpa using hlen, hx, hlt, hend⟩
  unfold Rounded.RK4loop
  rw [if_pos hx]
  simp only [Arith.sub, Arith.add, Py.ok_bind, eh, ex, hl, Py.pure_eq]

theorem Stops.mono {upd : ℝ → E → ℝ → E} {δ xStop x h : ℝ} {K K' : ℕ} (hs : Stops F upd δ xStop K x h) (hK : K ≤ K') :
    Stops F upd δ xStop K' x h := fun y fuel hf => by
  obtain ⟨l, h1, h2, h3⟩ := hs y fuel (hK.trans hf)
  exact ⟨l, h1, h2.trans hK, h3⟩

section final
variable {upd : ℝ → E → ℝ → E} {δ xStop x h : ℝ}

/-- the step computed from the remaining distance, when that distance is a float -/
theorem stops_exact (N : Nearest p F) (hδ : 0 ≤ δ) (hS : Flt p xStop) (hx : x < xStop) (hd : Flt p (xStop - x))
    (hh : F.rnd (xStop - x) ≤ h) : Stops F upd δ xStop 1 x h := by
  have e := N.fix hd
  refine Stops.step (h' := xStop - x) (x' := xStop) hx ?_ ?_ hx (Stops.done le_rfl (by linarith) 0)
  · rw [min_eq_right hh, e]
  · rw [show x + (xStop - x) = xStop by ring, N.fix hS]

/-- one final step: the remaining distance shrinks by `2u` -/
theorem final_step (N : Nearest p F) (hS : Flt p xStop) (hx : x < xStop) :
    |F.rnd (x + F.rnd (xStop - x)) - xStop| ≤ 2 * F.u * (xStop - x) := by
  have h1 := F.rnd_rel (xStop - x)
  rw [abs_of_pos (sub_pos.2 hx)] at h1
  have h2 := N.near (x + F.rnd (xStop - x)) xStop hS
  rw [show xStop - (x + F.rnd (xStop - x)) = -(F.rnd (xStop - x) - (xStop - x)) by ring, abs_neg] at h2
  have e : F.rnd (x + F.rnd (xStop - x)) - xStop
      = (F.rnd (x + F.rnd (xStop - x)) - (x + F.rnd (xStop - x))) + (F.rnd (xStop - x) - (xStop - x)) := by ring
  rw [e]
  refine (abs_add_le _ _).trans ?_
  linarith

/-- continue after a final step -/
theorem stops_final (N : Nearest p F) (hu : F.u ≤ 1 / 4) (hS : Flt p xStop) (hx : x < xStop)
    (hδ : 2 * F.u * (xStop - x) ≤ δ) (hh : F.rnd (xStop - x) ≤ h) {K : ℕ}
    (next : F.rnd (x + F.rnd (xStop - x)) < xStop → F.rnd (xStop - F.rnd (x + F.rnd (xStop - x))) ≤ F.rnd (xStop - x) →
      Stops F upd δ xStop K (F.rnd (x + F.rnd (xStop - x))) (F.rnd (xStop - x))) : Stops F upd δ xStop (K + 1) x h := by
  have b := abs_le.1 (final_step N hS hx)
  have hd : 0 < xStop - x := sub_pos.2 hx
  have b1 : 2 * F.u * (xStop - x) ≤ 1 / 2 * (xStop - x) := mul_le_mul_of_nonneg_right (by linarith) hd.le
  refine Stops.step hx (min_eq_right hh) rfl (by linarith) ?_
  rcases lt_or_ge (F.rnd (x + F.rnd (xStop - x))) xStop with h1 | h1
  · exact next h1 (N.mono (by linarith))
  · exact Stops.done h1 (by linarith) K

/-- from the final part of the integration, at most three steps -/
theorem stops_three (N : Nearest p F) (hu : F.u ≤ 1 / 4) (hS : Flt p xStop) (hX : Flt p x) (hx : x < xStop)
    (hδ : 2 * F.u * (xStop - x) ≤ δ) (hh : F.rnd (xStop - x) ≤ h) : Stops F upd δ xStop 3 x h := by
  have hd : 0 < xStop - x := sub_pos.2 hx
  have hδ0 : 0 ≤ δ := le_trans (by have := F.u_nonneg; positivity) hδ
  have pos2 : ∀ {x h : ℝ}, Flt p x → 0 ≤ x → x < xStop → 2 * F.u * (xStop - x) ≤ δ → F.rnd (xStop - x) ≤ h → Stops F upd δ xStop 2 x h := by
    intro x h hX h0 hx hδ hh
    have hd : 0 < xStop - x := sub_pos.2 hx
    have hS0 : 0 < xStop := h0.trans_lt hx
    have close : ∀ {z k : ℝ}, Flt p z → z < xStop → xStop ≤ 2 * z → F.rnd (xStop - z) ≤ k → Stops F upd δ xStop 1 z k := by
      intro z k hz hz1 hz2 hk
      refine stops_exact N hδ0 hS hz1 (Rounded.sterbenz hz hS ?_ ?_) hk
      · rw [abs_of_pos (by linarith), abs_of_pos (by linarith)]; linarith
      · rw [abs_of_pos (by linarith), abs_of_pos (by linarith)]; linarith
    refine stops_final N hu hS hx hδ hh fun h1 h2 => close (N.mem _) h1 ?_ h2
    have b := abs_le.1 (final_step N hS hx)
    have b1 : 2 * F.u * (xStop - x) ≤ 1 / 2 * (xStop - x) := mul_le_mul_of_nonneg_right (by linarith) hd.le
    linarith
  have shrink : F.rnd (x + F.rnd (xStop - x)) < xStop → 2 * F.u * (xStop - F.rnd (x + F.rnd (xStop - x))) ≤ δ := fun _ => by
    refine le_trans (mul_le_mul_of_nonneg_left ?_ (by have := F.u_nonneg; positivity)) hδ
    have b := abs_le.1 (final_step N hS hx)
    have b1 : 2 * F.u * (xStop - x) ≤ 1 / 2 * (xStop - x) := mul_le_mul_of_nonneg_right (by linarith) hd.le
    linarith
  rcases le_or_gt 0 x with h0 | h0
  · exact (pos2 hX h0 hx hδ hh).mono (by norm_num)
  rcases lt_trichotomy xStop 0 with hs | hs | hs
  · rcases le_or_gt (2 * xStop) x with hc | hc
    · refine (stops_exact N hδ0 hS hx (Rounded.sterbenz hX hS ?_ ?_) hh).mono (by norm_num)
      · rw [abs_of_pos hd, abs_of_neg h0]; linarith
      · rw [abs_of_pos hd, abs_of_neg hs]; linarith
    refine (stops_final N hu hS hx hδ hh fun h1 h2 => stops_exact N hδ0 hS h1 ?_ h2 :
      Stops F upd δ xStop (1 + 1) x h).mono (by norm_num)
    -- `x + h` is exact, and the remaining distance is the rounding error of `xStop - x`
    have r1 := N.near (xStop - x) (-x) hX.neg
    rw [show -x - (xStop - x) = -xStop by ring, abs_neg] at r1
    have r2 : |xStop - (x + F.rnd (xStop - x))| ≤ |xStop| := by
      rw [show xStop - (x + F.rnd (xStop - x)) = -(F.rnd (xStop - x) - (xStop - x)) by ring, abs_neg]; exact r1
    have err : Flt p (xStop - (x + F.rnd (xStop - x))) := by
      refine Rounded.flt_common hX hS ?_ (r2.trans ?_) r2
      · rintro e ⟨a, b, ha, hb⟩
        obtain ⟨c, hc⟩ := N.mult (d := xStop - x) (a := b - a) (e := e) (by rw [ha, hb]; push_cast; ring) hd
        exact ⟨b - (a + c), by rw [hc]; push_cast; linear_combination hb - ha⟩
      · rw [abs_of_neg h0, abs_of_neg hs]; linarith
    have ex : F.rnd (x + F.rnd (xStop - x)) = x + F.rnd (xStop - x) := by
      refine N.fix ?_
      have up : F.rnd (xStop - x) ≤ -x := by
        have := N.mono (show xStop - x ≤ -x by linarith)
        rwa [N.fix hX.neg] at this
      have half : Flt p (-x / 2) := by
        obtain ⟨m, e, hm, hx⟩ := hX.neg
        exact ⟨m, e - 1, hm, by rw [hx, zpow_sub₀ (by norm_num), zpow_one]; ring⟩
      have low : -x / 2 ≤ F.rnd (xStop - x) := by
        have := N.mono (show -x / 2 ≤ xStop - x by linarith)
        rwa [N.fix half] at this
      have := Rounded.sterbenz hX.neg (N.mem (xStop - x)) (by
        rw [abs_of_nonpos (show F.rnd (xStop - x) - -x ≤ 0 by linarith), abs_of_pos (show 0 < -x by linarith)]; linarith) (by
        rw [abs_of_nonpos (show F.rnd (xStop - x) - -x ≤ 0 by linarith), abs_of_pos (by linarith)]; linarith)
      rwa [sub_neg_eq_add, add_comm] at this
    rw [ex]; exact err
  · refine (stops_exact N hδ0 hS hx ?_ hh).mono (by norm_num)
    rw [hs, zero_sub]; exact hX.neg
  · refine stops_final N hu hS hx hδ hh fun h1 h2 => pos2 (N.mem _) ?_ h1 (shrink h1) h2
    have : -x ≤ F.rnd (xStop - x) := by
      have := N.mono (show -x ≤ xStop - x by linarith)
      rwa [N.fix hX.neg] at this
    have := N.mono (show 0 ≤ x + F.rnd (xStop - x) by linarith)
    rwa [N.fix Flt.zero] at this

end final

/-- the part of the integration with the step asked for -/
theorem stops_regular (N : Nearest p F) {upd : ℝ → E → ℝ → E} {δ xStop x0 h : ℝ} {K : ℕ} (hδ : 0 ≤ δ) (hS : Flt p xStop) (hh : Flt p h)
    (hbig : F.u * max |x0| |xStop| < h)
    (final : ∀ x, Flt p x → x0 ≤ x → x < xStop → xStop - x < h → Stops F upd δ xStop K x h) :
    ∀ (n : ℕ) (x : ℝ), Flt p x → x0 ≤ x → x ≤ xStop → xStop - x ≤ n * (h - F.u * max |x0| |xStop|) → Stops F upd δ xStop (n + K) x h := by
  have hB : 0 ≤ F.u * max |x0| |xStop| := mul_nonneg F.u_nonneg (le_max_of_le_left (abs_nonneg _))
  intro n
  induction n with
  | zero =>
    intro x hX h0 h1 h2
    simp only [Nat.cast_zero, zero_mul] at h2
    exact Stops.done (by linarith) (by linarith) _
  | succ n ih =>
    intro x hX h0 h1 h2
    rcases h1.eq_or_lt with h1 | h1
    · exact Stops.done (by linarith) (by linarith) _
    rcases lt_or_ge (xStop - x) h with h3 | h3
    · exact (final x hX h0 h1 h3).mono (by omega)
    have e : min h (F.rnd (xStop - x)) = h := min_eq_left (by have := N.mono h3; rwa [N.fix hh] at this)
    have hr := F.rnd_rel (x + h)
    have hab : |x + h| ≤ max |x0| |xStop| := by
      rw [abs_le]
      have a1 := neg_abs_le x0
      have a2 := le_abs_self xStop
      have a3 := le_max_left |x0| |xStop|
      have a4 := le_max_right |x0| |xStop|
      constructor <;> linarith
    have hr2 := (abs_le.1 (hr.trans (mul_le_mul_of_nonneg_left hab F.u_nonneg))).1
    have up : F.rnd (x + h) ≤ xStop := by
      have := N.mono (show x + h ≤ xStop by linarith)
      rwa [N.fix hS] at this
    have := Stops.step (K := n + K) h1 e rfl (by linarith) (ih (F.rnd (x + h)) (N.mem _) (by linarith) up (by push_cast at h2; linarith))
    rwa [show n + K + 1 = n + 1 + K by ring] at this

theorem Ends.spec {δ xStop : ℝ} : ∀ {x : ℝ} {l : List ℝ}, Ends δ xStop x l →
    (x :: l).Pairwise (· < ·) ∧ (∀ z ∈ (x :: l).dropLast, z < xStop) ∧
      ∃ z, (x :: l).getLast? = some z ∧ xStop ≤ z ∧ z ≤ xStop + δ
  | x, [], h => by simpa [Ends] using h
  | x, z :: l, h => by
    obtain ⟨h1, h2, h3⟩ := h
    obtain ⟨a, b, c⟩ := Ends.spec h3
    refine ⟨List.pairwise_cons.2 ⟨?_, a⟩, ?_, ?_⟩
    · intro w hw
      rcases List.mem_cons.1 hw with rfl | hw
      · exact h2
      · exact h2.trans ((List.pairwise_cons.1 a).1 w hw)
    · intro w hw
      rw [List.dropLast_cons_of_ne_nil (by simp)] at hw
      rcases List.mem_cons.1 hw with rfl | hw
      · exact h1
      · exact b w hw
    · simpa [List.getLast?_cons_cons] using c

/-- **C130 (termination).** In any arithmetic rounding to nearest with `p ≥ 2` binary digits (any rule for ties,
any rounding in the right-hand side), `RK4` from `x` to `xStop > x` with a step `h > u max(|x|,|xStop|)`, `u = 2⁻ᵖ`,
ends: with `n (h - u max(|x|,|xStop|)) ≥ xStop - x` it makes at most `n + 3` steps, the abscissas are strictly
increasing, all below `xStop` but the last, which exceeds `xStop` by at most `2u (xStop - x)`. -/
theorem C130_terminates_partial (N : Nearest p F) (hu : F.u ≤ 1 / 4) (upd : ℝ → E → ℝ → E) (x xStop h : ℝ) (y : E)
    (hX : Flt p x) (hS : Flt p xStop) (hh : Flt p h) (hx : x < xStop) (hbig : F.u * max |x| |xStop| < h)
    (n : ℕ) (hn : xStop - x ≤ n * (h - F.u * max |x| |xStop|)) (fuel : ℕ) (hf : n + 3 ≤ fuel) :
    ∃ l, Rounded.RK4 F fuel (fun x y h => .ok (upd x y h)) x y xStop h = .ok l ∧ l.head? = some (x, y) ∧ l.length ≤ n + 4 ∧
      (l.map Prod.fst).Pairwise (· < ·) ∧ (∀ z ∈ (l.map Prod.fst).dropLast, z < xStop) ∧
      ∃ z, (l.map Prod.fst).getLast? = some z ∧ xStop ≤ z ∧ z ≤ xStop + 2 * F.u * (xStop - x) := by
  have u0 := F.u_nonneg
  have hd : 0 < xStop - x := sub_pos.2 hx
  have hs := stops_regular (upd := upd) (K := 3) (δ := 2 * F.u * (xStop - x)) N (by positivity) hS hh hbig (fun z hz h0 h1 h2 =>
    stops_three N hu hS hz h1 (mul_le_mul_of_nonneg_left (by linarith) (by positivity))
      (by have := N.mono h2.le; rwa [N.fix hh] at this)) n x hX le_rfl hx.le hn
  obtain ⟨l, h1, h2, h3⟩ := hs y fuel hf
  obtain ⟨a, b, c⟩ := h3.spec
  refine ⟨(x, y) :: l, ?_, rfl, by simpa using h2, a, b, c⟩
  unfold Rounded.RK4
  rw [h1]; rfl

/-- **C130 (exact end).** From `x ≥ 0` and with a step not larger than `xStop / 2`, the last abscissa is exactly `xStop`. -/
theorem C130_exact_end_partial (N : Nearest p F) (upd : ℝ → E → ℝ → E) (x xStop h : ℝ) (y : E)
    (hX : Flt p x) (hS : Flt p xStop) (hh : Flt p h) (hx : x < xStop) (hx0 : 0 ≤ x) (hh2 : 2 * h ≤ xStop)
    (hbig : F.u * xStop < h) (n : ℕ) (hn : xStop - x ≤ n * (h - F.u * xStop)) (fuel : ℕ) (hf : n + 1 ≤ fuel) :
    ∃ l, Rounded.RK4 F fuel (fun x y h => .ok (upd x y h)) x y xStop h = .ok l ∧ l.head? = some (x, y) ∧ l.length ≤ n + 2 ∧
      (l.map Prod.fst).Pairwise (· < ·) ∧ (∀ z ∈ (l.map Prod.fst).dropLast, z < xStop) ∧
      (l.map Prod.fst).getLast? = some xStop := by
  have e : max |x| |xStop| = xStop := by
    rw [abs_of_nonneg hx0, abs_of_pos (by linarith), max_eq_right hx.le]
  rw [← e] at hbig hn
  have hs := stops_regular (upd := upd) (K := 1) (δ := 0) N le_rfl hS hh hbig (fun z hz h0 h1 h2 => by
    refine stops_exact N le_rfl hS h1 (Rounded.sterbenz hz hS ?_ ?_) (by have := N.mono h2.le; rwa [N.fix hh] at this)
    · rw [abs_of_pos (by linarith), abs_of_pos (by linarith)]; linarith
    · rw [abs_of_pos (by linarith), abs_of_pos (by linarith)]; linarith) n x hX le_rfl hx.le (by rwa [e] at hn ⊢)
  obtain ⟨l, h1, h2, h3⟩ := hs y fuel hf
  obtain ⟨a, b, z, c, d1, d2⟩ := h3.spec
  refine ⟨(x, y) :: l, ?_, rfl, by simpa using h2, a, b, ?_⟩
  · unfold Rounded.RK4
    rw [h1]; rfl
  · rw [show xStop = z by linarith]; exact c

/-- **Termination is false for smaller steps**: in every arithmetic rounding to nearest, `RK4` from 1 to 2 with the step
`2⁻ᵖ⁻¹ > 0` runs forever (`x + h` rounds to `x`), whatever the right-hand side. -/
theorem C130_small_step_false (hp : 1 ≤ p) (N : Nearest p F) (upd : ℝ → E → ℝ → E) (y : E) (fuel : ℕ) :
    Rounded.RK4 F fuel (fun x y h => .ok (upd x y h)) 1 y 2 ((2 : ℝ)⁻¹ ^ (p + 1)) = .error .outOfFuel := by
  have q : (0 : ℝ) < (2 : ℝ)⁻¹ ^ p := by positivity
  have q1 : (2 : ℝ)⁻¹ ^ p ≤ 1 := pow_le_one₀ (by norm_num) (by norm_num)
  have one : Flt p 1 := ⟨1, 0, by simp only [abs_one]; exact one_le_pow₀ (by norm_num), by simp⟩
  have e2 : (2 : ℝ)⁻¹ ^ (p + 1) = (2 : ℝ)⁻¹ ^ p / 2 := by rw [pow_succ]; ring
  have stuck : F.rnd (1 + (2 : ℝ)⁻¹ ^ (p + 1)) = 1 := by
    have h1 := N.near (1 + (2 : ℝ)⁻¹ ^ (p + 1)) 1 one
    have h2 : 1 ≤ F.rnd (1 + (2 : ℝ)⁻¹ ^ (p + 1)) := by
      have := N.mono (show 1 ≤ 1 + (2 : ℝ)⁻¹ ^ (p + 1) by rw [e2]; linarith)
      rwa [N.fix one] at this
    by_contra hc
    have h3 := Rounded.flt_gt_one hp (N.mem _) (lt_of_le_of_ne h2 (Ne.symm hc))
    rw [e2] at h1 h3
    rw [show 1 - (1 + (2 : ℝ)⁻¹ ^ p / 2) = -((2 : ℝ)⁻¹ ^ p / 2) by ring, abs_neg, abs_of_pos (show 0 < (2 : ℝ)⁻¹ ^ p / 2 by linarith)] at h1
    have := (abs_le.1 h1).2
    linarith
  have step : min ((2 : ℝ)⁻¹ ^ (p + 1)) (F.rnd (2 - 1)) = (2 : ℝ)⁻¹ ^ (p + 1) := by
    rw [show (2 : ℝ) - 1 = 1 by norm_num, N.fix one]
    exact min_eq_left (by rw [e2]; linarith)
  have loop : ∀ (fuel : ℕ) (y : E),
      Rounded.RK4loop F (fun x y h => .ok (upd x y h)) 2 fuel 1 y ((2 : ℝ)⁻¹ ^ (p + 1)) = .error .outOfFuel := by
    intro fuel
    induction fuel with
    | zero => intro y; unfold Rounded.RK4loop; rw [if_pos (by norm_num)]
    | succ n ih =>
      intro y
      unfold Rounded.RK4loop
      rw [if_pos (by norm_num)]
      simp only [Arith.sub, Arith.add, Py.ok_bind, step, stuck, ih, Py.error_bind]
  unfold Rounded.RK4
  rw [loop]; rfl

/-- **An exact end is false in general**: in every arithmetic rounding to nearest, `RK4` from `-1` to `xStop = 3·2⁻ᵖ⁻¹`
with the step 2 makes one step and ends at `2·2⁻ᵖ`, beyond `xStop` by a third of it. -/
theorem C130_overshoot_false (hp : 2 ≤ p) (N : Nearest p F) (upd : ℝ → E → ℝ → E) (y : E) (fuel : ℕ) :
    ∃ y', Rounded.RK4 F (fuel + 1) (fun x y h => .ok (upd x y h)) (-1) y (3 * (2 : ℝ)⁻¹ ^ (p + 1)) 2
      = .ok [(-1, y), (2 * (2 : ℝ)⁻¹ ^ p, y')] := by
  have q : (0 : ℝ) < (2 : ℝ)⁻¹ ^ p := by positivity
  have q1 : (2 : ℝ)⁻¹ ^ p ≤ 1 / 4 := by
    calc (2 : ℝ)⁻¹ ^ p ≤ (2 : ℝ)⁻¹ ^ 2 := pow_le_pow_of_le_one (by norm_num) (by norm_num) hp
      _ = _ := by norm_num
  have e2 : (2 : ℝ)⁻¹ ^ (p + 1) = (2 : ℝ)⁻¹ ^ p / 2 := by rw [pow_succ]; ring
  rw [e2]
  obtain ⟨v, hv⟩ : ∃ v, v = (2 : ℝ)⁻¹ ^ p := ⟨_, rfl⟩
  have hz : (2 : ℝ) ^ (-(p : ℤ)) = v := by rw [hv, zpow_neg, zpow_natCast, inv_pow]
  have fv : Flt p (2 * v) := ⟨2, -(p : ℤ), by
    simp only [abs_two]
    calc (2 : ℤ) = 2 ^ 1 := by norm_num
      _ ≤ _ := pow_le_pow_right₀ (by norm_num) (by omega), by rw [hz]; norm_num⟩
  have f1 : Flt p (1 + 2 * v) := by
    obtain ⟨k, rfl⟩ : ∃ k, p = k + 2 := ⟨p - 2, by omega⟩
    refine ⟨2 ^ (k + 1) + 1, 1 - ((k + 2 : ℕ) : ℤ), ?_, ?_⟩
    · rw [abs_of_pos (by positivity)]
      have : (1 : ℤ) ≤ 2 ^ (k + 1) := one_le_pow₀ (by norm_num)
      rw [pow_succ 2 (k + 1)]; linarith
    · rw [sub_eq_add_neg, zpow_add₀ (by norm_num), hz, zpow_one]
      have : (2 : ℝ) ^ (k + 1) * (2 * v) = 1 := by
        rw [hv, inv_pow, pow_succ 2 (k + 1)]; field_simp
      push_cast
      rw [add_mul, this]; ring
  rw [← hv] at q q1 ⊢
  have hd : F.rnd (3 * (v / 2) - -1) = 1 + 2 * v := by
    have h1 := N.near (3 * (v / 2) - -1) _ f1
    rw [show 1 + 2 * v - (3 * (v / 2) - -1) = v / 2 by ring, abs_of_pos (show 0 < v / 2 by linarith)] at h1
    obtain ⟨h2, h3⟩ := abs_le.1 h1
    have h4 := Rounded.flt_gt_one (by omega) (N.mem (3 * (v / 2) - -1)) (by linarith)
    rw [← hv] at h4
    linarith
  have step : min 2 (F.rnd (3 * (v / 2) - -1)) = 1 + 2 * v := by rw [hd]; exact min_eq_right (by linarith)
  have hx : F.rnd (-1 + (1 + 2 * v)) = 2 * v := by rw [show -1 + (1 + 2 * v) = 2 * v by ring, N.fix fv]
  refine ⟨upd (-1) y (1 + 2 * v), ?_⟩
  unfold Rounded.RK4 Rounded.RK4loop
  rw [if_pos (by linarith)]
  simp only [Arith.sub, Arith.add, Py.ok_bind, step, hx]
  have : Rounded.RK4loop F (fun x y h => .ok (upd x y h)) (3 * (v / 2)) fuel (2 * v) (upd (-1) y (1 + 2 * v)) (1 + 2 * v) = .ok [] := by
    unfold Rounded.RK4loop
    rw [if_neg (by linarith)]
  rw [this]; rfl

/-- the hypotheses are met: float64, from 0 to 1 with the step 1/8 (at most 10 steps are announced; 8 are made) -/
example : Nearest 53 (Rounded.binary 53) ∧ (Rounded.binary 53).u ≤ 1 / 4 ∧ Flt 53 0 ∧ Flt 53 1 ∧ Flt 53 (1 / 8) ∧
    2 * (1 / 8 : ℝ) ≤ 1 ∧ (Rounded.binary 53).u * 1 < 1 / 8 ∧ (Rounded.binary 53).u * max |(0 : ℝ)| |1| < 1 / 8 ∧
    (1 : ℝ) - 0 ≤ (9 : ℕ) * (1 / 8 - (Rounded.binary 53).u * 1) := by
  have : (Rounded.binary 53).u = (2 : ℝ)⁻¹ ^ 53 := rfl
  rw [this]
  exact ⟨Rounded.binary_nearest (by norm_num), by norm_num, ⟨0, 0, by norm_num, by norm_num⟩, ⟨1, 0, by norm_num, by norm_num⟩,
    ⟨1, -3, by norm_num, by norm_num⟩, by norm_num, by norm_num, by norm_num, by norm_num⟩

end Aerokit.Props
