import Verif.Model.PropuSweep
import Verif.Props.CycleScale

/-! # Property C126 : the figures of the parametric study -/

namespace Aerokit.Props
open PropuBE

theorem values_length (a b : ℝ) : (values a b).length = 20 := by simp [values]

def outs (s : Py Returned) (j : ℕ) : Py ℝ :=
  match j with
  | 0 => Returned.Fspe <$> s
  | 1 => Returned.mk_spe <$> s
  | 2 => Returned.eta_th <$> s
  | 3 => Returned.eta_prop <$> s
  | _ => Returned.eta <$> s

/-- five lists of twenty values -/
def IsTable (r : Results) : Prop := ∃ a b c d e : List (Py ℝ), r = [a, b, c, d, e] ∧
  a.length = 20 ∧ b.length = 20 ∧ c.length = 20 ∧ d.length = 20 ∧ e.length = 20

theorem store_table (a b c d e : List (Py ℝ)) (i : ℕ) (s : Py Returned) :
    store [a, b, c, d, e] i s = [a.set i (outs s 0), b.set i (outs s 1), c.set i (outs s 2), d.set i (outs s 3), e.set i (outs s 4)] := rfl

theorem foldl_set (g : ℕ → Py Returned) (n : ℕ) (a b c d e : List (Py ℝ)) :
    (List.range n).foldl (fun r i => store r i (g i)) [a, b, c, d, e] =
      [(List.range n).foldl (fun l i => l.set i (outs (g i) 0)) a, (List.range n).foldl (fun l i => l.set i (outs (g i) 1)) b,
       (List.range n).foldl (fun l i => l.set i (outs (g i) 2)) c, (List.range n).foldl (fun l i => l.set i (outs (g i) 3)) d,
       (List.range n).foldl (fun l i => l.set i (outs (g i) 4)) e] := by
  induction n with
  | zero => rfl
  | succ n ih => simp only [List.range_succ, List.foldl_append, List.foldl_cons, List.foldl_nil, ih, store_table]

theorem foldl_set_all {α : Type} (g : ℕ → α) (l : List α) (n : ℕ) (hn : n ≤ l.length) :
    (List.range n).foldl (fun l i => l.set i (g i)) l = (List.range n).map g ++ l.drop n := by
  induction n with
  | zero => simp
  | succ n ih =>
    rw [List.range_succ, List.foldl_append, ih (by omega)]
    simp only [List.foldl_cons, List.foldl_nil, List.map_append, List.map_cons, List.map_nil]
    rw [List.set_append_right _ _ (by simp)]
    simp only [List.length_map, List.length_range, Nat.sub_self]
    rw [List.drop_eq_getElem_cons (by omega), List.set_cons_zero, List.append_assoc]
    rfl

theorem sweep_table (f : ℝ → Py Returned) (xs : List ℝ) (hx : xs.length = 20) {r : Results} (hr : IsTable r) :
    sweep f xs r = [xs.map fun x => Returned.Fspe <$> f x, xs.map fun x => Returned.mk_spe <$> f x, xs.map fun x => Returned.eta_th <$> f x,
      xs.map fun x => Returned.eta_prop <$> f x, xs.map fun x => Returned.eta <$> f x] := by
  obtain ⟨a, b, c, d, e, rfl, ha, hb, hc, hd, he⟩ := hr
  unfold sweep
  rw [hx, foldl_set]
  have key : ∀ (l : List (Py ℝ)) (hl : l.length = 20) (j : ℕ),
      (List.range 20).foldl (fun l i => l.set i (outs (f (xs.getD i 0)) j)) l = xs.map fun x => outs (f x) j := by
    intro l hl j
    rw [foldl_set_all _ _ _ (by omega), List.drop_eq_nil_of_le (by omega), List.append_nil]
    apply List.ext_getElem
    · simp [hx]
    · intro n h1 h2
      simp only [List.getElem_map, List.getElem_range]
      have h3 : n < xs.length := by simpa using h2
      simp [List.getD, List.getElem?_eq_getElem h3]
  rw [key a ha, key b hb, key c hc, key d hd, key e he]
  rfl

theorem isTable_of {a b c d e : List (Py ℝ)} (ha : a.length = 20) (hb : b.length = 20) (hc : c.length = 20) (hd : d.length = 20)
    (he : e.length = 20) : IsTable [a, b, c, d, e] := ⟨_, _, _, _, _, rfl, ha, hb, hc, hd, he⟩

/-- the figure of a sweep: one panel for each performance, in the order of the labels, drawn at the abscissae `xs` -/
def sweepFigure (num : ℕ) (title xlabel : String) (xs : List ℝ) (f : ℝ → Py Returned) : Figure :=
  ⟨num, title, xlabel, [⟨"Fspe", xs, xs.map fun x => Returned.Fspe <$> f x⟩, ⟨"mk_spe", xs, xs.map fun x => Returned.mk_spe <$> f x⟩,
    ⟨"eta_th", xs, xs.map fun x => Returned.eta_th <$> f x⟩, ⟨"eta_prop", xs, xs.map fun x => Returned.eta_prop <$> f x⟩,
    ⟨"eta_global", xs, xs.map fun x => Returned.eta <$> f x⟩]⟩

/-- C126: for all bounds, `main` shows three figures, each panel being the graph of one performance returned by `calculs` (with its label)
at the values of one parameter, the others at their base values: nothing of a previous sweep is left in a figure. -/
theorem C126_figures (l0 l1 c0 c1 T0 T1 : ℝ) :
    PropuBE.main l0 l1 c0 c1 T0 T1 = .ok
      [sweepFigure 1 "Performances 1" "Taux de dilution" (values l0 l1) (fun x => calculs_double x 32.8 1410 180 0.5),
       sweepFigure 2 "Performances 2" "Taux de compression coeur" (values c0 c1) (fun x => calculs_double 6.1 x 1410 180 0.5),
       sweepFigure 3 "Performances 3" "Temperature sortie de chambre de combustion" (values T0 T1)
         (fun x => calculs_double 6.1 32.8 x 180 0.5)] := by
  unfold PropuBE.main
  simp only []
  have t0 : IsTable ((List.range 5).map fun _ => List.replicate 20 (.ok 0 : Py ℝ)) := ⟨_, _, _, _, _, rfl, by simp, by simp, by simp, by simp, by simp⟩
  rw [sweep_table _ _ (values_length l0 l1) t0]
  rw [sweep_table _ _ (values_length c0 c1) (isTable_of (by simp [values]) (by simp [values]) (by simp [values]) (by simp [values]) (by simp [values]))]
  rw [sweep_table _ _ (values_length T0 T1) (isTable_of (by simp [values]) (by simp [values]) (by simp [values]) (by simp [values]) (by simp [values]))]
  rfl

/-- C126: the abscissae are twenty evenly spaced values from the first bound to the second, both included. -/
theorem C126_values (a b : ℝ) :
    (values a b).length = 20 ∧ (values a b)[0]? = some a ∧ (values a b)[19]? = some b ∧
    (∀ i x y, (values a b)[i]? = some x → (values a b)[i + 1]? = some y → y - x = (b - a) / 19) ∧
    ∀ x ∈ values a b, min a b ≤ x ∧ x ≤ max a b := by
  refine ⟨values_length a b, ?_, ?_, ?_, ?_⟩
  · simp [values]
  · simp [values]
    ring
  · intro i x y hx hy
    simp only [values, List.getElem?_map, Option.map_eq_some_iff] at hx hy
    obtain ⟨p, hp, rfl⟩ := hx
    obtain ⟨q, hq, rfl⟩ := hy
    have h1 := (List.getElem?_eq_some_iff.1 hp).2
    have h2 := (List.getElem?_eq_some_iff.1 hq).2
    rw [List.getElem_range] at h1 h2
    subst h1 h2
    push_cast
    ring
  · intro x hx
    simp only [values, List.mem_map, List.mem_range] at hx
    obtain ⟨i, hi, rfl⟩ := hx
    have h1 : (0 : ℝ) ≤ i := Nat.cast_nonneg i
    have h2 : (i : ℝ) ≤ 19 := by exact_mod_cast (by omega : i ≤ 19)
    rcases le_total a b with h | h
    · rw [min_eq_left h, max_eq_right h]
      constructor <;> nlinarith
    · rw [min_eq_right h, max_eq_left h]
      constructor <;> nlinarith

end Aerokit.Props
