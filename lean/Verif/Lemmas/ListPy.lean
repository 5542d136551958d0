import Verif.Model.Nozzle

/-! Lemmas on lists: `mapM` in `Py`, `argmin`, `npMin`. -/

namespace Aerokit.ListPy
open Nozzle

theorem mapM_ok {α β : Type} {f : α → Py β} : ∀ {l : List α} {r : List β}, l.mapM f = .ok r →
    List.Forall₂ (fun a b => f a = .ok b) l r
  | [], r, h => by
    simp only [List.mapM_nil, Py.pure_eq] at h
    cases h; exact .nil
  | a :: l, r, h => by
    rw [List.mapM_cons] at h
    cases e : f a with
    | error e' => rw [e] at h; cases h
    | ok b =>
      rw [e, Py.ok_bind] at h
      cases e2 : l.mapM f with
      | error e' => rw [e2] at h; cases h
      | ok bs =>
        rw [e2, Py.ok_bind, Py.pure_eq] at h
        cases h
        exact .cons e (mapM_ok e2)

theorem mapM_of_forall {α β : Type} {f : α → Py β} {g : α → β} : ∀ {l : List α}, (∀ a ∈ l, f a = .ok (g a)) →
    l.mapM f = .ok (l.map g)
  | [], _ => rfl
  | a :: l, h => by
    rw [List.mapM_cons, h a (by simp), Py.ok_bind, mapM_of_forall (fun b hb => h b (by simp [hb])), Py.ok_bind]
    rfl

theorem mapM_err {α β : Type} {f : α → Py β} {e : PyErr} : ∀ {l : List α} {a : α}, a ∈ l → f a = .error e →
    (∀ b ∈ l, ∀ e', f b = .error e' → e' = e) → l.mapM f = .error e
  | [], a, h, _, _ => by simp at h
  | b :: l, a, h, ha, hall => by
    rw [List.mapM_cons]
    cases hb : f b with
    | error e' => rw [hall b (by simp) e' hb]; rfl
    | ok y =>
      rw [Py.ok_bind]
      have : a ∈ l := by
        rcases List.mem_cons.1 h with h | h
        · rw [h, hb] at ha; cases ha
        · exact h
      rw [mapM_err this ha (fun c hc => hall c (by simp [hc]))]
      rfl

theorem forall₂_length {α β : Type} {R : α → β → Prop} {l : List α} {r : List β} (h : List.Forall₂ R l r) :
    l.length = r.length := h.length_eq

theorem forall₂_get? {α β : Type} {R : α → β → Prop} : ∀ {l : List α} {r : List β}, List.Forall₂ R l r →
    ∀ {i : ℕ} {a : α} {b : β}, l[i]? = some a → r[i]? = some b → R a b
  | _, _, .nil, i, a, b, h, _ => by simp at h
  | _, _, .cons h t, 0, a, b, ha, hb => by simp at ha hb; subst ha; subst hb; exact h
  | _, _, .cons h t, i + 1, a, b, ha, hb => forall₂_get? t (by simpa using ha) (by simpa using hb)

/-- `i` is the first index of the minimum of `l` -/
def FirstMin (l : List ℝ) (i : ℕ) : Prop :=
  ∃ v, l[i]? = some v ∧ (∀ (j : ℕ) (w : ℝ), l[j]? = some w → v ≤ w) ∧ ∀ (j : ℕ) (w : ℝ), j < i → l[j]? = some w → v < w

theorem argminGo_spec : ∀ (xs pre : List ℝ) (best : ℕ) (v : ℝ), best < pre.length → (pre ++ xs)[best]? = some v →
    (∀ (j : ℕ) (w : ℝ), pre[j]? = some w → v ≤ w) → (∀ (j : ℕ) (w : ℝ), j < best → pre[j]? = some w → v < w) →
    FirstMin (pre ++ xs) (argminGo xs pre.length best v)
  | [], pre, best, v, hb, hv, h1, h2 => by
    refine ⟨v, hv, ?_, ?_⟩
    · intro j w hw; exact h1 j w (by simpa using hw)
    · intro j w hj hw; exact h2 j w hj (by simpa using hw)
  | x :: xs, pre, best, v, hb, hv, h1, h2 => by
    unfold argminGo
    have key : ∀ b u, argminGo xs (pre.length + 1) b u = argminGo xs (pre ++ [x]).length b u := by
      intro b u; rw [List.length_append]; rfl
    have happ : pre ++ x :: xs = (pre ++ [x]) ++ xs := by simp
    have hget : ∀ (j : ℕ) (w : ℝ), (pre ++ [x])[j]? = some w → pre[j]? = some w ∨ (j = pre.length ∧ w = x) := by
      intro j w hw
      rcases lt_trichotomy j pre.length with h | h | h
      · left; rw [List.getElem?_append_left h] at hw; exact hw
      · right; rw [h, List.getElem?_append_right le_rfl] at hw; simp at hw; exact ⟨h, hw.symm⟩
      · rw [List.getElem?_eq_none (by rw [List.length_append]; simp; omega)] at hw; cases hw
    split
    · rename_i hlt
      rw [key, happ]
      apply argminGo_spec xs (pre ++ [x]) pre.length x
      · simp
      · rw [List.append_assoc, List.getElem?_append_right le_rfl]; simp
      · intro j w hw
        rcases hget j w hw with h | ⟨_, h⟩
        · exact hlt.le.trans (h1 j w h)
        · exact h ▸ le_rfl
      · intro j w hj hw
        rcases hget j w hw with h | ⟨h, _⟩
        · exact lt_of_lt_of_le hlt (h1 j w h)
        · omega
    · rename_i hge
      push Not at hge
      rw [key, happ]
      apply argminGo_spec xs (pre ++ [x]) best v
      · simp; omega
      · rw [← happ]; exact hv
      · intro j w hw
        rcases hget j w hw with h | ⟨_, h⟩
        · exact h1 j w h
        · exact h ▸ hge
      · intro j w hj hw
        rcases hget j w hw with h | ⟨h, _⟩
        · exact h2 j w hj h
        · omega

theorem argmin_spec {l : List ℝ} {i : ℕ} (h : argmin l = .ok i) : FirstMin l i := by
  cases l with
  | nil => cases h
  | cons x xs =>
    have := Except.ok.inj h
    rw [← this]
    apply argminGo_spec xs [x] 0 x (by simp) (by simp)
    · intro j w hw
      cases j with
      | zero => simp at hw; exact hw ▸ le_rfl
      | succ j => simp at hw
    · intro j w hj; omega

theorem firstMin_unique {l : List ℝ} {i j : ℕ} (hi : FirstMin l i) (hj : FirstMin l j) : i = j := by
  obtain ⟨v, h1, h2, h3⟩ := hi
  obtain ⟨w, k1, k2, k3⟩ := hj
  rcases lt_trichotomy i j with h | h | h
  · have := k3 i v h h1; have := h2 j w k1; linarith
  · exact h
  · have := h3 j w h k1; have := k2 i v h1; linarith

theorem argmin_of {l : List ℝ} {i : ℕ} (h : FirstMin l i) : argmin l = .ok i := by
  cases l with
  | nil => obtain ⟨v, h1, _⟩ := h; simp at h1
  | cons x xs =>
    have : argmin (x :: xs) = .ok (argminGo xs 1 0 x) := rfl
    rw [this]
    rw [firstMin_unique (argmin_spec this) h]

theorem npMin_spec : ∀ {l : List ℝ} {m : ℝ}, npMin l = .ok m → m ∈ l ∧ ∀ x ∈ l, m ≤ x := by
  have key : ∀ (xs : List ℝ) (a : ℝ), (xs.foldl min a = a ∨ xs.foldl min a ∈ xs) ∧ xs.foldl min a ≤ a ∧
      ∀ x ∈ xs, xs.foldl min a ≤ x := by
    intro xs
    induction xs with
    | nil => intro a; simp
    | cons y ys ih =>
      intro a
      obtain ⟨h1, h2, h3⟩ := ih (min a y)
      rw [List.foldl_cons]
      refine ⟨?_, h2.trans (min_le_left _ _), ?_⟩
      · rcases h1 with h | h
        · rcases min_choice a y with h' | h'
          · left; rw [h, h']
          · right; rw [h, h']; simp
        · right; simp [h]
      · intro x hx
        rcases List.mem_cons.1 hx with h | h
        · rw [h]; exact h2.trans (min_le_right _ _)
        · exact h3 x h
  intro l m h
  cases l with
  | nil => cases h
  | cons a xs =>
    have := Except.ok.inj h
    obtain ⟨h1, h2, h3⟩ := key xs a
    rw [← this]
    refine ⟨?_, ?_⟩
    · rcases h1 with h | h
      · rw [h]; simp
      · simp [h]
    · intro x hx
      rcases List.mem_cons.1 hx with h | h
      · rw [h]; exact h2
      · exact h3 x h

end Aerokit.ListPy
