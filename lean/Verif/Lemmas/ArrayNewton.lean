import Verif.Model.ArrayNewton
import Verif.Lemmas.SecantDomain
import Verif.Lemmas.NpArray

/-! # scipy's vectorised secant search: every entry converges within the common number of iterations -/

namespace Aerokit.ArrayNewton
open ScipyNewton
variable {ι : Type}

/-- What one entry of the search satisfies: `R k p p1` holds of its two points with `k` iterations left. -/
structure Entry (G : ℝ → ℝ) (tol : ℝ) (Q : ℝ → Prop) (r : ℝ) (R : ℕ → ℝ → ℝ → Prop) (D : ℝ → Prop) : Prop where
  dom : ∀ k p p1, R k p p1 → D p1
  slope : ∀ k p p1, R k p p1 → G p1 ≠ G p
  acc : ∀ k p p1, R (k + 1) p p1 → |chord p p1 (G p) (G p1) - p1| < tol → Q (chord p p1 (G p) (G p1))
  last : ∀ p p1, R 1 p p1 → |chord p p1 (G p) (G p1) - p1| < tol
  next : ∀ k p p1, R (k + 2) p p1 → chord p p1 (G p) (G p1) = p1 ∨ R (k + 1) p1 (chord p p1 (G p) (G p1))
  stay : ∀ k p p1, R (k + 1) p p1 → D (chord p p1 (G p) (G p1))
  stuck : ∀ k p p1, R (k + 1) p p1 → chord p p1 (G p) (G p1) = p1 → p1 = r
  root : G r = 0
  rdom : D r
  rok : Q r
  tolpos : 0 < tol

/-- the variables of an entry: searching, or at the root -/
inductive Live (G : ℝ → ℝ) (r : ℝ) (R : ℕ → ℝ → ℝ → Prop) (k : ℕ) (s : State ι) (i : ι) : Prop
  | run (h : R k (s.p i) (s.p1 i)) (e0 : s.q0 i = G (s.p i)) (e1 : s.q1 i = G (s.p1 i))
  | stuck (e : s.p i = r) (e' : s.p1 i = r) (e0 : s.q0 i = 0) (e1 : s.q1 i = 0) (hf : ¬ s.failures i)

theorem step_eq (s : State ι) (i : ι) : s.p1 i - step s i = chord (s.p i) (s.p1 i) (s.q0 i) (s.q1 i) := by
  unfold step chord; rw [mul_div_assoc]

theorem abs_step (s : State ι) (i : ι) : |step s i| = |chord (s.p i) (s.p1 i) (s.q0 i) (s.q1 i) - s.p1 i| := by
  rw [← step_eq, ← abs_neg]; congr 1; ring

section
variable {G : ℝ → ℝ} {tol r : ℝ} {Q : ℝ → Prop} {R : ℕ → ℝ → ℝ → Prop} {D : ℝ → Prop}

theorem Live.facts (E : Entry G tol Q r R D) {k : ℕ} {s : State ι} {i : ι} (L : Live G r R (k + 1) s i) :
    D (move s i) ∧ (¬ fails tol s i → Q (move s i)) ∧ (k = 0 → ¬ fails tol s i) ∧ (¬ nonzero s i → ¬ fails tol s i ∧ s.p i = r ∧ s.p1 i = r ∧ ¬ s.failures i) := by
  cases L with
  | run h e0 e1 =>
    have nz : nonzero s i := by unfold nonzero; rw [e0, e1]; exact E.slope _ _ _ h
    have em : move s i = chord (s.p i) (s.p1 i) (G (s.p i)) (G (s.p1 i)) := by
      unfold move; rw [if_pos nz, step_eq, e0, e1]
    have es : |step s i| = |chord (s.p i) (s.p1 i) (G (s.p i)) (G (s.p1 i)) - s.p1 i| := by rw [abs_step, e0, e1]
    have hfl : ¬ fails tol s i → |chord (s.p i) (s.p1 i) (G (s.p i)) (G (s.p1 i)) - s.p1 i| < tol := by
      intro hn; rw [← es]; by_contra hc; exact hn (Or.inl ⟨nz, not_lt.1 hc⟩)
    rw [em]
    refine ⟨E.stay _ _ _ h, fun hn => E.acc _ _ _ h (hfl hn), ?_, fun hn => absurd nz hn⟩
    rintro rfl (⟨-, hc⟩ | ⟨hc, -⟩)
    · rw [es] at hc; exact absurd (E.last _ _ h) (not_lt.2 hc)
    · exact hc nz
  | stuck e e' e0 e1 hf =>
    have nz : ¬ nonzero s i := by unfold nonzero; rw [e0, e1]; simp
    have nf : ¬ fails tol s i := by
      rintro (⟨hc, -⟩ | ⟨-, hc⟩)
      · exact nz hc
      · exact hf hc
    have em : move s i = r := by
      unfold move; rw [if_neg nz, e, e']
      split_ifs
      · norm_num
      · rfl
    rw [em]
    refine ⟨E.rdom, fun _ => E.rok, fun _ => nf, fun _ => ⟨nf, e, e', hf⟩⟩

theorem Live.next (E : Entry G tol Q r R D) {k : ℕ} {s s' : State ι} {i : ι} (L : Live G r R (k + 2) s i) (e1 : s'.p i = s.p1 i) (e2 : s'.p1 i = move s i)
    (e3 : s'.q0 i = s.q1 i) (e4 : s'.q1 i = G (move s i)) (e5 : s'.failures i ↔ fails tol s i) : Live G r R (k + 1) s' i := by
  obtain ⟨-, -, -, f4⟩ := L.facts E
  cases L with
  | run h g0 g1 =>
    have nz : nonzero s i := by unfold nonzero; rw [g0, g1]; exact E.slope _ _ _ h
    have em : move s i = chord (s.p i) (s.p1 i) (G (s.p i)) (G (s.p1 i)) := by
      unfold move; rw [if_pos nz, step_eq, g0, g1]
    have es : |step s i| = |chord (s.p i) (s.p1 i) (G (s.p i)) (G (s.p1 i)) - s.p1 i| := by rw [abs_step, g0, g1]
    rcases E.next _ _ _ h with c | c
    · have hr := E.stuck _ _ _ h c
      refine .stuck (by rw [e1, hr]) (by rw [e2, em, c, hr]) (by rw [e3, g1, hr, E.root]) (by rw [e4, em, c, hr, E.root]) ?_
      rw [e5]
      rintro (⟨-, hc⟩ | ⟨hc, -⟩)
      · rw [es, c, sub_self, abs_zero] at hc; exact absurd E.tolpos (not_lt.2 hc)
      · exact hc nz
    · refine .run (by rw [e1, e2, em]; exact c) (by rw [e3, g1, e1]) (by rw [e4, e2])
  | stuck e e' g0 g1 hf =>
    have nz : ¬ nonzero s i := by unfold nonzero; rw [g0, g1]; simp
    have em : move s i = r := by
      unfold move; rw [if_neg nz, e, e']
      split_ifs
      · norm_num
      · rfl
    exact .stuck (by rw [e1, e']) (by rw [e2, em]) (by rw [e3, g1]) (by rw [e4, em, E.root]) (by rw [e5]; exact (f4 nz).1)

end

variable {G : ι → ℝ → ℝ} {tol : ℝ} {Q : ι → ℝ → Prop} {r : ι → ℝ} {R : ι → ℕ → ℝ → ℝ → Prop} {D : ι → ℝ → Prop}

theorem loop_converges (E : ∀ i, Entry (G i) tol (Q i) (r i) (R i) (D i)) {f : (ι → ℝ) → Py (ι → ℝ)}
    (hf : ∀ v : ι → ℝ, (∀ i, D i (v i)) → f v = .ok fun i => G i (v i)) :
    ∀ (k : ℕ) (s : State ι), (∀ i, Live (G i) (r i) (R i) (k + 1) s i) →
      ∃ s', loop tol f (k + 1) s = .ok s' ∧ ∀ i, ¬ s'.failures i ∧ Q i (s'.p i) ∧ D i (s'.p i) := by
  intro k
  induction k with
  | zero =>
    intro s L
    rw [loop]
    by_cases h1 : ¬ ∃ i, nonzero s i
    · rw [if_pos h1]
      refine ⟨_, rfl, fun i => ?_⟩
      obtain ⟨-, -, -, f4⟩ := (L i).facts (E i)
      obtain ⟨-, a, b, c⟩ := f4 fun h => h1 ⟨i, h⟩
      have em : (s.p1 i + s.p i) / 2.0 = r i := by rw [a, b]; norm_num
      exact ⟨c, by simp only []; rw [em]; exact (E i).rok, by simp only []; rw [em]; exact (E i).rdom⟩
    rw [if_neg h1]
    by_cases h2 : ¬ ∃ i, nonzero s i ∧ fails tol s i
    · rw [if_pos h2]
      refine ⟨_, rfl, fun i => ?_⟩
      obtain ⟨f1, f2, f3, -⟩ := (L i).facts (E i)
      exact ⟨f3 rfl, f2 (f3 rfl), f1⟩
    · refine absurd ?_ h2
      rintro ⟨i, -, h⟩
      exact ((L i).facts (E i)).2.2.1 rfl h
  | succ k ih =>
    intro s L
    rw [loop]
    by_cases h1 : ¬ ∃ i, nonzero s i
    · rw [if_pos h1]
      refine ⟨_, rfl, fun i => ?_⟩
      obtain ⟨-, -, -, f4⟩ := (L i).facts (E i)
      obtain ⟨-, a, b, c⟩ := f4 fun h => h1 ⟨i, h⟩
      have em : (s.p1 i + s.p i) / 2.0 = r i := by rw [a, b]; norm_num
      exact ⟨c, by simp only []; rw [em]; exact (E i).rok, by simp only []; rw [em]; exact (E i).rdom⟩
    rw [if_neg h1]
    by_cases h2 : ¬ ∃ i, nonzero s i ∧ fails tol s i
    · rw [if_pos h2]
      refine ⟨_, rfl, fun i => ?_⟩
      obtain ⟨f1, f2, f3, f4⟩ := (L i).facts (E i)
      have nf : ¬ fails tol s i := by
        by_cases nz : nonzero s i
        · exact fun h => h2 ⟨i, nz, h⟩
        · exact (f4 nz).1
      exact ⟨nf, f2 nf, f1⟩
    · rw [if_neg h2, hf _ fun i => ((L i).facts (E i)).1, Py.ok_bind]
      exact ih _ fun i => (L i).next (E i) rfl rfl rfl rfl Iff.rfl

theorem arrayNewton_converges (E : ∀ i, Entry (G i) tol (Q i) (r i) (R i) (D i)) {f : (ι → ℝ) → Py (ι → ℝ)} [hne : Nonempty ι]
    (hf : ∀ v : ι → ℝ, (∀ i, D i (v i)) → f v = .ok fun i => G i (v i)) (k : ℕ) (x0 : ι → ℝ) (h0 : ∀ i, D i (x0 i)) (hR : ∀ i, R i (k + 1) (x0 i) (second (x0 i))) :
    ∃ m, arrayNewton tol (k + 1) f x0 = .ok m ∧ ∀ i, Q i (m i) ∧ D i (m i) := by
  obtain ⟨s, hs, P⟩ := loop_converges E hf k
    ⟨x0, fun i => second (x0 i), fun i => G i (x0 i), fun i => G i (second (x0 i)), fun _ => True, fun _ => True, fun _ => True⟩
    fun i => .run (hR i) rfl rfl
  refine ⟨s.p, ?_, fun i => (P i).2⟩
  unfold arrayNewton
  simp only []
  rw [hf _ h0, Py.ok_bind, hf _ fun i => (E i).dom _ _ _ (hR i), Py.ok_bind, hs, Py.ok_bind,
    if_neg (fun ⟨i, _, h⟩ => (P i).1 h), if_neg (fun h => (P (Classical.arbitrary ι)).1 (h _))]

/-- entries that never converge -/
structure Lost (G : ℝ → ℝ) (tol : ℝ) (R : ℝ → ℝ → Prop) (D : ℝ → Prop) : Prop where
  dom : ∀ p p1, R p p1 → D p1
  slope : ∀ p p1, R p p1 → G p1 ≠ G p
  far : ∀ p p1, R p p1 → tol ≤ |chord p p1 (G p) (G p1) - p1|
  next : ∀ p p1, R p p1 → R p1 (chord p p1 (G p) (G p1))

/-- with an entry that never converges the loop uses all its iterations and returns the last but one point of the others -/
theorem loop_mixed (Bad : ι → Prop) {RB : ι → ℝ → ℝ → Prop} (E : ∀ i, ¬ Bad i → Entry (G i) tol (Q i) (r i) (R i) (D i)) (L : ∀ i, Bad i → Lost (G i) tol (RB i) (D i))
    {f : (ι → ℝ) → Py (ι → ℝ)} (hf : ∀ v : ι → ℝ, (∀ i, D i (v i)) → f v = .ok fun i => G i (v i)) {j : ι} (hj : Bad j) :
    ∀ (k : ℕ) (s : State ι), (∀ i, ¬ Bad i → Live (G i) (r i) (R i) (k + 1) s i) → (∀ i, Bad i → RB i (s.p i) (s.p1 i) ∧ s.q0 i = G i (s.p i) ∧ s.q1 i = G i (s.p1 i)) →
      ∃ s', loop tol f (k + 1) s = .ok s' ∧ (∀ i, D i (s'.p i)) ∧ (∀ i, ¬ Bad i → ¬ s'.failures i ∧ ∃ c, D i c ∧ Q i c ∧ |c - s'.p i| < tol) ∧ ∀ i, Bad i → s'.failures i ∧ s'.nz_der i := by
  have lost : ∀ s : State ι, ∀ i, Bad i → RB i (s.p i) (s.p1 i) ∧ s.q0 i = G i (s.p i) ∧ s.q1 i = G i (s.p1 i) →
      nonzero s i ∧ fails tol s i ∧ move s i = chord (s.p i) (s.p1 i) (G i (s.p i)) (G i (s.p1 i)) := by
    rintro s i hb ⟨h, e0, e1⟩
    have nz : nonzero s i := by unfold nonzero; rw [e0, e1]; exact (L i hb).slope _ _ h
    refine ⟨nz, Or.inl ⟨nz, ?_⟩, ?_⟩
    · rw [abs_step, e0, e1]; exact (L i hb).far _ _ h
    · unfold move; rw [if_pos nz, step_eq, e0, e1]
  have moved : ∀ k s, (∀ i, ¬ Bad i → Live (G i) (r i) (R i) (k + 1) s i) → (∀ i, Bad i → RB i (s.p i) (s.p1 i) ∧ s.q0 i = G i (s.p i) ∧ s.q1 i = G i (s.p1 i)) →
      (∀ i, D i (move s i)) ∧ loop tol f (k + 1) s = loop tol f k ⟨s.p1, move s, s.q1, fun i => G i (move s i), fun i => s.active i ∧ nonzero s i, fails tol s, nonzero s⟩ := by
    intro k s hg hb
    have hD : ∀ i, D i (move s i) := by
      intro i
      by_cases h : Bad i
      · obtain ⟨-, -, e⟩ := lost s i h (hb i h)
        rw [e]; exact (L i h).dom _ _ ((L i h).next _ _ (hb i h).1)
      · exact ((hg i h).facts (E i h)).1
    refine ⟨hD, ?_⟩
    obtain ⟨n1, n2, -⟩ := lost s j hj (hb j hj)
    rw [loop, if_neg (fun h => h ⟨j, n1⟩), if_neg (fun h => h ⟨j, n1, n2⟩), hf _ hD, Py.ok_bind]
  intro k
  induction k with
  | zero =>
    intro s hg hb
    obtain ⟨hD, e⟩ := moved 0 s hg hb
    refine ⟨_, e, ?_, ?_, ?_⟩
    · intro i
      by_cases h : Bad i
      · exact (L i h).dom _ _ (hb i h).1
      · cases hg i h with
        | run h' _ _ => exact (E i h).dom _ _ _ h'
        | stuck _ e' _ _ _ => show D i (s.p1 i); rw [e']; exact (E i h).rdom
    · intro i h
      refine ⟨((hg i h).facts (E i h)).2.2.1 rfl, ?_⟩
      show ∃ c, D i c ∧ Q i c ∧ |c - s.p1 i| < tol
      cases hg i h with
      | run h' _ _ => exact ⟨_, (E i h).stay _ _ _ h', (E i h).acc _ _ _ h' ((E i h).last _ _ h'), (E i h).last _ _ h'⟩
      | stuck _ e' _ _ _ => exact ⟨r i, (E i h).rdom, (E i h).rok, by rw [e', sub_self, abs_zero]; exact (E i h).tolpos⟩
    · intro i h
      obtain ⟨n1, n2, -⟩ := lost s i h (hb i h)
      exact ⟨n2, n1⟩
  | succ k ih =>
    intro s hg hb
    obtain ⟨hD, e⟩ := moved (k + 1) s hg hb
    rw [e]
    refine ih _ (fun i h => (hg i h).next (E i h) rfl rfl rfl rfl Iff.rfl) fun i h => ?_
    obtain ⟨-, -, e'⟩ := lost s i h (hb i h)
    refine ⟨?_, (hb i h).2.2, rfl⟩
    show RB i (s.p1 i) (move s i)
    rw [e']; exact (L i h).next _ _ (hb i h).1

/-- entries that converge and entries that do not: no exception as soon as one entry converges -/
theorem arrayNewton_mixed (Bad : ι → Prop) {RB : ι → ℝ → ℝ → Prop} (E : ∀ i, ¬ Bad i → Entry (G i) tol (Q i) (r i) (R i) (D i)) (L : ∀ i, Bad i → Lost (G i) tol (RB i) (D i))
    {f : (ι → ℝ) → Py (ι → ℝ)} (hf : ∀ v : ι → ℝ, (∀ i, D i (v i)) → f v = .ok fun i => G i (v i)) {j : ι} (hj : Bad j) (k : ℕ) (x0 : ι → ℝ) (h0 : ∀ i, D i (x0 i))
    (hR : ∀ i, ¬ Bad i → R i (k + 1) (x0 i) (second (x0 i))) (hB : ∀ i, Bad i → RB i (x0 i) (second (x0 i))) :
    ((∃ i, ¬ Bad i) → ∃ m, arrayNewton tol (k + 1) f x0 = .ok m ∧ (∀ i, D i (m i)) ∧ ∀ i, ¬ Bad i → ∃ c, D i c ∧ Q i c ∧ |c - m i| < tol) ∧
    ((∀ i, Bad i) → arrayNewton tol (k + 1) f x0 = .error .noConvergence) := by
  obtain ⟨s, hs, P1, P2, P3⟩ := loop_mixed Bad E L hf hj k
    ⟨x0, fun i => second (x0 i), fun i => G i (x0 i), fun i => G i (second (x0 i)), fun _ => True, fun _ => True, fun _ => True⟩
    (fun i h => .run (hR i h) rfl rfl) (fun i h => ⟨hB i h, rfl, rfl⟩)
  have hd1 : ∀ i, D i (second (x0 i)) := by
    intro i
    by_cases h : Bad i
    · exact (L i h).dom _ _ (hB i h)
    · exact (E i h).dom _ _ _ (hR i h)
  have nz : ¬ ∃ i, ¬ s.nz_der i ∧ s.failures i := by
    rintro ⟨i, h1, h2⟩
    by_cases h : Bad i
    · exact h1 (P3 i h).2
    · exact (P2 i h).1 h2
  unfold arrayNewton
  simp only []
  rw [hf _ h0, Py.ok_bind, hf _ hd1, Py.ok_bind, hs, Py.ok_bind, if_neg nz]
  constructor
  · rintro ⟨i, h⟩
    exact ⟨s.p, by rw [if_neg (fun h' => (P2 i h).1 (h' i))], P1, fun i h => (P2 i h).2⟩
  · intro h
    rw [if_pos (fun i => (P3 i (h i)).1)]

/-! ## entries whose function is convex -/

section
variable {F : ℝ → ℝ} {A B r μ ν ν0 tol K : ℝ}

/-- the positions of the two points with `k` iterations left -/
inductive Ready' (r tol ρ κ : ℝ) (k : ℕ) (p0 p1 : ℝ) : Prop
  | rr (n : ℕ) (h0 : r ≤ p0) (h1 : r ≤ p1) (e : (p1 - r) * ρ ^ n < tol) (hk : n + 1 ≤ k)
  | lr (n : ℕ) (E : ℝ) (h0 : p0 ≤ r) (h1 : r ≤ p1) (g0 : r - p0 ≤ E) (g1 : p1 - r ≤ κ * E) (e : (κ + 1) * E * ρ ^ n < tol) (hk : 3 * n ≤ 2 * k)
  | rl (n : ℕ) (E : ℝ) (h0 : r ≤ p0) (h1 : p1 ≤ r) (g1 : r - p1 ≤ E) (e : (κ + 1) * E * ρ ^ n < tol) (hk : 3 * n + 1 ≤ 2 * k)
  | ll (n : ℕ) (E : ℝ) (h0 : p0 ≤ r) (h1 : p1 ≤ r) (g1 : r - p1 ≤ E) (e : (κ + 1) * E * ρ ^ n < tol) (hk : 3 * n + 2 ≤ 2 * k)

theorem convEntry (C : Conv F A B r μ ν ν0) (ht : 0 < tol) (hK : max 1 (ν / μ - 1) * tol ≤ K) :
    Entry F tol (fun m => |m - r| ≤ K) r (fun k p0 p1 => p0 ∈ Set.Icc A B ∧ p1 ∈ Set.Icc A B ∧ p0 ≠ p1 ∧ Ready' r tol (1 - μ / ν) (ν / μ) k p0 p1) (fun x => x ∈ Set.Icc A B) := by
  have hmu := C.mu
  have n0 : 0 < ν := by linarith [C.mn]
  have hκ : 0 < ν / μ := div_pos n0 hmu
  have hκ1 : 1 ≤ ν / μ := by rw [one_le_div hmu]; exact C.mn
  have hρ : 0 ≤ 1 - μ / ν := by rw [sub_nonneg, div_le_one n0]; exact C.mn
  have hρ1 : 1 - μ / ν ≤ 1 := by have := div_pos C.mu n0; linarith
  obtain ⟨ρ, eρ⟩ : ∃ ρ, ρ = 1 - μ / ν := ⟨_, rfl⟩
  obtain ⟨κ, eκ⟩ : ∃ κ, κ = ν / μ := ⟨_, rfl⟩
  -- what one iteration does
  have key : ∀ k p0 p1, p0 ∈ Set.Icc A B → p1 ∈ Set.Icc A B → p0 ≠ p1 → Ready' r tol ρ κ (k + 1) p0 p1 →
      (k = 0 → |chord p0 p1 (F p0) (F p1) - p1| < tol) ∧ (1 ≤ k → Ready' r tol ρ κ k p1 (chord p0 p1 (F p0) (F p1))) := by
    intro k p0 p1 h0 h1 hne Rd
    obtain ⟨s, s1, s2, es, -, ec1, ec0⟩ := C.slope h0 h1 hne
    have s0 : 0 < s := by linarith
    have es' : F p0 - F p1 = s * (p0 - p1) := by linarith
    obtain ⟨c, hc⟩ : ∃ c, c = chord p0 p1 (F p0) (F p1) := ⟨_, rfl⟩
    have RR := fun g0 g1 => C.step_rr h0 h1 hne g0 g1
    have LL := fun g0 g1 => C.step_ll h0 h1 hne g0 g1
    have LR := fun g0 g1 => C.step_straddle h0 h1 hne g0 g1 s1 s2 es
    have RL := fun g0 g1 => C.step_straddle h1 h0 hne.symm g1 g0 s1 s2 es'
    rw [← ec0, ← hc, ← eρ] at LR
    rw [← ec1, ← hc, ← eρ] at RL
    rw [← hc, ← eρ] at RR
    rw [← hc] at LL ⊢
    rw [← hc] at ec1
    rw [← eρ] at hρ hρ1
    rw [← eκ] at hκ hκ1
    have pos : ∀ {E x : ℝ} {n : ℕ}, 0 ≤ x → x ≤ (κ + 1) * E → (κ + 1) * E * ρ ^ n < tol → n = 0 → x < tol := by
      intro E x n _ hx he hn; subst hn; rw [pow_zero, mul_one] at he; linarith
    have down : ∀ {E : ℝ} {n : ℕ}, 0 ≤ E → (κ + 1) * E * ρ ^ n < tol → (κ + 1) * (ρ * E) * ρ ^ (n - 1) < tol := by
      intro E n hE he
      rcases n with - | n
      · rw [Nat.zero_sub, pow_zero, mul_one] at *
        refine lt_of_le_of_lt ?_ he
        have : ρ * E ≤ E := mul_le_of_le_one_left hE hρ1
        gcongr
      · rw [Nat.add_sub_cancel]
        refine lt_of_le_of_lt (le_of_eq ?_) he
        rw [pow_succ]; ring
    cases Rd with
    | rr n g0 g1 e hk =>
      obtain ⟨a1, a2, a3, -⟩ := RR g0 g1
      refine ⟨?_, ?_⟩
      · rintro rfl
        have : n = 0 := by omega
        subst this
        rw [pow_zero, mul_one] at e
        rw [abs_of_nonpos (by linarith)]; linarith
      · intro hk1
        refine .rr (n - 1) g1 a1 ?_ (by omega)
        rcases n with - | n
        · rw [Nat.zero_sub, pow_zero, mul_one] at *; linarith
        · rw [Nat.add_sub_cancel]
          refine lt_of_le_of_lt ?_ e
          calc (c - r) * ρ ^ n ≤ ρ * (p1 - r) * ρ ^ n := by gcongr
            _ = _ := by rw [pow_succ]; ring
    | lr n E g0 g1 b0 b1 e hk =>
      obtain ⟨a1, a2, a3, -⟩ := LR g0 g1
      have hE : 0 ≤ E := by linarith
      refine ⟨?_, ?_⟩
      · rintro rfl
        rw [abs_of_nonpos (by linarith)]
        exact pos (E := E) (n := n) (by linarith) (by linarith) e (by omega)
      · intro hk1
        exact .rl (n - 1) (ρ * E) g1 a2 (a3.trans (by gcongr)) (down hE e) (by omega)
    | rl n E g0 g1 b1 e hk =>
      obtain ⟨a1, a2, a3, -⟩ := RL g0 g1
      have hE : 0 ≤ E := by linarith
      have hκE : 0 ≤ κ * E := by positivity
      refine ⟨?_, ?_⟩
      · rintro rfl
        rw [abs_of_nonneg (by linarith)]
        exact pos (E := E) (n := n) (by linarith) (by linarith) e (by omega)
      · intro hk1
        exact .ll (n - 1) (ρ * E) g1 a2 (a3.trans (by gcongr)) (down hE e) (by omega)
    | ll n E g0 g1 b1 e hk =>
      obtain ⟨a1, a2⟩ := LL g0 g1
      have hE : 0 ≤ E := by linarith
      obtain ⟨d1, d2⟩ := C.F_nonpos h1 g1
      have d3 : c - p1 ≤ κ * E := by
        have : c - p1 = -F p1 / s := by rw [ec1]; ring
        rw [this, div_le_iff₀ s0, eκ]
        have : ν / μ * E * μ ≤ ν / μ * E * s := by gcongr
        rw [show ν / μ * E * μ = ν * E by field_simp] at this
        have : ν * (r - p1) ≤ ν * E := by gcongr
        linarith
      refine ⟨?_, ?_⟩
      · rintro rfl
        rw [abs_of_nonneg (by linarith)]
        exact pos (E := E) (n := n) (by linarith) (by linarith) e (by omega)
      · intro hk1
        exact .lr n E g1 a1 b1 (by linarith) e (by omega)
  rw [← eρ, ← eκ]
  rw [eκ] at key
  refine ⟨fun _ _ _ h => h.2.1, ?_, ?_, ?_, ?_, ?_, ?_, C.root, ⟨C.Ar, C.rB⟩, ?_, ht⟩
  · rintro k p p1 ⟨h0, h1, hne, -⟩
    obtain ⟨-, -, -, -, hq, -⟩ := C.slope h0 h1 hne
    exact hq
  · rintro k p p1 ⟨h0, h1, hne, -⟩ h
    exact ((C.step h0 h1 hne).2.1 tol h.le).trans hK
  · rintro p p1 ⟨h0, h1, hne, Rd⟩
    exact (key 0 p p1 h0 h1 hne (by rw [← eκ]; exact Rd)).1 rfl
  · rintro k p p1 ⟨h0, h1, hne, Rd⟩
    by_cases hc : chord p p1 (F p) (F p1) = p1
    · exact Or.inl hc
    · refine Or.inr ⟨h1, (C.step h0 h1 hne).1, fun h => hc h.symm, ?_⟩
      rw [eκ]
      exact (key (k + 1) p p1 h0 h1 hne (by rw [← eκ]; exact Rd)).2 (by omega)
  · rintro k p p1 ⟨h0, h1, hne, -⟩
    exact (C.step h0 h1 hne).1
  · rintro k p p1 ⟨h0, h1, hne, -⟩ hc
    have h3 := (C.step h0 h1 hne).2.1 0 (by rw [hc, sub_self, abs_zero])
    rw [mul_zero, hc] at h3
    exact sub_eq_zero.1 (abs_nonpos_iff.1 h3)
  · rw [sub_self, abs_zero]
    exact le_trans (mul_nonneg (le_trans zero_le_one (le_max_left _ _)) ht.le) hK

/-- entries solve the same equation when it is multiplied by a constant -/
theorem Entry.scale {G : ℝ → ℝ} {Q : ℝ → Prop} {R : ℕ → ℝ → ℝ → Prop} {D : ℝ → Prop} (E : Entry G tol Q r R D) {k : ℝ} (hk : k ≠ 0) :
    Entry (fun x => k * G x) tol Q r R D := by
  have hch : ∀ p p1 q q1 : ℝ, chord p p1 (k * q) (k * q1) = chord p p1 q q1 := by
    intro p p1 q q1; unfold chord
    rw [← mul_sub, ← mul_div_mul_left (p1 - p) (q1 - q) hk]; ring
  refine ⟨E.dom, ?_, ?_, ?_, ?_, ?_, ?_, ?_, E.rdom, E.rok, E.tolpos⟩
  · intro n p p1 h h'
    exact E.slope _ _ _ h (mul_left_cancel₀ hk h')
  · intro n p p1 h h'
    simp only [hch] at h' ⊢; exact E.acc _ _ _ h h'
  · intro p p1 h
    simp only [hch]; exact E.last _ _ h
  · intro n p p1 h
    simp only [hch]; exact E.next _ _ _ h
  · intro n p p1 h
    simp only [hch]; exact E.stay _ _ _ h
  · intro n p p1 h h'
    simp only [hch] at h'; exact E.stuck _ _ _ h h'
  · show k * G r = 0
    rw [E.root, mul_zero]

/-- a first iteration before the others -/
theorem Entry.prepend {G : ℝ → ℝ} {Q : ℝ → Prop} {R : ℕ → ℝ → ℝ → Prop} {D : ℝ → Prop} (E : Entry G tol Q r R D) {n : ℕ} {x y c : ℝ} (hc : chord x y (G x) (G y) = c)
    (hne : G y ≠ G x) (hD : D y) (far : tol ≤ |c - y|) (hR : R (n + 1) y c) :
    Entry G tol Q r (fun k p p1 => R k p p1 ∨ (k = n + 2 ∧ p = x ∧ p1 = y)) D := by
  have hcy : c ≠ y := by
    rintro rfl
    rw [sub_self, abs_zero] at far
    exact absurd E.tolpos (not_lt.2 far)
  refine ⟨?_, ?_, ?_, ?_, ?_, ?_, ?_, E.root, E.rdom, E.rok, E.tolpos⟩
  · rintro k p p1 (h | ⟨-, -, rfl⟩)
    · exact E.dom _ _ _ h
    · exact hD
  · rintro k p p1 (h | ⟨-, rfl, rfl⟩)
    · exact E.slope _ _ _ h
    · exact hne
  · rintro k p p1 (h | ⟨-, rfl, rfl⟩) h'
    · exact E.acc _ _ _ h h'
    · rw [hc] at h'; exact absurd h' (not_lt.2 far)
  · rintro p p1 (h | ⟨h, -, -⟩)
    · exact E.last _ _ h
    · omega
  · rintro k p p1 (h | ⟨h, rfl, rfl⟩)
    · exact (E.next _ _ _ h).imp id Or.inl
    · rw [hc]
      have : k = n := by omega
      subst this
      exact Or.inr (Or.inl hR)
  · rintro k p p1 (h | ⟨h, rfl, rfl⟩)
    · exact E.stay _ _ _ h
    · rw [hc]; exact E.dom _ _ _ hR
  · rintro k p p1 (h | ⟨h, rfl, rfl⟩) h'
    · exact E.stuck _ _ _ h h'
    · rw [hc] at h'; exact absurd h' hcy

/-- reflection -/
theorem Entry.neg {G : ℝ → ℝ} {Q : ℝ → Prop} {R : ℕ → ℝ → ℝ → Prop} {D : ℝ → Prop} (E : Entry (fun x => G (-x)) tol Q (-r) R D) :
    Entry G tol (fun m => Q (-m)) r (fun k a b => R k (-a) (-b)) (fun x => D (-x)) := by
  have hch : ∀ p p1 q q1 : ℝ, chord (-p) (-p1) q q1 = -chord p p1 q q1 := by
    intro p p1 q q1; unfold chord
    rw [show -p1 - -p = -(p1 - p) by ring, neg_div]; ring
  have hab : ∀ a b : ℝ, |-a - -b| = |a - b| := by intro a b; rw [← abs_neg]; congr 1; ring
  refine ⟨?_, ?_, ?_, ?_, ?_, ?_, ?_, ?_, ?_, E.rok, E.tolpos⟩
  · intro k p p1 h; exact E.dom _ _ _ h
  · intro k p p1 h
    have := E.slope _ _ _ h
    simpa only [neg_neg] using this
  · intro k p p1 h h'
    have := E.acc _ _ _ h
    simp only [neg_neg, hch, hab] at this
    exact this h'
  · intro p p1 h
    have := E.last _ _ h
    simpa only [neg_neg, hch, hab] using this
  · intro k p p1 h
    have := E.next _ _ _ h
    simpa only [neg_neg, hch, neg_inj] using this
  · intro k p p1 h
    have := E.stay _ _ _ h
    simpa only [neg_neg, hch] using this
  · intro k p p1 h h'
    have := E.stuck _ _ _ h
    simp only [neg_neg, hch, neg_inj] at this
    exact this h'
  · have := E.root
    simpa only [neg_neg] using this
  · exact E.rdom

/-- the search may be started: every entry is in one of the four positions -/
theorem Ready'.start {ρ κ E p0 p1 : ℝ} (hρ : 0 ≤ ρ) (hρ' : ρ ≤ 6 / 11) (hκ : 1 ≤ κ) (hκ' : κ ≤ 11 / 5) (ht : tol = 1.48e-8) (hE : 0 ≤ E) (hE' : E ≤ 1)
    (a0 : |p0 - r| ≤ E) (a1 : |p1 - r| ≤ E) : Ready' r tol ρ κ 50 p0 p1 := by
  obtain ⟨b1, b2⟩ := abs_le.1 a0
  obtain ⟨c1, c2⟩ := abs_le.1 a1
  have hp : ρ ^ 32 ≤ (6 / 11 : ℝ) ^ 32 := pow_le_pow_left₀ hρ hρ' _
  have hz : 0 ≤ ρ ^ 32 := pow_nonneg hρ _
  have hnum : 16 / 5 * (6 / 11 : ℝ) ^ 32 < 1.48e-8 := by norm_num
  have e : (κ + 1) * E * ρ ^ 32 < tol := by
    rw [ht]
    refine lt_of_le_of_lt ?_ hnum
    have : (κ + 1) * E ≤ 16 / 5 := by
      calc (κ + 1) * E ≤ (κ + 1) * 1 := by gcongr
        _ ≤ _ := by linarith
    gcongr
  have e' : (p1 - r) * ρ ^ 32 < tol := by
    refine lt_of_le_of_lt ?_ e
    have : p1 - r ≤ (κ + 1) * E := by
      have : 0 ≤ κ * E := by positivity
      linarith
    gcongr
  rcases le_total r p0 with g0 | g0 <;> rcases le_total r p1 with g1 | g1
  · exact .rr 32 g0 g1 e' (by norm_num)
  · exact .rl 32 E g0 g1 (by linarith) e (by norm_num)
  · exact .lr 32 E g0 g1 (by linarith) (by nlinarith) e (by norm_num)
  · exact .ll 32 E g0 g1 (by linarith) e (by norm_num)

end

end Aerokit.ArrayNewton
