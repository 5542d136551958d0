import Verif.Lemmas.NumSpectral
import Verif.Spec.LinAlg

/-! # Properties C40–C43 : `aerokit/common/numspectral.py` -/

namespace Aerokit.Props
open NumSpectral Polynomial Aerokit.Welfert

variable {N : ℕ}

/-- a call on a `ChebCollocation` object -/
inductive ChebCall
  | xi | x
  | matder (order : ℕ)
  | compute_matder (maxorder : ℕ)

/-- the object after a call (a raising call leaves it unchanged) -/
noncomputable def chebStep (s : Cheb N) : ChebCall → Cheb N
  | .xi => match NumSpectral.xi s with | .ok (s', _) => s' | .error _ => s
  | .x => match NumSpectral.x s with | .ok (s', _) => s' | .error _ => s
  | .matder m => match NumSpectral.matder s m with | .ok (s', _) => s' | .error _ => s
  | .compute_matder m => match NumSpectral.compute_matder s m with | .ok s' => s' | .error _ => s

/-- the object `ChebCollocation(N, a, b)` after an arbitrary history of calls -/
noncomputable def chebAfter (N : ℕ) (a b : ℝ) (h : List ChebCall) : Cheb N :=
  h.foldl chebStep (NumSpectral.mk N (some a) (some b))

theorem inv_step (hN : 2 ≤ N) {a b : ℝ} (hab : a ≠ b) {s : Cheb N} (h : Inv a b s) (c : ChebCall) :
    Inv a b (chebStep s c) := by
  cases c with
  | xi => obtain ⟨s', h1, h2⟩ := xi_spec hN h; simp only [chebStep, h1]; exact h2
  | x => obtain ⟨s', h1, h2, -⟩ := x_spec hN h; simp only [chebStep, h1]; exact h2
  | matder m =>
    by_cases hm : 1 ≤ m
    · obtain ⟨s', h1, h2⟩ := matder_spec hN hab h hm; simp only [chebStep, h1]; exact h2
    · simp only [chebStep, NumSpectral.matder, if_neg hm]; exact h
  | compute_matder m =>
    simp only [chebStep, compute_matder_ok hN s (by rw [h.xmin, h.xmax]; exact hab)]
    exact ⟨h.xmin, h.xmax, h.cxi, h.cx, by rw [h.xmin, h.xmax]⟩

theorem inv_after (hN : 2 ≤ N) {a b : ℝ} (hab : a ≠ b) (h : List ChebCall) : Inv a b (chebAfter N a b h) := by
  unfold chebAfter
  have : ∀ (l : List ChebCall) (s : Cheb N), Inv a b s → Inv a b (l.foldl chebStep s) := by
    intro l
    induction l with
    | nil => intro s hs; exact hs
    | cons c l ih => intro s hs; exact ih _ (inv_step hN hab hs c)
  exact this h _ (inv_mk a b)

/-- C40: after any history, `x` is readable, strictly increasing, starts exactly at `xmin` and ends
exactly at `xmax`. -/
theorem C40_nodes (hN : 2 ≤ N) {a b : ℝ} (hab : a < b) (h : List ChebCall) :
    ∃ s' X, NumSpectral.x (chebAfter N a b h) = .ok (s', X) ∧ StrictMono X ∧
      X ⟨0, by omega⟩ = a ∧ X ⟨N - 1, by omega⟩ = b := by
  obtain ⟨s', h1, -, -⟩ := x_spec hN (inv_after hN hab.ne h)
  refine ⟨s', _, h1, ?_, ?_, ?_⟩
  · intro i j hij
    unfold xv
    have := node_lt hN (show (i:ℕ) < j from hij) j.2
    have hba : 0 < b - a := by linarith
    nlinarith
  · unfold xv; rw [node_zero]; ring
  · unfold xv; rw [node_last hN]; ring

/-- C40: the two conversions are inverse of each other (for the default interval too). -/
theorem C40_inverse {s : Cheb N} (h : s.xmin ≠ s.xmax) (t : ℝ) :
    x_to_xi s (xi_to_x s t) = .ok t ∧ ∃ r, x_to_xi s t = .ok r ∧ xi_to_x s r = t := by
  have hne : s.xmax - s.xmin ≠ 0 := sub_ne_zero.2 (Ne.symm h)
  unfold x_to_xi
  rw [Py.div_ok hne, Py.div_ok hne]
  simp only [Py.ok_bind, Py.pure_eq]
  refine ⟨?_, _, rfl, ?_⟩
  · congr 1
    unfold xi_to_x
    norm_num
    field_simp
    ring
  · unfold xi_to_x
    norm_num
    field_simp
    ring

/-- C40: the nodes are the images of the Gauss–Lobatto points `cos (i π / (N-1))`. -/
theorem C40_gauss_lobatto (hN : 2 ≤ N) {a b : ℝ} (hab : a ≠ b) (h : List ChebCall) :
    ∃ s' V, NumSpectral.xi (chebAfter N a b h) = .ok (s', V) ∧
      ∀ i : Fin N, V i = Real.cos (i * Real.pi / ((N : ℝ) - 1)) := by
  obtain ⟨s', h1, -⟩ := xi_spec hN (inv_after hN hab h)
  exact ⟨s', _, h1, fun _ => rfl⟩

/-- C41: the `m`-th differentiation matrix is exact on polynomials of degree `< N`, whatever was
called before, on any interval (even reversed). -/
theorem C41_exact (hN : 2 ≤ N) {a b : ℝ} (hab : a ≠ b) (h : List ChebCall) {m : ℕ} (hm : 1 ≤ m) :
    ∃ s' s'' D X, NumSpectral.matder (chebAfter N a b h) m = .ok (s', D) ∧
      NumSpectral.x s' = .ok (s'', X) ∧
      ∀ p : ℝ[X], p.degree < N → ∀ i,
        D.mulVec (fun j => p.eval (X j)) i = (derivative^[m] p).eval (X i) := by
  obtain ⟨s', h1, hi⟩ := matder_spec hN hab (inv_after hN hab h) hm
  obtain ⟨s'', h2, -, -⟩ := x_spec hN hi
  exact ⟨s', s'', _, _, h1, h2, fun p hp i => Dm_exact hN hab m p hp i⟩

/-- C41: order 0 is refused. -/
theorem C41_order_zero (s : Cheb N) : NumSpectral.matder s 0 = .error .assertionError := by
  simp [NumSpectral.matder]

/-- C41: differentiation matrices of order `≥ N` are identically zero on such polynomials; in
particular constants are always differentiated to 0. -/
theorem C41_constant (hN : 2 ≤ N) {a b : ℝ} (hab : a ≠ b) (h : List ChebCall) {m : ℕ} (hm : 1 ≤ m) :
    ∃ s' D, NumSpectral.matder (chebAfter N a b h) m = .ok (s', D) ∧ ∀ i, ∑ j, D i j = 0 := by
  obtain ⟨s', h1, -⟩ := matder_spec hN hab (inv_after hN hab h) hm
  refine ⟨s', _, h1, fun i => ?_⟩
  have := Dm_exact hN hab m (1 : ℝ[X]) (lt_of_le_of_lt degree_one_le (by exact_mod_cast (by omega : 0 < N))) i
  obtain ⟨k, rfl⟩ : ∃ k, m = k + 1 := ⟨m - 1, by omega⟩
  rw [Function.iterate_succ_apply, derivative_one, iterate_derivative_zero] at this
  simpa using this

/-- C42: the result of every call is the same after any history as on a fresh object. -/
theorem C42_history (hN : 2 ≤ N) {a b : ℝ} (hab : a ≠ b) (h : List ChebCall) (m : ℕ) :
    (NumSpectral.matder (chebAfter N a b h) m).map Prod.snd
        = (NumSpectral.matder (NumSpectral.mk N (some a) (some b)) m).map Prod.snd ∧
    (NumSpectral.x (chebAfter N a b h)).map Prod.snd
        = (NumSpectral.x (NumSpectral.mk N (some a) (some b))).map Prod.snd ∧
    (NumSpectral.xi (chebAfter N a b h)).map Prod.snd
        = (NumSpectral.xi (NumSpectral.mk N (some a) (some b))).map Prod.snd := by
  have i1 := inv_after hN hab h
  have i2 : Inv a b (NumSpectral.mk N (some a) (some b)) := inv_mk a b
  refine ⟨?_, ?_, ?_⟩
  · by_cases hm : 1 ≤ m
    · obtain ⟨_, e1, -⟩ := matder_spec hN hab i1 hm
      obtain ⟨_, e2, -⟩ := matder_spec hN hab i2 hm
      rw [e1, e2]; rfl
    · simp only [NumSpectral.matder, if_neg hm]
  · obtain ⟨_, e1, -⟩ := x_spec hN i1
    obtain ⟨_, e2, -⟩ := x_spec hN i2
    rw [e1, e2]; rfl
  · obtain ⟨_, e1, -⟩ := xi_spec hN i1
    obtain ⟨_, e2, -⟩ := xi_spec hN i2
    rw [e1, e2]; rfl

/-- C42: cached attributes are computed once: reading again does not change the object and returns
the stored value. -/
theorem C42_lazy (s s' : Cheb N) (X : Fin N → ℝ) (h : NumSpectral.x s = .ok (s', X)) :
    NumSpectral.x s' = .ok (s', X) ∧ s'.cache_x = some X := by
  unfold NumSpectral.x at h
  cases hc : s.cache_x with
  | some v =>
    rw [hc] at h
    simp only [Except.ok.injEq, Prod.mk.injEq] at h
    obtain ⟨rfl, rfl⟩ := h
    exact ⟨by unfold NumSpectral.x; rw [hc], hc⟩
  | none =>
    rw [hc] at h
    cases hx : NumSpectral.xi s with
    | error e => simp [hx] at h
    | ok r =>
      obtain ⟨s1, v⟩ := r
      simp only [hx, Py.ok_bind, Py.pure_eq, Except.ok.injEq, Prod.mk.injEq] at h
      obtain ⟨rfl, rfl⟩ := h
      exact ⟨rfl, rfl⟩

/-- C43: `extrapol` of the nodal values of a polynomial of degree `< N` is the polynomial, at every
point (inside the interval or not). -/
theorem C43_extrapol (solve : Solver) (hsolve : Spec.SoundSolve solve) (hN : 2 ≤ N) {a b : ℝ} (hab : a ≠ b)
    (h : List ChebCall) :
    ∃ s' X, NumSpectral.x (chebAfter N a b h) = .ok (s', X) ∧ ∀ p : ℝ[X], p.degree < N → ∀ t : ℝ,
      ∃ s'', extrapol solve (chebAfter N a b h) (fun i => p.eval (X i)) t = .ok (s'', p.eval t) := by
  have hi := inv_after hN hab h
  obtain ⟨s', h1, -, -⟩ := x_spec hN hi
  refine ⟨s', _, h1, fun p hp t => ?_⟩
  obtain ⟨s2, h2, hi2⟩ := xi_spec hN hi
  obtain ⟨c, hc, hV⟩ := (hsolve N (chebvander N fun i : Fin N => node N i)
    (fun i => p.eval (xv N a b i))).1 (vander_det hN)
  have hcp : cpoly c = pull a b p := by
    refine Polynomial.eq_of_degrees_lt_of_eval_index_eq (s := Finset.univ) (v := fun i : Fin N => node N i)
      (node_inj hN).injOn (by simpa using cpoly_degree c) (by simpa using pull_degree hp) ?_
    intro i _
    have e := vander_mulVec (fun i : Fin N => node N i) c i
    rw [hV] at e
    rw [pull_eval]
    exact e.symm
  have hne : s2.xmin ≠ s2.xmax := by rw [hi2.xmin, hi2.xmax]; exact hab
  obtain ⟨r, hr, hrt⟩ := (C40_inverse hne t).2
  refine ⟨s2, ?_⟩
  unfold extrapol
  rw [h2]; simp only [Py.ok_bind]
  rw [hc]; simp only [Py.ok_bind]
  rw [hr]; simp only [Py.ok_bind, Py.pure_eq]
  have hval : chebval r c = p.eval t := by
    rw [← cpoly_eval, hcp, pull_eval]
    congr 1
    have : (xi_to_x s2 r) = a + (r - 1) / (-2) * (b - a) := by
      unfold xi_to_x; rw [hi2.xmin, hi2.xmax]; norm_num
    rw [← this, hrt]
  rw [hval]

theorem mapVec_ok {m : ℕ} (f : ℝ → Py ℝ) (g : ℝ → ℝ) (hf : ∀ t, f t = .ok (g t)) (v : Fin m → ℝ) :
    mapVec f v = .ok fun i => g (v i) := by
  induction m with
  | zero => unfold mapVec; congr 1; funext i; exact i.elim0
  | succ m ih =>
    unfold mapVec
    rw [hf, ih]
    simp only [Py.ok_bind, Py.pure_eq]
    congr 1
    funext i
    refine Fin.cases ?_ (fun i => ?_) i <;> simp

/-- C43: `fit_to_gauss` on samples of a polynomial of degree `< N` at points among which at least `N`
are distinct gives its values at the collocation points. -/
theorem C43_fit (lstsq : Lstsq) (hls : Spec.SoundLstsq lstsq) (hN : 2 ≤ N) {a b : ℝ} (hab : a ≠ b)
    (h : List ChebCall) {m : ℕ} (xs : Fin m → ℝ) (hxs : N ≤ (Finset.univ.image xs).card) :
    ∃ s' X, NumSpectral.x (chebAfter N a b h) = .ok (s', X) ∧ ∀ p : ℝ[X], p.degree < N →
      ∃ s'', fit_to_gauss lstsq (chebAfter N a b h) xs (fun i => p.eval (xs i))
        = .ok (s'', fun i => p.eval (X i)) := by
  have hi := inv_after hN hab h
  obtain ⟨s', h1, -, -⟩ := x_spec hN hi
  refine ⟨s', _, h1, fun p hp => ?_⟩
  obtain ⟨s2, h2, hi2⟩ := xi_spec hN hi
  set s := chebAfter N a b h with hs
  have hba : b - a ≠ 0 := sub_ne_zero.2 (Ne.symm hab)
  let g : ℝ → ℝ := fun t => 1 - 2 * (t - a) / (b - a)
  have hg : ∀ t, x_to_xi s t = .ok (g t) := by
    intro t
    unfold x_to_xi
    rw [Py.div_ok (by rw [hi.xmin, hi.xmax]; exact hba), hi.xmin, hi.xmax]
    simp only [Py.ok_bind, Py.pure_eq]
    congr 1
    norm_num [g]
  have hgi : Function.Injective g := by
    intro u v huv
    have : 2 * (u - a) / (b - a) = 2 * (v - a) / (b - a) := by simpa [g] using huv
    rw [div_left_inj' hba] at this
    linarith
  have hgp : ∀ t, (pull a b p).eval (g t) = p.eval t := by
    intro t
    rw [pull_eval]
    congr 1
    simp only [g]
    field_simp
    ring
  obtain ⟨c, hc, hmin⟩ := hls m N (chebvander N fun i => g (xs i)) (fun i => p.eval (xs i))
  obtain ⟨c0, hc0⟩ := cpoly_surj (pull_degree (a := a) (b := b) hp)
  have hzero : ∑ i, ((chebvander N fun i => g (xs i)).mulVec c i - p.eval (xs i)) ^ 2 ≤ 0 := by
    refine (hmin c0).trans (le_of_eq ?_)
    refine Finset.sum_eq_zero fun i _ => ?_
    have e := vander_mulVec (fun i => g (xs i)) c0 i
    rw [e, hc0, hgp]; ring
  have hres : ∀ i, (chebvander N fun i => g (xs i)).mulVec c i = p.eval (xs i) := by
    intro i
    have hsum := le_antisymm hzero (Finset.sum_nonneg fun i _ => sq_nonneg _)
    have := (Finset.sum_eq_zero_iff_of_nonneg (fun i _ => sq_nonneg _)).1 hsum i (Finset.mem_univ i)
    have := pow_eq_zero_iff (two_ne_zero) |>.1 this
    linarith
  have hcp : cpoly c = pull a b p := by
    have hcard : N ≤ ((Finset.univ.image xs).image g).card := by
      rwa [Finset.card_image_of_injective _ hgi]
    have hlt : ∀ {q : ℝ[X]}, q.degree < N → q.degree < (((Finset.univ.image xs).image g).card : WithBot ℕ) :=
      fun hq => lt_of_lt_of_le hq (by exact_mod_cast hcard)
    refine Polynomial.eq_of_degrees_lt_of_eval_finset_eq ((Finset.univ.image xs).image g)
      (hlt (cpoly_degree c)) (hlt (pull_degree hp)) ?_
    intro y hy
    obtain ⟨t, ht, rfl⟩ := Finset.mem_image.1 hy
    obtain ⟨i, -, rfl⟩ := Finset.mem_image.1 ht
    rw [hgp, ← hres i]
    exact (vander_mulVec (fun i => g (xs i)) c i).symm
  refine ⟨s2, ?_⟩
  unfold fit_to_gauss
  rw [mapVec_ok _ g hg]; simp only [Py.ok_bind]
  rw [hc]; simp only [Py.ok_bind]
  rw [h2]; simp only [Py.ok_bind, Py.pure_eq]
  congr 2
  funext i
  rw [← cpoly_eval, hcp, pull_eval]; rfl

/-! ### the hypotheses are met -/

example : ∃ s' s'' D X, NumSpectral.matder (chebAfter 5 0 3 [.x, .matder 1, .matder 0]) 3 = .ok (s', D) ∧
    NumSpectral.x s' = .ok (s'', X) ∧ ∀ i, D.mulVec (fun j => (X j) ^ 4) i = 24 * X i := by
  obtain ⟨s', s'', D, Y, h1, h2, h3⟩ := C41_exact (N := 5) (by norm_num) (by norm_num : (0:ℝ) ≠ 3)
    [.x, .matder 1, .matder 0] (m := 3) (by norm_num)
  refine ⟨s', s'', D, Y, h1, h2, fun i => ?_⟩
  have := h3 (X ^ 4) (by rw [degree_X_pow]; norm_num) i
  simp only [eval_pow, eval_X] at this
  rw [this]
  simp [Function.iterate_succ_apply, derivative_X_pow]
  ring

example : ∃ solve, Spec.SoundSolve solve := Spec.exists_soundSolve
example : ∃ lstsq, Spec.SoundLstsq lstsq := Spec.exists_soundLstsq
example : 3 ≤ (Finset.univ.image (fun i : Fin 4 => ((i : ℕ) : ℝ))).card := by
  rw [Finset.card_image_of_injective _ (fun i j h => Fin.ext (by exact_mod_cast h))]
  simp

end Aerokit.Props
