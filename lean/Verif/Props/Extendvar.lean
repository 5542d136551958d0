import Verif.Spec.Calculator
import Verif.Model.Extendvar
import Verif.Lemmas.Isentropic
import Verif.Props.Dicovar

/-! # C77 : `aerokit/common/extendvar.py`

The formulas are strings; their meaning is that of the calculator language of `Spec/Calculator.lean`
(lexer, parser, evaluator). -/

namespace Aerokit.Props
open Dicovar Extendvar Spec Spec.Calc
theorem lexW_word (w n rest : List Char) (h : ∀ x ∈ n, wordChar x = true) :
    lexW w (n ++ rest) = lexW (w ++ n) rest := by
  induction n generalizing w with
  | nil => simp
  | cons c cs ih =>
    simp only [List.cons_append, lexW]
    rw [if_pos (h c (by simp)), ih _ (fun x hx => h x (by simp [hx]))]
    simp

theorem flush_name {s : String} (h : IsName s) : flush s.toList = [.name s.toList] := by
  obtain ⟨c, cs, e, hd, -⟩ := h
  rw [e]; simp [flush, hd]

theorem lex_name {s : String} (h : IsName s) (c : Char) (rest : List Char) (hc : wordChar c = false) :
    lexW [] (s.toList ++ c :: rest) = .name s.toList :: symTok c :: lexW [] rest := by
  obtain ⟨c', cs', e, hd, hw⟩ := id h
  rw [lexW_word _ _ _ hw, lexW, if_neg (by simp [hc]), List.nil_append, flush_name h]; rfl


theorem wc_mul : wordChar '*' = false := by decide
theorem wc_div : wordChar '/' = false := by decide
theorem wc_rp : wordChar ')' = false := by decide
theorem wc_pow : wordChar '^' = false := by decide

section parsing
variable {p r v : String} (hp : IsName p) (hr : IsName r)

/-- the formula `sqrt(1.4*p/r)` -/
def aE (p r : String) : Expr := .call ['s', 'q', 'r', 't']
  (.bin .div (.bin .mul (.num ['1', '.', '4']) (.field p.toList)) (.field r.toList))

include hp hr in
theorem parse_a : parse (lexW [] ("sqrt(" ++ "1.4" ++ "*" ++ p ++ "/" ++ r ++ ")").toList)
    = some (aE p r) := by
  simp only [String.toList_append, List.append_assoc, List.cons_append, List.nil_append,
    String.reduceToList]
  simp [lexW, wordChar, symTok, flush, lex_name hp _ _ wc_div, lex_name hr _ _ wc_rp]
  rfl

include hp hr in
theorem parse_Pt (hv : IsName v) : parse (lexW [] (p ++ "*(1+" ++ "0.2" ++ "*(mag(" ++ v ++ "))^2/("
    ++ "1.4" ++ "*" ++ p ++ "/" ++ r ++ "))^" ++ "3.5").toList) =
    some (.bin .mul (.field p.toList) (.bin .pow (.bin .add (.num ['1'])
      (.bin .div (.bin .mul (.num ['0', '.', '2'])
        (.bin .pow (.call ['m', 'a', 'g'] (.field v.toList)) (.num ['2'])))
        (.bin .div (.bin .mul (.num ['1', '.', '4']) (.field p.toList)) (.field r.toList))))
      (.num ['3', '.', '5']))) := by
  simp only [String.toList_append, List.append_assoc, List.cons_append, List.nil_append,
    String.reduceToList]
  rw [lex_name hp _ _ wc_mul]
  simp [lexW, wordChar, symTok, flush, lex_name hv _ _ wc_rp, lex_name hp _ _ wc_div,
    lex_name hr _ _ wc_rp]
  rfl

include hp hr in
theorem parse_T : parse (lexW [] (p ++ "/" ++ r ++ "/287.1").toList) =
    some (.bin .div (.bin .div (.field p.toList) (.field r.toList))
      (.num ['2', '8', '7', '.', '1'])) := by
  simp only [String.toList_append, List.append_assoc, List.cons_append, List.nil_append,
    String.reduceToList]
  simp [lexW, wordChar, symTok, flush, lex_name hp _ _ wc_div, lex_name hr _ _ wc_div]
  rfl

include hp hr in
theorem parse_S : parse (lexW [] ("ln(" ++ p ++ "/" ++ r ++ "^" ++ "1.4" ++ ")").toList) =
    some (.call ['l', 'n'] (.bin .div (.field p.toList)
      (.bin .pow (.field r.toList) (.num ['1', '.', '4'])))) := by
  simp only [String.toList_append, List.append_assoc, List.cons_append, List.nil_append,
    String.reduceToList]
  simp [lexW, wordChar, symTok, flush, lex_name hp _ _ wc_div, lex_name hr _ _ wc_pow]
  rfl

theorem parse_V (hv : IsName v) : parse (lexW [] ("mag(" ++ v ++ ")").toList) =
    some (.call ['m', 'a', 'g'] (.field v.toList)) := by
  simp only [String.toList_append, List.append_assoc, List.cons_append, List.nil_append,
    String.reduceToList]
  simp [lexW, wordChar, symTok, flush, lex_name hv _ _ wc_rp]
  rfl

include hp hr in
theorem parse_Mach (hv : IsName v) : parse (lexW [] ("mag(" ++ v ++ ")/" ++
    ("sqrt(" ++ "1.4" ++ "*" ++ p ++ "/" ++ r ++ ")")).toList) =
    some (.bin .div (.call ['m', 'a', 'g'] (.field v.toList)) (aE p r)) := by
  simp only [String.toList_append, List.append_assoc, List.cons_append, List.nil_append,
    String.reduceToList]
  simp [lexW, wordChar, symTok, flush, lex_name hv _ _ wc_rp, lex_name hp _ _ wc_div,
    lex_name hr _ _ wc_rp]
  rfl

include hp hr in
theorem parse_Mx : parse (lexW [] ("U_X/" ++
    ("sqrt(" ++ "1.4" ++ "*" ++ p ++ "/" ++ r ++ ")")).toList) =
    some (.bin .div (.field ['U', '_', 'X']) (aE p r)) := by
  simp only [String.toList_append, List.append_assoc, List.cons_append, List.nil_append,
    String.reduceToList]
  simp [lexW, wordChar, symTok, flush, lex_name hp _ _ wc_div, lex_name hr _ _ wc_rp]
  rfl

include hp hr in
theorem parse_alpha : parse (lexW [] ("atan(" ++ p ++ "/" ++ r ++ ")*180/acos(-1)").toList) =
    some (.bin .div (.bin .mul (.call ['a', 't', 'a', 'n']
      (.bin .div (.field p.toList) (.field r.toList))) (.num ['1', '8', '0']))
      (.call ['a', 'c', 'o', 's'] (.neg (.num ['1'])))) := by
  simp only [String.toList_append, List.append_assoc, List.cons_append, List.nil_append,
    String.reduceToList]
  simp [lexW, wordChar, symTok, flush, lex_name hp _ _ wc_div, lex_name hr _ _ wc_rp]
  rfl
end parsing

theorem nv_1 : numVal ['1'] = 1 := by simp [numVal, digits]
theorem nv_2 : numVal ['2'] = 2 := by simp [numVal, digits]
theorem nv_02 : numVal ['0', '.', '2'] = 0.2 := by simp [numVal, digits]; norm_num
theorem nv_14 : numVal ['1', '.', '4'] = 1.4 := by simp [numVal, digits]; norm_num
theorem nv_35 : numVal ['3', '.', '5'] = 3.5 := by simp [numVal, digits]; norm_num
theorem nv_287 : numVal ['2', '8', '7', '.', '1'] = 287.1 := by simp [numVal, digits]; norm_num
theorem nv_180 : numVal ['1', '8', '0'] = 180 := by simp [numVal, digits]

theorem fn_sqrt {x : ℝ} (h : 0 ≤ x) : fn (String.ofList ['s', 'q', 'r', 't']) (.sc x) = some (.sc (√x)) := by
  simp [fn, h]
theorem fn_ln {x : ℝ} (h : 0 < x) : fn (String.ofList ['l', 'n']) (.sc x) = some (.sc (Real.log x)) := by
  simp [fn, h]
theorem fn_atan (x : ℝ) : fn (String.ofList ['a', 't', 'a', 'n']) (.sc x) = some (.sc (Real.arctan x)) := by
  simp [fn]
theorem fn_acos : fn (String.ofList ['a', 'c', 'o', 's']) (.sc (-1)) = some (.sc Real.pi) := by
  simp [fn]
theorem fn_mag (x y z : ℝ) : fn (String.ofList ['m', 'a', 'g']) (.vec x y z) =
    some (.sc (√(x ^ 2 + y ^ 2 + z ^ 2))) := by
  simp [fn]
theorem op_div (x : ℝ) {y : ℝ} (h : y ≠ 0) : opVal .div x y = some (.sc (x / y)) := by
  simp [opVal, h]
theorem op_pow {x : ℝ} (h : 0 ≤ x) (y : ℝ) : opVal .pow x y = some (.sc (x ^ y)) := by
  simp [opVal, h]
theorem op_mul (x y : ℝ) : opVal .mul x y = some (.sc (x * y)) := rfl
theorem op_add (x y : ℝ) : opVal .add x y = some (.sc (x + y)) := rfl


/-! ### Execution of the function -/

theorem find_setItem (d : Dict) (k v k' : String) :
    (setItem d k v).find k' = if k' = k then some v else d.find k' := by
  unfold setItem
  cases h : d.find k with
  | some x => exact find_update d k v k' (by rw [h]; simp)
  | none => exact find_insert d k v k' h

/-- the state during the call: `extdico`, whose content is `d`, is the last heap object -/
def during (w : World) (d : Dict) : World := { w with heap := w.heap ++ [d] }

section exec
variable {w : World} (hw : w.dv < w.heap.length)

theorem deref_during_lt (d : Dict) {i : ℕ} (hi : i < w.heap.length) :
    (during w d).deref i = w.deref i := by
  simp [during, World.deref, List.getD, List.getElem?_append_left hi]

theorem deref_during_new (d : Dict) : (during w d).deref w.heap.length = d := by
  simp [during, World.deref, List.getD]

theorem storeItem_during (d : Dict) (k v : String) :
    storeItem (during w d) w.heap.length k v = during w (setItem d k v) := by
  unfold storeItem
  rw [deref_during_new]
  simp [during, World.store]

include hw in
theorem getitem_during (d : Dict) (k : String) : getitem (during w d) k = getitem w k := by
  unfold getitem Dicovar.get
  rw [show (during w d).dv = w.dv from rfl, deref_during_lt d hw]

include hw in
theorem copyLoop_during (ks : List String) (d : Dict) (h : ∀ k ∈ ks, observed w k ≠ none) :
    ∃ d', copyLoop w.heap.length ks (during w d) = (during w d', .ok ()) ∧
      ∀ k, d'.find k = if k ∈ ks then observed w k else d.find k := by
  induction ks generalizing d with
  | nil => exact ⟨d, rfl, fun k => by simp⟩
  | cons x xs ih =>
    have hx := h x (by simp)
    have hg : ∃ s, getitem w x = .ok s ∧ observed w x = some s := by
      unfold observed at hx ⊢
      unfold getitem
      cases e : Dicovar.get w x with
      | ok s => exact ⟨s, rfl, rfl⟩
      | error e' => rw [e] at hx; exact absurd rfl hx
    obtain ⟨s, hs, ho⟩ := hg
    obtain ⟨d', h1, h2⟩ := ih (setItem d x s) (fun k hk => h k (by simp [hk]))
    refine ⟨d', ?_, fun k => ?_⟩
    · unfold copyLoop
      rw [getitem_during hw, hs]
      simp only [storeItem_during]
      exact h1
    · rw [h2, find_setItem]
      by_cases hk : k ∈ xs
      · simp [hk]
      · by_cases hkx : k = x
        · subst hkx; simp [hk, ho]
        · simp [hk, hkx]

theorem mem_keys (k : String) : k ∈ keys w ↔ observed w k ≠ none := by
  rw [observed_eq]
  unfold keys Dict.find
  generalize w.deref w.dv = l
  induction l with
  | nil => simp
  | cons a t ih =>
    obtain ⟨x, y⟩ := a
    by_cases h : k = x
    · subst h; simp [List.lookup]
    · have hb : (k == x) = false := by simpa using h
      simp only [List.map_cons, List.mem_cons, h, false_or, ih, List.lookup, hb]

include hw in
theorem copyLoop_all : ∃ d, copyLoop w.heap.length (keys (during w [])) (during w []) =
    (during w d, .ok ()) ∧ ∀ k, d.find k = observed w k := by
  have hk : keys (during w []) = keys w := by
    unfold keys
    rw [show (during w []).dv = w.dv from rfl, deref_during_lt [] hw]
  rw [hk]
  obtain ⟨d, h1, h2⟩ := copyLoop_during hw (keys w) [] (fun k hk => (mem_keys k).1 hk)
  refine ⟨d, h1, fun k => ?_⟩
  rw [h2]
  by_cases h : k ∈ keys w
  · rw [if_pos h]
  · rw [if_neg h]
    have := mt (mem_keys k).2 h
    rw [not_not] at this
    rw [this]; rfl

theorem getitem_obs (k : String) : getitem w k =
    match observed w k with | some v => .ok v | none => .error .valueError := by
  rw [observed_eq]; unfold getitem Dicovar.get
  cases (w.deref w.dv).find k <;> rfl

theorem seq_ok {a b : World → World × Py Unit} {w w' : World} (h : a w = (w', .ok ())) :
    seq a b w = b w' := by unfold seq; rw [h]

theorem seq_err {a b : World → World × Py Unit} {w w' : World} {e : PyErr}
    (h : a w = (w', .error e)) : seq a b w = (w', .error e) := by unfold seq; rw [h]

include hw in
theorem assign_during {k : String} {e : World → Py String} {d : Dict} {s : String}
    (h : e (during w d) = .ok s) :
    assign w.heap.length k e (during w d) = (during w (setItem d k s), .ok ()) := by
  unfold assign; rw [h]; simp only [storeItem_during]

theorem assign_err {r : Ref} {k : String} {e : World → Py String} {w' : World} {x : PyErr}
    (h : e w' = .error x) : assign r k e w' = (w', .error x) := by
  unfold assign; rw [h]

/-- the string of the speed of sound -/
def aS (p r : String) : String := "sqrt(" ++ g ++ "*" ++ p ++ "/" ++ r ++ ")"
/-- the string of the total pressure -/
def ptS (p r v : String) : String :=
  p ++ "*(1+" ++ gmusd ++ "*(mag(" ++ v ++ "))^2/(" ++ g ++ "*" ++ p ++ "/" ++ r ++ "))^" ++ gsgmu

include hw in
theorem exec_ok {p r v vx vy : String} (hp : observed w "P" = some p)
    (hr : observed w "rho" = some r) (hv : observed w "V" = some v)
    (hx : observed w "Vx" = some vx) (hy : observed w "Vy" = some vy) :
    ∃ d, expressionsFromRhopv w = (during w d, .ok w.heap.length) ∧ ∀ k, d.find k =
      if k = "alpha" then some ("atan(" ++ vy ++ "/" ++ vx ++ ")*180/acos(-1)")
      else if k = "Mx" then some ("U_X/" ++ aS p r)
      else if k = "Mach" then some ("mag(" ++ v ++ ")/" ++ aS p r)
      else if k = "a" then some (aS p r)
      else if k = "V" then some ("mag(" ++ v ++ ")")
      else if k = "S" then some ("ln(" ++ p ++ "/" ++ r ++ "^" ++ g ++ ")")
      else if k = "T" then some (p ++ "/" ++ r ++ "/287.1")
      else if k = "Pt" then some (ptS p r v)
      else observed w k := by
  obtain ⟨d, h1, h2⟩ := copyLoop_all hw
  have gp : getitem w "P" = .ok p := by rw [getitem_obs, hp]
  have gr : getitem w "rho" = .ok r := by rw [getitem_obs, hr]
  have gv : getitem w "V" = .ok v := by rw [getitem_obs, hv]
  have gx : getitem w "Vx" = .ok vx := by rw [getitem_obs, hx]
  have gy : getitem w "Vy" = .ok vy := by rw [getitem_obs, hy]
  have eA : ∀ d, exprA (during w d) = .ok (aS p r) := fun d => by
    unfold exprA; rw [getitem_during hw, getitem_during hw, gp, gr]; rfl
  have ePt : ∀ d, exprPt (during w d) = .ok (ptS p r v) := fun d => by
    unfold exprPt; rw [getitem_during hw, getitem_during hw, getitem_during hw, gp, gr, gv]; rfl
  have eT : ∀ d, exprT (during w d) = .ok (p ++ "/" ++ r ++ "/287.1") := fun d => by
    unfold exprT; rw [getitem_during hw, getitem_during hw, gp, gr]; rfl
  have eS : ∀ d, exprS (during w d) = .ok ("ln(" ++ p ++ "/" ++ r ++ "^" ++ g ++ ")") := fun d => by
    unfold exprS; rw [getitem_during hw, getitem_during hw, gp, gr]; rfl
  have eV : ∀ d, exprV (during w d) = .ok ("mag(" ++ v ++ ")") := fun d => by
    unfold exprV; rw [getitem_during hw, gv]; rfl
  have eM : ∀ d, exprMach (aS p r) (during w d) = .ok ("mag(" ++ v ++ ")/" ++ aS p r) := fun d => by
    unfold exprMach; rw [getitem_during hw, gv]; rfl
  have eX : ∀ d, exprAlpha (during w d) = .ok ("atan(" ++ vy ++ "/" ++ vx ++ ")*180/acos(-1)") :=
    fun d => by
    unfold exprAlpha; rw [getitem_during hw, getitem_during hw, gx, gy]; rfl
  refine ⟨setItem (setItem (setItem (setItem (setItem (setItem (setItem (setItem d
    "Pt" (ptS p r v)) "T" (p ++ "/" ++ r ++ "/287.1")) "S" ("ln(" ++ p ++ "/" ++ r ++ "^" ++ g ++ ")"))
    "V" ("mag(" ++ v ++ ")")) "a" (aS p r)) "Mach" ("mag(" ++ v ++ ")/" ++ aS p r))
    "Mx" (exprMx (aS p r)))
    "alpha" ("atan(" ++ vy ++ "/" ++ vx ++ ")*180/acos(-1)"), ?_, fun k => ?_⟩
  · unfold expressionsFromRhopv
    rw [show w.alloc [] = (during w [], w.heap.length) from rfl]
    simp only [h1, eA]
    unfold body
    rw [seq_ok (assign_during hw (ePt _)), seq_ok (assign_during hw (eT _)),
      seq_ok (assign_during hw (eS _)), seq_ok (assign_during hw (eV _)),
      seq_ok (assign_during hw rfl), seq_ok (assign_during hw (eM _)),
      seq_ok (assign_during hw rfl), assign_during hw (eX _)]
  · simp only [find_setItem, h2, exprMx]

include hw in
theorem exec_err (h : observed w "P" = none ∨ observed w "rho" = none ∨ observed w "V" = none ∨
    observed w "Vx" = none ∨ observed w "Vy" = none) :
    ∃ d, expressionsFromRhopv w = (during w d, .error .valueError) := by
  obtain ⟨d, h1, -⟩ := copyLoop_all hw
  unfold expressionsFromRhopv
  rw [show w.alloc [] = (during w [], w.heap.length) from rfl]
  simp only [h1]
  cases hp : observed w "P" with
  | none =>
    refine ⟨d, ?_⟩
    have : exprA (during w d) = .error .valueError := by
      unfold exprA; rw [getitem_during hw, getitem_obs, hp]; rfl
    rw [this]
  | some p =>
  have gp : getitem w "P" = .ok p := by rw [getitem_obs, hp]
  cases hr : observed w "rho" with
  | none =>
    refine ⟨d, ?_⟩
    have : exprA (during w d) = .error .valueError := by
      unfold exprA; rw [getitem_during hw, getitem_during hw, gp, getitem_obs, hr]; rfl
    rw [this]
  | some r =>
  have gr : getitem w "rho" = .ok r := by rw [getitem_obs, hr]
  have eA : exprA (during w d) = .ok (aS p r) := by
    unfold exprA; rw [getitem_during hw, getitem_during hw, gp, gr]; rfl
  rw [eA]
  simp only []
  unfold body
  cases hv : observed w "V" with
  | none =>
    refine ⟨d, ?_⟩
    have : exprPt (during w d) = .error .valueError := by
      unfold exprPt; rw [getitem_during hw, getitem_during hw, gp, getitem_obs, hv]; rfl
    rw [seq_err (assign_err this)]
  | some v =>
  have gv : getitem w "V" = .ok v := by rw [getitem_obs, hv]
  have ePt : ∀ d, exprPt (during w d) = .ok (ptS p r v) := fun d => by
    unfold exprPt; rw [getitem_during hw, getitem_during hw, getitem_during hw, gp, gr, gv]; rfl
  have eT : ∀ d, exprT (during w d) = .ok (p ++ "/" ++ r ++ "/287.1") := fun d => by
    unfold exprT; rw [getitem_during hw, getitem_during hw, gp, gr]; rfl
  have eS : ∀ d, exprS (during w d) = .ok ("ln(" ++ p ++ "/" ++ r ++ "^" ++ g ++ ")") := fun d => by
    unfold exprS; rw [getitem_during hw, getitem_during hw, gp, gr]; rfl
  have eV : ∀ d, exprV (during w d) = .ok ("mag(" ++ v ++ ")") := fun d => by
    unfold exprV; rw [getitem_during hw, gv]; rfl
  have eM : ∀ d, exprMach (aS p r) (during w d) = .ok ("mag(" ++ v ++ ")/" ++ aS p r) := fun d => by
    unfold exprMach; rw [getitem_during hw, gv]; rfl
  have eX : ∀ d, exprAlpha (during w d) = .error .valueError := fun d => by
    unfold exprAlpha
    rw [getitem_during hw, getitem_during hw, getitem_obs, getitem_obs]
    rcases h with h | h | h | h | h
    · rw [hp] at h; exact absurd h (by simp)
    · rw [hr] at h; exact absurd h (by simp)
    · rw [hv] at h; exact absurd h (by simp)
    · rw [h]; cases observed w "Vy" <;> rfl
    · rw [h]; rfl
  refine ⟨setItem (setItem (setItem (setItem (setItem (setItem (setItem d
    "Pt" (ptS p r v)) "T" (p ++ "/" ++ r ++ "/287.1")) "S" ("ln(" ++ p ++ "/" ++ r ++ "^" ++ g ++ ")"))
    "V" ("mag(" ++ v ++ ")")) "a" (aS p r)) "Mach" ("mag(" ++ v ++ ")/" ++ aS p r))
    "Mx" (exprMx (aS p r)), ?_⟩
  · rw [seq_ok (assign_during hw (ePt _)), seq_ok (assign_during hw (eT _)),
      seq_ok (assign_during hw (eS _)), seq_ok (assign_during hw (eV _)),
      seq_ok (assign_during hw rfl), seq_ok (assign_during hw (eM _)),
      seq_ok (assign_during hw rfl), assign_err (eX _)]
end exec


/-! ### The property -/

/-- what the caller gets: the returned dictionary as a map, or nothing when an exception is raised -/
def returned (w : World) : Option NameMap := match expressionsFromRhopv w with
  | (w', .ok r) => some (w'.deref r).find
  | (_, .error _) => none

theorem observed_during {w : World} (hw : w.dv < w.heap.length) (d : Dict) :
    observed (during w d) = observed w := by
  funext k
  rw [observed_eq, observed_eq, show (during w d).dv = w.dv from rfl, deref_during_lt d hw]

/-- C77 (outcome): for every history of database calls, `expressions_from_rhopv` raises an exception
exactly when one of `P`, `rho`, `V`, `Vx`, `Vy` has no denomination, and the exception is then
`ValueError`. -/
theorem C77_outcome (cs : List Call) :
    ((∃ r, (expressionsFromRhopv (run world0 cs)).2 = .ok r) ↔
      ∀ k ∈ ["P", "rho", "V", "Vx", "Vy"], observed (run world0 cs) k ≠ none) ∧
    ∀ e, (expressionsFromRhopv (run world0 cs)).2 = .error e → e = .valueError := by
  have hw := (good_run world0 cs good_world0).hi
  generalize run world0 cs = w at hw
  by_cases h : observed w "P" = none ∨ observed w "rho" = none ∨ observed w "V" = none ∨
    observed w "Vx" = none ∨ observed w "Vy" = none
  · obtain ⟨d, hd⟩ := exec_err hw h
    rw [hd]
    refine ⟨⟨fun ⟨r, hr⟩ => (Except.noConfusion rfl rfl (heq_of_eq hr)), fun h' => ?_⟩, fun e he => ?_⟩
    · exfalso
      rcases h with h | h | h | h | h <;> exact h' _ (by simp) h
    · exact (Except.error.inj he).symm
  · push Not at h
    obtain ⟨h1, h2, h3, h4, h5⟩ := h
    obtain ⟨p, hp⟩ := Option.ne_none_iff_exists'.1 h1
    obtain ⟨r, hr⟩ := Option.ne_none_iff_exists'.1 h2
    obtain ⟨v, hv⟩ := Option.ne_none_iff_exists'.1 h3
    obtain ⟨x, hx⟩ := Option.ne_none_iff_exists'.1 h4
    obtain ⟨y, hy⟩ := Option.ne_none_iff_exists'.1 h5
    obtain ⟨d, hd, -⟩ := exec_ok hw hp hr hv hx hy
    rw [hd]
    refine ⟨⟨fun _ k hk => ?_, fun _ => ⟨_, rfl⟩⟩, fun e he => ?_⟩
    · simp only [List.mem_cons, List.not_mem_nil, or_false] at hk
      rcases hk with rfl | rfl | rfl | rfl | rfl <;> assumption
    · exact (Except.noConfusion rfl rfl (heq_of_eq he))

/-- C77 (the database is only read): whatever the outcome, every name keeps its denomination, every
dictionary object that existed (the database and the pristine software tables) keeps its content,
and the current software keeps its name; a repeated call returns the same map. -/
theorem C77_database_unchanged (cs : List Call) :
    observed (expressionsFromRhopv (run world0 cs)).1 = observed (run world0 cs) ∧
    (∀ i < (run world0 cs).heap.length,
      (expressionsFromRhopv (run world0 cs)).1.deref i = (run world0 cs).deref i) ∧
    (expressionsFromRhopv (run world0 cs)).1.softName = (run world0 cs).softName ∧
    ∀ cs', observed (run (expressionsFromRhopv (run world0 cs)).1 cs') =
      observed (run (run world0 cs) cs') := by
  have hg := good_run world0 cs good_world0
  have hw := hg.hi
  generalize run world0 cs = w at hw hg
  have key : ∃ d x, expressionsFromRhopv w = (during w d, x) := by
    by_cases h : observed w "P" = none ∨ observed w "rho" = none ∨ observed w "V" = none ∨
      observed w "Vx" = none ∨ observed w "Vy" = none
    · obtain ⟨d, hd⟩ := exec_err hw h
      exact ⟨d, _, hd⟩
    · push Not at h
      obtain ⟨h1, h2, h3, h4, h5⟩ := h
      obtain ⟨p, hp⟩ := Option.ne_none_iff_exists'.1 h1
      obtain ⟨r, hr⟩ := Option.ne_none_iff_exists'.1 h2
      obtain ⟨v, hv⟩ := Option.ne_none_iff_exists'.1 h3
      obtain ⟨x, hx⟩ := Option.ne_none_iff_exists'.1 h4
      obtain ⟨y, hy⟩ := Option.ne_none_iff_exists'.1 h5
      obtain ⟨d, hd, -⟩ := exec_ok hw hp hr hv hx hy
      exact ⟨d, _, hd⟩
  obtain ⟨d, x, hd⟩ := key
  rw [hd]
  have hg' : Good (during w d) :=
    ⟨by simp only [during]; rw [List.getElem?_append_left (List.getElem?_eq_some_iff.1 hg.cx).1]; exact hg.cx,
     by simp only [during]; rw [List.getElem?_append_left (List.getElem?_eq_some_iff.1 hg.of).1]; exact hg.of,
     hg.lo, by
      show w.dv < (w.heap ++ [d]).length
      rw [List.length_append]; exact Nat.lt_add_right _ hg.hi⟩
  have sim : ∀ (cs' : List Call) (a b : World), Good a → Good b → observed a = observed b →
      observed (run a cs') = observed (run b cs') := by
    intro cs'
    induction cs' with
    | nil => exact fun _ _ _ _ h => h
    | cons c t ih =>
      intro a b ha hb h
      refine ih _ _ (good_step a c ha) (good_step b c hb) ?_
      rw [(step_refines a c ha).1, (step_refines b c hb).1, h]
  exact ⟨observed_during hw d, fun i hi => deref_during_lt d hi, rfl,
    fun cs' => sim cs' _ _ hg' hg (observed_during hw d)⟩

/-- C77 (denominations): every name of the database other than the eight computed quantities is
returned with its denomination, and no other name is defined. -/
theorem C77_denominations (cs : List Call)
    (h : ∀ k ∈ ["P", "rho", "V", "Vx", "Vy"], observed (run world0 cs) k ≠ none) :
    ∃ m, returned (run world0 cs) = some m ∧
      (∀ k ∉ ["Pt", "T", "S", "V", "a", "Mach", "Mx", "alpha"], m k = observed (run world0 cs) k) ∧
      ∀ k ∈ ["Pt", "T", "S", "V", "a", "Mach", "Mx", "alpha"], m k ≠ none := by
  have hw := (good_run world0 cs good_world0).hi
  generalize run world0 cs = w at hw h
  obtain ⟨p, hp⟩ := Option.ne_none_iff_exists'.1 (h "P" (by simp))
  obtain ⟨r, hr⟩ := Option.ne_none_iff_exists'.1 (h "rho" (by simp))
  obtain ⟨v, hv⟩ := Option.ne_none_iff_exists'.1 (h "V" (by simp))
  obtain ⟨x, hx⟩ := Option.ne_none_iff_exists'.1 (h "Vx" (by simp))
  obtain ⟨y, hy⟩ := Option.ne_none_iff_exists'.1 (h "Vy" (by simp))
  obtain ⟨d, hd, hf⟩ := exec_ok hw hp hr hv hx hy
  refine ⟨d.find, by unfold returned; rw [hd]; simp only [deref_during_new], fun k hk => ?_, fun k hk => ?_⟩
  · simp only [List.mem_cons, List.not_mem_nil, or_false, not_or] at hk
    obtain ⟨h1, h2, h3, h4, h5, h6, h7, h8⟩ := hk
    rw [hf, if_neg h8, if_neg h7, if_neg h6, if_neg h5, if_neg h4, if_neg h3, if_neg h2, if_neg h1]
  · simp only [List.mem_cons, List.not_mem_nil, or_false] at hk
    rw [hf]
    rcases hk with rfl | rfl | rfl | rfl | rfl | rfl | rfl | rfl <;> simp

/-- value, over the fields `env`, of the formula returned for the name `k` -/
noncomputable def formula (env : String → Option Val) (m : NameMap) (k : String) : Option Val :=
  match m k with
  | some s => value env s
  | none => none

section values
variable {env : String → Option Val} {p r v : String} {P R ux uy uz : ℝ}
  (hP : 0 < P) (hR : 0 < R) (ep : env p = some (.sc P)) (er : env r = some (.sc R))

include hP hR ep er in
theorem eval_a : eval env (aE p r) = some (.sc (√(1.4 * P / R))) := by
  have h14 : (0:ℝ) ≤ 1.4 := by norm_num
  simp only [aE, eval, String.ofList_toList, ep, er, nv_14, op_mul, op_div _ hR.ne']
  rw [fn_sqrt (by positivity)]

theorem eval_bin (o : Op) {a b : Expr} {x y : ℝ} (h1 : eval env a = some (.sc x))
    (h2 : eval env b = some (.sc y)) : eval env (.bin o a b) = opVal o x y := by
  rw [eval, h1, h2]

theorem eval_mag (ev : env v = some (.vec ux uy uz)) :
    eval env (.call ['m', 'a', 'g'] (.field v.toList)) = some (.sc (√(ux ^ 2 + uy ^ 2 + uz ^ 2))) := by
  simp only [eval, String.ofList_toList, ev]
  exact fn_mag ux uy uz
end values

/-- C77 (values): for every history of database calls after which the five names are denominated by
*field names*, and every flow state (`P, R > 0`), each returned formula, read by the calculator,
has the value of the perfect-gas quantity (γ = 1.4, r = 287.1): speed, speed of sound, Mach number,
total pressure, temperature, entropy function, flow angle in degrees. -/
theorem C77_values (cs : List Call) (p r v vx vy : String)
    (hp : observed (run world0 cs) "P" = some p) (hr : observed (run world0 cs) "rho" = some r)
    (hv : observed (run world0 cs) "V" = some v) (hx : observed (run world0 cs) "Vx" = some vx)
    (hy : observed (run world0 cs) "Vy" = some vy) (np : IsName p) (nr : IsName r) (nv : IsName v)
    (nx : IsName vx) (ny : IsName vy) (env : String → Option Val) (P R ux uy uz : ℝ)
    (hP : 0 < P) (hR : 0 < R) (ep : env p = some (.sc P)) (er : env r = some (.sc R))
    (ev : env v = some (.vec ux uy uz)) (ex : env vx = some (.sc ux)) (ey : env vy = some (.sc uy)) :
    ∃ m γ a U, returned (run world0 cs) = some m ∧ γ = 1.4 ∧ a = √(γ * P / R) ∧ 0 < a ∧
      U = √(ux ^ 2 + uy ^ 2 + uz ^ 2) ∧
      formula env m "V" = some (.sc U) ∧
      formula env m "a" = some (.sc a) ∧
      formula env m "Mach" = some (.sc (U / a)) ∧
      formula env m "Pt" = some (.sc (P * (1 + (γ - 1) / 2 * (U / a) ^ 2) ^ (γ / (γ - 1)))) ∧
      (∃ T, formula env m "T" = some (.sc T) ∧ P = R * 287.1 * T) ∧
      formula env m "S" = some (.sc (Real.log (P / R ^ γ))) ∧
      (ux ≠ 0 → formula env m "alpha" = some (.sc (Real.arctan (uy / ux) * 180 / Real.pi))) := by
  have hw := (good_run world0 cs good_world0).hi
  generalize run world0 cs = w at hw hp hr hv hx hy
  obtain ⟨d, hd, hf⟩ := exec_ok hw hp hr hv hx hy
  have h14 : (0:ℝ) < 1.4 := by norm_num
  have ha : (0:ℝ) < 1.4 * P / R := by positivity
  have ha' := Real.sqrt_pos.2 ha
  have hU : (0:ℝ) ≤ ux ^ 2 + uy ^ 2 + uz ^ 2 := by positivity
  refine ⟨d.find, 1.4, √(1.4 * P / R), √(ux ^ 2 + uy ^ 2 + uz ^ 2),
    by unfold returned; rw [hd]; simp only [deref_during_new], rfl, rfl, ha', rfl,
    ?_, ?_, ?_, ?_, ?_, ?_, ?_⟩
  · unfold formula
    rw [hf]
    simp only [reduceCtorEq, String.reduceEq, if_false, if_true]
    unfold value
    rw [parse_V nv]
    exact eval_mag ev
  · unfold formula
    rw [hf]
    simp only [String.reduceEq, if_false, if_true]
    unfold value aS g
    rw [parse_a np nr]
    exact eval_a hP hR ep er
  · unfold formula
    rw [hf]
    simp only [String.reduceEq, if_false, if_true]
    unfold value aS g
    rw [parse_Mach np nr nv]
    simp only []
    rw [eval, eval_a hP hR ep er, eval_mag ev]
    exact op_div _ ha'.ne'
  · unfold formula
    rw [hf]
    simp only [String.reduceEq, if_false, if_true]
    unfold value ptS g gmusd gsgmu
    rw [parse_Pt np nr nv]
    simp only []
    have e2 : eval env (.bin .pow (.call ['m', 'a', 'g'] (.field v.toList)) (.num ['2'])) =
        some (.sc (ux ^ 2 + uy ^ 2 + uz ^ 2)) := by
      rw [eval, eval_mag ev, eval, nv_2]
      simp only []
      rw [op_pow (Real.sqrt_nonneg _), Real.rpow_two, Real.sq_sqrt hU]
    have e3 : eval env (.bin .div (.bin .mul (.num ['1', '.', '4']) (.field p.toList)) (.field r.toList))
        = some (.sc (1.4 * P / R)) := by
      simp only [eval, String.ofList_toList, ep, er, nv_14, op_mul, op_div _ hR.ne']
    have hM : (1.4 - 1) / 2 * (√(ux ^ 2 + uy ^ 2 + uz ^ 2) / √(1.4 * P / R)) ^ 2 =
        0.2 * (ux ^ 2 + uy ^ 2 + uz ^ 2) / (1.4 * P / R) := by
      rw [div_pow, Real.sq_sqrt hU, Real.sq_sqrt ha.le]; ring
    have hb : (0:ℝ) ≤ 1 + 0.2 * (ux ^ 2 + uy ^ 2 + uz ^ 2) / (1.4 * P / R) := by
      have : (0:ℝ) ≤ 0.2 * (ux ^ 2 + uy ^ 2 + uz ^ 2) / (1.4 * P / R) :=
        div_nonneg (by positivity) ha.le
      linarith
    have e4 := (eval_bin .mul (x := 0.2) (by rw [eval, nv_02]) e2).trans (op_mul _ _)
    have e5 := (eval_bin .div e4 e3).trans (op_div _ ha.ne')
    have e6 := (eval_bin .add (x := 1) (by rw [eval, nv_1]) e5).trans (op_add _ _)
    have e7 := (eval_bin .pow e6 (y := 3.5) (by rw [eval, nv_35])).trans (op_pow hb _)
    have e8 := (eval_bin .mul (a := .field p.toList) (x := P) (by rw [eval, String.ofList_toList, ep]) e7).trans (op_mul _ _)
    rw [e8, hM]
    norm_num
  · refine ⟨P / R / 287.1, ?_, by field_simp⟩
    unfold formula
    rw [hf]
    simp only [String.reduceEq, if_false, if_true]
    unfold value
    rw [parse_T np nr]
    have h287 : (287.1:ℝ) ≠ 0 := by norm_num
    simp only [eval, String.ofList_toList, ep, er, nv_287, op_div _ hR.ne', op_div _ h287]
  · unfold formula
    rw [hf]
    simp only [String.reduceEq, if_false, if_true]
    unfold value g
    rw [parse_S np nr]
    have hRg : (0:ℝ) < R ^ (1.4:ℝ) := Real.rpow_pos_of_pos hR _
    simp only [eval, String.ofList_toList, ep, er, nv_14, op_pow hR.le, op_div _ hRg.ne']
    exact fn_ln (div_pos hP hRg)
  · intro hux
    unfold formula
    rw [hf]
    simp only [if_true]
    unfold value
    rw [parse_alpha ny nx]
    simp only [eval, String.ofList_toList, ex, ey, nv_1, nv_180, op_div _ hux, fn_atan, op_mul, fn_acos,
      op_div _ Real.pi_ne_zero]

/-- C77 (axial Mach number), proved part: the formula of `Mx` has the value `Vx/a` when the axial
velocity is denominated `U_X`.  Missing: any other denomination, see `C77_mx_false`. -/
theorem C77_mx_partial (cs : List Call) (p r v vy : String)
    (hp : observed (run world0 cs) "P" = some p) (hr : observed (run world0 cs) "rho" = some r)
    (hv : observed (run world0 cs) "V" = some v) (hx : observed (run world0 cs) "Vx" = some "U_X")
    (hy : observed (run world0 cs) "Vy" = some vy) (np : IsName p) (nr : IsName r)
    (env : String → Option Val) (P R ux : ℝ)
    (hP : 0 < P) (hR : 0 < R) (ep : env p = some (.sc P)) (er : env r = some (.sc R))
    (ex : env "U_X" = some (.sc ux)) :
    ∃ m, returned (run world0 cs) = some m ∧
      formula env m "Mx" = some (.sc (ux / √(1.4 * P / R))) := by
  have hw := (good_run world0 cs good_world0).hi
  generalize run world0 cs = w at hw hp hr hv hx hy
  obtain ⟨d, hd, hf⟩ := exec_ok hw hp hr hv hx hy
  have h14 : (0:ℝ) < 1.4 := by norm_num
  have ha : (0:ℝ) < 1.4 * P / R := by positivity
  refine ⟨d.find, by unfold returned; rw [hd]; simp only [deref_during_new], ?_⟩
  unfold formula
  rw [hf]
  simp only [String.reduceEq, if_false, if_true]
  unfold value aS g
  rw [parse_Mx np nr]
  simp only []
  rw [eval, eval_a hP hR ep er, eval]
  rw [show String.ofList ['U', '_', 'X'] = "U_X" from rfl, ex]
  exact op_div _ (Real.sqrt_pos.2 ha).ne'


theorem isName_of (s : String) (c : Char) (cs : List Char) (h : s.toList = c :: cs)
    (hd : c.isDigit = false) (hw : (c :: cs).all wordChar = true) : IsName s :=
  ⟨c, cs, h, hd, by rw [h]; simpa using hw⟩

/-- the fields of a CharlesX data set -/
noncomputable def cxEnv : String → Option Val := fun s =>
  if s = "P" then some (.sc 100000) else if s = "RHO" then some (.sc 1.2)
  else if s = "U" then some (.vec 100 50 0) else if s = "U_X" then some (.sc 100)
  else if s = "U_Y" then some (.sc 50) else none

theorem obs0 (k : String) : observed (run world0 []) k = cxDico.find k :=
  congrFun (C36_refines_map [] (.software "cx")).1 k

/-- the hypotheses of `C77_values` and `C77_mx_partial` are met by the initial database (CharlesX) -/
example : ∃ m, returned (run world0 []) = some m ∧
    formula cxEnv m "Mx" = some (.sc (100 / √(1.4 * 100000 / 1.2))) ∧
    formula cxEnv m "alpha" = some (.sc (Real.arctan (50 / 100) * 180 / Real.pi)) := by
  have np := isName_of "P" 'P' [] (by simp) (by decide) (by decide)
  have nr := isName_of "RHO" 'R' ['H', 'O'] (by simp) (by decide) (by decide)
  have nv := isName_of "U" 'U' [] (by simp) (by decide) (by decide)
  have nx := isName_of "U_X" 'U' ['_', 'X'] (by simp) (by decide) (by decide)
  have ny := isName_of "U_Y" 'U' ['_', 'Y'] (by simp) (by decide) (by decide)
  obtain ⟨m, h1, h2⟩ := C77_mx_partial [] "P" "RHO" "U" "U_Y" (obs0 _) (obs0 _) (obs0 _) (obs0 _)
    (obs0 _) np nr cxEnv 100000 1.2 100 (by norm_num) (by norm_num) (by simp [cxEnv]) (by simp [cxEnv])
    (by simp [cxEnv])
  obtain ⟨m', _, _, _, h3, -, -, -, -, -, -, -, -, -, -, h4⟩ := C77_values [] "P" "RHO" "U" "U_X" "U_Y"
    (obs0 _) (obs0 _) (obs0 _) (obs0 _) (obs0 _) np nr nv nx ny cxEnv 100000 1.2 100 50 0 (by norm_num)
    (by norm_num) (by simp [cxEnv]) (by simp [cxEnv]) (by simp [cxEnv]) (by simp [cxEnv])
    (by simp [cxEnv])
  obtain rfl : m = m' := Option.some.inj (h1.symm.trans h3)
  exact ⟨m, h1, h2, h4 (by norm_num)⟩

/-- the OpenFOAM database is incomplete: `ValueError` -/
example : (expressionsFromRhopv (run world0 [.software "OpenFOAM"])).2 = .error .valueError := by
  have h := C77_outcome [.software "OpenFOAM"]
  cases e : (expressionsFromRhopv (run world0 [.software "OpenFOAM"])).2 with
  | error x => rw [h.2 x e]
  | ok r =>
    exfalso
    refine h.1.1 ⟨r, e⟩ "P" (by simp) ?_
    rw [(C36_refines_map [.software "OpenFOAM"] (.software "cx")).1]
    simp [regRun, toReg, regStep, tables, lower, ofNames, ofDico, Dict.find, List.lookup]

/-- C77, false part (names that are kept): "the returned dictionary contains the denominations of the
database" fails for `V` and `T`, whose entries are replaced by formulas. -/
theorem C77_all_denominations_false : ∃ m, returned (run world0 []) = some m ∧
    observed (run world0 []) "V" = some "U" ∧ m "V" = some "mag(U)" ∧
    observed (run world0 []) "T" = some "T" ∧ m "T" = some "P/RHO/287.1" := by
  have hw := (good_run world0 [] good_world0).hi
  obtain ⟨d, hd, hf⟩ := exec_ok hw (obs0 "P") (obs0 "rho") (obs0 "V") (obs0 "Vx") (obs0 "Vy")
  refine ⟨d.find, by unfold returned; rw [hd]; simp only [deref_during_new], obs0 _, ?_, obs0 _, ?_⟩
  · rw [hf]; simp [cxDico]
  · rw [hf]; simp [cxDico]

theorem obs_set {k v : String} (hk : cxDico.find k ≠ none) (k' : String) :
    observed (run world0 [.set k v]) k' = if k' = k then some v else cxDico.find k' := by
  rw [(C36_refines_map [.set k v] (.software "cx")).1]
  simp [regRun, toReg, regStep, hk, NameMap.write]

/-- C77, false part (axial Mach number): after `setVar('Vx', 'VX')`, on a data set holding exactly the
denominated fields, the formula of `Mx` has no value (it names the field `U_X`), although every other
hypothesis of `C77_values` holds. -/
theorem C77_mx_false : ∃ (env : String → Option Val) (m : NameMap),
    observed (run world0 [.set "Vx" "VX"]) "Vx" = some "VX" ∧ env "VX" = some (.sc 100) ∧
    env "P" = some (.sc 100000) ∧ env "RHO" = some (.sc 1.2) ∧
    returned (run world0 [.set "Vx" "VX"]) = some m ∧
    formula env m "a" = some (.sc (√(1.4 * 100000 / 1.2))) ∧ formula env m "Mx" = none := by
  have hw := (good_run world0 [.set "Vx" "VX"] good_world0).hi
  have ho := obs_set (k := "Vx") (v := "VX") (by simp [cxDico, Dict.find, List.lookup])
  obtain ⟨d, hd, hf⟩ := exec_ok hw (p := "P") (r := "RHO") (v := "U") (vx := "VX") (vy := "U_Y")
    (by rw [ho]; rfl) (by rw [ho]; rfl) (by rw [ho]; rfl) (by rw [ho]; rfl) (by rw [ho]; rfl)
  have np := isName_of "P" 'P' [] (by simp) (by decide) (by decide)
  have nr := isName_of "RHO" 'R' ['H', 'O'] (by simp) (by decide) (by decide)
  refine ⟨fun s => if s = "VX" then some (.sc 100) else if s = "U_X" then none else cxEnv s, d.find,
    by rw [ho]; rfl, by simp, by simp [cxEnv], by simp [cxEnv],
    by unfold returned; rw [hd]; simp only [deref_during_new], ?_, ?_⟩
  · unfold formula
    rw [hf]
    simp only [String.reduceEq, if_false, if_true]
    unfold value aS g
    rw [parse_a np nr]
    exact eval_a (by norm_num) (by norm_num) (by simp [cxEnv]) (by simp [cxEnv])
  · unfold formula
    rw [hf]
    simp only [String.reduceEq, if_false, if_true]
    unfold value aS g
    rw [parse_Mx np nr]
    simp [eval]

/-- C77, false part (denominations are pasted without parentheses): with the pressure denominated by a
sum, `setVar('P', 'PG+100000')`, the formula of the temperature has not the value
`(PG + 100000)/(287.1 RHO)`: only the constant is divided. -/
theorem C77_compound_false : ∃ (env : String → Option Val) (m : NameMap) (PG R T : ℝ),
    env "PG" = some (.sc PG) ∧ env "RHO" = some (.sc R) ∧ 0 < PG + 100000 ∧ 0 < R ∧
    observed (run world0 [.set "P" "PG+100000"]) "P" = some "PG+100000" ∧
    value env "PG+100000" = some (.sc (PG + 100000)) ∧
    returned (run world0 [.set "P" "PG+100000"]) = some m ∧
    formula env m "T" = some (.sc T) ∧ PG + 100000 ≠ R * 287.1 * T := by
  have hw := (good_run world0 [.set "P" "PG+100000"] good_world0).hi
  have ho := obs_set (k := "P") (v := "PG+100000") (by simp [cxDico, Dict.find, List.lookup])
  obtain ⟨d, hd, hf⟩ := exec_ok hw (p := "PG+100000") (r := "RHO") (v := "U") (vx := "U_X") (vy := "U_Y")
    (by rw [ho]; rfl) (by rw [ho]; rfl) (by rw [ho]; rfl) (by rw [ho]; rfl) (by rw [ho]; rfl)
  have n5 : numVal ['1', '0', '0', '0', '0', '0'] = 100000 := by simp [numVal, digits]
  refine ⟨fun s => if s = "PG" then some (.sc 1000) else if s = "RHO" then some (.sc 1) else none, d.find,
    1000, 1, 1000 + 100000 / 1 / 287.1, by simp, by simp, by norm_num, by norm_num, by rw [ho]; rfl, ?_,
    by unfold returned; rw [hd]; simp only [deref_during_new], ?_, by norm_num⟩
  · unfold value
    have : parse (lexW [] ("PG+100000" : String).toList) = some (.bin .add (.field ['P', 'G'])
        (.num ['1', '0', '0', '0', '0', '0'])) := by
      simp [lexW, wordChar, symTok, flush]
      rfl
    rw [this]
    simp [eval, n5, op_add]
  · unfold formula
    rw [hf]
    simp only [String.reduceEq, if_false, if_true]
    unfold value
    have : parse (lexW [] ("PG+100000" ++ "/" ++ "RHO" ++ "/287.1" : String).toList) =
        some (.bin .add (.field ['P', 'G']) (.bin .div (.bin .div
          (.num ['1', '0', '0', '0', '0', '0']) (.field ['R', 'H', 'O'])) (.num ['2', '8', '7', '.', '1']))) := by
      simp only [String.toList_append, List.append_assoc, List.cons_append, List.nil_append,
        String.reduceToList]
      simp [lexW, wordChar, symTok, flush]
      rfl
    rw [this]
    have h287 : (287.1:ℝ) ≠ 0 := by norm_num
    simp [eval, n5, nv_287, op_add, op_div, h287]

/-- the total-pressure formula agrees with the library's own isentropic relation -/
theorem C77_Pt_is_PtPs_Mach (P M : ℝ) :
    (fun x => P * x) <$> Isentropic.PtPs_Mach M DefaultGas.gamma0 =
      .ok (P * (1 + (1.4 - 1) / 2 * M ^ 2) ^ ((1.4:ℝ) / (1.4 - 1))) := by
  rw [Isentropic.PtPs_Mach_ok Isentropic.one_lt_gamma0, Py.map_ok, Isentropic.gamma0_eq]
  unfold Isentropic.tt
  norm_num

end Aerokit.Props
