import Mathlib.Analysis.SpecialFunctions.Pow.Real
import Mathlib.Analysis.SpecialFunctions.Trigonometric.Arctan
import Mathlib.Analysis.SpecialFunctions.Trigonometric.Inverse

/-! # Specification of the calculator language (ParaView/VTK calculator)

What a formula, *as a string*, means: a lexer, a precedence parser (`^` binds tighter than `*` and
`/`, which bind tighter than `+` and `-`; all associate to the left) and an evaluator over the
fields of a data set.  Nothing here refers to the model of aerokit.  The evaluator is partial:
division by zero, root or logarithm outside the domain, an unknown field or function, or a vector
where a scalar is needed give `none`. -/

namespace Aerokit.Spec.Calc

/-- the five binary operators -/
inductive Op | add | sub | mul | div | pow
  deriving DecidableEq

/-- tokens -/
inductive Tok
  | num (cs : List Char)
  | name (cs : List Char)
  | lp | rp
  | op (o : Op)
  | bad
  deriving DecidableEq

/-- characters of names and numbers -/
def wordChar (c : Char) : Bool := c.isAlphanum || c == '_' || c == '.'

/-- a word is a number when it begins with a digit -/
def flush : List Char → List Tok
  | [] => []
  | c :: cs => if c.isDigit then [.num (c :: cs)] else [.name (c :: cs)]

/-- one-character tokens -/
def symTok (c : Char) : Tok :=
  if c = '(' then .lp else if c = ')' then .rp else if c = '+' then .op .add
  else if c = '-' then .op .sub else if c = '*' then .op .mul else if c = '/' then .op .div
  else if c = '^' then .op .pow else .bad

/-- the lexer; `w` is the word being read -/
def lexW (w : List Char) : List Char → List Tok
  | [] => flush w
  | c :: cs => if wordChar c then lexW (w ++ [c]) cs else flush w ++ symTok c :: lexW [] cs

/-- formulas -/
inductive Expr
  | num (cs : List Char)
  | field (cs : List Char)
  | call (f : List Char) (e : Expr)
  | neg (e : Expr)
  | bin (o : Op) (a b : Expr)

/-- precedence levels -/
def prec : Op → ℕ
  | .add => 1
  | .sub => 1
  | .mul => 2
  | .div => 2
  | .pow => 3

mutual
/-- a number, a field, a function call, a parenthesised formula, or `-` such a thing -/
def atom : ℕ → List Tok → Option (Expr × List Tok)
  | 0, _ => none
  | n + 1, .num x :: t => some (.num x, t)
  | n + 1, .name f :: .lp :: t => match expr n 1 t with
    | some (e, .rp :: t') => some (.call f e, t')
    | _ => none
  | n + 1, .name x :: t => some (.field x, t)
  | n + 1, .lp :: t => match expr n 1 t with
    | some (e, .rp :: t') => some (e, t')
    | _ => none
  | n + 1, .op .sub :: t => match atom n t with
    | some (e, t') => some (.neg e, t')
    | none => none
  | _ + 1, _ => none
/-- a formula whose operators have level at least `p` -/
def expr : ℕ → ℕ → List Tok → Option (Expr × List Tok)
  | 0, _, _ => none
  | n + 1, p, t => match atom n t with
    | some (a, t') => more n p a t'
    | none => none
/-- continuation of a formula already read up to `a` -/
def more : ℕ → ℕ → Expr → List Tok → Option (Expr × List Tok)
  | 0, _, _, _ => none
  | n + 1, p, a, .op o :: t =>
    if p ≤ prec o then match expr n (prec o + 1) t with
      | some (b, t') => more n p (.bin o a b) t'
      | none => none
    else some (a, .op o :: t)
  | _ + 1, _, a, t => some (a, t)
end

/-- parse a whole token list -/
def parse (t : List Tok) : Option Expr := match expr (2 * t.length + 2) 1 t with
  | some (e, []) => some e
  | _ => none

/-- a field value: scalar or 3-vector -/
inductive Val
  | sc (x : ℝ)
  | vec (x y z : ℝ)

/-- value of a digit string, and number of digits after the point -/
def digits : List Char → Bool → ℕ × ℕ → ℕ × ℕ
  | [], _, r => r
  | c :: cs, seen, (m, k) =>
    if c = '.' then digits cs true (m, k)
    else digits cs seen (10 * m + (c.toNat - 48), if seen then k + 1 else k)

/-- value of a decimal literal -/
noncomputable def numVal (cs : List Char) : ℝ :=
  ((digits cs false (0, 0)).1 : ℝ) / 10 ^ (digits cs false (0, 0)).2

open scoped Classical in
/-- functions of the calculator (those used by aerokit) -/
noncomputable def fn (f : String) (v : Val) : Option Val :=
  match v with
  | .vec x y z => if f = "mag" then some (.sc (√(x ^ 2 + y ^ 2 + z ^ 2))) else none
  | .sc x =>
    if f = "sqrt" then (if 0 ≤ x then some (.sc (√x)) else none)
    else if f = "ln" then (if 0 < x then some (.sc (Real.log x)) else none)
    else if f = "atan" then some (.sc (Real.arctan x))
    else if f = "acos" then (if -1 ≤ x ∧ x ≤ 1 then some (.sc (Real.arccos x)) else none)
    else none

open scoped Classical in
/-- operators, on scalars -/
noncomputable def opVal (o : Op) (x y : ℝ) : Option Val :=
  match o with
  | .add => some (.sc (x + y))
  | .sub => some (.sc (x - y))
  | .mul => some (.sc (x * y))
  | .div => if y = 0 then none else some (.sc (x / y))
  | .pow => if 0 ≤ x then some (.sc (x ^ y)) else none

/-- value of a formula over the fields `env` -/
noncomputable def eval (env : String → Option Val) : Expr → Option Val
  | .num cs => some (.sc (numVal cs))
  | .field cs => env (String.ofList cs)
  | .call f e => match eval env e with
    | some v => fn (String.ofList f) v
    | none => none
  | .neg e => match eval env e with
    | some (.sc x) => some (.sc (-x))
    | _ => none
  | .bin o a b => match eval env a, eval env b with
    | some (.sc x), some (.sc y) => opVal o x y
    | _, _ => none

/-- **value of a formula given as a string** -/
noncomputable def value (env : String → Option Val) (s : String) : Option Val :=
  match parse (lexW [] s.toList) with
  | some e => eval env e
  | none => none

/-- a field name: a word not beginning with a digit -/
def IsName (s : String) : Prop :=
  ∃ c cs, s.toList = c :: cs ∧ c.isDigit = false ∧ ∀ x ∈ s.toList, wordChar x = true

end Aerokit.Spec.Calc
