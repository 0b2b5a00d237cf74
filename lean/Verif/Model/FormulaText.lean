import Verif.Model.Interpreter
import Verif.Model.WbpText

/-!
Model of the text side of `/repo/welleng/errors/interpreter.py`: the rewriting of Excel notation
(33-64) and `ast.parse` (112) of the arithmetic part of Python's grammar, so that
`evaluate_formula` (99-129) starts from characters.

Not modelled, and refused (`none`) by the reader below: numbers with an exponent, with an underscore
or without digits on both sides of the point, line breaks, characters outside ASCII, the names
`True`, `False`, `None`, and every construct that `_validate` (84-96) would refuse anyway.
-/

namespace Welleng.Ftext

open Wbp (Text)
open Interp (Op UOp PyExpr Const)

/-! ### Rewriting -/

/-- `_EXCEL_FUNCS`, `interpreter.py` 34-44. -/
def excelFuncs : List (Text × Text) :=
  [("Sin".toList, "sin".toList), ("Cos".toList, "cos".toList), ("Tan".toList, "tan".toList),
   ("Asin".toList, "asin".toList), ("Acos".toList, "acos".toList), ("Atan".toList, "atan".toList),
   ("Abs".toList, "abs".toList), ("Sqr".toList, "sqrt".toList), ("Sqrt".toList, "sqrt".toList),
   ("Exp".toList, "exp".toList), ("Log".toList, "log".toList), ("Max".toList, "maximum".toList),
   ("Min".toList, "minimum".toList)]

/-- `\w`, `interpreter.py` 61. -/
def wordChar (c : Char) : Bool := c.isAlphanum || c == '_'

/-- What follows `\s*\(`, `interpreter.py` 61. -/
def afterParen : Text → Option Text
  | [] => none
  | c :: t => if c == '(' then some t else if c.isWhitespace then afterParen t else none

/-- What follows a match of `excel\s*\(`, `interpreter.py` 61. -/
def callAt (excel s : Text) : Option Text :=
  if excel.isPrefixOf s then afterParen (s.drop excel.length) else none

/-- `re.sub(rf"\b{excel}\s*\(", f"{py}(", s)`, `interpreter.py` 61.  `skip` characters belong to a
match already replaced; `prev` is whether the character before is a word character. -/
def subst (excel py : Text) : ℕ → Bool → Text → Text
  | _, _, [] => []
  | skip + 1, _, c :: t => subst excel py skip (wordChar c) t
  | 0, prev, c :: t =>
    match if prev then none else callAt excel (c :: t) with
    | some rest => py ++ '(' :: subst excel py (t.length - rest.length) (wordChar c) t
    | none => c :: subst excel py 0 (wordChar c) t

/-- `s.replace("^", "**")`, `interpreter.py` 63. -/
def carets (s : Text) : Text := s.flatMap fun c => if c == '^' then ['*', '*'] else [c]

/-- `_rewrite_excel_to_python`, `interpreter.py` 47-64. -/
def rewrite (s : Text) : Text :=
  carets (excelFuncs.foldl (fun s p => subst p.1 p.2 0 false s) s)

/-! ### Tokens -/

/-- Tokens of Python, `interpreter.py` 112. -/
inductive Tok
  | num (q : ℚ)
  | name (s : Text)
  | plus | minus | star | slash | dstar | lpar | rpar | comma
  deriving DecidableEq

/-- The reserved words of Python, `interpreter.py` 112. -/
def keywords : List Text :=
  ["False".toList, "None".toList, "True".toList, "and".toList, "as".toList, "assert".toList,
   "async".toList, "await".toList, "break".toList, "class".toList, "continue".toList,
   "def".toList, "del".toList, "elif".toList, "else".toList, "except".toList, "finally".toList,
   "for".toList, "from".toList, "global".toList, "if".toList, "import".toList, "in".toList,
   "is".toList, "lambda".toList, "nonlocal".toList, "not".toList, "or".toList, "pass".toList,
   "raise".toList, "return".toList, "try".toList, "while".toList, "with".toList, "yield".toList]

/-- The characters of a number, `interpreter.py` 112. -/
def numChar (c : Char) : Bool := c.isDigit || c == '.'

/-- A number: a whole number other than zero has no leading zero, `interpreter.py` 112. -/
def numTok (s : Text) : Option Tok :=
  if s.head? = some '0' ∧ '.' ∉ s ∧ ¬ s.all (· == '0') then none
  else (Wbp.parseUnsigned s).map .num

/-- Tokens of a text, `interpreter.py` 112; the first argument bounds their number. -/
def lexAux : ℕ → Text → Option (List Tok)
  | 0, _ => none
  | _ + 1, [] => some []
  | f + 1, c :: t =>
    if c == ' ' then lexAux f t
    else if c == '+' then (lexAux f t).map (.plus :: ·)
    else if c == '-' then (lexAux f t).map (.minus :: ·)
    else if c == '(' then (lexAux f t).map (.lpar :: ·)
    else if c == ')' then (lexAux f t).map (.rpar :: ·)
    else if c == ',' then (lexAux f t).map (.comma :: ·)
    else if c == '/' then
      if t.head? = some '/' then none else (lexAux f t).map (.slash :: ·)
    else if c == '*' then
      if t.head? = some '*' then (lexAux f t.tail).map (.dstar :: ·)
      else (lexAux f t).map (.star :: ·)
    else if c.isAlpha || c == '_' then
      let w := c :: t.takeWhile wordChar
      if w ∈ keywords then none
      else (lexAux f (t.dropWhile wordChar)).map (.name w :: ·)
    else if c.isDigit then
      let rest := t.dropWhile numChar
      match numTok (c :: t.takeWhile numChar), (rest.head?.map wordChar).getD false with
      | some n, false => (lexAux f rest).map (n :: ·)
      | _, _ => none
    else none

/-- Tokens of a text; a blank in front is an IndentationError, `interpreter.py` 112. -/
def lex (s : Text) : Option (List Tok) :=
  if s.head? = some ' ' then none else lexAux (s.length + 1) s

/-! ### Expressions -/

/-- Expression trees with decimal numbers, `interpreter.py` 112. -/
inductive Tree
  | num (q : ℚ)
  | name (s : Text)
  | bin (op : Op) (l r : Tree)
  | un (op : UOp) (e : Tree)
  | call (f : Tree) (args : List Tree)

mutual
/-- `sum: sum ('+'|'-') term | term` of Python's grammar, with what is left, `interpreter.py`
112.  The first argument bounds the depth. -/
def pSum : ℕ → List Tok → Option (Tree × List Tok)
  | 0, _ => none
  | f + 1, ts =>
    match pTerm f ts with
    | none => none
    | some (a, r) => pSumTail f a r
/-- The rest of a sum that starts with `a`, `interpreter.py` 112. -/
def pSumTail : ℕ → Tree → List Tok → Option (Tree × List Tok)
  | 0, _, _ => none
  | f + 1, a, .plus :: r =>
    match pTerm f r with
    | none => none
    | some (b, r) => pSumTail f (.bin .add a b) r
  | f + 1, a, .minus :: r =>
    match pTerm f r with
    | none => none
    | some (b, r) => pSumTail f (.bin .sub a b) r
  | _ + 1, a, ts => some (a, ts)
/-- `term: term ('*'|'/') factor | factor`, `interpreter.py` 112. -/
def pTerm : ℕ → List Tok → Option (Tree × List Tok)
  | 0, _ => none
  | f + 1, ts =>
    match pFactor f ts with
    | none => none
    | some (a, r) => pTermTail f a r
/-- The rest of a term that starts with `a`, `interpreter.py` 112. -/
def pTermTail : ℕ → Tree → List Tok → Option (Tree × List Tok)
  | 0, _, _ => none
  | f + 1, a, .star :: r =>
    match pFactor f r with
    | none => none
    | some (b, r) => pTermTail f (.bin .mult a b) r
  | f + 1, a, .slash :: r =>
    match pFactor f r with
    | none => none
    | some (b, r) => pTermTail f (.bin .div a b) r
  | _ + 1, a, ts => some (a, ts)
/-- `factor: ('+'|'-') factor | power`, `interpreter.py` 112. -/
def pFactor : ℕ → List Tok → Option (Tree × List Tok)
  | 0, _ => none
  | f + 1, .plus :: r => (pFactor f r).map fun p => (.un .uadd p.1, p.2)
  | f + 1, .minus :: r => (pFactor f r).map fun p => (.un .usub p.1, p.2)
  | f + 1, ts => pPower f ts
/-- `power: primary '**' factor | primary`, `interpreter.py` 112. -/
def pPower : ℕ → List Tok → Option (Tree × List Tok)
  | 0, _ => none
  | f + 1, ts =>
    match pPrimary f ts with
    | none => none
    | some (a, .dstar :: r) => (pFactor f r).map fun p => (.bin .pow a p.1, p.2)
    | some (a, r) => some (a, r)
/-- `primary: primary '(' args ')' | atom`, `interpreter.py` 112. -/
def pPrimary : ℕ → List Tok → Option (Tree × List Tok)
  | 0, _ => none
  | f + 1, ts =>
    match ts with
    | .num q :: r => pCalls f (.num q) r
    | .name s :: r => pCalls f (.name s) r
    | .lpar :: r =>
      match pSum f r with
      | some (a, .rpar :: r) => pCalls f a r
      | _ => none
    | _ => none
/-- The calls that follow `a`, `interpreter.py` 112. -/
def pCalls : ℕ → Tree → List Tok → Option (Tree × List Tok)
  | 0, _, _ => none
  | f + 1, a, .lpar :: .rpar :: r => pCalls f (.call a []) r
  | f + 1, a, .lpar :: r =>
    match pArgs f r with
    | none => none
    | some (as, r) => pCalls f (.call a as) r
  | _ + 1, a, ts => some (a, ts)
/-- `args`, with the closing parenthesis, `interpreter.py` 112. -/
def pArgs : ℕ → List Tok → Option (List Tree × List Tok)
  | 0, _ => none
  | f + 1, ts =>
    match pSum f ts with
    | some (a, .comma :: .rpar :: r) => some ([a], r)
    | some (a, .comma :: r) => (pArgs f r).map fun p => (a :: p.1, p.2)
    | some (a, .rpar :: r) => some ([a], r)
    | _ => none
end

/-- `ast.parse(s, mode="eval")`, `interpreter.py` 112; `none` is the SyntaxError (or a text outside
the part of Python modelled). -/
def parse (s : Text) : Option Tree :=
  match lex s with
  | none => none
  | some ts =>
    match pSum (8 * ts.length + 8) ts with
    | some (e, []) => some e
    | _ => none

mutual
/-- The tree as Python sees it, `interpreter.py` 112. -/
noncomputable def Tree.py : Tree → PyExpr
  | .num q => .const (.num (q : ℝ))
  | .name s => .name (String.ofList s)
  | .bin op l r => .binOp op l.py r.py
  | .un op e => .unaryOp op e.py
  | .call f args => .call f.py (pyAll args) []
/-- The arguments of a call, `interpreter.py` 112. -/
noncomputable def pyAll : List Tree → List PyExpr
  | [] => []
  | e :: t => e.py :: pyAll t
end

/-- `evaluate_formula` on text, `interpreter.py` 99-129. -/
noncomputable def evaluateText (s : Text) (bindings : Interp.Ns) (st : Interp.St) :
    Interp.St × Except Interp.PyErr Interp.Value :=
  match parse (rewrite s) with
  | none => (st, .error .other)
  | some e => Interp.evaluateFormula e.py bindings st

/-- The `try` block of `_call_interpreter` on the texts of the three formulas, `tool_errors.py`
325-350: any exception gives three zero arrays (and a warning). -/
noncomputable def evalTermText (scal : String → ℝ) (depth inc azi : Text) (st : Interp.St) :
    Interp.St × Except Interp.PyErr (ℕ → Err.V) :=
  let b := Interp.jsonBindings scal
  let fail (st : Interp.St) : Interp.St × Except Interp.PyErr (ℕ → Err.V) := (st, .ok fun _ => 0)
  match evaluateText depth b st with
  | (st, .error _) => fail st
  | (st, .ok d) =>
    match evaluateText inc b st with
    | (st, .error _) => fail st
    | (st, .ok i) =>
      match evaluateText azi b st with
      | (st, .error _) => fail st
      | (st, .ok a) =>
        match Interp.asArray st d, Interp.asArray st i, Interp.asArray st a with
        | .ok d, .ok i, .ok a => (st, .ok fun k => ![d k, i k, a k])
        | _, _, _ => (st, .error .other)

/-- `ToolError._call_interpreter` on the texts of the three formulas, `tool_errors.py` 290-361. -/
noncomputable def callInterpreterText (scal : String → ℝ) (s : Err.Sv) (depth inc azi : Text)
    (mag : ℝ) (unit : String) (p : Err.Prop') (st : Interp.St) :
    Interp.St × Except Interp.PyErr (Option Err.Term) :=
  match evalTermText scal depth inc azi st with
  | (st, .error x) => (st, .error x)
  | (st, .ok dpde) =>
    (st, .ok (Err.generateError s (fun k => (mag * Err.unitScale unit) • dpde k) p none))

end Welleng.Ftext
