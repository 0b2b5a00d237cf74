import Verif.Model.WbpText

/-!
Model of `pprint_dms` and `dms_from_string`, `/repo/welleng/utils.py` 833-884.

The regular expression is run by backtracking: the ways in which a piece can match are listed in
the order in which Python tries them.
-/

namespace Welleng.Dms

open Wbp (Text)

/-! ### Regular expressions -/

/-- The constructs that occur in the pattern, `utils.py` 870. -/
inductive Re
  /-- one character of a class -/
  | chr (p : Char → Bool)
  /-- one after the other -/
  | seq (a b : Re)
  /-- `a|b` -/
  | alt (a b : Re)
  /-- `a?` -/
  | opt (a : Re)
  /-- `p*` -/
  | many (p : Char → Bool)
  /-- `p*?` -/
  | few (p : Char → Bool)
  /-- `(a)`, group number `i` -/
  | grp (i : ℕ) (a : Re)
  /-- `$` -/
  | eos

/-- What the groups have matched, `utils.py` 871. -/
abbrev Caps := List (ℕ × Text)

/-- What `p*` can leave, longest match first, `utils.py` 870. -/
def manyRest (p : Char → Bool) : Text → List Text
  | [] => [[]]
  | c :: t => if p c then manyRest p t ++ [c :: t] else [c :: t]

/-- What `p*?` can leave, shortest match first, `utils.py` 870. -/
def fewRest (p : Char → Bool) : Text → List Text
  | [] => [[]]
  | c :: t => (c :: t) :: (if p c then fewRest p t else [])

/-- The ways in which an expression matches at the front of a text, best first: what is left and
what the groups matched, `utils.py` 870-871. -/
def Re.run : Re → Text → List (Text × Caps)
  | .chr p, s =>
    match s with
    | [] => []
    | c :: t => if p c then [(t, [])] else []
  | .seq a b, s => (a.run s).flatMap fun r => (b.run r.1).map fun q => (q.1, r.2 ++ q.2)
  | .alt a b, s => a.run s ++ b.run s
  | .opt a, s => a.run s ++ [(s, [])]
  | .many p, s => (manyRest p s).map fun t => (t, [])
  | .few p, s => (fewRest p s).map fun t => (t, [])
  | .grp i a, s => (a.run s).map fun r => (r.1, (i, s.take (s.length - r.1.length)) :: r.2)
  | .eos, s => if s = [] ∨ s = ['\n'] then [(s, [])] else []

/-- The first element of `pattern.findall(text)`, `utils.py` 871-874: the best match at the leftmost
position at which there is one. -/
def Re.search (r : Re) : Text → Option Caps
  | [] => (r.run []).head?.map (·.2)
  | c :: t =>
    match (r.run (c :: t)).head? with
    | some m => some m.2
    | none => r.search t

/-! ### The pattern -/

/-- `\d`, `utils.py` 870 (of the Unicode digits only the ASCII ones). -/
def isD (c : Char) : Bool := c.isDigit

/-- `\s`, `utils.py` 870 (of the Unicode white space only the ASCII one). -/
def isS (c : Char) : Bool := c.isWhitespace

/-- The character `c`, `utils.py` 870. -/
def lit (c : Char) : Re := .chr fun d => d == c

/-- The letter `c`, in either case, `utils.py` 870. -/
def letter (c : Char) : Re := .chr fun d => d.toLower == c

/-- `\d+`, `utils.py` 870. -/
def digitsRe : Re := .seq (.chr isD) (.many isD)

/-- A word of three letters, `utils.py` 870. -/
def wordRe (a b c : Char) : Re := .seq (letter a) (.seq (letter b) (letter c))

/-- `(\d+)\s*(?:°|deg)?`, `utils.py` 870. -/
def degRe : Re :=
  .seq (.grp 1 digitsRe) (.seq (.many isS) (.opt (.alt (lit '°') (wordRe 'd' 'e' 'g'))))

/-- `\s*(\d+)\s*(?:\'|min)?`, `utils.py` 870. -/
def minRe : Re :=
  .seq (.many isS)
    (.seq (.grp 2 digitsRe) (.seq (.many isS) (.opt (.alt (lit '\'') (wordRe 'm' 'i' 'n')))))

/-- `\s*(\d+(?:\.\d+)?)`, `utils.py` 870. -/
def secRe : Re :=
  .seq (.many isS) (.grp 3 (.seq digitsRe (.opt (.seq (lit '.') digitsRe))))

/-- `\s*(sec)?\s*.*?(\S+)?$`, `utils.py` 870. -/
def tailRe : Re :=
  .seq (.many isS) (.seq (.opt (.grp 4 (wordRe 's' 'e' 'c'))) (.seq (.many isS)
    (.seq (.few fun c => c != '\n')
      (.seq (.opt (.grp 5 (.seq (.chr fun c => !isS c) (.many fun c => !isS c)))) .eos))))

/-- The whole pattern, `utils.py` 870. -/
def pattern : Re :=
  .seq degRe (.seq (lit ',') (.seq minRe (.seq (lit ',') (.seq secRe tailRe))))

/-! ### The two functions -/

/-- What `dms_from_string` returns: a tuple of three, or of four, `utils.py` 878-881. -/
structure Read where
  deg : ℕ
  min : ℕ
  sec : ℚ
  last : Option Text
  deriving DecidableEq

/-- `matches[0][i - 1]`: a group that took no part is empty, `utils.py` 874-876. -/
def group (c : Caps) (i : ℕ) : Text := (c.lookup i).getD []

/-- `dms_from_string`, `utils.py` 867-884; `none` is the `None` for a text without a match.  (The
groups matched by digits are never refused by `int` and `float`.) -/
def fromString (text : Text) : Option Read :=
  match pattern.search text with
  | none => none
  | some c =>
    match Wbp.digits? (group c 1), Wbp.digits? (group c 2), Wbp.parseUnsigned (group c 3) with
    | some d, some m, some s =>
      some ⟨d, m, s, if group c 5 = [] then none else some (group c 5)⟩
    | _, _, _ => none

/-- The end of the text, `utils.py` 846-859. -/
def dirText : Option Text → Text
  | none => []
  | some d => ' ' :: d

/-- `pprint_dms`, `utils.py` 833-864, of the texts of the values (`f"{deg}"` and so on) and of the
direction of a tuple of four. -/
def printDms (symbols : Bool) (deg min sec : Text) (dir : Option Text) : Text :=
  if symbols then
    deg ++ ['°', ',', ' '] ++ min ++ ['\'', ',', ' '] ++ sec ++ ['"'] ++ dirText dir
  else
    deg ++ " deg, ".toList ++ min ++ " min, ".toList ++ sec ++ " sec".toList ++ dirText dir

end Welleng.Dms
