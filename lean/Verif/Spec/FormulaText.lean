import Verif.Spec.DmsText
import Verif.Model.FormulaText
import Mathlib.Analysis.SpecialFunctions.Trigonometric.Inverse

/-!
Formulas in the notation of the tool model workbooks (Excel/VBA), how they are written, and what
they mean; independent of the rewriting, of the reader and of the evaluator.
-/

namespace Welleng.Spec

open Real

/-- Formulas. -/
inductive Formula
  | num (q : ℚ)
  | var (s : String)
  | neg (a : Formula)
  | add (a b : Formula)
  | sub (a b : Formula)
  | mul (a b : Formula)
  | div (a b : Formula)
  | pow (a b : Formula)
  | fn1 (f : String) (a : Formula)
  | fn2 (f : String) (a b : Formula)

/-- The functions of one argument, with the numbers for which they are defined. -/
noncomputable def excelFn1 : String → Option ((ℝ → ℝ) × (ℝ → Prop))
  | "Sin" => some (sin, fun _ => True)
  | "Cos" => some (cos, fun _ => True)
  | "Tan" => some (tan, fun x => cos x ≠ 0)
  | "Asin" => some (arcsin, fun x => |x| ≤ 1)
  | "Acos" => some (arccos, fun x => |x| ≤ 1)
  | "Atan" => some (arctan, fun _ => True)
  | "Abs" => some (abs, fun _ => True)
  | "Sqr" => some (sqrt, fun x => 0 ≤ x)
  | "Sqrt" => some (sqrt, fun x => 0 ≤ x)
  | "Exp" => some (exp, fun _ => True)
  | "Log" => some (log, fun x => 0 < x)
  | _ => none

/-- The functions of two arguments. -/
noncomputable def excelFn2 : String → Option (ℝ → ℝ → ℝ)
  | "Max" => some max
  | "Min" => some min
  | _ => none

/-- `Means env e v`: with the variables of `env`, the formula `e` is defined at every station, with
value `v k` at station `k`. -/
inductive Means (env : String → Option (ℕ → ℝ)) : Formula → (ℕ → ℝ) → Prop
  | num (q : ℚ) : Means env (.num q) fun _ => (q : ℝ)
  | pi : Means env (.var "pi") fun _ => π
  | var {s v} (h : env s = some v) : Means env (.var s) v
  | neg {a v} : Means env a v → Means env (.neg a) fun k => -v k
  | add {a b v w} : Means env a v → Means env b w → Means env (.add a b) fun k => v k + w k
  | sub {a b v w} : Means env a v → Means env b w → Means env (.sub a b) fun k => v k - w k
  | mul {a b v w} : Means env a v → Means env b w → Means env (.mul a b) fun k => v k * w k
  | div {a b v w} (h : ∀ k, w k ≠ 0) : Means env a v → Means env b w →
      Means env (.div a b) fun k => v k / w k
  | pow {a b} {v w : ℕ → ℝ} (h : ∀ k, 0 < v k ∨ (v k = 0 ∧ 0 ≤ w k) ∨ ∃ n : ℕ, w k = n) :
      Means env a v → Means env b w → Means env (.pow a b) fun k => v k ^ w k
  | fn1 {f g d a v} (hf : excelFn1 f = some (g, d)) (h : ∀ k, d (v k)) : Means env a v →
      Means env (.fn1 f a) fun k => g (v k)
  | fn2 {f g a b v w} (hf : excelFn2 f = some g) : Means env a v → Means env b w →
      Means env (.fn2 f a b) fun k => g (v k) (w k)

/-- Blanks. -/
def Blank (s : List Char) : Prop := ∀ c ∈ s, c = ' '

/-- A name: a letter or underscore, then letters, digits and underscores; not a reserved word. -/
def Identifier (s : List Char) : Prop :=
  (∃ c t, s = c :: t ∧ (c.isAlpha = true ∨ c = '_') ∧
    ∀ d ∈ t, d.isAlphanum = true ∨ d = '_') ∧ s ∉ Ftext.keywords

/-- How tightly the outermost operation of a written formula binds. -/
inductive Level
  | atom | power | sign | term | sum

/-- `Written chains l e s`: the text `s` writes the formula `e`; the operation done last is of level
`l` or binds more tightly.  Powers before signs before products before sums, operations of the same
level from left to right, blanks anywhere but in front and inside names and numbers.  With
`chains = false` a power is not raised to a power without parentheses. -/
inductive Written (chains : Bool) : Level → Formula → List Char → Prop
  | num {s q} (h : Numeral s q) (h0 : s.head? ≠ some '0' ∨ '.' ∈ s ∨ s = ['0']) :
      Written chains .atom (.num q) s
  | var {s} (h : Identifier s) : Written chains .atom (.var (String.ofList s)) s
  | paren {e u s} (hu : Blank u) (h : Written chains .sum e s) :
      Written chains .atom e ('(' :: (u ++ s) ++ [')'])
  | call1 {f a u v s} (hf : (excelFn1 f).isSome) (hu : Blank u) (hv : Blank v)
      (h : Written chains .sum a s) :
      Written chains .atom (.fn1 f a) (f.toList ++ u ++ '(' :: (v ++ s) ++ [')'])
  | call2 {f a b u v w s t} (hf : (excelFn2 f).isSome) (hu : Blank u) (hv : Blank v)
      (hw : Blank w) (ha : Written chains .sum a s) (hb : Written chains .sum b t) :
      Written chains .atom (.fn2 f a b)
        (f.toList ++ u ++ '(' :: (v ++ s) ++ ',' :: (w ++ t) ++ [')'])
  | pow {a b u s t} (hu : Blank u) (ha : Written chains .atom a s)
      (hb : Written chains .atom b t) :
      Written chains .power (.pow a b) (s ++ '^' :: (u ++ t))
  | powNeg {a b u v s t} (hu : Blank u) (hv : Blank v) (ha : Written chains .atom a s)
      (hb : Written chains .atom b t) :
      Written chains .power (.pow a (.neg b)) (s ++ '^' :: (u ++ '-' :: (v ++ t)))
  | chain {a b u s t} (hc : chains = true) (hu : Blank u) (ha : Written chains .power a s)
      (hb : Written chains .atom b t) :
      Written chains .power (.pow a b) (s ++ '^' :: (u ++ t))
  | neg {a u s} (hu : Blank u) (h : Written chains .sign a s) :
      Written chains .sign (.neg a) ('-' :: (u ++ s))
  | mul {a b u s t} (hu : Blank u) (ha : Written chains .term a s)
      (hb : Written chains .sign b t) :
      Written chains .term (.mul a b) (s ++ '*' :: (u ++ t))
  | div {a b u s t} (hu : Blank u) (ha : Written chains .term a s)
      (hb : Written chains .sign b t) :
      Written chains .term (.div a b) (s ++ '/' :: (u ++ t))
  | add {a b u s t} (hu : Blank u) (ha : Written chains .sum a s)
      (hb : Written chains .term b t) :
      Written chains .sum (.add a b) (s ++ '+' :: (u ++ t))
  | sub {a b u s t} (hu : Blank u) (ha : Written chains .sum a s)
      (hb : Written chains .term b t) :
      Written chains .sum (.sub a b) (s ++ '-' :: (u ++ t))
  | blank {l e s} (h : Written chains l e s) : Written chains l e (s ++ [' '])
  | power {e s} (h : Written chains .atom e s) : Written chains .power e s
  | sign {e s} (h : Written chains .power e s) : Written chains .sign e s
  | term {e s} (h : Written chains .sign e s) : Written chains .term e s
  | sum {e s} (h : Written chains .term e s) : Written chains .sum e s

end Welleng.Spec
