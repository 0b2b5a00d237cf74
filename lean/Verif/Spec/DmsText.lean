import Mathlib.Data.Rat.Defs
import Mathlib.Algebra.Field.Rat

/-! What a printed number and a direction look like. -/

namespace Welleng.Spec

/-- The text `s` writes the number `x` in decimal notation, without sign and without exponent. -/
inductive Numeral : List Char → ℚ → Prop
  | whole (a : List Char) (h0 : a ≠ []) (ha : ∀ c ∈ a, c.isDigit = true) :
    Numeral a (Nat.ofDigitChars 10 a 0 : ℕ)
  | point (a f : List Char) (h0 : a ≠ []) (ha : ∀ c ∈ a, c.isDigit = true) (h1 : f ≠ [])
    (hf : ∀ c ∈ f, c.isDigit = true) :
    Numeral (a ++ '.' :: f)
      ((Nat.ofDigitChars 10 a 0 : ℕ) + (Nat.ofDigitChars 10 f 0 : ℕ) / 10 ^ f.length)

/-- A text of at least one character and no white space. -/
def OneWord (d : List Char) : Prop := d ≠ [] ∧ ∀ c ∈ d, c.isWhitespace = false

end Welleng.Spec
