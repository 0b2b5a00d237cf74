import Mathlib.Algebra.Order.Round
import Mathlib.Algebra.Order.Floor.Ring
import Mathlib.Tactic.Ring
import Mathlib.Tactic.Linarith
import Mathlib.Tactic.FieldSimp

/-!
Model of the degrees / minutes / seconds conversions in `/repo/welleng/utils.py` 703-830.
Floats are idealised as an ordered field with a floor function.  The direction letter is
carried along unchanged by the code and is left out.
-/

namespace Welleng.Dms

variable {α : Type*} [Field α] [LinearOrder α] [IsStrictOrderedRing α] [FloorRing α]

/-- Python `int(x)` on a float: truncation towards zero, `utils.py` 714. -/
def pyInt (x : α) : ℤ := if 0 ≤ x then ⌊x⌋ else ⌈x⌉

/-- First component of `divmod(a, b)` on floats, `b > 0`. -/
def divFloor (a b : α) : ℤ := ⌊a / b⌋

/-- Python `round(x)` to an integer: half to even, `utils.py` 716, 720. -/
def roundEven (x : α) : ℤ :=
  if Int.fract x < 1 / 2 then ⌊x⌋
  else if 1 / 2 < Int.fract x then ⌊x⌋ + 1
  else if Even ⌊x⌋ then ⌊x⌋ else ⌊x⌋ + 1

/-- Python `round(x, ndigits)` for `ndigits ≥ 0` (decimal rounding, half to even). -/
def pyRound (x : α) (ndigits : ℕ) : α := roundEven (x * 10 ^ ndigits) / 10 ^ ndigits

/-- `x if ndigits is None else round(x, ndigits)`, `utils.py` 716. -/
def optRound (x : α) : Option ℕ → α
  | none => x
  | some k => pyRound x k

/-- A `(degrees, minutes, seconds)` row; the array is a float array, so the degrees keep
their value but an integer zero has no sign. -/
@[ext] structure Row (α : Type*) where
  deg : ℤ
  min : ℤ
  sec : α

/-- `utils._decimal2dms`, `utils.py` 703-722. -/
def decimal2dms (d : α) (ndigits : Option ℕ := none) : Row α :=
  let q := |d| * 3600
  let minutes0 := divFloor q 60
  let seconds := q - 60 * minutes0
  { deg := pyInt d
    min := minutes0 % 60
    sec := optRound seconds ndigits }

/-- `np.copysign(x, s)` for an `s` that is not a negative zero, `utils.py` 779-786. -/
def copysign (x : α) (s : ℤ) : α := if s < 0 then -|x| else |x|

/-- `utils._dms2decimal`, `utils.py` 769-789. -/
def dms2decimal (r : Row α) (ndigits : Option ℕ := none) : α :=
  let decimal := |(r.deg : α)| + (r.min : α) / 60 + r.sec / 3600
  copysign (optRound decimal ndigits) r.deg

end Welleng.Dms
