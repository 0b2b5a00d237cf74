import Verif.Model.Interpreter

/-!
The mathematical value of a formula, and of a unit, independent of the evaluator.
-/

namespace Welleng.Spec

open Interp Real

/-- The one-argument functions of a formula, by name. -/
noncomputable def mathFn1 : String → Option (ℝ → ℝ)
  | "sin" => some sin
  | "cos" => some cos
  | "tan" => some tan
  | "asin" => some arcsin
  | "acos" => some arccos
  | "atan" => some arctan
  | "abs" => some abs
  | "sqrt" => some sqrt
  | "exp" => some exp
  | "log" => some log
  | _ => none

/-- The two-argument functions of a formula, by name. -/
noncomputable def mathFn2 : String → Option (ℝ → ℝ → ℝ)
  | "maximum" => some max
  | "minimum" => some min
  | _ => none

/-- `Denotes env e v`: with the variables of `env`, the formula `e` has at station `k` the value
`v k`. -/
inductive Denotes (env : String → Option (ℕ → ℝ)) : PyExpr → (ℕ → ℝ) → Prop
  | num (r) : Denotes env (.const (.num r)) fun _ => r
  | pi : Denotes env (.name "pi") fun _ => π
  | var {id v} (h : env id = some v) : Denotes env (.name id) v
  | add {a b v w} : Denotes env a v → Denotes env b w →
      Denotes env (.binOp .add a b) fun k => v k + w k
  | sub {a b v w} : Denotes env a v → Denotes env b w →
      Denotes env (.binOp .sub a b) fun k => v k - w k
  | mul {a b v w} : Denotes env a v → Denotes env b w →
      Denotes env (.binOp .mult a b) fun k => v k * w k
  | div {a b v w} : Denotes env a v → Denotes env b w →
      Denotes env (.binOp .div a b) fun k => v k / w k
  | pow {a b v w} : Denotes env a v → Denotes env b w →
      Denotes env (.binOp .pow a b) fun k => v k ^ w k
  | neg {a v} : Denotes env a v → Denotes env (.unaryOp .usub a) fun k => -v k
  | pos {a v} : Denotes env a v → Denotes env (.unaryOp .uadd a) v
  | fn1 {f g a v} (h : mathFn1 f = some g) : Denotes env a v →
      Denotes env (.call (.name f) [a] []) fun k => g (v k)
  | fn2 {f g a b v w} (h : mathFn2 f = some g) : Denotes env a v → Denotes env b w →
      Denotes env (.call (.name f) [a, b] []) fun k => g (v k) (w k)

/-- The units that the shipped JSON tool models declare, and the size of each in radians, metres,
nanoteslas, metres per second squared and hours. -/
noncomputable def unitInBase : String → Option ℝ
  | "-" => some 1
  | "m" => some 1
  | "1/m" => some 1
  | "nT" => some 1
  | "m/s2" => some 1
  | "deg" => some (π / 180)
  | "deg/hr" => some (π / 180)
  | "deg.nT" => some (π / 180)
  | "deg/sqr(hr)" => some (π / 180)
  | _ => none

end Welleng.Spec
