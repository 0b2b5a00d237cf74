import Mathlib.Order.Lattice
import Mathlib.Data.List.Chain
import Mathlib.Algebra.Group.Defs

/-!
Specification of a gap-free stack of intervals, independent of the model.
-/

namespace Welleng.Spec

variable {α : Type}

/-- The spans `(top, bottom)`, listed from the shallowest to the deepest, leave no gap and do not
overlap: every span begins exactly where the one before it ends. -/
def GapFree (spans : List (α × α)) : Prop := spans.IsChain (fun a b => a.2 = b.1)

variable [AddCommGroup α] [LinearOrder α]

/-- Stacking pieces of given length from depth `b` upwards, cut off at depth `top`.
The pieces and the resulting spans are listed from the bottom up. -/
def stack {P : Type} (top b : α) : List (α × P) → List (α × α × P)
  | [] => []
  | (l, p) :: r => (max top (b - l), b, p) :: stack top (max top (b - l)) r

end Welleng.Spec
