import Mathlib.Data.Real.Basic
import Mathlib.Data.List.Chain

/-!
Specification of an interpolation grid, independent of the code.
-/

namespace Welleng.Spec

/-- Strictly increasing, and no two neighbours further apart than `step`. -/
def StepOrdered (step : ℝ) (l : List ℝ) : Prop :=
  l.IsChain fun x y => x < y ∧ y - x ≤ step

/-- The depths of a section from `a` to `b`: first `a`, last `b`, strictly increasing with gaps
of at most `step`; in between exactly the multiples of `step`. -/
structure AlignedGrid (a b step : ℝ) (l : List ℝ) : Prop where
  first : l.head? = some a
  last : l.getLast? = some b
  ordered : StepOrdered step l
  inside : ∀ x, a < x → x < b → (x ∈ l ↔ ∃ k : ℤ, x = k * step)

end Welleng.Spec
