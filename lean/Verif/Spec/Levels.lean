import Mathlib.Data.Real.Basic

/-!
Specification of the levels a well passes, independent of the code.
-/

namespace Welleng.Spec

/-- `x` is one of the levels `z0 + k * step`. -/
def OnLevel (z0 step x : ℝ) : Prop := ∃ k : ℤ, x = z0 + k * step

/-- The levels strictly between the vertical depths `a` and `b`, in the order in which they are passed on
the way from `a` to `b`. -/
structure LevelsBetween (z0 step a b : ℝ) (l : List ℝ) : Prop where
  down : a ≤ b → l.Pairwise (· < ·)
  up : b ≤ a → l.Pairwise (· > ·)
  mem : ∀ x, x ∈ l ↔ min a b < x ∧ x < max a b ∧ OnLevel z0 step x

end Welleng.Spec
