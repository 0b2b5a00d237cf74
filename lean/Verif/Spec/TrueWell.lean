import Verif.Spec.Geometry

/-!
Specification of a well as it was drilled, independent of the code and of any survey: a curve
parametrised by drilled length whose direction changes by at most `κ` per unit of length.  All rows are
`[north, east, vertical(down)]`.
-/

namespace Welleng.Spec

/-- Between the depths `a` and `b` the hole is at `γ md` in the direction `τ md`, and its curvature
does not exceed `κ`. -/
structure TrueWell (γ τ : ℝ → V3) (κ a b : ℝ) : Prop where
  deriv : ∀ s, a ≤ s → s ≤ b → HasDeriv γ (τ s) s
  unit : ∀ s, a ≤ s → s ≤ b → (τ s).IsUnit
  bend : ∀ s s', a ≤ s → s ≤ s' → s' ≤ b → V3.norm (τ s' - τ s) ≤ κ * (s' - s)

end Welleng.Spec
