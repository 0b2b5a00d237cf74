import Verif.Spec.Toolface

/-!
Bearings, independent of the code.
-/

namespace Welleng.Spec

open Real

/-- The point `(x, y)`, `y` to the right of `x`, is seen at the angle `b` degrees clockwise from
the `x` axis, up to `ε` radians. -/
def SeenAt (ε b x y : ℝ) : Prop :=
  ∃ r θ : ℝ, 0 ≤ r ∧ x = r * cos θ ∧ y = r * sin θ ∧ |b * π / 180 - θ| ≤ ε

/-- The vector `v` from a point of a well with inclination `inc` and azimuth `azi` is seen at the
toolface `b` degrees, clockwise from the high side looking down the hole, up to `ε` radians: it is
a multiple of the tangent plus a non-negative multiple of the direction at that toolface. -/
def AtToolface (ε b inc azi : ℝ) (v : V3) : Prop :=
  ∃ t r θ : ℝ, 0 ≤ r ∧ v = t • tangent inc azi + r • toolDir inc azi θ ∧ |b * π / 180 - θ| ≤ ε

end Welleng.Spec
