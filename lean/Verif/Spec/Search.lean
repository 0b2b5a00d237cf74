import Verif.Model.Vec

/-! Words used by the properties of the search for a path with two curves. -/

namespace Welleng.Spec

/-- `q` lies straight ahead of a well at `pos` that points along `vec`. -/
def StraightAhead (pos vec q : V3) : Prop := ∃ t : ℝ, 0 < t ∧ q = pos + t • vec

/-- `q` is not inside the circle of radius `r` which a well at `pos` touches, curved towards
the unit vector `side`. -/
def OutsideTurn (r : ℝ) (pos side q : V3) : Prop := r ≤ V3.norm (q - (pos + r • side))

/-- Every coordinate of a random offset is in `[0, 1)`. -/
def UnitOffset (z : V3) : Prop :=
  0 ≤ z.x ∧ z.x < 1 ∧ 0 ≤ z.y ∧ z.y < 1 ∧ 0 ≤ z.z ∧ z.z < 1

/-- `b` is `a` moved by less than `c` (and not backwards) along each axis. -/
def MovedBelow (c : ℝ) (a b : V3) : Prop :=
  0 ≤ b.x - a.x ∧ b.x - a.x < c ∧ 0 ≤ b.y - a.y ∧ b.y - a.y < c ∧ 0 ≤ b.z - a.z ∧ b.z - a.z < c

/-- A severity of `d` (radians in 30 m) is, up to the share `tol`, not below that of a curve of
the given length and turn. -/
def CoversTurn (tol d len turn : ℝ) : Prop := (1 - tol) * (30 * turn) ≤ d * len

end Welleng.Spec
