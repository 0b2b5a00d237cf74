import Verif.Spec.Geometry

/-!
Specification of well paths built from circular arcs and straights, independent of the
code.  All rows are `[north, east, vertical(down)]`.
-/

namespace Welleng.Spec

/-- Starting at `pos1` along `vec1`, a circular arc of radius `R` and length `L` ends at
`pos2` along `vec2`. -/
def ArcTo (R L : ℝ) (pos1 vec1 pos2 vec2 : V3) : Prop :=
  ∃ γ τ ν, CircularCurve γ τ ν (1 / R) ∧ γ 0 = pos1 ∧ τ 0 = vec1 ∧ γ L = pos2 ∧ τ L = vec2

/-- Starting at `pos` along `vec`, a straight of length `T` ends at `pos'`. -/
def StraightTo (T : ℝ) (pos vec pos' : V3) : Prop := 0 ≤ T ∧ pos' = pos + T • vec

end Welleng.Spec
