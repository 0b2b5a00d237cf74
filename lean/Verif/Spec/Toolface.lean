import Verif.Spec.Geometry

/-!
Toolface directions, independent of the code.  All rows are `[north, east, vertical(down)]`.
-/

namespace Welleng.Spec

open Real

/-- The high side of the hole: perpendicular to the tangent, in the vertical plane of the
azimuth, pointing up (the direction in which only the inclination increases). -/
noncomputable def highSide (inc azi : ℝ) : V3 :=
  ⟨cos inc * cos azi, cos inc * sin azi, -sin inc⟩

/-- The horizontal direction to the right of the hole (the direction in which only the azimuth
increases). -/
noncomputable def rightSide (azi : ℝ) : V3 := ⟨-sin azi, cos azi, 0⟩

/-- The direction at the angle `t` clockwise from the high side, looking down the hole. -/
noncomputable def toolDir (inc azi t : ℝ) : V3 :=
  cos t • highSide inc azi + sin t • rightSide azi

end Welleng.Spec
