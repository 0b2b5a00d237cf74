import Verif.Spec.Toolface

/-!
The change of the direction of a hole, independent of the code.
-/

namespace Welleng.Spec

open Real

/-- The first-order change of the direction of a hole when its inclination changes by `dInc` and
its azimuth by `dAzi`. -/
noncomputable def tilt (inc azi dInc dAzi : ℝ) : V3 :=
  dInc • highSide inc azi + (sin inc * dAzi) • rightSide azi

/-- A direction across the hole. -/
def Across (inc azi : ℝ) (u : V3) : Prop :=
  V3.dot u (tangent inc azi) = 0 ∧ V3.dot u u = 1

end Welleng.Spec
