import Verif.Spec.Toolface

/-!
Statics of a short element of a string in a curved hole, independent of the code.
-/

namespace Welleng.Spec

open Real

/-- The force that tension `T` and weight `W` exert across the hole on a short element at the given
direction: the tension at the lower end pulls along the lower tangent and at the upper end against
the upper tangent, which leaves `T` times the change of the tangent, to first order in the changes
`dInc` and `dAzi` from the upper to the lower end; the weight acts downwards, less its part along
the hole. The wall pushes back with a force of the same size. -/
noncomputable def acrossHole (T W inc azi dInc dAzi : ℝ) : V3 :=
  T • (dInc • highSide inc azi + (dAzi * sin inc) • rightSide azi)
    + W • ((⟨0, 0, 1⟩ : V3) - cos inc • tangent inc azi)

end Welleng.Spec
