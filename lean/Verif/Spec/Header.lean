import Verif.Model.Header
import Verif.Spec.Geometry

/-!
Specification side of the survey header: the same header described in radians.
-/

namespace Welleng.Spec

open Welleng.Hdr

/-- The arguments of a header described in degrees, written in radians: each of the five angles
is converted, everything else (including `mag_defaults`, which is always in degrees) is left. -/
noncomputable def inRadians (a : Args) : Args :=
  { a with
    deg := false
    dip := a.dip.map fun d => d * Real.pi / 180
    declination := a.declination.map fun d => d * Real.pi / 180
    convergence := a.convergence * Real.pi / 180
    verticalIncLimit := a.verticalIncLimit * Real.pi / 180
    verticalSectionAzimuth := a.verticalSectionAzimuth * Real.pi / 180 }

/-- A point or direction with its first two coordinates exchanged: `[n, e, v]` and `[x, y, z]`
of the same thing. -/
def swapXY (v : V3) : V3 := ⟨v.y, v.x, v.z⟩

end Welleng.Spec
