import Verif.Model.Angles
import Verif.Model.MinCurve

/-!
Model of `survey_to_df`, `/repo/welleng/survey.py` 2411-2441: the columns of lengths, of the dogleg
severity and of the toolface. A frame is a list of labelled columns.
-/

namespace Welleng.Frame

open Real Welleng

/-- The entry of the column `TOOLFACE (deg)` for a toolface in radians, `survey.py` 2435. -/
noncomputable def toolfaceEntry (tf : ℝ) : ℝ := pmod (degrees (tf + 2 * π)) 360

/-- What `survey_to_df` reads from a survey, `survey.py` 2424-2438; lengths in the unit of the
survey. -/
structure Source where
  unit : LenUnit
  md : List ℝ
  nev : List V3
  xyz : List V3
  dls : List ℝ
  toolface : List ℝ

/-- `survey_to_df`, `survey.py` 2411-2441, without the columns for inclination, azimuths and
rates. -/
noncomputable def toFrame (s : Source) : List (String × List ℝ) :=
  [("MD (m)", s.md),
   ("NORTHING (m)", s.nev.map (·.x)), ("EASTING (m)", s.nev.map (·.y)),
   ("TVDSS (m)", s.nev.map (·.z)),
   ("X (m)", s.xyz.map (·.x)), ("Y (m)", s.xyz.map (·.y)), ("Z (m)", s.xyz.map (·.z)),
   ("DLS (deg/30m)", s.dls),
   ("TOOLFACE (deg)", s.toolface.map toolfaceEntry)]

end Welleng.Frame
