import Verif.Model.Toolface
import Verif.Model.Survey

/-!
Model of the stations of the survey returned by `Survey.maximum_curvature`,
`/repo/welleng/survey.py` 1446-1518.  (`Model/Survey.lean` models only their depths.)
-/

namespace Welleng.Mc

open Real Sv

/-- The radius used and the sweep up to the inserted station, `survey.py` 1465-1476, for a finite
effective radius `r`: the radius is replaced if the sweep exceeds `π`, the sweep is not. -/
noncomputable def sweepRadius (deltaMd r : ℝ) : ℝ × ℝ :=
  let dogleg1 := deltaMd / r / 2
  (dogleg1, if π < dogleg1 then deltaMd * 4 / (2 * π) else r)

/-- The station inserted between `a` and `b`, `survey.py` 1465-1489, for the severity `dls` of the
station `b` and the toolface of the station `a`.  Angles are in radians: the conversion to degrees
(1486) and back (900-903) is left out.  `none` stands for NaN (an infinite radius times zero, or an
infinite severity, which occurs only at a repeated depth and gives `0 / 0`). -/
noncomputable def inserted (noise : ℝ) (dls : Dls) (toolface : ℝ) (a b : Station) : Option Station :=
  match dls with
  | .inf => none
  | .val d => match radiusFromDlsArr (d + noise) with
    | .inf => none
    | .val r =>
      let s := sweepRadius (b.md - a.md) r
      let arc := Tf.getArc s.1 s.2 toolface 0 (getVec a.inc a.azi true) false
      let angles := getAngles arc.vec true
      some ⟨arc.deltaMd + a.md, angles.1, angles.2⟩

/-- The stations given to the new `Survey`, `survey.py` 1478-1497: original and inserted stations
alternate, the last one is original.  `st` holds `survey_deg` (716: the grid azimuths), in radians;
`dls` and `toolface` are those of a survey in metres (`utils.py` 145-150, `survey.py` 1003-1009). -/
noncomputable def stations (noise : ℝ) : List Station → List (Option Station)
  | a :: b :: t =>
    some a :: inserted noise (dlsOf 30 (dogleg2 a b) (b.md - a.md)) (Tf.t1 a b) a b
      :: stations noise (b :: t)
  | [a] => [some a]
  | [] => []

/-- The header's azimuth reference after the call and the stations of the returned survey,
`survey.py` 1499-1511.  The new survey is constructed with the default unit `'meters'`, which has to be
that of the header (697-699); the header has been changed by then. -/
noncomputable def maximumCurvature (noise : ℝ) (h : Header) (st : List Station) :
    Header × Except Err (List (Option Station)) :=
  let h' := { h with aziRef := .grid }
  (h', if h'.depthUnit = .meters then .ok (stations noise st) else .error .assertionError)

/-- The flags `interpolated` of the returned survey, `survey.py` 1515-1516: all true, then every
second one replaced by the flag of the original station. -/
def flags (interpolated : List Bool) : List Bool :=
  match interpolated with
  | [] => []
  | f :: t => f :: (t.flatMap fun g => [true, g])

end Welleng.Mc
