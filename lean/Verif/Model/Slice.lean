import Verif.Model.Survey
import Verif.Model.MeshClearance

/-!
Model of the positions of a survey and of its slices: the constructor (`/repo/welleng/survey.py`
704-735, 847-894) with and without given positions, and `slice_survey` (2069-2117).

The header has grid azimuths (see `sliceAzis` for the others), the survey starts at `x = y = z = 0`, and
the indices of a slice are not negative.
-/

namespace Welleng.Slc

open Clr Sv

/-- Exceptions: `n[0]` of an empty slice, and those of `MinCurve`, `survey.py` 724-727, 853-855. -/
inductive SErr
  | indexError
  | minCurve (e : MinCurveErr)

/-- A survey: stations, `n, e, tvd`, `pos_nev`, `x, y, z` and severities, `survey.py` 847-894. -/
structure Placed where
  st : List Station
  nev : List V3
  posNev : List V3
  xyz : List V3
  dls : List Dls

/-- `Survey.__init__`, `survey.py` 718-729, 847-894; `given` are `n, e, tvd` if they are given. -/
noncomputable def construct (gsf : ℝ) (u : LenUnit) (given : Option (List V3)) (startNev : V3)
    (st : List Station) : Except SErr Placed :=
  let start : Except SErr V3 := match given with
    | none => .ok startNev
    | some [] => .error .indexError
    | some (p :: _) => .ok p
  match start with
  | .error e => .error e
  | .ok p =>
    match minCurve st 0 u with
    | .error e => .error (.minCurve e)
    | .ok out =>
      .ok ⟨st, given.getD (out.poss.map (nevAttr 0 p)), out.poss.map (posNev gsf p), out.poss, out.dls⟩

/-- `slice_survey`, `survey.py` 2069-2117. -/
noncomputable def sliceSurvey (gsf : ℝ) (u : LenUnit) (s : Placed) (start : ℕ) (stop : Option ℕ) :
    Except SErr Placed :=
  let nev := cut start stop s.nev
  match nev with
  | [] => .error .indexError
  | p :: _ => construct gsf u (some nev) p (cut start stop s.st)

end Welleng.Slc
