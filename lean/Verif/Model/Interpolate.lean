import Verif.Model.Angles

/-!
Model of station interpolation, `/repo/welleng/survey.py` lines 1084-1132 and
1781-1946.
-/

namespace Welleng

open Real

/-- The attributes of a `Survey` that interpolation reads: `(md, inc_rad,
azi_grid_rad)` rows, the `(n, e, tvd)` rows and the covariances
(`survey.py` 594-769). `vec_xyz` is the one computed from the angles
(`survey.py` 879-883), i.e. no explicit `vec` argument. -/
structure SurveyG where
  st : List Station
  nev : List V3
  cov : Option (List M3)

/-- Slerp of two rows, `survey.py` 1871-1878 (same code at 1936-1941). -/
noncomputable def slerp (t1 t2 : V3) (totalDogleg dogleg : ℝ) : V3 :=
  normalize ((sin (totalDogleg - dogleg) / sin totalDogleg) • t1
    + (sin dogleg / sin totalDogleg) • t2)

/-- Inclination and azimuth at distance `x` below station `s1`, `survey.py`
1859-1880 (same code at 1929-1942). -/
noncomputable def interpAngles (s1 s2 : Station) (x : ℝ) : ℝ × ℝ :=
  if dogleg2 s1 s2 = 0 then (s1.inc, s1.azi)
  else
    let totalDogleg := dogleg2 s1 s2
    let dogleg := x * (totalDogleg / (s2.md - s1.md))
    getAngles (slerp (getVec s1.inc s1.azi false) (getVec s2.inc s2.azi false)
      totalDogleg dogleg) false

/-- The interpolated station, `survey.py` 1895-1901 (second row). -/
noncomputable def interpStation (s1 s2 : Station) (x : ℝ) : Station :=
  ⟨s1.md + x, (interpAngles s1 s2 x).1, (interpAngles s1 s2 x).2⟩

/-- `_interpolate_pos_nev`, `survey.py` 1922-1946. -/
noncomputable def interpPosNev (pos1 : V3) (s1 s2 : Station) (x : ℝ) : V3 :=
  pos1 + minCurveStep x s1.inc s1.azi (interpAngles s1 s2 x).1 (interpAngles s1 s2 x).2

/-- Linear covariance interpolation, `survey.py` 1882-1890. -/
noncomputable def interpCov (s1 s2 : Station) (c1 c2 : M3) (x : ℝ) : M3 :=
  c1 + (x / (s2.md - s1.md)) • (c2 - c1)

/-- What `get_node` reports, `survey.py` 1781-1806: md, direction `[n, e, v]`,
position `[n, e, tvd]` and the `interpolated` flag; plus the interpolated
covariance carried by the two-row survey. -/
structure NodeOut where
  md : ℝ
  vec : V3
  pos : V3
  interpolated : Bool
  cov : Option M3

/-- Position of the second row of the two-row `Survey` built by
`_interpolate_survey` (`survey.py` 1895-1911) from `start_xyz`/`start_nev`:
`MinCurve` (`utils.py` 153-157) followed by `_get_nev` (`survey.py` 885-894). -/
noncomputable def twoRowPos (startXyz startNev : V3) (s1 m : Station) : V3 :=
  getNev ((startXyz + 0) + deltaXyz s1 m) startXyz startNev

/-- `_interpolate_survey` followed by `get_node(s, -1, …)`, `survey.py` 1829-1919
and 1781-1806.  `i` is `index`; a failing `index` assertion gives `none`.
`startXyz` is the `(x, y, z)` row of the station. The in-place change of
`header.azi_reference` to `'grid'` (line 1893) is modelled separately. -/
noncomputable def interpolateSurvey (sv : SurveyG) (startXyz : V3) (x : ℝ) (i : ℕ) :
    Option NodeOut :=
  match sv.st[i]?, sv.st[i + 1]?, sv.nev[i]? with
  | some s1, some s2, some p1 =>
    let m := interpStation s1 s2 x
    some {
      md := m.md
      vec := getVec m.inc m.azi true
      pos := twoRowPos startXyz p1 s1 m
      interpolated := !(decide (x = 0) || decide (x = s2.md - s1.md))
      cov := match sv.cov with
        | none => none
        | some cs => match cs[i]?, cs[i + 1]? with
          | some c1, some c2 => some (interpCov s1 s2 c1 c2 x)
          | _, _ => none }
  | _, _, _ => none

/-- `np.searchsorted(a, v, side="left")` for an ascending `a`, `survey.py` 1084-1132. -/
noncomputable def searchsortedLeft (a : List ℝ) (v : ℝ) : ℕ :=
  (a.takeWhile (fun y => decide (y < v))).length

/-- `interpolate_md` and `Survey.interpolate_md`, `survey.py` 1809-1826 and
1127-1132. `startXyz` gives the `(x, y, z)` row of each station. -/
noncomputable def interpolateMd (sv : SurveyG) (startXyz : ℕ → V3) (md : ℝ) : Option NodeOut :=
  let mds := sv.st.map Station.md
  match searchsortedLeft mds md with         -- idx = (this) - 1
  | 0 => interpolateSurvey sv (startXyz 0) 0 0                 -- idx < 0
  | idx + 1 =>
    if idx + 1 ≥ mds.length then none         -- idx >= len - 1
    else match mds[idx]? with
      | some m => interpolateSurvey sv (startXyz idx) (md - m) idx
      | none => none

/-- The geometric part of a `Survey` built from stations without explicit positions
or vectors, `survey.py` 847-894: `x, y, z` are the minimum-curvature positions and
`n, e, tvd` their conversion with the survey's datum. -/
noncomputable def surveyG (st : List Station) (startXyz startNev : V3) (u : LenUnit) :
    Except MinCurveErr (SurveyG × List V3) :=
  match minCurve st startXyz u with
  | .ok out => .ok (⟨st, out.poss.map (getNev · startXyz startNev), none⟩, out.poss)
  | .error e => .error e

end Welleng
