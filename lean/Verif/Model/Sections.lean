import Verif.Model.Tortuosity
import Verif.Model.Toolface

/-!
Model of the control points of a survey, `/repo/welleng/survey.py` 2192-2366 and 2527-2564, and of
`wbp_to_survey` up to its second call of `from_connections`,
`/repo/welleng/exchange/wbp.py` 641-739.

A survey has stations `0 … n`.
-/

namespace Welleng.Sec

open Real

/-- What `get_sections` reads at a station: the grid survey in radians, `[n, e, tvd]`, the dogleg
severity (taken to be finite) and the toolface.  `inc_deg` and `azi_grid_deg` are the angles in
degrees, `survey.py` 2192-2366. -/
structure Row where
  st : Station
  pos : V3
  dls : ℝ
  toolface : ℝ

/-- `TurnPoint`, `survey.py` 1720-1777 (`target` is always `None` here).  A rate over a length of
zero (`inf` or NaN) is `none`. -/
structure TurnPoint where
  md : ℝ
  inc : ℝ
  azi : ℝ
  buildRate : Option ℝ
  turnRate : Option ℝ
  dls : ℝ
  toolface : ℝ
  method : String
  tieOn : Bool
  location : V3

/-- `np.isclose` of two floats, `survey.py` 2192-2366. -/
def isClose (rtol atol a b : ℝ) : Prop := |a - b| ≤ atol + rtol * |b|

/-- `self.normals` of the interval between two stations, `survey.py` 1042-1044: NaN (`none`) if the
cross product is zero. -/
noncomputable def normal (a b : Station) : Option V3 :=
  open Classical in
  if V3.cross (getVec a.inc a.azi true) (getVec b.inc b.azi true) = 0 then none
  else some (Tf.intervalNormal a b)

/-- `np.all(np.isclose(..., equal_nan=True), axis=-1)`, `survey.py` 2247-2254. -/
def normalsClose (rtol atol : ℝ) : Option V3 → Option V3 → Prop
  | none, none => True
  | some a, some b => isClose rtol atol a.x b.x ∧ isClose rtol atol a.y b.y ∧
      isClose rtol atol a.z b.z
  | _, _ => False

/-- `continuous`, `survey.py` 2234-2257: one entry for each station `1 … n-1`.  `around` is
`np.around(·, 2)`. -/
noncomputable def continuous (rtol atol : ℝ) (dlsCont : Bool) (around : ℝ → ℝ) (sv : ℕ → Row)
    (n : ℕ) : List Bool :=
  open Classical in
  (List.range' 1 (n - 1)).map fun k =>
    decide (normalsClose rtol atol (normal (sv (k - 1)).st (sv k).st)
      (normal (sv k).st (sv (k + 1)).st)) &&
    (!dlsCont || decide (around (sv k).dls = around (sv (k + 1)).dls))

/-- `starts`, `survey.py` 2259-2263. -/
def starts (cont : List Bool) (n : ℕ) : List ℕ := Ti.starts cont ++ [n]

/-- The sign given to the toolface, `survey.py` 2304-2314 (`0 / 0` is NaN and becomes 1). -/
noncomputable def turnSign (d : ℝ) : ℝ :=
  if d < -180 then 1
  else if d > 180 then -1
  else if d = 0 then 1 else d / |d|

/-- `delta_azi`, `survey.py` 2332-2340. -/
noncomputable def deltaAzi (d : ℝ) : ℝ :=
  let d := if d < -180 then d + 360 else d
  if d > 180 then d - 360 else d

/-- Division of floats with `inf` and NaN as `none`, `survey.py` 2192-2366. -/
noncomputable def divF (a b : ℝ) : Option ℝ := if b = 0 then none else some (a / b)

/-- The control point at a station that is not the first, `survey.py` 2274-2354; `lb` is the
station of the previous control point.  `dogleg[lb + 1]` is the dogleg from `lb` to `lb + 1`. -/
noncomputable def point (u : LenUnit) (sv : ℕ → Row) (lb s : ℕ) : TurnPoint :=
  let md := (sv s).st.md
  let inc := degrees (sv s).st.inc
  let azi := degrees (sv s).st.azi
  let location : V3 := ⟨(sv s).pos.y, (sv s).pos.x, -(sv s).pos.z⟩
  if dogleg2 (sv lb).st (sv (lb + 1)).st = 0 then
    ⟨md, inc, azi, some 0, some 0, 0, 0, "920", false, location⟩
  else
    let toolface := |degrees (sv lb).toolface| * turnSign (azi - degrees (sv lb).st.azi)
    let deltaMd := md - (sv lb).st.md
    let denominator : ℝ := if u = .meters then 30 else 100
    let build := (divF (inc - degrees (sv lb).st.inc) deltaMd).map fun x => |x * denominator|
    let turn := (divF (deltaAzi (azi - degrees (sv lb).st.azi)) deltaMd).map (· * denominator)
    ⟨md, inc, azi, build, turn, (sv s).dls, toolface, "920", false, location⟩

/-- The control point at the first station, `survey.py` 2288-2293, 2343-2362.  It is appended
twice, as one object, whose `method` is then set to `'2'` and whose `tie_on` is cleared. -/
noncomputable def firstPoint (sv : ℕ → Row) : TurnPoint :=
  ⟨(sv 0).st.md, degrees (sv 0).st.inc, degrees (sv 0).st.azi, some 0, some 0, 0, 0, "2", false,
    ⟨(sv 0).pos.y, (sv 0).pos.x, -(sv 0).pos.z⟩⟩

/-- `get_sections`, `survey.py` 2192-2366, for a given `continuous`. -/
noncomputable def sectionsOf (u : LenUnit) (sv : ℕ → Row) (n : ℕ) (cont : List Bool) :
    List TurnPoint :=
  firstPoint sv :: firstPoint sv :: pairwise (point u sv) (starts cont n)

/-- `get_sections`, `survey.py` 2192-2366.  `none`: a survey of one station
(`np.full(-1, True)` raises ValueError). -/
noncomputable def getSections (rtol atol : ℝ) (dlsCont : Bool) (around : ℝ → ℝ) (u : LenUnit)
    (sv : ℕ → Row) (n : ℕ) : Option (List TurnPoint) :=
  if n = 0 then none
  else some (sectionsOf u sv n (continuous rtol atol dlsCont around sv n))

/-- `get_data`, `survey.py` 2527-2564: the rows of the exported listing (all but the first of the
repeated control points): md, inc, azi, north, east, depth, dls, toolface, build and turn rate. -/
noncomputable def getData (l : List TurnPoint) :
    List (ℝ × ℝ × ℝ × ℝ × ℝ × ℝ × ℝ × ℝ × Option ℝ × Option ℝ) :=
  l.tail.map fun p => (p.md, p.inc, p.azi, p.location.y, p.location.x, p.location.z, p.dls,
    p.toolface, p.buildRate, p.turnRate)

/-- The parts of a `Connector` read by `from_connections` (its interpolated rows are
`interpolate_well`'s), `survey.py` 2622-2700. -/
structure Conn where
  md1 : ℝ
  mdTarget : ℝ
  pos1 : V3
  rows : List Station

/-- What may be passed to `from_connections`: a list of connectors, or, in `wbp_to_survey`, a
`Survey`, which has neither `md1` nor `md_target`. -/
inductive Arg
  | connections (l : List Conn)
  | survey (rows : List Station)

/-- Exceptions of `from_connections`, `survey.py` 2622-2700. -/
inductive Exc | attributeError | valueError | indexError | unboundLocal
  deriving DecidableEq

/-- `from_connections`, `survey.py` 2622-2700: the stations of the survey it builds, before
duplicates are removed.  A `Survey` becomes `[survey]` (2655-2656), and `s.md1` fails (2661).
With no connections `np.vstack([])` raises ValueError (2666). -/
def fromConnections : Arg → Except Exc (List Station)
  | .survey _ => .error .attributeError
  | .connections [] => .error .valueError
  | .connections l => .ok (l.flatMap Conn.rows)

/-- `wbp_to_survey`, `wbp.py` 641-739, for a plan with `steps`; `connect` gives the connector from a
step to the next (`wbp.py` 688-712).  The first step is skipped; without a second `pos` is unbound
(727). -/
def wbpToSurvey {S : Type} (connect : S → S → Conn) (steps : List S) :
    Except Exc (List Station) :=
  match steps with
  | [] => .error .unboundLocal
  | [_] => .error .unboundLocal
  | _ :: rest =>
    match fromConnections (.connections (pairwise connect rest)) with
    | .error e => .error e
    | .ok surveyData => fromConnections (.survey surveyData)

/-- `WellPlan._get_surface_location` without parent data, `wbp.py` 221-233: `[n, e, tvd]` of the
first station. -/
def surfaceDatum (sv : ℕ → Row) : V3 := (sv 0).pos

/-- `WellPlan._get_local_coordinates`, `wbp.py` 214-219: each location less `[datum[0], datum[1],
0]`. -/
def envLocal (datum : V3) (steps : List TurnPoint) : List V3 :=
  steps.map fun s => ⟨s.location.x - datum.x, s.location.y - datum.y, s.location.z - 0⟩

end Welleng.Sec
