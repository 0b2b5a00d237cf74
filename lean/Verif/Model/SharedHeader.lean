import Verif.Model.Survey
import Verif.Model.Interpolate

/-!
Model of a `Survey` object and its header over a history of calls, `/repo/welleng/survey.py`.  The
header is one object, shared by the survey and by every survey derived from it (interpolated, sliced,
resampled, with maximum curvature): these are constructed with `header=survey.header` (1508, 1908, 2106,
2770, 2914), and the constructor stores the reference (692-696).
-/

namespace Welleng.Shr

open Real Sv

/-- What the calls below read and write: the shared header, the depths and the stations,
`survey.py` 594-769. -/
structure Obj where
  header : Header
  mds : List ℝ
  rows : List Row

/-- The calls of a history, `survey.py` 1084-1283. -/
inductive Op
  /-- `survey.interpolate_md(md)`, 1084-1132 -/
  | interpolateMd (md : ℝ)
  /-- `survey.maximum_curvature(...)`, 1446-1518 -/
  | maximumCurvature
  /-- `survey.get_vertical_section(azimuth, deg)`, 1285-1321 -/
  | getSection (azimuth : ℝ) (deg : Bool)
  /-- `survey.set_vertical_section(azimuth, deg)`, 1323-1342 -/
  | setSection (azimuth : ℝ) (deg : Bool)
  /-- `interpolate_md`, `maximum_curvature` on a survey that shares the header -/
  | sharedInterpolate
  /-- `set_vertical_section(azimuth, ...)` on a survey that shares the header -/
  | sharedSet (azimuth : ℝ)

/-- `sh = survey.header; sh.azi_reference = 'grid'`, 1500-1501 and 1892-1893: no copy is made. -/
def toGrid (h : Header) : Header := { h with aziRef := .grid }

/-- `math.radians(azimuth)` if `deg`, 1305-1308. -/
noncomputable def inRadians (azimuth : ℝ) (deg : Bool) : ℝ :=
  if deg then radians azimuth else azimuth

/-- `interpolate_md` reaches 1892-1893: the index (1814-1823, `0` for a depth before the first
station) is that of a station with a successor.  Otherwise it returns `None` or raises before. -/
def Reaches (mds : List ℝ) (md : ℝ) : Prop := searchsortedLeft mds md - 1 < mds.length - 1

/-- The state after a call, `survey.py` 1084-1283. -/
noncomputable def step (o : Obj) : Op → Obj
  | .interpolateMd md =>
    open Classical in if Reaches o.mds md then { o with header := toGrid o.header } else o
  | .maximumCurvature => { o with header := toGrid o.header }
  | .getSection v deg =>
    { o with rows := (getVerticalSection o.header.aziRef (inRadians v deg) o.rows).1 }
  | .setSection v deg =>
    { o with header := { o.header with verticalSectionAzimuth := some v }
             rows := (getVerticalSection o.header.aziRef (inRadians v deg) o.rows).1 }
  | .sharedInterpolate => { o with header := toGrid o.header }
  | .sharedSet v => { o with header := { o.header with verticalSectionAzimuth := some v } }

/-- A history, `survey.py` 1084-1283. -/
noncomputable def run (o : Obj) (ops : List Op) : Obj := ops.foldl step o

/-- The survey when the constructor has finished: `_get_vertical_section` (769, 1265-1283) has
overwritten the azimuths of the vertical stations. -/
noncomputable def construct (h : Header) (mds : List ℝ) (rows : List Row) : Obj :=
  ⟨h, mds, match h.verticalSectionAzimuth with
    | some v => (getVerticalSection h.aziRef v rows).1
    | none => rows⟩

/-- What `get_vertical_section(azimuth, deg)` returns, `survey.py` 1265-1283. -/
noncomputable def answer (o : Obj) (azimuth : ℝ) (deg : Bool) : List ℝ :=
  (getVerticalSection o.header.aziRef (inRadians azimuth deg) o.rows).2

/-- The attribute `vertical_section` that the constructor gives a survey with the stations `rows` and
the header `h`, 1278-1283: the azimuth of the header is taken as radians. -/
noncomputable def sectionAttr (h : Header) (rows : List Row) : Option (List ℝ) :=
  h.verticalSectionAzimuth.map fun v => (getVerticalSection h.aziRef v rows).2

end Welleng.Shr
