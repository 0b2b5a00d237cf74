import Verif.Model.Angles

/-!
Model of the `Survey` object in `/repo/welleng/survey.py`: azimuth references
(771-836, 896-911), positions (740-745, 847-894), vertical section (1265-1342), slicing
(2069-2117), duplicate removal (2609-2619), splicing (3070-3189) and the depths of
`maximum_curvature` (1446-1518).
-/

namespace Welleng.Sv

open Real

/-- `azi_reference`, one of `AZI_REF` (checked by an assertion, `survey.py` 376). -/
inductive AziRef | grid | true_ | magnetic
  deriving DecidableEq

/-- The parts of `SurveyHeader` used here (`survey.py` 270-462).  Angles are in radians: the
constructor converts them when `deg` is set (454-462). -/
structure Header where
  aziRef : AziRef
  convergence : ℝ
  declination : ℝ
  gridScaleFactor : ℝ := 1
  verticalSectionAzimuth : Option ℝ := some 0
  depthUnit : LenUnit := .meters

/-- The six azimuths stored for one station, `survey.py` 771-836. -/
@[ext] structure Azis where
  gridDeg : ℝ
  gridRad : ℝ
  trueDeg : ℝ
  trueRad : ℝ
  magDeg : ℝ
  magRad : ℝ

/-- `Survey._process_azi_ref` for one station, `survey.py` 771-836 with `_make_angles`
(896-911), `_get_azi_temp`, `_get_azi_mag_and_true_rad/deg`. -/
noncomputable def processAziRef (h : Header) (deg : Bool) (azi : ℝ) : Azis :=
  match h.aziRef with
  | .grid =>
    let gd := if deg then azi else degrees azi
    let gr := if deg then radians azi else azi
    let td := gd + degrees h.convergence
    let md := td - degrees h.declination
    ⟨gd, gr, td, radians td, md, radians md⟩
  | .true_ =>
    if deg then
      let td := azi
      let md := td - degrees h.declination
      let g := td - degrees h.convergence
      ⟨g, radians g, td, radians td, md, radians md⟩
    else
      let tr := azi
      let mr := tr - h.declination
      let g := tr - h.convergence
      ⟨degrees g, g, degrees tr, tr, degrees mr, mr⟩
  | .magnetic =>
    if deg then
      let md := azi
      let td := md + degrees h.declination
      let g := td - degrees h.convergence
      ⟨g, radians g, td, radians td, md, radians md⟩
    else
      let mr := azi
      let tr := mr + h.declination
      let g := tr - h.convergence
      ⟨degrees g, g, degrees tr, tr, degrees mr, mr⟩

/-- The azimuth of a station in a given reference and unit: attributes
`azi_{grid,true,mag}_{deg,rad}`, `survey.py` 771-812. -/
def Azis.get (a : Azis) : AziRef → Bool → ℝ
  | .grid, true => a.gridDeg
  | .grid, false => a.gridRad
  | .true_, true => a.trueDeg
  | .true_, false => a.trueRad
  | .magnetic, true => a.magDeg
  | .magnetic, false => a.magRad

/-- In-place assignment to the `azi_{ref}_rad` entry of one station, `survey.py` 1809-1826. -/
def Azis.setRad (a : Azis) (r : AziRef) (v : ℝ) : Azis :=
  match r with
  | .grid => { a with gridRad := v }
  | .true_ => { a with trueRad := v }
  | .magnetic => { a with magRad := v }

/-- `azi_temp[np.where(self.inc_rad == 0.0)] = vertical_section_azimuth` for one station:
`azi_temp` is the survey's own array, so the assignment changes the survey
(`survey.py` 1308-1314). -/
noncomputable def overwriteVertical (ref : AziRef) (vsa : ℝ) (inc : ℝ) (a : Azis) : Azis :=
  if inc = 0 then a.setRad ref vsa else a

/-- One station of a `Survey` object as seen by the vertical-section code, `survey.py` 1265-1321. -/
structure Row where
  inc : ℝ
  azi : Azis
  n : ℝ
  e : ℝ

/-- `np.cumsum` of floats, started from `acc`, `survey.py` 1265-1283. -/
def cumsumR (acc : ℝ) : List ℝ → List ℝ
  | [] => []
  | d :: t => (acc + d) :: cumsumR (acc + d) t

/-- `Survey.get_vertical_section` with the azimuth in radians, `survey.py` 1285-1321: the
mutated stations and the vertical section of each station.  `hypot` was computed from `n`,
`e` at construction (1273-1276). -/
noncomputable def getVerticalSection (ref : AziRef) (vsa : ℝ) (rows : List Row) :
    List Row × List ℝ :=
  let rows' := rows.map fun r => { r with azi := overwriteVertical ref vsa r.inc r.azi }
  let legs := pairwise (fun a b =>
    cos (vsa - (b.azi.get ref false + a.azi.get ref false) / 2)
      * √((b.n - a.n) ^ 2 + (b.e - a.e) ^ 2)) rows'
  (rows', cumsumR 0 (0 :: legs))

/-- The azimuths of a station when the constructor has finished: `_process_azi_ref`, then
`_get_vertical_section` (`survey.py` 712, 769, 1265-1283). -/
noncomputable def constructedAzis (h : Header) (deg : Bool) (incRad azi : ℝ) : Azis :=
  let a := processAziRef h deg azi
  match h.verticalSectionAzimuth with
  | some v => overwriteVertical h.aziRef v incRad a
  | none => a

/-- `pos_nev` of one station from its `pos_xyz` row, `survey.py` 860-871. -/
def posNev (gsf : ℝ) (startNev : V3) (posXyz : V3) : V3 :=
  let p := getNev posXyz 0 0
  ⟨p.x * gsf, p.y * gsf, p.z * 1⟩ + startNev

/-- `(n, e, tvd)` of one station when they were not given, `survey.py` 885-894. -/
def nevAttr (startXyz startNev : V3) (posXyz : V3) : V3 := getNev posXyz startXyz startNev

/-- The two position tables of a survey built without explicit positions, `survey.py`
847-894: `(pos_nev, (n, e, tvd))`. -/
noncomputable def positionTables (h : Header) (startXyz startNev : V3) (st : List Station)
    (u : LenUnit) : Except MinCurveErr (List V3 × List V3) :=
  match minCurve st startXyz u with
  | .ok out => .ok (out.poss.map (posNev h.gridScaleFactor startNev),
                    out.poss.map (nevAttr startXyz startNev))
  | .error e => .error e

/-- The stations of a survey as the constructor leaves them before `_get_vertical_section`:
inputs in radians in the header's reference, minimum curvature on the grid azimuths
(`survey.py` 712, 847-894). -/
noncomputable def surveyRows (h : Header) (startXyz startNev : V3) (st : List Station)
    (u : LenUnit) : Except MinCurveErr (List Row) :=
  let gst := st.map fun s => { s with azi := (processAziRef h false s.azi).gridRad }
  match positionTables h startXyz startNev gst u with
  | .ok (_, nev) => .ok (List.zipWith
      (fun s p => ⟨s.inc, processAziRef h false s.azi, p.x, p.y⟩) st nev)
  | .error e => .error e

/-! ### Duplicate removal -/

/-- Errors of the functions below, `survey.py` 1265-1283. -/
inductive Err | indexError | attributeError | assertionError
  deriving DecidableEq

/-- `_remove_duplicates`, `survey.py` 2609-2619.  `key` is the rounded measured depth of a
row.  With fewer than two rows `upper[0]` raises. -/
def removeDuplicates {α κ : Type*} [DecidableEq κ] (key : α → κ) (rows : List α) :
    Except Err (List α) :=
  match rows with
  | a :: b :: t =>
    .ok (a :: (pairwise (fun x y => (x, y)) (a :: b :: t)).filterMap
      fun (x, y) => if key y ≠ key x then some y else none)
  | _ => .error .indexError

/-! ### Splicing -/

/-- What `SurveyData` reads from a `Survey`, `survey.py` 3088-3097. -/
structure Data where
  header : Header
  md : List ℝ
  inc : List ℝ
  azi : List Azis
  covNev : Option (List M3)
  covHla : Option (List M3)
  radius : List ℝ

/-- `getattr(survey, f"azi_{azi_reference}_rad")`: there is no attribute
`azi_magnetic_rad`, `survey.py` 3090-3092 and 3110-3117. -/
def aziAttr (ref : AziRef) (azi : List Azis) : Except Err (List ℝ) :=
  match ref with
  | .grid => .ok (azi.map Azis.gridRad)
  | .true_ => .ok (azi.map Azis.trueRad)
  | .magnetic => .error .attributeError

/-- The state of a `SurveyData` object, `survey.py` 3070-3153. -/
structure Spliced where
  header : Header
  md : List ℝ
  inc : List ℝ
  azi : List ℝ
  covNev : Option (List M3)
  covHla : Option (List M3)
  radius : List ℝ

/-- `SurveyData.__init__`, `survey.py` 3077-3097. -/
def dataInit (s : Data) : Except Err Spliced :=
  match aziAttr s.header.aziRef s.azi with
  | .error e => .error e
  | .ok azi => .ok ⟨s.header, s.md, s.inc, azi, s.covNev, s.covHla, s.radius⟩

/-- Concatenation of covariance arrays; `None` has no `reshape`, `survey.py` 3118-3129. -/
def appendCov (a b : Option (List M3)) : Except Err (List M3) :=
  match a, b with
  | some a, some b => .ok (a ++ b.tail)
  | _, _ => .error .attributeError

/-- `SurveyData.append_survey`, `survey.py` 3099-3130. -/
def dataAppend (acc : Spliced) (s : Data) : Except Err Spliced :=
  match aziAttr acc.header.aziRef s.azi with
  | .error e => .error e
  | .ok azi =>
    match appendCov acc.covNev s.covNev, appendCov acc.covHla s.covHla with
    | .ok cn, .ok ch =>
      .ok ⟨acc.header, acc.md ++ s.md.tail, acc.inc ++ s.inc.tail, acc.azi ++ azi.tail,
        some cn, some ch, acc.radius ++ s.radius.tail⟩
    | _, _ => .error .attributeError

/-- The loop of `splice_surveys`, `survey.py` 3182-3187. -/
def dataLoop (acc : Spliced) : List Data → Except Err Spliced
  | [] => .ok acc
  | s :: t => match dataAppend acc s with
    | .ok acc' => dataLoop acc' t
    | .error e => .error e

/-- `splice_surveys`, `survey.py` 3156-3189: the arguments of the final `Survey(...)` call.
That call (3132-3153) uses the default unit `"meters"`, which must equal the header's
(`survey.py` 697-699). -/
def spliceSurveys (surveys : List Data) : Except Err Spliced :=
  match surveys with
  | [] => .error .indexError
  | s :: t => match dataInit s with
    | .error e => .error e
    | .ok acc => match dataLoop acc t with
      | .error e => .error e
      | .ok acc' => if acc'.header.depthUnit = .meters then .ok acc' else .error .assertionError

/-- The `Survey` that `SurveyData.get_survey` constructs from its state, as `SurveyData` reads it again,
`survey.py` 3132-3153 and 3087-3097: angles in radians in the header's reference, covariances and radii
as given. -/
noncomputable def surveyOf (x : Spliced) : Data :=
  ⟨x.header, x.md, x.inc, List.zipWith (constructedAzis x.header false) x.inc x.azi, x.covNev, x.covHla,
    x.radius⟩

/-! ### Slicing -/

/-- The azimuths of one station of `slice_survey(survey, start, stop)`: the grid azimuth in
radians from `survey_rad` is given to a new `Survey` with the same header,
`survey.py` 2089-2111. -/
noncomputable def sliceAzis (h : Header) (incRad : ℝ) (surveyRadAzi : ℝ) : Azis :=
  constructedAzis h false incRad surveyRadAzi

/-! ### Maximum curvature -/

/-- The measured depth of the station inserted between two stations by
`maximum_curvature`, `survey.py` 1465-1489 (`dls` is that of the lower station,
`arc.delta_md = dogleg * radius`, `utils.py` 566).  `none` stands for NaN
(`0 * inf` when the effective dls is zero). -/
noncomputable def midMd (dlsNoise : ℝ) (md1 md2 dls2 : ℝ) : Option ℝ :=
  let deltaMd := md2 - md1
  match radiusFromDlsArr (dls2 + dlsNoise) with
  | .inf => none
  | .val r =>
    let dogleg1 := deltaMd / r / 2
    let r' := if π < dogleg1 then deltaMd * 4 / (2 * π) else r
    some (dogleg1 * r' + md1)

/-- The measured depths of the survey returned by `maximum_curvature`, `survey.py` 1487-1496:
original and inserted stations alternate, the last one is original.  A row is `(md, dls)`. -/
noncomputable def maxCurvMds (dlsNoise : ℝ) : List (ℝ × ℝ) → List (Option ℝ)
  | (md1, _) :: (md2, dls2) :: t =>
    some md1 :: midMd dlsNoise md1 md2 dls2 :: maxCurvMds dlsNoise ((md2, dls2) :: t)
  | [(md1, _)] => [some md1]
  | [] => []

end Welleng.Sv
