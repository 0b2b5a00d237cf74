import Verif.Model.Angles
import Verif.Model.Edm

/-!
Model of the survey header (`/repo/welleng/survey.py` 270-475, 2369-2402), of the checks a
survey makes on it and on the hole radius (690-700, 838-845) and of single survey nodes
(`/repo/welleng/node.py`).
-/

namespace Welleng.Hdr

open Real

/-- The three values a magnetic look-up returns (degrees for the two angles), or the
`mag_defaults` argument, `survey.py` 401-462. -/
structure Field where
  bTotal : ℝ
  inclination : ℝ
  declination : ℝ

/-- What the constructor reads from its surroundings: today's date, the test whether a string
is a `YYYY-MM-DD` date (`datetime.strptime`), and the geomagnetic calculator; `none` for
`MAG_CALC = False`, and a look-up that raises gives `none`.  The calculator takes latitude,
longitude, altitude and an optional date, `survey.py` 401-476. -/
structure Env where
  today : String
  isDate : String → Bool
  lookup : Option (ℝ → ℝ → ℝ → Option String → Option Field)

/-- Arguments of `SurveyHeader(...)`, `survey.py` 279-304, with their defaults. -/
structure Args where
  name : Option String := none
  longitude : Option ℝ := none
  latitude : Option ℝ := none
  altitude : Option ℝ := none
  surveyDate : Option String := none
  g : ℝ := 9.80665
  bTotal : Option ℝ := none
  earthRate : ℝ := 0.26251614
  dip : Option ℝ := none
  declination : Option ℝ := none
  convergence : ℝ := 0
  aziReference : String := "true"
  verticalIncLimit : ℝ := 0.0001
  deg : Bool := true
  depthUnit : String := "meters"
  surfaceUnit : String := "meters"
  magDefaults : Field := ⟨50000, 70, 0⟩
  verticalSectionAzimuth : ℝ := 0
  gridScaleFactor : ℝ := 1

/-- The attributes of a `SurveyHeader`, `survey.py` 379-399. -/
@[ext] structure Header where
  name : Option String
  latitude : ℝ
  longitude : ℝ
  altitude : ℝ
  surveyDate : String
  bTotal : ℝ
  earthRate : ℝ
  dip : ℝ
  convergence : ℝ
  declination : ℝ
  verticalIncLimit : ℝ
  gridScaleFactor : ℝ
  depthUnit : Option String
  surfaceUnit : Option String
  g : ℝ
  aziReference : String
  verticalSectionAzimuth : ℝ
  magDefaults : Field

/-- Exceptions of this part, `survey.py` 278-476. -/
inductive Exc | assertionError | valueError
  deriving DecidableEq

/-- `get_unit`, `survey.py` 2369-2387. -/
def getUnit (u : String) : Option String :=
  if u ∈ ["m", "meters"] then some "meters"
  else if u ∈ ["ft", "feet"] then some "feet"
  else none

/-- The look-up part of `_get_mag_data`, `survey.py` 405-438: the field values and the survey
date afterwards.  A look-up that fails at the survey date is repeated with
`date=self._get_date(date=None)`; that call returns `None` and, as a side effect, sets
`survey_date` to today (464-467), before the second look-up is made. -/
def magLookup (env : Env) (dflt : Field) (lat lon alt : ℝ) (date : String) : Field × String :=
  match env.lookup with
  | none => (dflt, date)
  | some f =>
    match f lat lon alt (some date) with
    | some r => (r, date)
    | none =>
      match f lat lon alt none with
      | some r => (r, env.today)
      | none => (dflt, env.today)

/-- `math.radians` when `deg` is set, `survey.py` 453-462. -/
noncomputable def toRad (deg : Bool) (a : ℝ) : ℝ := if deg then radians a else a

/-- A value that was not given is taken from the look-up, which is in degrees, and first
converted if the header is in radians, `survey.py` 444-451. -/
noncomputable def orLookup (deg : Bool) (given : Option ℝ) (found : ℝ) : ℝ :=
  match given with
  | some d => d
  | none => if deg then found else radians found

/-- `lo ≤ x ≤ hi` if `x` is given, `survey.py` 372-375. -/
def inBounds (x : Option ℝ) (lo hi : ℝ) : Prop := ∀ v ∈ x, lo ≤ v ∧ v ≤ hi

/-- The attributes set by `SurveyHeader.__init__` once its checks are passed, `survey.py`
379-399 and `_get_mag_data` 401-462. -/
noncomputable def build (env : Env) (a : Args) : Header :=
  let lat := a.latitude.getD 51.4934
  let lon := a.longitude.getD 0.0098
  let alt := a.altitude.getD 0
  let r := magLookup env a.magDefaults lat lon alt (a.surveyDate.getD env.today)
  { name := a.name
    latitude := lat
    longitude := lon
    altitude := alt
    surveyDate := r.2
    bTotal := a.bTotal.getD r.1.bTotal
    earthRate := a.earthRate
    dip := toRad a.deg (orLookup a.deg a.dip (-r.1.inclination))
    convergence := toRad a.deg a.convergence
    declination := toRad a.deg (orLookup a.deg a.declination r.1.declination)
    verticalIncLimit := toRad a.deg a.verticalIncLimit
    gridScaleFactor := a.gridScaleFactor
    depthUnit := getUnit a.depthUnit
    surfaceUnit := getUnit a.surfaceUnit
    g := a.g
    aziReference := a.aziReference
    verticalSectionAzimuth := toRad a.deg a.verticalSectionAzimuth
    magDefaults := a.magDefaults }

open Classical in
/-- `SurveyHeader.__init__`, `survey.py` 372-475. -/
noncomputable def header (env : Env) (a : Args) : Except Exc Header :=
  if ¬ inBounds a.latitude (-90) 90 then .error .assertionError
  else if ¬ inBounds a.longitude (-180) 180 then .error .assertionError
  else if a.aziReference ∉ ["true", "magnetic", "grid"] then .error .assertionError
  else if a.surveyDate.any (fun d => !env.isDate d) then .error .valueError
  else .ok (build env a)

/-- An attribute value, `survey.py` 278-400. -/
inductive Val
  | num (r : ℝ)
  | str (s : String)
  | field (f : Field)
  | none

/-- An attribute that is a string or `None`, `survey.py` 278-400. -/
def Val.ofStr? : Option String → Val
  | some s => .str s
  | Option.none => .none

/-- `vars(header)`, in the order of the assignments in `survey.py` 379-399. -/
def Header.vars (h : Header) : List (String × Val) :=
  [("name", .ofStr? h.name), ("latitude", .num h.latitude), ("longitude", .num h.longitude),
   ("altitude", .num h.altitude), ("survey_date", .str h.surveyDate), ("b_total", .num h.bTotal),
   ("earth_rate", .num h.earthRate), ("dip", .num h.dip), ("convergence", .num h.convergence),
   ("declination", .num h.declination), ("vertical_inc_limit", .num h.verticalIncLimit),
   ("grid_scale_factor", .num h.gridScaleFactor), ("depth_unit", .ofStr? h.depthUnit),
   ("surface_unit", .ofStr? h.surfaceUnit), ("G", .num h.g), ("azi_reference", .str h.aziReference),
   ("vertical_section_azimuth", .num h.verticalSectionAzimuth),
   ("mag_defaults", .field h.magDefaults)]

/-- `make_survey_header`, `survey.py` 2390-2402: the attributes of the header, as a
dictionary.  Each item of `data` is assigned to the attribute of that name of a header made
with no arguments; a name that is no attribute becomes a new one. -/
noncomputable def makeSurveyHeader (env : Env) (data : List (String × Val)) :
    Except Exc (List (String × Val)) :=
  match header env {} with
  | .error e => .error e
  | .ok h => .ok (data.foldl (fun d kv => Edm.dictSet d kv.1 kv.2) h.vars)

/-- The header checks of `Survey.__init__`, `survey.py` 690-700: a header is made with no
arguments if none is given, and the unit of the survey has to be the header's. -/
noncomputable def surveyHeader (env : Env) (hdr : Option Header) (unit : String) :
    Except Exc Header :=
  match (match hdr with
    | some h => Except.ok h
    | none => header env {}) with
  | .error e => .error e
  | .ok h => if h.depthUnit = some unit then .ok h else .error .assertionError

/-- The `radius` argument of a survey: not given, a number, or a list of numbers,
`survey.py` 838-845. -/
inductive Radius
  | none
  | one (r : ℝ)
  | list (rs : List ℝ)

/-- `Survey._get_radius` for a survey of `n` stations, `survey.py` 838-845.  A list of a
single number is spread over the stations, as a number is (`np.full_like` broadcasts it). -/
noncomputable def getRadius (n : ℕ) : Radius → Except Exc (List ℝ)
  | .none => .ok (List.replicate n 0.3048)
  | .one r => .ok (List.replicate n r)
  | .list [r] => .ok (List.replicate n r)
  | .list rs => if rs.length = n then .ok rs else .error .assertionError

/-- The direction attributes of a `Node`, `node.py` 93-120. -/
structure Dir where
  vecNev : V3
  vecXyz : V3
  incRad : ℝ
  aziRad : ℝ
  incDeg : ℝ
  aziDeg : ℝ

/-- The attributes of a `Node`, `node.py` 84-91 (the covariance and additional keyword
arguments, which are stored as given, are left out).  Without a direction `vec_*`, `inc_*` and
`azi_rad` are `None` and `azi_deg` is never set. -/
structure Node where
  dir : Option Dir
  pos : Option (V3 × V3)
  md : Option ℝ
  unit : String

/-- `utils.get_unit_vec`, `utils.py` 388-391. -/
noncomputable def getUnitVec (v : V3) : V3 := (1 / V3.norm v) • v

/-- The common tail of `check_angle_inputs`, `node.py` 115-120. -/
noncomputable def dirOf (nev xyz : V3) : Dir :=
  let a := getAngles xyz false
  ⟨nev, xyz, a.1, a.2, degrees a.1, degrees a.2⟩

/-- `Node.check_angle_inputs`, `node.py` 93-120. -/
noncomputable def checkAngleInputs (inc azi : Option ℝ) (vec : Option V3) (nev degs : Bool) :
    Except Exc (Option Dir) :=
  match vec, inc, azi with
  | none, none, none => .ok none
  | none, some i, some a =>
    let xyz := getVec (if degs then radians i else i) (if degs then radians a else a) false
    .ok (some (dirOf (getNev xyz 0 0) xyz))
  | none, _, _ => .error .assertionError
  | some v, _, _ =>
    if nev then
      let n := getUnitVec v
      .ok (some (dirOf n (getXyz n 0 0)))
    else
      let x := getUnitVec v
      .ok (some (dirOf (getNev x 0 0) x))

/-- `Node.get_pos`, `node.py` 122-132: `(pos_nev, pos_xyz)`. -/
def getPos (pos : Option V3) (nev : Bool) : Option (V3 × V3) :=
  pos.map fun p => if nev then (p, getXyz p 0 0) else (getNev p 0 0, p)

/-- `Node.__init__`, `node.py` 43-91. -/
noncomputable def node (pos vec : Option V3) (md inc azi : Option ℝ) (unit : String := "meters")
    (degs nev : Bool := true) : Except Exc Node :=
  match checkAngleInputs inc azi vec nev degs with
  | .error e => .error e
  | .ok d => .ok ⟨d, getPos pos nev, md, unit⟩

/-- Reading one of the direction attributes of a node.  `node.py` 95-100 assigns `azi_rad`
twice and `azi_deg` not at all, so reading `azi_deg` of a node without direction raises an
`AttributeError`, modelled by the outer `none`. -/
inductive DirAttr | vecNev | vecXyz | incRad | incDeg | aziRad | aziDeg
  deriving DecidableEq

/-- Whether the attribute exists on the node, and if so whether it is not `None`,
`node.py` 93-120. -/
def Node.attr (n : Node) (a : DirAttr) : Option Bool :=
  match n.dir with
  | some _ => some true
  | none => if a = .aziDeg then none else some false

end Welleng.Hdr
