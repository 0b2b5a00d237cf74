import Verif.Model.Interpolate

/-!
Model of toolfaces, build and turn rates, arcs built from a toolface and projections ahead of
a survey: `/repo/welleng/survey.py` 976-1051, 1185-1221, 2127-2189 and 2920-2985,
`/repo/welleng/utils.py` 529-652, 655-700 and 887-1009.
-/

namespace Welleng.Tf

open Real

/-- Toolface at the upper station of an interval, `survey.py` 1003-1009. -/
noncomputable def t1 (a b : Station) : ℝ :=
  atan2 (sin b.inc * sin (b.azi - a.azi))
    (sin b.inc * cos a.inc * cos (b.azi - a.azi) - sin a.inc * cos b.inc)

/-- Toolface at the lower station of an interval, `survey.py` 1015-1025. -/
noncomputable def t2 (a b : Station) : ℝ :=
  let t := atan2 (sin a.inc * sin (b.azi - a.azi))
    (sin b.inc * cos a.inc - sin a.inc * cos b.inc * cos (b.azi - a.azi))
  if t < 0 then t + 2 * π else t

/-- `self.toolface`: `t1` of every interval, then `t2` of the last one, `survey.py` 1030. -/
noncomputable def toolfaces (st : List Station) : List ℝ :=
  pairwise t1 st ++ (match (pairwise t2 st).getLast? with
    | some t => [t]
    | none => [])

/-- The length over which rates are stated, `survey.py` 980-983 and 996-999. -/
def rateLength (u : LenUnit) : ℝ := if u = .meters then 30 else 100

/-- A rate: a float, `inf` or NaN, `survey.py` 976-1051. -/
inductive Rate | val (r : ℝ) | inf | nan

/-- `curve_radius`, `survey.py` 1026, for a finite `dls`; `360 / 0` is `inf`. -/
noncomputable def curveRadius (u : LenUnit) (dls : ℝ) : Ext :=
  if dls = 0 then .inf else .val (360 / dls * rateLength u / (2 * π))

/-- `1 / curve_radius`, `survey.py` 1028, for a finite `dls` (then the radius is not zero). -/
noncomputable def curvatureDls (u : LenUnit) (dls : ℝ) : ℝ :=
  match curveRadius u dls with
  | .inf => 0
  | .val r => 1 / r

/-- `_curvature_to_rate` for a finite curvature, `survey.py` 976-986: for a zero curvature the
radius and circumference are `inf` and the rate is `0`. -/
noncomputable def curvatureToRate (u : LenUnit) (curvature : ℝ) : ℝ :=
  if curvature = 0 then 0
  else |degrees (2 * π / (2 * π * (1 / curvature))) * rateLength u|

/-- `build_rate` of one station, `survey.py` 1037-1038. -/
noncomputable def buildRate (u : LenUnit) (dls toolface : ℝ) : Rate :=
  .val (curvatureToRate u (curvatureDls u dls * cos toolface))

/-- `turn_rate` of one station, `survey.py` 1032-1035.  With `sin inc = 0` the quotient is
`±inf`, or NaN if `sin toolface = 0`, and `0 * inf` is NaN. -/
noncomputable def turnRate (u : LenUnit) (dls inc toolface : ℝ) : Rate :=
  if sin inc = 0 then
    if sin toolface = 0 ∨ curvatureDls u dls = 0 then .nan else .inf
  else .val (curvatureToRate u (curvatureDls u dls * (sin toolface / sin inc)))

/-- The `(build_rate, turn_rate)` rows: entry `k` uses `dls[k]`, `toolface[k]`, `inc_rad[k]`,
`survey.py` 1026-1038. An infinite `dls` (repeated depth with a change of direction) is not
modelled and gives NaN here. -/
noncomputable def rates (u : LenUnit) (st : List Station) (dls : List Dls) : List (Rate × Rate) :=
  List.zipWith (fun (d : Dls) (p : Station × ℝ) => match d with
    | .val d => (buildRate u d p.2, turnRate u d p.1.inc p.2)
    | .inf => (.nan, .nan)) dls (List.zip st (toolfaces st))

/-- Rotation about the third axis (`scipy` `from_euler('z', θ)`): `x` turns towards `y`,
`utils.py` 940-968. -/
noncomputable def rotz (θ : ℝ) (p : V3) : V3 :=
  ⟨cos θ * p.x - sin θ * p.y, sin θ * p.x + cos θ * p.y, p.z⟩

/-- Rotation about the second axis (`scipy` `from_euler('y', θ)`): `z` turns towards `x`,
`utils.py` 940-968. -/
noncomputable def roty (θ : ℝ) (p : V3) : V3 :=
  ⟨cos θ * p.x + sin θ * p.z, p.y, -sin θ * p.x + cos θ * p.z⟩

/-- `R.from_euler('zyz', [toolface, inc, azi])` (lower case: about fixed axes, in this order),
`utils.py` 596-601, `survey.py` 2962-2968. -/
noncomputable def eulerZyz (toolface inc azi : ℝ) (p : V3) : V3 :=
  rotz azi (roty inc (rotz toolface p))

/-- `_get_arc_pos_and_vec`, `utils.py` 529-542 (same code at `survey.py` 2948-2959). -/
noncomputable def arcPosVec (dogleg radius : ℝ) : V3 × V3 :=
  (⟨radius - cos dogleg * radius, 0 * radius, sin dogleg * radius⟩,
   ⟨sin dogleg, 0, cos dogleg⟩)

/-- What `get_arc` returns, and the caller's `vec` array afterwards, `utils.py` 571-652. -/
structure ArcOut where
  pos : V3
  vec : V3
  deltaMd : ℝ
  callerVec : V3

/-- `get_arc` with explicit `pos` and `vec`, `utils.py` 545-652.  `vec *= -1` for `target`
changes the caller's array.  (`get_unit_vec` at 604 is `normalize`.) -/
noncomputable def getArc (dogleg radius toolface : ℝ) (pos vec : V3) (target : Bool) : ArcOut :=
  let vec := if target then -vec else vec
  let a := getAngles vec true
  let pv := arcPosVec dogleg radius
  let posNew := eulerZyz toolface a.1 a.2 pv.1 + pos
  let vecNew := normalize (eulerZyz toolface a.1 a.2 pv.2)
  { pos := posNew
    vec := if target then -vecNew else vecNew
    deltaMd := dogleg * radius
    callerVec := vec }

/-- `make_clc_path`, `utils.py` 887-937: positions, directions and lengths of the pieces. -/
structure Clc where
  pos1 : V3
  vec1 : V3
  dist1 : ℝ
  pos2 : V3
  vec2 : V3
  pos3 : V3
  vec3 : V3
  dist2 : ℝ

/-- `make_clc_path`, `utils.py` 921-937. -/
noncomputable def makeClcPath (tf1 dl1 distance tf2 dl2 : ℝ) (pos0 vec0 : V3) (radius : ℝ) : Clc :=
  let a := getArc dl1 radius tf1 pos0 vec0 false
  let pos2 := a.pos + distance • a.vec
  let b := getArc dl2 radius tf2 pos2 a.vec false
  ⟨a.pos, a.vec, a.deltaMd, pos2, a.vec, b.pos, b.vec, b.deltaMd⟩

/-- Position, direction and depth of the `Node` returned by `project_ahead`,
`survey.py` 2920-2985. -/
structure Ahead where
  pos : V3
  vec : V3
  md : ℝ

/-- `project_ahead`, `survey.py` 2920-2985.  (`radius_from_dls` of a positive `dls` is finite.) -/
noncomputable def projectAhead (pos vec : V3) (deltaMd dls toolface md : ℝ) : Ahead :=
  if dls > 0 then
    let radius := 30 / dls * 360 / (2 * π)
    let dogleg := radians (deltaMd / 30 * dls)
    let pv := arcPosVec dogleg radius
    let a := getAngles vec true
    ⟨eulerZyz toolface a.1 a.2 pv.1 + pos, eulerZyz toolface a.1 a.2 pv.2, md + deltaMd⟩
  else ⟨pos + deltaMd • vec, vec, md + deltaMd⟩

/-- `Survey.project_to_bit` with the default `dls` and `toolface`, `survey.py` 1185-1221, for a
survey whose last two stations are `a` and `b` and whose last `dls` is finite; `pos` is the
position of `b`. -/
noncomputable def projectToBit (u : LenUnit) (a b : Station) (pos : V3) (deltaMd : ℝ) :
    Option Ahead :=
  match dlsOf (if u = .meters then 30 else 100) (dogleg2 a b) (b.md - a.md) with
  | .val d => some (projectAhead pos (getVec b.inc b.azi true) deltaMd d (t2 a b) b.md)
  | .inf => none

/-- `get_toolface` on one row, `utils.py` 940-968. -/
noncomputable def getToolface (pos1 vec1 pos2 : V3) : ℝ :=
  let a := getAngles vec1 true
  let p := roty (-a.1) (rotz (-a.2) (pos2 - pos1))
  pmod (atan2 p.y p.x) (2 * π)

/-- `get_toolface_fast`, `utils.py` 971-1009. -/
noncomputable def getToolfaceFast (pos1 vec1 pos2 : V3) : ℝ :=
  let azi := pmod (atan2 vec1.y vec1.x) (2 * π)
  let numerator := (pos2.y - pos1.y) * cos azi + (pos1.x - pos2.x) * sin azi
  let horiz := √(vec1.y ^ 2 + vec1.x ^ 2)
  let denominator := (vec1.z * (pos2.y - pos1.y) * sin azi + vec1.z * (pos2.x - pos1.x) * cos azi
    + (pos1.z - pos2.z) * horiz) / √(vec1.y ^ 2 + vec1.x ^ 2 + vec1.z ^ 2)
  pmod (atan2 numerator denominator) (2 * π)

/-- `self.normals` of one interval, `survey.py` 1042-1044. -/
noncomputable def intervalNormal (a b : Station) : V3 :=
  normalize (V3.cross (getVec a.inc a.azi true) (getVec b.inc b.azi true))

/-- One row of `cc1` or `cc2` in `get_circle_radius`, `survey.py` 2169-2182. -/
noncomputable def circleCentre (vec normal pos : V3) (radius : ℝ) : V3 :=
  pos - radius • normalize (V3.cross vec normal)

/-- The two centres `get_circle_radius` reports for the interval from `a` to `b`: `cc1` uses
`curve_radius` of station `a` and `cc2` that of station `b`, `survey.py` 2173-2182. -/
noncomputable def circleCentres (a b : Station) (posA posB : V3) (radiusA radiusB : ℝ) : V3 × V3 :=
  (circleCentre (getVec a.inc a.azi true) (intervalNormal a b) posA radiusA,
   circleCentre (getVec b.inc b.azi true) (intervalNormal a b) posB radiusB)

/-- `annular_volume`, `utils.py` 655-700. -/
noncomputable def annularVolume (od : ℝ) (id length : Option ℝ) : ℝ :=
  let length := length.getD 1
  let id := id.getD 0
  π * (od ^ 2 - id ^ 2) / 4 * length

end Welleng.Tf
