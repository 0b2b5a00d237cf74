import Verif.Model.MinCurve
import Verif.Model.Angles

/-!
Model of the curve-hold geometry, the method table, the depth bookkeeping and the
interpolation of `/repo/welleng/connector.py`.

The curve-hold-curve construction is in `ConnectorLoop` (search, 698-740, 756-854, 1320-1524) and
`ConnectorSolve` (finish and rescues, 868-1265); here only the depths its last step
`_happy_finish` writes (`happyFinishMd`).
-/

namespace Welleng.Con

open Real

/-- `(dist_to_target, dist_perp_to_target, dist_norm_to_target)`: straight distance,
distance along the start tangent, distance off it (`connector.py` 1313-1317). -/
structure Dist where
  d : ℝ
  p : ℝ
  n : ℝ

/-- `np.isclose(a, b)` with the default tolerances, `connector.py` 522. -/
def isClose (a b : ℝ) : Prop := |a - b| ≤ 1e-8 + 1e-5 * |b|

/-- `np.allclose(a, b)` on two rows, `connector.py` 522, 1290. -/
def allClose (a b : V3) : Prop := isClose a.x b.x ∧ isClose a.y b.y ∧ isClose a.z b.z

/-- The distances of `solve_curve_hold_batch` for one row, `connector.py` 1763-1772. -/
noncomputable def distBatch (pos1 vec1 posT : V3) : Dist :=
  let delta := posT - pos1
  let d := V3.norm delta
  let p := min (V3.dot delta vec1) d
  ⟨d, p, √(max (d ^ 2 - p ^ 2) 0)⟩

open Classical in
/-- `Connector._mod_pos` as called by `_get_distances`, `connector.py` 1276-1291: a target
exactly ahead is moved by `noise` (`np.random.random(3)`).  A zero `vec_temp` (NaN in the
code) is never equal to `vec1`. -/
noncomputable def modTarget (noise pos1 vec1 posT : V3) : V3 :=
  if posT ≠ pos1 ∧ vec1 = normalize (posT - pos1) then posT + noise else posT

open Classical in
/-- `Connector._get_distances`, `connector.py` 1292-1317, after the target has been moved. -/
noncomputable def getDistances (pos1 vec1 posT : V3) : Dist :=
  if allClose pos1 posT then ⟨0, 0, 0⟩
  else
    let d := V3.norm (posT - pos1)
    let p0 := V3.dot (posT - pos1) vec1
    let p := if p0 > d then d else p0
    ⟨d, p, √(d ^ 2 - p ^ 2)⟩

/-- `min_dist_to_target`, `connector.py` 1800-1837: `(tangent_length, dogleg)`.  `none` is the
NaN of a negative square root. -/
noncomputable def minDistToTarget (radius : ℝ) (x : Dist) : Option (ℝ × ℝ) :=
  let q := x.d ^ 2 - 2 * radius * x.n
  if q < 0 then none
  else some (√q, 2 * atan2 (x.p - √q) (2 * radius - x.n))

/-- `min_curve_to_target`, `connector.py` 1840-1900: `(tangent_length, radius_critical,
dogleg)`.  `none` is the failed assertion. -/
noncomputable def minCurveToTarget (x : Dist) : Option (ℝ × Ext × ℝ) :=
  if x.d = 0 ∧ x.p = 0 ∧ x.n = 0 then some (0, .inf, 0)
  else if x.n = 0 then some (0, .inf, 2 * atan2 x.n x.p)
  else
    let rc := x.d ^ 2 / (2 * x.n)
    if 0 < rc then some (0, .val rc, 2 * atan2 x.n x.p) else none

/-- `get_radius_critical`, `connector.py` 1903-1945.  `none` is the failed assertion. -/
noncomputable def getRadiusCritical (x : Dist) (minError : ℝ) : Option ℝ :=
  if x.n = 0 then some 0
  else
    let rc := x.d ^ 2 / (2 * x.n) * (1 - minError)
    if 0 < rc then some rc else none

/-- `check_dogleg`, `connector.py` 1527-1547. -/
noncomputable def checkDogleg (d : ℝ) : ℝ := if d < 0 then d + 2 * π else d

/-- `get_curve_hold_data`, `connector.py` 1664-1686: `(dist_curve, func_dogleg)`. -/
noncomputable def getCurveHoldData (radius dogleg : ℝ) : ℝ × ℝ := (radius * dogleg, getRf dogleg)

/-- `get_pos`, `connector.py` 1573-1594. -/
noncomputable def getPos (pos1 vec1 vec2 : V3) (distCurve funcDogleg : ℝ) : V3 :=
  pos1 + (distCurve * funcDogleg / 2) • (vec1 + vec2)

/-- `get_vec_target`, `connector.py` 1597-1661. -/
noncomputable def getVecTarget (pos1 vec1 posT : V3) (tangent distCurve funcDogleg : ℝ) : V3 :=
  let half := distCurve * funcDogleg / 2
  let denom := half + tangent
  if distCurve = 0 then vec1
  else normalize ((1 / denom) • (posT - pos1 - half • vec1))

/-- What the curve-hold solvers return (`connector.py` 1790-1797, 429-456). -/
structure CurveHold where
  pos2 : V3
  vecTarget : V3
  tangent : ℝ
  dogleg : ℝ
  distCurve : ℝ
  md : ℝ

/-- The common part of `solve_curve_hold_batch` (1775-1797) and
`Connector._min_dist_to_target` (429-456): `md` is counted from the start. -/
noncomputable def curveHold (radius : ℝ) (x : Dist) (pos1 vec1 posT : V3) : Option CurveHold :=
  match minDistToTarget radius x with
  | none => none
  | some (t, dl) =>
    let dogleg := checkDogleg dl
    let (distCurve, f) := getCurveHoldData radius dogleg
    let v := getVecTarget pos1 vec1 posT t distCurve f
    some ⟨posT - t • v, v, t, dogleg, distCurve, |distCurve| + t⟩

/-- `solve_curve_hold_batch` for one row, `connector.py` 1705-1797. -/
noncomputable def solveCurveHold (pos1 vec1 posT : V3) (radius : ℝ) : Option CurveHold :=
  curveHold radius (distBatch pos1 vec1 posT) pos1 vec1 posT

/-- `min(radius_design, radius_critical)`, `connector.py` 601-671. -/
noncomputable def Ext.min : Ext → Ext → Ext
  | .inf, b => b
  | a, .inf => a
  | .val a, .val b => .val (Min.min a b)

/-- `Connector._min_curve_to_target`, `connector.py` 458-478.  `none`: failed assertion, or an
infinite radius (`inf * 0` or an infinite length). -/
noncomputable def curveOnly (radius : Ext) (x : Dist) (pos1 vec1 posT : V3) : Option CurveHold :=
  match minCurveToTarget x with
  | none => none
  | some (t, rc, dl) =>
    match Ext.min radius rc with
    | .inf => none
    | .val r =>
      let dogleg := checkDogleg dl
      let (distCurve, f) := getCurveHoldData r dogleg
      let v := getVecTarget pos1 vec1 posT t distCurve f
      some ⟨posT, v, t, dogleg, distCurve, distCurve + t⟩

/-- The method finally used by the `else` branch of `_use_method`, `connector.py` 480-508. -/
inductive Used | minDist | minCurve
  deriving DecidableEq

open Classical in
/-- The `else` branch of `Connector._use_method` (target position without a direction),
`connector.py` 492-508, with `closest_approach=False`.  Returns the possibly moved target,
the method used and its result. -/
noncomputable def connectPos (radius : Ext) (minError : ℝ) (noise pos1 vec1 posT : V3) :
    Option (V3 × Used × CurveHold) :=
  let posT := modTarget noise pos1 vec1 posT
  let x := getDistances pos1 vec1 posT
  match getRadiusCritical x minError with
  | none => none
  | some rc =>
    match radius with
    | .val r =>
      if r ≤ rc then (curveHold r x pos1 vec1 posT).map fun o => (posT, .minDist, o)
      else (curveOnly radius x pos1 vec1 posT).map fun o => (posT, .minCurve, o)
    | .inf => (curveOnly radius x pos1 vec1 posT).map fun o => (posT, .minCurve, o)

/-! ### The method table -/

/-- Which of the target arguments are given (not `None`), `connector.py` 211-276. -/
structure Given where
  md : Bool
  inc : Bool
  azi : Bool
  pos : Bool
  vec : Bool
  deriving DecidableEq

/-- Entries of `_get_initial_methods`, `connector.py` 535-571. -/
inductive Initial
  | noInput | minCurveOrHold | curveHoldOrHold | curveHoldCurveOrHold | vecAndIncAzi
  | curveHold | hold | mdAndPos
  deriving DecidableEq

/-- `self.initial_methods[target_input]`, `connector.py` 538-571, the key being the five bits
`md2 inc2 azi2 pos2 vec2` of `convert_target_input_to_booleans` (2336-2354). -/
def initialMethod : Given → Initial
  | ⟨false, false, false, false, false⟩ => .noInput
  | ⟨false, false, false, false, true⟩ => .minCurveOrHold
  | ⟨false, false, false, true, false⟩ => .curveHoldOrHold
  | ⟨false, false, false, true, true⟩ => .curveHoldCurveOrHold
  | ⟨false, false, true, false, false⟩ => .minCurveOrHold
  | ⟨false, false, true, false, true⟩ => .vecAndIncAzi
  | ⟨false, false, true, true, false⟩ => .curveHold
  | ⟨false, false, true, true, true⟩ => .vecAndIncAzi
  | ⟨false, true, false, false, false⟩ => .minCurveOrHold
  | ⟨false, true, false, false, true⟩ => .vecAndIncAzi
  | ⟨false, true, false, true, false⟩ => .curveHoldOrHold
  | ⟨false, true, false, true, true⟩ => .vecAndIncAzi
  | ⟨false, true, true, false, false⟩ => .minCurveOrHold
  | ⟨false, true, true, false, true⟩ => .vecAndIncAzi
  | ⟨false, true, true, true, false⟩ => .curveHoldCurveOrHold
  | ⟨false, true, true, true, true⟩ => .vecAndIncAzi
  | ⟨true, false, false, false, false⟩ => .hold
  | ⟨true, false, false, false, true⟩ => .minCurveOrHold
  | ⟨true, false, false, true, false⟩ => .mdAndPos
  | ⟨true, false, false, true, true⟩ => .mdAndPos
  | ⟨true, false, true, false, false⟩ => .minCurveOrHold
  | ⟨true, false, true, false, true⟩ => .vecAndIncAzi
  | ⟨true, false, true, true, false⟩ => .mdAndPos
  | ⟨true, false, true, true, true⟩ => .mdAndPos
  | ⟨true, true, false, false, false⟩ => .minCurveOrHold
  | ⟨true, true, false, false, true⟩ => .vecAndIncAzi
  | ⟨true, true, false, true, false⟩ => .mdAndPos
  | ⟨true, true, false, true, true⟩ => .mdAndPos
  | ⟨true, true, true, false, false⟩ => .minCurveOrHold
  | ⟨true, true, true, false, true⟩ => .vecAndIncAzi
  | ⟨true, true, true, true, false⟩ => .mdAndPos
  | ⟨true, true, true, true, true⟩ => .mdAndPos

/-- `Connector.method` before `_use_method`; `curveHold` covers the `else` branch,
`connector.py` 510-571. -/
inductive Method | hold | minCurve | curveHold | curveHoldCurve
  deriving DecidableEq

/-- What `_get_method` has to know about the geometry: `np.array_equal(vec_target, vec1)` and
`np.allclose(vec_target, unit vector to the target)`, `connector.py` 519-527. -/
structure Alignment where
  sameVec : Bool
  towards : Bool
  deriving DecidableEq

/-- The `_or_hold` rule of `_get_method`, `connector.py` 518-531. -/
def orHold (a : Alignment) (posGiven : Bool) (m : Method) : Method :=
  if a.sameVec then
    if !posGiven then .hold else if a.towards then .hold else m
  else m

/-- `_get_method`, `connector.py` 510-533; `none` is the failed assertion.  `posGiven` is
`pos_target is not None`. -/
def getMethod (a : Alignment) (posGiven : Bool) : Initial → Option Method
  | .noInput | .vecAndIncAzi | .mdAndPos => none
  | .hold => some .hold
  | .minCurveOrHold => some (orHold a posGiven .minCurve)
  | .curveHoldOrHold => some (orHold a posGiven .curveHold)
  | .curveHoldCurveOrHold => some (orHold a posGiven .curveHoldCurve)
  | .curveHold => some .curveHold

/-- The target checks of `Connector.__init__`, `connector.py` 232-246.  `incNz`/`aziNz`:
`bool(inc2)`/`bool(azi2)` for given values; `mdOk`: `md2 >= md1`. -/
def inputsOk (g : Given) (incNz aziNz mdOk : Bool) : Bool :=
  (g.md || g.pos || g.vec || g.inc || g.azi) &&
  (!g.vec || !((g.inc && incNz) || (g.azi && aziNz))) &&
  (!(g.inc || g.azi) || !g.vec) &&
  (!g.md || (!g.pos && mdOk))

/-- The path through `__init__` that chooses the method, `connector.py` 232-264, 411. -/
def chooseMethod (g : Given) (incNz aziNz mdOk forceMinCurve : Bool) (a : Alignment) :
    Option Method :=
  if inputsOk g incNz aziNz mdOk then
    getMethod a g.pos (if forceMinCurve then .minCurveOrHold else initialMethod g)
  else none

/-! ### Depth bookkeeping -/

/-- The depths a connector reports; `md2`, `md3` are `None` for some methods. -/
structure Depths where
  md1 : ℝ
  md2 : Option ℝ
  md3 : Option ℝ
  mdTarget : ℝ

/-- `_hold`, `connector.py` 673-683: the target depth is given, or it is the distance. -/
noncomputable def holdMd (md1 : ℝ) (mdGiven : Option ℝ) (dist : ℝ) : Depths :=
  ⟨md1, none, none, mdGiven.getD (dist + md1)⟩

/-- `_min_dist_to_target`, `connector.py` 453-454. -/
noncomputable def minDistMd (md1 distCurve tangent : ℝ) : Depths :=
  let md2 := md1 + |distCurve|
  ⟨md1, some md2, none, md2 + tangent⟩

/-- `_min_curve_to_target` / `_get_md_target`, `connector.py` 477, 690-696 (with
`dist_curve2 = 0`, 275). -/
noncomputable def minCurveToTargetMd (md1 distCurve tangent : ℝ) : Depths :=
  ⟨md1, none, none, distCurve + tangent + 0 + md1⟩

/-- Largest finite double, which `np.nan_to_num` puts in place of `inf`, `connector.py` 628. -/
noncomputable def hugeR : ℝ := (2 - 2 ^ (-52 : ℤ)) * 2 ^ (1023 : ℕ)

/-- `np.nan_to_num(abs((md_target - md1) / dogleg), nan=np.inf)`, `connector.py` 628-631. -/
noncomputable def radiusOfMd (md1 mdT dogleg : ℝ) : Ext :=
  if dogleg = 0 then (if mdT - md1 = 0 then .inf else .val hugeR)
  else .val |(mdT - md1) / dogleg|

/-- `a > b` on radii, `connector.py` 601-671. -/
def Ext.gt : Ext → Ext → Prop
  | .inf, .inf => False
  | .inf, .val _ => True
  | .val _, .inf => False
  | .val a, .val b => a > b

open Classical in
/-- `_min_curve`, `connector.py` 601-671: depths and, for a given depth, the radius of the
curve.  `nearPi`: the dogleg rounds to `π` at five decimals.  `none`: the `ValueError` for an
infinite design radius, or a NaN (`inf * 0`). -/
noncomputable def minCurveMd (md1 : ℝ) (mdGiven : Option ℝ) (radius : Ext) (dogleg : ℝ)
    (nearPi : Prop) : Option (Depths × ℝ) :=
  match mdGiven with
  | none =>
    match radius with
    | .inf => none
    | .val r => some (⟨md1, none, none, md1 + |r * dogleg|⟩, r * dogleg)
  | some mdT =>
    let rc := radiusOfMd md1 mdT dogleg
    if Ext.gt rc radius ∨ nearPi then
      match Ext.min radius rc with
      | .inf => none
      | .val r => some (⟨md1, some (md1 + r * dogleg), none, mdT⟩, r * dogleg)
    else
      match rc with
      | .inf => none
      | .val r => some (⟨md1, none, none, mdT⟩, r * dogleg)

/-- The depths written by `_happy_finish` (923, 1001-1002) and by `_project_tangent`
(1094-1098): `tangent` is `max 0 t`. -/
noncomputable def happyFinishMd (md1 distCurve t distCurve2 : ℝ) : Depths :=
  let md2 := md1 + |distCurve|
  let md3 := md2 + max 0 t
  ⟨md1, some md2, some md3, md3 + |distCurve2|⟩

/-! ### Interpolation -/

/-- `np.arange(start, stop, step)` for a positive step, exact arithmetic,
`connector.py` 2043, 2116. -/
noncomputable def arange (start stop step : ℝ) : List ℝ :=
  (List.range ⌈(stop - start) / step⌉.toNat).map fun k : ℕ => start + (k : ℝ) * step

/-- The depths (relative to the section start) of `interpolate_curve` and
`interpolate_hold`, `connector.py` 2037-2045 and 2113-2121. -/
noncomputable def gridRel (md1 endMd : ℝ) (step : Option ℝ) (endpoint : Bool) : List ℝ :=
  let md := match step with
    | none => [0]
    | some st => 0 :: arange (st - pmod md1 st) endMd st
  if endpoint then md ++ [endMd] else md

/-- The `md` entry of `interpolate_hold`, `connector.py` 2087-2132. -/
noncomputable def holdMds (md1 md2 : ℝ) (step : Option ℝ) (endpoint : Bool) : List ℝ :=
  (gridRel md1 (md2 - md1) step endpoint).map (· + md1)

/-- The `md` entry of `interpolate_curve`, `connector.py` 2024-2045, 2075. -/
noncomputable def curveMds (md1 distCurve : ℝ) (step : Option ℝ) (endpoint : Bool) : List ℝ :=
  if distCurve = 0 then [md1]
  else (gridRel md1 |distCurve| step endpoint).map (· + md1)

/-- Unit vector in the plane of the arc, perpendicular to `vec1`, `connector.py` 2058-2066. -/
noncomputable def inPlane (vec1 vec2 : V3) : V3 :=
  let c := V3.cross vec1 vec2
  V3.cross ((1 / V3.norm c) • c) vec1

/-- A row of the `vec` entry of `interpolate_curve` at the distance `md` from the start,
`connector.py` 2046, 2058-2071. -/
noncomputable def curveVec (vec1 vec2 : V3) (distCurve dogleg md : ℝ) : V3 :=
  let di := dogleg / distCurve * md
  normalize (if V3.norm (V3.cross vec1 vec2) < 1e-10 then vec1
    else cos di • vec1 + sin di • inPlane vec1 vec2)

/-- The depths of `get_interpolate_min_dist_to_target`, `connector.py` 2204-2249: the curve
without its end, then the hold with it. -/
noncomputable def curveHoldMds (md1 distCurve md2 mdT : ℝ) (step : Option ℝ) : List ℝ :=
  curveMds md1 distCurve step false ++ holdMds md2 mdT step true

/-- The depths of `get_interpololate_curve_hold_curve`, `connector.py` 2252-2311. -/
noncomputable def curveHoldCurveMds (md1 distCurve md2 md3 distCurve2 : ℝ)
    (step : Option ℝ) : List ℝ :=
  curveMds md1 distCurve step false ++ holdMds md2 md3 step false ++
    curveMds md3 distCurve2 step true

end Welleng.Con
