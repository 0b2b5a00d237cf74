import Verif.Model.Connector

/-!
Model of the curve-hold-curve construction of `/repo/welleng/connector.py` after the
fixed-point iteration: one step of the iteration (1408-1468), `_happy_finish` (868-1004), the
rescues (1006-1253), the radius used by a retry, the geometry of `_min_curve` (601-671) and
`_hold` (673-683), `_closest_approach` (573-599) and the reported severities.

What the loop of `minimize_target_pos_and_vec_defined` (initial guess, stopping rule, number of
steps) leaves behind is an arbitrary state here; the loop itself is in `ConnectorLoop`.
-/

namespace Welleng.Con

open Real

/-- The inputs of the construction that the solver does not change.  The random shift of a
target straight ahead (`_mod_pos`) is left out here (see `modTarget`), `connector.py` 276-427. -/
structure Plan where
  pos1 : V3
  vec1 : V3
  md1 : ℝ
  posT : V3
  vecT : V3
  rDesign : Ext
  rDesign2 : Ext
  minError : ℝ

/-- The attributes saved and restored by the rescues (`_save_keys`, `connector.py` 1136-1140;
`vec2` is always `vec3` and is left out). -/
structure Geo where
  pos2 : V3
  pos3 : V3
  vec3 : V3
  distCurve : ℝ
  distCurve2 : ℝ
  funcDogleg : ℝ
  funcDogleg2 : ℝ
  dogleg : ℝ
  dogleg2 : ℝ
  md2 : ℝ
  md3 : ℝ
  mdT : ℝ

/-- What `_happy_finish` reads of the solver's state: `pos3`, `dogleg`, `tangent_length`,
`distances1`, `distances2`, `radius_critical`, `radius_critical2`. -/
structure Solved where
  pos3 : V3
  dogleg : ℝ
  tangent : ℝ
  dist1 : Option Dist
  dist2 : Option Dist
  rc : Ext
  rc2 : Ext

/-- Ways the construction breaks down: a failed assertion is raised, a NaN is carried on,
`connector.py` 868-1004. -/
inductive Fail | assertion | nan
  deriving DecidableEq

/-- An infinite radius makes the length of the curve infinite or NaN, `connector.py` 868-1004. -/
def finiteRadius : Ext → Except Fail ℝ
  | .val r => .ok r
  | .inf => .error .nan

/-- The radius of a curve, `connector.py` 874-880 and 925-931: the critical radius of the final
geometry, if there is one, bounded by the design radius. -/
noncomputable def finalRadius (dist : Option Dist) (rc design : Ext) (e : ℝ) : Except Fail ℝ :=
  match dist with
  | some x =>
    match getRadiusCritical x e with
    | none => .error .assertion
    | some r => finiteRadius (Ext.min (.val r) design)
  | none => finiteRadius (Ext.min rc design)

/-- `arccos(clip(dot(a, b), -1, 1))`, `connector.py` 904-906, 939-941; `Real.arccos` clips. -/
noncomputable def angle (a b : V3) : ℝ := arccos (V3.dot a b)

/-- `get_vec_target` divides by zero (`connector.py` 1641-1649): its result is NaN. -/
def dirUndefined (pos1 vec1 posT : V3) (t dc f : ℝ) : Prop :=
  dc ≠ 0 ∧ (dc * f / 2 + t = 0 ∨ posT - pos1 - (dc * f / 2) • vec1 = 0)

open Classical in
/-- The first curve of `_happy_finish`, `connector.py` 874-923: `(dogleg, vec3, pos2)` for the
radius `r1`, with `get_curve_hold_data` written out; the stored dogleg is kept if it is within
`1e-9` of the angle turned through.  `none`: division by zero in `get_vec_target`. -/
noncomputable def firstCurve (p : Plan) (r1 : ℝ) (s : Solved) : Option (ℝ × V3 × V3) :=
  if dirUndefined p.pos1 p.vec1 s.pos3 s.tangent (r1 * s.dogleg) (getRf s.dogleg) then none
  else
    let v3 := getVecTarget p.pos1 p.vec1 s.pos3 s.tangent (r1 * s.dogleg) (getRf s.dogleg)
    let dl := if |angle p.vec1 v3 - s.dogleg| > 1e-9 then angle p.vec1 v3 else s.dogleg
    some (dl, v3, getPos p.pos1 p.vec1 v3 (r1 * dl) (getRf dl))

/-- Where the second curve is put, `connector.py` 966-999: `(tangent_length, dist_curve2)` for
the end `pos2` of the first curve and the length `dc2` of the second at its radius. -/
noncomputable def placeSecond (p : Plan) (pos2 v3 : V3) (dc2 f2 : ℝ) : ℝ × ℝ :=
  let pos3bt := getPos p.posT ((-1 : ℝ) • p.vecT) ((-1 : ℝ) • v3) dc2 f2
  let tAlong := V3.dot (pos3bt - pos2) v3
  let perp := V3.norm (pos3bt - pos2 - tAlong • v3)
  let delta := p.posT - pos2
  let pc := V3.dot delta v3
  let qc := V3.dot delta p.vecT
  let c := V3.dot v3 p.vecT
  let s2 := 1 - c * c
  let a := (pc - c * qc) / s2
  let b := (qc - c * pc) / s2
  if perp > 1e-3 ∧ (s2 > 1e-6 ∧ |f2| > 1e-10) ∧ b ≥ 0 then
    (max 0 (a - b), max 0 (2 * b / f2))
  else (max 0 tAlong, dc2)

/-- `_happy_finish`, `connector.py` 868-1004. -/
noncomputable def happyFinish (p : Plan) (s : Solved) : Except Fail Geo :=
  match finalRadius s.dist1 s.rc p.rDesign p.minError with
  | .error e => .error e
  | .ok r1 =>
    match firstCurve p r1 s with
    | none => .error .nan
    | some (dl, v3, pos2) =>
      match finalRadius s.dist2 s.rc2 p.rDesign2 p.minError with
      | .error e => .error e
      | .ok r2 =>
        let (dc, f) := getCurveHoldData r1 dl
        let dl2 := angle v3 p.vecT
        let (dc2, f2) := getCurveHoldData r2 dl2
        let (t, dc2) := placeSecond p pos2 v3 dc2 f2
        let md2 := p.md1 + |dc|
        .ok ⟨pos2, pos2 + t • v3, v3, dc, dc2, f, f2, dl, dl2, md2, md2 + t, md2 + t + |dc2|⟩

/-- `_rendered_endpoint_error`, `connector.py` 1100-1117: the end of the drawn path. -/
noncomputable def renderedEnd (p : Plan) (g : Geo) : V3 :=
  let t := max 0 (V3.dot (g.pos3 - g.pos2) g.vec3)
  g.pos2 + t • g.vec3 + (g.distCurve2 * g.funcDogleg2 / 2) • (g.vec3 + p.vecT)

/-- `_rendered_endpoint_error`, `connector.py` 1117. -/
noncomputable def endpointError (p : Plan) (g : Geo) : ℝ := V3.norm (p.posT - renderedEnd p g)

/-- A retry: what the solver leaves, finished by `_happy_finish` (or the failure of either),
`connector.py` 1006-1053, 1103-1147. -/
noncomputable def attempt (p : Plan) (t : Except Fail Solved) : Except Fail Geo :=
  match t with
  | .error e => .error e
  | .ok s => happyFinish p s

/-- `dist_curve / dogleg if dogleg > 1e-10 else radius_design`, `connector.py` 1029-1032. -/
noncomputable def usedRadius (p : Plan) (dc dl : ℝ) : Ext :=
  if dl > 1e-10 then .val (dc / dl) else p.rDesign

/-- The smaller of the two radii less the tolerance is not above the other, `connector.py` 1044-1048. -/
def Ext.geLess (a b : Ext) (e : ℝ) : Prop :=
  match a, b with
  | .inf, _ => True
  | .val _, .inf => False
  | .val a, .val b => a ≥ b - e

open Classical in
/-- `_delta_pos3_rescue`, `connector.py` 1006-1055.  `tries`: what the two re-seeded solves
leave. A NaN fails every comparison. -/
noncomputable def deltaRescue (p : Plan) (tries : List (Except Fail Solved)) (g : Geo) :
    Except Fail Geo :=
  if V3.dot (g.pos3 - g.pos2) g.vec3 ≥ -p.minError then .ok g
  else
    let before := Ext.min (usedRadius p g.distCurve g.dogleg) (usedRadius p g.distCurve2 g.dogleg2)
    let rec go : List (Except Fail Solved) → Except Fail Geo
      | [] => .ok g
      | t :: ts => match attempt p t with
        | .error .assertion => .error .assertion
        | .error .nan => go ts
        | .ok g' =>
          if V3.dot (g'.pos3 - g'.pos2) g'.vec3 ≥ -p.minError ∧
              Ext.geLess (Ext.min (usedRadius p g'.distCurve g'.dogleg)
                (usedRadius p g'.distCurve2 g'.dogleg2)) before p.minError then .ok g'
          else go ts
    go tries

/-- `_project_tangent`, `connector.py` 1057-1098. -/
noncomputable def projectTangent (g : Geo) : Geo :=
  let t := max 0 (V3.dot (g.pos3 - g.pos2) g.vec3)
  { g with md3 := g.md2 + t, mdT := g.md2 + t + |g.distCurve2| }

/-- The loop of `_endpoint_rescue`, `connector.py` 1145-1162: `best` is the state with the
smallest error so far. -/
noncomputable def rescueLoop (p : Plan) : List (Except Fail Solved) → Geo → Except Fail Geo
  | [], best => .ok best
  | t :: ts, best => match attempt p t with
    | .error .assertion => .error .assertion
    | .error .nan => if endpointError p best ≤ 1e-3 then .ok best else rescueLoop p ts best
    | .ok g =>
      let best := if endpointError p g < endpointError p best then g else best
      if endpointError p best ≤ 1e-3 then .ok best else rescueLoop p ts best

/-- `_endpoint_rescue`, `connector.py` 1119-1166.  `tries`: what the solver leaves for the
three tighter radii.  Only the saved attributes are modelled. -/
noncomputable def endpointRescue (p : Plan) (tries : List (Except Fail Solved)) (g : Geo) :
    Except Fail Geo :=
  if endpointError p g ≤ 1e-3 then .ok g else rescueLoop p tries g

/-- One turn of `_enforce_planarity` up to the new direction, `connector.py` 1202-1231.
`none`: one of the `break`s. -/
noncomputable def planarDirection (p : Plan) (r1 : ℝ) (g : Geo) : Option V3 :=
  let (dc, f) := getCurveHoldData r1 g.dogleg
  let delta := p.posT - getPos p.pos1 p.vec1 g.vec3 dc f
  let dn := V3.norm delta
  if dn < 1e-10 then none
  else
    let dHat := (1 / dn) • delta
    let vPerp := p.vecT - V3.dot p.vecT dHat • dHat
    let vn := V3.norm vPerp
    if vn < 1e-8 then none
    else
      let vHat := (1 / vn) • vPerp
      let proj := V3.dot g.vec3 dHat • dHat + V3.dot g.vec3 vHat • vHat
      let pn := V3.norm proj
      if pn < 1e-10 then none else some ((1 / pn) • proj)

/-- `np.allclose(a, b, atol=1e-9)`, `connector.py` 1231. -/
def allClose9 (a b : V3) : Prop :=
  |a.x - b.x| ≤ 1e-9 + 1e-5 * |b.x| ∧ |a.y - b.y| ≤ 1e-9 + 1e-5 * |b.y| ∧
  |a.z - b.z| ≤ 1e-9 + 1e-5 * |b.z|

/-- What `_enforce_planarity` gives to `_happy_finish`, `connector.py` 1234-1255; `dist2` is
whatever the last solve left. -/
noncomputable def planarSeed (p : Plan) (r1 : ℝ) (dist2 : Option Dist) (v : V3) : Solved :=
  let (dc, f) := getCurveHoldData r1 (angle p.vec1 v)
  ⟨getPos p.pos1 p.vec1 v dc f, angle p.vec1 v, 0, none, dist2, .val r1, .inf⟩

open Classical in
/-- The loop of `_enforce_planarity`, `connector.py` 1200-1265.  After a NaN every later error
is NaN and the best state is kept. -/
noncomputable def planarLoop (p : Plan) (r1 : ℝ) (dist2 : Option Dist) :
    ℕ → Geo → Geo → Except Fail Geo
  | 0, _, best => .ok best
  | k + 1, g, best =>
    match planarDirection p r1 g with
    | none => .ok best
    | some v =>
      if allClose9 v g.vec3 then .ok best
      else match happyFinish p (planarSeed p r1 dist2 v) with
        | .error .assertion => .error .assertion
        | .error .nan => .ok best
        | .ok g' =>
          let best := if endpointError p g' < endpointError p best then g' else best
          if endpointError p best ≤ 1e-3 then .ok best
          else planarLoop p r1 dist2 k g' best

/-- `_enforce_planarity`, `connector.py` 1168-1265.  `dist1`, `dist2`, `rc`: left by the last
solve. -/
noncomputable def enforcePlanarity (p : Plan) (dist1 dist2 : Option Dist) (rc : Ext) (g : Geo) :
    Except Fail Geo :=
  if endpointError p g ≤ 1e-3 then .ok g
  else
    match dist1, rc with
    | some x, _ =>
      match finalRadius (some x) rc p.rDesign p.minError with
      | .error .assertion => .error .assertion
      | .error .nan => .ok g
      | .ok r1 => planarLoop p r1 dist2 8 g g
    | none, .val r =>
      match Ext.min (if 0 < r then .val r else p.rDesign) p.rDesign with
      | .inf => .ok g
      | .val r1 => planarLoop p r1 dist2 8 g g
    | none, .inf =>
      match p.rDesign with
      | .inf => .ok g
      | .val r1 => planarLoop p r1 dist2 8 g g

/-- What happens outside the modelled part: the states left by the solver for each call, and
the working attributes the last call leaves for `_enforce_planarity`,
`connector.py` 742-866, 1149-1251. -/
structure Runs where
  main : Except Fail Solved
  delta : List (Except Fail Solved)
  retries : List (Except Fail Solved)
  dist1 : Option Dist
  dist2 : Option Dist
  rc : Ext

/-- The end of `_target_pos_and_vec_defined`, `connector.py` 855-866. -/
noncomputable def finish (p : Plan) (r : Runs) : Except Fail Geo := do
  let g ← attempt p r.main
  let g ← deltaRescue p r.delta g
  let g ← endpointRescue p r.retries (projectTangent g)
  enforcePlanarity p r.dist1 r.dist2 r.rc g

/-! ### One step of the iteration -/

/-- What a step of the iteration stores, `connector.py` 1320-1524. -/
structure Step where
  pos2 : V3
  vec3 : V3
  tangent : ℝ
  dogleg : ℝ
  dist1 : Dist
  dist2 : Dist
  tangent2 : ℝ
  dogleg2 : ℝ
  pos3 : V3

/-- `min(radius, get_radius_critical(...))`, `connector.py` 1412-1416. -/
noncomputable def effRadius (r e : ℝ) (x : Dist) : Option ℝ :=
  (getRadiusCritical x e).map (min r)

/-- `_get_tangent_temp`, `connector.py` 1269-1275; `none` is a NaN tangent length. -/
noncomputable def tangentTemp (minTangent : ℝ) (t : ℝ) : ℝ := max t minTangent

/-- One step of `minimize_target_pos_and_vec_defined` at the radii `r1`, `r2`,
`connector.py` 1408-1468: curve 1 towards `pos3`, curve 2 backwards from the target towards the
new `pos2`, damped update.  `none`: NaN or failed assertion. -/
noncomputable def solveStep (p : Plan) (r1 r2 minTangent : ℝ) (pos3 : V3) : Option Step := do
  let x1 := getDistances p.pos1 p.vec1 pos3
  let e1 ← effRadius r1 p.minError x1
  let (t1, dl1) ← minDistToTarget e1 x1
  let dl1 := checkDogleg dl1
  let (dc1, f1) := getCurveHoldData e1 dl1
  let vec3 := getVecTarget p.pos1 p.vec1 pos3 t1 dc1 f1
  let pos2 := pos3 - tangentTemp minTangent t1 • vec3
  let back := (-1 : ℝ) • p.vecT
  let x2 := getDistances p.posT back pos2
  let e2 ← effRadius r2 p.minError x2
  let (t2, dl2) ← minDistToTarget e2 x2
  let dl2 := checkDogleg dl2
  let (dc2, f2) := getCurveHoldData e2 dl2
  let vec2 := getVecTarget p.posT back pos2 t2 dc2 f2
  let pos3n := pos2 - tangentTemp minTangent t2 • vec2
  return ⟨pos2, vec3, t1, dl1, x1, x2, t2, dl2, (1 / 2 : ℝ) • pos3n + (1 / 2 : ℝ) • pos3⟩

/-- What `_happy_finish` reads after such a step, `connector.py` 742-1004. -/
def Step.solved (s : Step) (rc rc2 : Ext) : Solved :=
  ⟨s.pos3, s.dogleg, s.tangent, some s.dist1, some s.dist2, rc, rc2⟩

/-! ### Target direction without a position, and straight sections -/

/-- `_min_curve` with the positions, `connector.py` 601-671: the depths, `pos2` (if there is a
hold) and the end position.  A target position given by the caller (`force_min_curve`) is not
read. -/
noncomputable def minCurveGeo (p : Plan) (mdGiven : Option ℝ) (radius : Ext) (nearPi : Prop)
    (dogleg : ℝ) : Option (Depths × ℝ × Option V3 × V3) :=
  match minCurveMd p.md1 mdGiven radius dogleg nearPi with
  | none => none
  | some (d, dc) =>
    let q := getPos p.pos1 p.vec1 p.vecT dc (getRf dogleg)
    match d.md2 with
    | none => some (d, dc, none, q)
    | some md2 => some (d, dc, some q, q + (d.mdTarget - md2) • p.vecT)

/-- `_hold`, `connector.py` 673-683: end position and depth; a given position is kept and not
compared with the direction.  `none` cannot happen: one of the two is given. -/
noncomputable def holdGeo (pos1 vec1 : V3) (md1 : ℝ) (posGiven : Option V3)
    (mdGiven : Option ℝ) : Option (V3 × ℝ) :=
  match posGiven, mdGiven with
  | none, none => none
  | none, some md => some (pos1 + (md - md1) • vec1, md)
  | some q, some md => some (q, md)
  | some q, none => some (q, V3.norm (q - pos1) + md1)

/-! ### Closest approach -/

/-- The sign factor `f / abs(f)` with `f = n / u`, `connector.py` 580-581; `none` is NaN. -/
noncomputable def signFactor (n u : ℝ) : Option ℝ :=
  if n = 0 ∨ u = 0 then none else some (n / u / |n / u|)

/-- The centre used by `_closest_approach`, `connector.py` 573-585.  `none`: NaN. -/
noncomputable def approachCentre (pos1 vec1 posT : V3) (r : ℝ) : Option V3 :=
  let u := normalize (posT - pos1)
  let n := normalize (V3.cross u vec1)
  match signFactor n.x u.x, signFactor n.y u.y, signFactor n.z u.z with
  | some a, some b, some c => some (pos1 + r • ⟨n.x * a, n.y * b, n.z * c⟩)
  | _, _, _ => none

/-- The target of `_closest_approach`, `connector.py` 587-592. -/
noncomputable def approachTarget (pos1 vec1 posT : V3) (r : ℝ) : Option V3 :=
  (approachCentre pos1 vec1 posT r).map fun cc => cc + r • normalize (posT - cc)

/-- `_closest_approach`, `connector.py` 573-599: the new target and the curve to it; the random
shift of a target straight ahead is left out.  `none`: NaN or failed assertion. -/
noncomputable def closestApproach (pos1 vec1 posT : V3) (r : ℝ) : Option (V3 × CurveHold) :=
  match approachTarget pos1 vec1 posT r with
  | none => none
  | some q => (curveOnly (.val r) (getDistances pos1 vec1 q) pos1 vec1 q).map fun o => (q, o)

/-! ### Reported severity -/

/-- `Connector.dls` after `_min_dist_to_target` and `_min_curve_to_target`, `connector.py` 456
and 478. -/
noncomputable def reportedDlsCurve (dogleg distCurve : ℝ) : ℝ := degrees dogleg / |distCurve| * 30

/-- `utils.dls_from_radius`, `utils.py` 446-463, for a positive finite radius. -/
noncomputable def dlsFromRadius (r : ℝ) : ℝ := 360 / (2 * π * r) * 30

/-- `Connector.dls` after the curve-hold-curve iteration, `connector.py` 1502-1505;
`rc` the running minimum `radius_critical` (infinite: its severity is zero). -/
noncomputable def reportedDlsChc (rDesign : ℝ) (rc : Ext) : ℝ :=
  match rc with
  | .inf => max (radians (dlsFromRadius rDesign)) 0
  | .val r => max (radians (dlsFromRadius rDesign)) (radians (dlsFromRadius r))

/-- The radius belonging to a severity, `Connector.__init__` 331-344: `denom / dls_design`, the
design severity in degrees per 30 m or per 100 ft. -/
noncomputable def designRadius (denom dls : ℝ) : ℝ := denom / radians dls

end Welleng.Con
