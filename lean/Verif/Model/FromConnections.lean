import Verif.Model.Resample
import Verif.Model.Interpolate
import Verif.Model.Extend

/-!
Model of `interpolate_well` (`/repo/welleng/connector.py` 1948-1978, 2135-2333) and of the stations of
`from_connections` (`/repo/welleng/survey.py` 2622-2700).
-/

namespace Welleng.Fc

open Con Rs Tf Proj Xt

/-- The methods a connection can have, the keys of the table in `connector.py` 1964-1970. -/
inductive Method | hold | minDistToTarget | minCurveToTarget | curveHoldCurve | minCurve
  deriving DecidableEq

/-- The attributes of a solved `Connector` read by `interpolate_well`, `connector.py` 2150-2333.
`md2`, `md3`: `none` when the attribute is `None`. -/
structure Conn where
  method : Method
  md1 : ℝ
  mdT : ℝ
  md2 : Option ℝ
  md3 : Option ℝ
  vec1 : V3
  vec2 : V3
  vec3 : V3
  vecT : V3
  distCurve : ℝ
  dogleg : ℝ
  distCurve2 : ℝ
  dogleg2 : ℝ

/-- The rows of `interpolate_curve`, `connector.py` 1981-2084: depth and direction. -/
noncomputable def curveRows (md1 : ℝ) (v1 v2 : V3) (dc d : ℝ) (step : Option ℝ) (endpoint : Bool) :
    List (ℝ × V3) :=
  (curveMds md1 dc step endpoint).map (curveRow md1 v1 v2 dc d)

/-- The rows of `interpolate_hold`, `connector.py` 2087-2132: depth and direction. -/
noncomputable def holdRows (md1 : ℝ) (v : V3) (md2 : ℝ) (step : Option ℝ) (endpoint : Bool) :
    List (ℝ × V3) :=
  (holdMds md1 md2 step endpoint).map fun m => (m, v)

/-- `get_interpolate_min_curve_to_target`, `connector.py` 2199-2231. -/
noncomputable def minCurveToTargetRows (s : Conn) (step : Option ℝ) : List (ℝ × V3) :=
  curveRows s.md1 s.vec1 s.vecT s.distCurve s.dogleg step true

/-- `get_interpolate_min_dist_to_target`, `connector.py` 2234-2276.  `none`: arithmetic with `None`. -/
noncomputable def minDistToTargetRows (s : Conn) (step : Option ℝ) : Option (List (ℝ × V3)) :=
  s.md2.map fun md2 => curveRows s.md1 s.vec1 s.vec2 s.distCurve s.dogleg step false ++
    holdRows md2 s.vec2 s.mdT step true

/-- `get_interpololate_curve_hold_curve`, `connector.py` 2279-2333.  `none`: arithmetic with `None`. -/
noncomputable def curveHoldCurveRows (s : Conn) (step : Option ℝ) : Option (List (ℝ × V3)) :=
  match s.md2, s.md3 with
  | some md2, some md3 => some (curveRows s.md1 s.vec1 s.vec2 s.distCurve s.dogleg step false ++
      (holdRows md2 s.vec2 md3 step false ++
        curveRows md3 s.vec3 s.vecT s.distCurve2 s.dogleg2 step true))
  | _, _ => none

/-- The rows of one connection, `connector.py` 1964-1976, with `get_min_curve` (2135-2164) and
`get_interpolate_hold` (2167-2196). -/
noncomputable def connRows (step : Option ℝ) (s : Conn) : Option (List (ℝ × V3)) :=
  match s.method with
  | .hold => some (holdRows s.md1 s.vec1 s.mdT step true)
  | .minDistToTarget => minDistToTargetRows s step
  | .minCurveToTarget => some (minCurveToTargetRows s step)
  | .curveHoldCurve => curveHoldCurveRows s step
  | .minCurve => match s.md2 with
    | none => some (minCurveToTargetRows s step)
    | some _ => minDistToTargetRows s step

/-- `interpolate_well`, `connector.py` 1972-1978: the rows of all connections, one after the other. -/
noncomputable def wellRows (step : Option ℝ) : List Conn → Option (List (ℝ × V3))
  | [] => some []
  | s :: rest =>
    match connRows step s, wellRows step rest with
    | some a, some b => some (a ++ b)
    | _, _ => none

/-- The stations of `from_connections`, `survey.py` 2663-2674, before they go to the constructor.  `key`
is the measured depth rounded to four decimals, whatever `decimals` says: the argument (2652) is not
passed on to `_remove_duplicates` (2674, 2609). -/
noncomputable def fromConnections {κ : Type} [DecidableEq κ] (key : ℕ → ℝ → κ) (_decimals : ℕ)
    (step : Option ℝ) (l : List Conn) : Except Rs.Exc (List Station) :=
  match l with
  | [] => .error .valueError
  | _ =>
    match wellRows step l with
    | none => .error .noSection
    | some rows =>
      match Sv.removeDuplicates (fun r : Station => key 4 r.md) (rows.map toStation) with
      | .error _ => .error .indexError
      | .ok out => .ok out

/-- The grid positions `n, e, tvd` of the survey of `from_connections`, `survey.py` 2676-2697 with the
default header (grid azimuths) and start: it starts at the start of the first connection. -/
noncomputable def surveyPositions (pos1 : V3) (out : List Station) : Except MinCurveErr (List V3) :=
  match surveyG out 0 pos1 .meters with
  | .ok (sv, _) => .ok sv.nev
  | .error e => .error e

open Classical in
/-- `Connector(node1, Node(pos=p), dls_design=d)` with the attributes `interpolate_well` reads,
`connector.py` 2410-2417 with 480-531 and, by method, 673-683, 429-456, 458-478.  Attributes the method
does not set are left at the start direction or zero. -/
noncomputable def pointConn (noise : V3) (s : At) (p : V3) (dls : ℝ) : Option Conn :=
  if p ≠ s.pos ∧ allClose s.vec (normalize (p - s.pos)) then
    (holdGeo s.pos s.vec s.md (some p) none).map fun r =>
      ⟨.hold, s.md, r.2, none, none, s.vec, s.vec, s.vec, s.vec, 0, 0, 0, 0⟩
  else
    (connectPos (.val (designRadius 30 dls)) 1e-5 noise s.pos s.vec p).map fun r =>
      let o := r.2.2
      match r.2.1 with
      | .minDist => ⟨.minDistToTarget, s.md, s.md + |o.distCurve| + o.tangent, some (s.md + |o.distCurve|),
          none, s.vec, o.vecTarget, o.vecTarget, o.vecTarget, o.distCurve, o.dogleg, 0, 0⟩
      | .minCurve => ⟨.minCurveToTarget, s.md, s.md + o.md, none, none, s.vec, o.vecTarget, o.vecTarget,
          o.vecTarget, o.distCurve, o.dogleg, 0, 0⟩

open Classical in
/-- The connections of `connect_points` after the first point, `connector.py` 2400-2421, as
`connectFrom`, with the attributes `interpolate_well` reads. -/
noncomputable def pointConns (noise : V3) (s : At) : List (V3 × ℝ) → Option (List Conn)
  | [] => some []
  | (p, d) :: rest =>
    match pointConn noise s p d, connPoint noise s p d with
    | some c, some e => if allClose e.pos p then (pointConns noise e rest).map (c :: ·) else none
    | _, _ => none

end Welleng.Fc
