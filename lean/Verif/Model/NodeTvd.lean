import Verif.Model.InterpTvd

/-!
Model of `get_node_tvd` and of the branch of `interpolate_tvd` that it takes,
`/repo/welleng/survey.py` 1949-2066 and 2819-2845, and of `interpolate_survey_tvd` (2848-2917) with the
nodes it handles.
-/

namespace Welleng.NodeTvd

open Real Tvd

/-- A `Node` as made by `get_node`, `survey.py` 1798-1805: depth, direction and position in
`[n, e, tvd]`, flag. -/
structure Pt where
  md : ℝ
  vec : V3
  pos : V3
  interp : Bool

/-- The angles that a `Node` computes from its direction (`node.py` 100-120), with its depth. -/
noncomputable def Pt.st (p : Pt) : Station := ⟨p.md, (getAngles p.vec true).1, (getAngles p.vec true).2⟩

/-- The distance `x` of `interpolate_tvd` with `node_origin`, `survey.py` 1990-2059: `s1`, `s2` are the
stations of the survey at `idx`, at the vertical depths `z1` and `z2`; `o` is the origin, at `zo`. -/
noncomputable def distanceFrom (coeff : ℝ) (o : Station) (zo : ℝ) (s1 s2 : Station) (z1 z2 tvd : ℝ) :
    Except Err ℝ :=
  let dogleg := dogleg2 o s2
  if dogleg = 0 then
    if z2 - z1 = 0 then .error .notFinite
    else .ok ((tvd - z1) / (z2 - z1) * (s2.md - s1.md))
  else
    let k := coeffs coeff (getVec o.inc o.azi true).z (getVec s2.inc s2.azi true).z dogleg (tvd - zo)
      (s2.md - o.md)
    match solveAngle k.1 k.2.1 k.2.2 with
    | .error e => .error e
    | .ok d =>
      let x := d / dogleg * (s2.md - o.md) - (s1.md - o.md)
      if x ≤ s2.md - o.md then .ok x else .error .assertion

/-- `get_node_tvd`, `survey.py` 2819-2845: the survey built by `from_connections` (2622-2700) from one
`Connector` with a given depth and direction has the two nodes as its stations, the first one at its
position.  Simplification: the connector returns the direction of its target, and its rows are not
rounded. -/
noncomputable def getNodeTvd (n1 n2 : Pt) (tvd : ℝ) (o : Pt) : Except Err Pt :=
  let p2 := n1.pos + minCurveStep (n2.md - n1.md) n1.st.inc n1.st.azi n2.st.inc n2.st.azi
  let e := (interval [n1.pos.z, p2.z] tvd).2
  match distanceFrom e o.st o.pos.z n1.st n2.st n1.pos.z p2.z tvd with
  | .error e => .error e
  | .ok x =>
    match interpolateSurvey ⟨[n1.st, n2.st], [n1.pos, p2], none⟩ 0 x 0 with
    | some node => .ok ⟨node.md, node.vec, node.pos, true⟩
    | none => .error .tooShort

/-- The loop `while 1` for the interval that ends at the station `b`, `survey.py` 2878-2901, with at most
`fuel` passes (`none`: not finished).  `nodes` has the last node first; `t` is `tvds[-1]`; `o` is
`node_origin`.  `node2_master` is the node of the station `b` (`interpolate_md` at its depth, 2876), flagged as original. -/
noncomputable def intervalN (near : ℝ → ℝ → Prop) (step : ℝ) (o b : Pt) :
    ℕ → List Pt → ℝ → Option (Except Err (List Pt × ℝ))
  | 0, _, _ => none
  | _ + 1, [], _ => none
  | fuel + 1, n1 :: rest, t =>
    open Classical in
    if near n1.md b.md then some (.ok ({ n1 with interp := false } :: rest, t))
    else if n1.pos.z > t ∧ t ≥ b.pos.z then
      match getNodeTvd n1 b t o with
      | .error e => some (.error e)
      | .ok nd => intervalN near step o b fuel (nd :: n1 :: rest) (t - step)
    else if n1.pos.z < t + step ∧ t + step ≤ b.pos.z then
      match getNodeTvd n1 b (t + step) o with
      | .error e => some (.error e)
      | .ok nd => intervalN near step o b fuel (nd :: n1 :: rest) (t + step)
    else some (.ok ({ b with interp := false } :: n1 :: rest, t))

/-- The loop over the stations after the first, `survey.py` 2871-2901; `node_origin` is the last node
before the interval (2875). -/
noncomputable def sweepN (near : ℝ → ℝ → Prop) (step : ℝ) (fuel : ℕ) :
    List Pt → List Pt → ℝ → Option (Except Err (List Pt))
  | [], nodes, _ => some (.ok nodes)
  | _ :: _, [], _ => none
  | b :: rest, o :: nodes, t =>
    match intervalN near step o b fuel (o :: nodes) t with
    | none => none
    | some (.error e) => some (.error e)
    | some (.ok (nodes', t')) => sweepN near step fuel rest nodes' t'

/-- The nodes of `interpolate_survey_tvd`, `survey.py` 2868-2901: `st` are the nodes of the stations. -/
noncomputable def nodesN (near : ℝ → ℝ → Prop) (step : ℝ) (fuel : ℕ) (start : Option ℝ)
    (st : List Pt) : Option (Except Err (List Pt)) :=
  match st with
  | [] => none
  | s :: rest =>
    match sweepN near step fuel rest [{ s with interp := false }] (start.getD s.pos.z) with
    | none => none
    | some (.error e) => some (.error e)
    | some (.ok l) => some (.ok l.reverse)

end Welleng.NodeTvd
