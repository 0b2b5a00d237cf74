import Verif.Model.ConnectorSolve
import Verif.Model.Toolface
import Verif.Model.Survey

/-!
Model of `project_to_target`, `/repo/welleng/survey.py` 2988-3067.
-/

namespace Welleng.Proj

open Real Con Tf

/-- What `Connector` reads of a node (`get_node_params`, `node.py` 145-162). -/
structure Nd where
  pos : Option V3 := none
  vec : Option V3 := none
  md : Option ℝ := none

/-- A node with all three, `node.py` 43-142. -/
structure At where
  pos : V3
  vec : V3
  md : ℝ

/-- The parameters of a call of `Connector` that decide its path, `connector.py` 120-144. -/
structure Bound where
  start : At
  target : Nd
  radius : ℝ

/-- Binding of `Connector(node1, node2, pos1=…, dls_design=…)`, `connector.py` 120-144: the third
positional parameter is `pos1`, which `node1` replaces (213-216); `dls_design` is 3.0 unless it is
given by name; `unit` is `'meters'`, `degrees` is `True` (364-380). -/
noncomputable def bindConnector {α : Type} (node1 : At) (node2 : Nd) (_pos1 : Option α := none)
    (dlsDesign : ℝ := 3) : Bound :=
  ⟨node1, node2, designRadius 30 dlsDesign⟩

/-- The end of a connection, `connector.py` 417-427, and its start. -/
structure Leg where
  start : At
  stop : At

open Classical in
/-- A connection to a direction at a depth: `_get_method` (510-533) with `min_curve_or_hold`,
`_min_curve` or `_hold`.  `nearPi d`: `d` rounds to `π` at five decimals.  `none`: failed assertion
`md2 >= md1` (246), or no result. -/
noncomputable def connectDir (nearPi : ℝ → Prop) (b : Bound) (vecT : V3) (md : ℝ) : Option Leg :=
  let s := b.start
  if md < s.md then none
  else if vecT = s.vec then
    (holdGeo s.pos s.vec s.md none (some md)).map fun r => ⟨s, ⟨r.1, vecT, r.2⟩⟩
  else
    let d := angle s.vec vecT
    (minCurveGeo ⟨s.pos, s.vec, s.md, 0, vecT, .val b.radius, .val b.radius, 1e-5⟩ (some md)
      (.val b.radius) (nearPi d) d).map fun r => ⟨s, ⟨r.2.2.2, vecT, r.1.mdTarget⟩⟩

/-- The last station of a survey: position, direction, depth, `dls` and `toolface`,
`survey.py` 3016-3040. -/
structure Last where
  node : At
  dls : ℝ
  toolface : ℝ

/-- `node_bit` before its position is erased, `survey.py` 3036-3045; the node normalises the
direction (`node.py` 107). -/
noncomputable def bitNode (s : Last) (deltaMd : ℝ) (dls toolface : Option ℝ) : At :=
  let a := projectAhead s.node.pos s.node.vec deltaMd (dls.getD s.dls)
    (toolface.getD s.toolface) s.node.md
  ⟨a.pos, normalize a.vec, a.md⟩

/-- The connection to the bit, `survey.py` 3036-3050; the position of `node_bit` is erased. -/
noncomputable def legToBit (nearPi : ℝ → Prop) (s : Last) (dlsDesign deltaMd : ℝ)
    (dls toolface : Option ℝ) : Option Leg :=
  let bit := bitNode s deltaMd dls toolface
  connectDir nearPi (bindConnector (α := ℝ) s.node ⟨none, some bit.vec, some bit.md⟩ none dlsDesign)
    bit.vec bit.md

/-- `project_to_target`, `survey.py` 3016-3057: the connections; `conn` solves the one to the target,
which is called with `dls_design` as third positional argument (3053-3057). -/
noncomputable def projectToTarget (nearPi : ℝ → Prop) {L : Type} (conn : Bound → Option L)
    (s : Last) (target : Nd) (dlsDesign : ℝ) (deltaMd : Option ℝ) (dls toolface : Option ℝ) :
    Option (Option Leg × L) :=
  match deltaMd with
  | none => (conn (bindConnector s.node target (some dlsDesign))).map fun l => (none, l)
  | some dm =>
    match legToBit nearPi s dlsDesign dm dls toolface with
    | none => none
    | some leg =>
      (conn (bindConnector leg.stop target (some dlsDesign))).map fun l => (some leg, l)

/-- A connector to a target with only a position, `connector.py` 492-508 with `min_error=1e-5`:
start, target and result. -/
noncomputable def connectPoint (noise : V3) (b : Bound) : Option (At × V3 × Used × CurveHold) :=
  match b.target with
  | ⟨some q, none, none⟩ =>
    (connectPos (.val b.radius) 1e-5 noise b.start.pos b.start.vec q).map fun r =>
      (b.start, r.1, r.2.1, r.2.2)
  | _ => none

/-- The grid azimuth of a station of the resulting survey whose direction in the connection is
`v`: `from_connections` passes the angles of `v` (`connector.py` 2046, `survey.py` 2683-2697) with
the header of the survey. -/
noncomputable def projectedDirection (h : Sv.Header) (v : V3) : V3 :=
  let a := getAngles v true
  getVec a.1 (Sv.processAziRef h false a.2).gridRad true

end Welleng.Proj
