import Verif.Model.Project

/-!
Model of `drop_off`, `extend_to_tvd`, `connect_points` and `survey_to_plan`,
`/repo/welleng/connector.py` 2357-2745.

The results of the optimisers (`scipy.optimize.minimize`) are parameters.
-/

namespace Welleng.Xt

open Real Con Tf Proj

/-- `radius_from_dls`, `utils.py` 466-483, for a severity other than zero. -/
noncomputable def dropRadius (dls : ℝ) : ℝ := 30 / dls * 360 / (2 * π)

/-! ### `drop_off` -/

/-- `x` of `_drop_off`: `(dogleg, toolface)`, `connector.py` 2580-2592. -/
structure Choice where
  dogleg : ℝ
  toolface : ℝ

/-- The toolface actually used, `connector.py` 2583. -/
noncomputable def sideOf (toolface : ℝ) : ℝ :=
  if -π / 2 ≤ toolface ∧ toolface ≤ π / 2 then 0 else π

/-- The arc of `_drop_off`, `connector.py` 2580-2585: without a position or a direction in the node,
`get_arc` starts at the origin and downwards (`utils.py` 592-593, 609-610). -/
noncomputable def dropArc (radius : ℝ) (node : Nd) (x : Choice) : ArcOut :=
  getArc x.dogleg radius (sideOf x.toolface) (node.pos.getD 0) (node.vec.getD ⟨0, 0, 1⟩) false

/-- What is minimised, `connector.py` 2588-2592; `targetInc` in degrees. -/
noncomputable def dropMiss (radius targetInc : ℝ) (node : Nd) (x : Choice) : ℝ :=
  |degrees (getAngles (dropArc radius node x).vec true).1 - targetInc|

/-- `bounds[0][1]`, `connector.py` 2599-2606. -/
noncomputable def maxDogleg (radius : ℝ) (deltaMd : Option ℝ) : ℝ :=
  min (2 * π) (match deltaMd with
    | none => 2 * π
    | some l => l / radius)

/-- `bounds`, `connector.py` 2605-2608. -/
def InBounds (radius : ℝ) (deltaMd : Option ℝ) (x : Choice) : Prop :=
  0 ≤ x.dogleg ∧ x.dogleg ≤ maxDogleg radius deltaMd ∧ -π ≤ x.toolface ∧ x.toolface ≤ π

/-- `x0`, `connector.py` 2609. -/
noncomputable def firstGuess (radius : ℝ) (deltaMd : Option ℝ) : Choice :=
  ⟨maxDogleg radius deltaMd / 2, π⟩

/-- `drop_off` with the optimiser's result `x`, `connector.py` 2594-2631; a node without a depth gets
the depth `0` (2595).  Both nodes normalise the direction (`node.py` 110). -/
noncomputable def dropOff (dls : ℝ) (deltaMd : Option ℝ) (node : Option Nd) (tol : ℝ) (x : Choice) :
    List At :=
  let node := node.getD {}
  let a := dropArc (dropRadius dls) node x
  let tangentLength := match deltaMd with
    | none => 0
    | some l => l - a.deltaMd
  let n2 : At := ⟨a.pos, normalize a.vec, node.md.getD 0 + a.deltaMd⟩
  if tangentLength > tol then
    [n2, ⟨a.pos + tangentLength • a.vec, normalize a.vec, n2.md + tangentLength⟩]
  else [n2]

/-! ### `extend_to_tvd` -/

open Classical in
/-- The target direction, `connector.py` 314-333 and 393-403; `modVec` is `mod_vec` (1550-1570). -/
noncomputable def forcedVec (modVec : V3 → V3) (s : At) (vec : Option V3) : V3 :=
  if vec.getD s.vec = (-1 : ℝ) • s.vec then modVec (vec.getD s.vec) else vec.getD s.vec

/-- `Connector(node1, pos2=q, vec2=vec, dls_design, force_min_curve=True)` with the default unit,
`connector.py` 211-217, 276, 393-427 and 510-533: method `min_curve_or_hold`.  `none`: no finite
radius (608-613). -/
noncomputable def forcedConn (nearPi : ℝ → Prop) (modVec : V3 → V3) (radius : Ext) (s : At) (q : V3)
    (vec : Option V3) : Option Leg :=
  open Classical in
  let vT := forcedVec modVec s vec
  if vT = s.vec ∧ q ≠ s.pos ∧ allClose vT (normalize (q - s.pos)) then
    (holdGeo s.pos s.vec s.md (some q) none).map fun r => ⟨s, ⟨r.1, normalize vT, r.2⟩⟩
  else
    let d := angle s.vec vT
    (minCurveGeo ⟨s.pos, s.vec, s.md, q, vT, radius, radius, 1e-5⟩ none radius (nearPi d) d).map
      fun r => ⟨s, ⟨r.2.2.2, normalize vT, r.1.mdTarget⟩⟩

/-- Ways in which `extend_to_tvd` fails: arithmetic with `None` or subscripting it, no finite
radius, `connector.py` 2674-2744. -/
inductive Exc | typeError | valueError
  deriving DecidableEq

/-- `_extend_tvd`, `connector.py` 2680-2687: what is minimised over the length. -/
noncomputable def straightMiss (pos vec : V3) (targetTvd len : ℝ) : ℝ :=
  |(pos + len • vec).z - targetTvd|

/-- `bounds` without `target_inc`, `connector.py` 2690: the argument `delta_md` does not occur. -/
def StraightBounds (_deltaMd : Option ℝ) (len : ℝ) : Prop := 0 ≤ len

/-- `bounds` with `target_inc`, `connector.py` 2677 and 2720-2722. -/
noncomputable def CurveBounds (targetTvd z : ℝ) (deltaMd : Option ℝ) (len : ℝ) : Prop :=
  min (targetTvd - z) (deltaMd.getD 1e-8) ≤ len

/-- `radius_design` of the connections, `connector.py` 366-371. -/
noncomputable def designExt : Option ℝ → Ext
  | none => .inf
  | some dls => .val (designRadius 30 dls)

/-- A node for which position and direction are given; its depth `None` becomes `0` (2676). -/
def located (node : Option Nd) : Option At :=
  match node with
  | some ⟨some p, some v, md⟩ => some ⟨p, v, md.getD 0⟩
  | _ => none

/-- `extend_to_tvd` without `target_inc`, `connector.py` 2674-2704; `len` is the optimiser's result.
The argument `delta_md` is only the start of the search (2677, 2693). -/
noncomputable def extendStraight (nearPi : ℝ → Prop) (modVec : V3 → V3) (dls : Option ℝ)
    (node : Option Nd) (len : ℝ) : Except Exc (List Leg) :=
  match located node with
  | none => .error .typeError
  | some s =>
    match forcedConn nearPi modVec (designExt dls) s (s.pos + len • s.vec) none with
    | none => .error .valueError
    | some l => .ok [l]

/-- What is minimised over the length with `target_inc`, `connector.py` 2706-2716; `solve len` is the
result of the inner optimiser for the length `len`. -/
noncomputable def curveMiss (dls : ℝ) (node : Nd) (solve : ℝ → Choice) (targetTvd len : ℝ) : ℝ :=
  match (dropOff dls (some len) (some node) 1e-5 (solve len)).getLast? with
  | none => 0
  | some n => |n.pos.z - targetTvd|

/-- `extend_to_tvd` with `target_inc`, `connector.py` 2718-2744, for the nodes of the final call of
`drop_off`.  (`node.pos_nev[2]` of a node without position is a TypeError, 2721.  Simplification: a
node with a position but no direction is not distinguished from one without either; it fails in
`Connector` instead.) -/
noncomputable def extendCurve (nearPi : ℝ → Prop) (modVec : V3 → V3) (dls : Option ℝ)
    (node : Option Nd) (len : ℝ) (x : Choice) : Except Exc (List Leg) :=
  match located node with
  | none => .error .typeError
  | some s =>
    let dls := dls.getD 2.5
    let r := Ext.val (designRadius 30 dls)
    match dropOff dls (some len) (some ⟨some s.pos, some s.vec, some s.md⟩) 1e-5 x with
    | [n2] =>
      match forcedConn nearPi modVec r s n2.pos (some n2.vec) with
      | none => .error .valueError
      | some l => .ok [l]
    | [n2, n3] =>
      match forcedConn nearPi modVec r s n2.pos (some n2.vec) with
      | none => .error .valueError
      | some l =>
        match forcedConn nearPi modVec r l.stop n3.pos none with
        | none => .error .valueError
        | some m => .ok [l, m]
    | _ => .ok []

/-! ### `connect_points` -/

/-- The argument `dls_design`: a Python `float`, another scalar (for instance an `int`), or a
list, `connector.py` 2394-2397. -/
inductive DlsArg
  | float (x : ℝ)
  | scalar (x : ℝ)
  | array (l : List ℝ)

/-- `dls`, `connector.py` 2394-2397: `np.array(3).reshape(-1, 1)` has one row. -/
def DlsArg.toList (n : ℕ) : DlsArg → List ℝ
  | .float x => List.replicate n x
  | .scalar x => [x]
  | .array l => l

/-- Conversion of a float to an integer in a numpy assignment: towards zero,
`connector.py` 2386-2388. -/
noncomputable def trunc (x : ℝ) : ℝ := if 0 ≤ x then (⌊x⌋ : ℝ) else (⌈x⌉ : ℝ)

/-- `vec_nev[0]`, `connector.py` 2386-2388: `np.zeros_like(pos_nev)` has the type of the points, so
that with integer points the direction is converted. -/
noncomputable def startVec (integer : Bool) (v : V3) : V3 :=
  if integer then ⟨trunc v.x, trunc v.y, trunc v.z⟩ else v

/-- `Connector(node1, Node(pos=p), dls_design=d)`, `connector.py` 2410-2417: end of the connection.
Method `curve_hold_or_hold` with `vec_target = vec1` (330-333, 518-531). -/
noncomputable def connPoint (noise : V3) (s : At) (p : V3) (dls : ℝ) : Option At :=
  open Classical in
  if p ≠ s.pos ∧ allClose s.vec (normalize (p - s.pos)) then
    (holdGeo s.pos s.vec s.md (some p) none).map fun r => ⟨r.1, normalize s.vec, r.2⟩
  else
    (connectPos (.val (designRadius 30 dls)) 1e-5 noise s.pos s.vec p).map fun r =>
      ⟨r.1, normalize r.2.2.vecTarget, s.md + r.2.2.md⟩

/-- The loop of `connect_points` after the first point, `connector.py` 2400-2419.  `none`: a failed
connection or assertion. -/
noncomputable def connectFrom (noise : V3) (s : At) : List (V3 × ℝ) → Option (List Leg)
  | [] => some []
  | (p, d) :: rest =>
    open Classical in
    match connPoint noise s p d with
    | none => none
    | some e => if allClose e.pos p then (connectFrom noise e rest).map (⟨s, e⟩ :: ·) else none

open Classical in
/-- `connect_points` with `nev=True`, `connector.py` 2357-2421.  `none` for no points: IndexError
(2388).  `none` for a start direction without length: it is NaN after normalisation (`node.py` 110),
and so are the connections. -/
noncomputable def connectPoints (noise : V3) (integer : Bool) (pts : List V3) (vecStart : V3)
    (dls : DlsArg) (mdStart : ℝ) : Option (List Leg) :=
  match pts with
  | [] => none
  | _ :: _ =>
    match pts.zip (dls.toList pts.length) with
    | [] => some []
    | (p, _) :: rest =>
      if startVec integer vecStart = 0 ∧ rest ≠ [] then none
      else connectFrom noise ⟨p, normalize (startVec integer vecStart), mdStart⟩ rest

/-! ### `survey_to_plan` -/

/-- What `survey_to_plan` can raise, `connector.py` 2453-2542. -/
inductive PlanExc | assertionError | indexError | unboundLocal | connector | attributeError
  deriving DecidableEq

/-- `_get_section`, `connector.py` 2481-2542, for a survey of `n` stations, up to the first line that
cannot be executed: `Connector` has no attribute `survey` (2513).  `made k` is whether the `Connector`
to station `k` can be constructed.  If there are no stations after `idx`, `i` is unbound (2541). -/
def getSection {σ : Type} (n : ℕ) (made : ℕ → Bool) (start : ℕ) : Except PlanExc (σ × ℕ) :=
  let idx := if start + 2 > n then n - 1 else start + 2
  if n ≤ idx then .error .unboundLocal
  else if made idx then .error .attributeError
  else .error .connector

/-- `survey_to_plan`, `connector.py` 2453-2478, with at most `fuel` passes of the loop (`none`: not
finished). -/
def surveyToPlan {σ : Type} (n : ℕ) (made : ℕ → Bool) (dls : ℚ) :
    (fuel : ℕ) → (start : ℕ) → Option (Except PlanExc (List σ))
  | 0, _ => none
  | fuel + 1, start =>
    if dls ≤ 0 then some (.error .assertionError)
    else if n = 0 then some (.error .indexError)
    else match getSection (σ := σ) n made start with
      | .error e => some (.error e)
      | .ok (s, i) =>
        if i ≥ n - 1 then some (.ok [s])
        else match surveyToPlan n made dls fuel i with
          | some (.ok l) => some (.ok (s :: l))
          | r => r

end Welleng.Xt
