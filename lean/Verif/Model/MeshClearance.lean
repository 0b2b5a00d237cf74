import Verif.Model.ClosestPoint
import Verif.Model.Bearing
import Verif.Model.Mesh

/-!
Model of `MeshClearance`, `/repo/welleng/clearance.py` 842-1096: the data computed for each interval
of the reference well from the answers of the collision library.

The answers of `trimesh` and `fcl` (`Contact`), `scipy.optimize.minimize` (as in
`Model/ClosestPoint.lean`) and the nearest-neighbour query of `KDTree` (`tree`) are parameters.  The
headers have grid azimuths; see `Model/SharedHeader.lean` for the others.
-/

namespace Welleng.Clr

open Real Welleng

/-- The settings of a `MeshClearance`, `clearance.py` 62-80, 869-882. -/
structure MeshSettings where
  sigma : ℝ
  sigmaPa : ℝ
  Sm : ℝ

/-- The distance of the edge of a mesh from the hole where the standard deviation is `sd`:
`MeshClearance._get_mesh` (`clearance.py` 938-954) does not pass `sigma_pa`, so `WellMesh` uses its
default, `mesh.py` 52, 132-141. -/
noncomputable def meshEdge (s : MeshSettings) (offset : Bool) (sd radius : ℝ) : ℝ :=
  Mesh.semiAxis sd s.sigma radius (if offset then s.Sm else 0) 0.5

/-- What the collision library finds for the mesh of an interval and the offset mesh: whether they
overlap, their distance, and the closest points, `clearance.py` 973-986. -/
structure Contact where
  hit : Bool
  distance : ℝ
  refPt : V3
  offPt : V3

/-- Python's `l[start:stop]` for indices that are not negative, `survey.py` 2090-2097. -/
def cut {α : Type*} (start : ℕ) (stop : Option ℕ) (l : List α) : List α :=
  match stop with
  | some e => (l.take e).drop start
  | none => l.drop start

/-- `slice_survey`, `survey.py` 2069-2117, for what interpolation reads. -/
def sliceG (sv : SurveyG) (start : ℕ) (stop : Option ℕ) : SurveyG :=
  ⟨cut start stop sv.st, cut start stop sv.nev, sv.cov.map (cut start stop)⟩

/-- The result of `_get_closest_nev`: the position, `res.x` and `res.fun`, `clearance.py`
1077-1096. -/
structure Search where
  nev : V3
  x : ℝ
  val : ℝ

/-- `MeshClearance._fun`, `clearance.py` 1065-1075; `xyz` is the first row of `x, y, z`.  (The value
0 for a survey of less than two stations is not used.) -/
noncomputable def meshFun (sv : SurveyG) (xyz pos : V3) (x : ℝ) : ℝ :=
  match interpolateSurvey sv xyz x 0 with
  | some nd => V3.norm (nd.pos - pos)
  | none => 0

/-- `MeshClearance._get_closest_nev`, `clearance.py` 1077-1096.  `none` is the IndexError of
`survey.md[1]`. -/
noncomputable def closestNev (opt : Minimiser) (sv : SurveyG) (xyz pos : V3) : Option Search :=
  match sv.st[0]?, sv.st[1]? with
  | some a, some b =>
    let x := opt (meshFun sv xyz pos) (b.md - a.md)
    match interpolateSurvey sv xyz x 0 with
    | some nd => some ⟨nd.pos, x, meshFun sv xyz pos x⟩
    | none => none
  | _, _ => none

/-- The closest point of the offset well to a point of its mesh, and its measured depth; `i` is the
nearest station, `clearance.py` 993-1020.  `none` is the TypeError of `False[1]`. -/
noncomputable def offsetPoint (opt : Minimiser) (off : SurveyG) (xyz : ℕ → V3) (i : ℕ) (pos : V3) :
    Option (Search × ℝ) :=
  let r1 := if i < off.st.length - 1 then closestNev opt (sliceG off i none) (xyz i) pos else none
  let r0 := if 0 < i then closestNev opt (sliceG off (i - 1) none) (xyz (i - 1)) pos else none
  match r0, r1, off.st[i - 1]?, off.st[i]? with
  | some a, some b, some s0, some s1 =>
    if a.val < b.val then some (a, s0.md + a.x) else some (b, s1.md + b.x)
  | some a, none, some s0, _ => some (a, s0.md + a.x)
  | none, some b, _, some s1 => some (b, s1.md + b.x)
  | _, _, _, _ => none

/-- One entry of each of the lists of results, `clearance.py` 1041-1059. -/
structure MeshRow where
  offIndex : ℕ
  cc : ℝ
  sf : Option ℝ
  refPos : V3
  offPos : V3
  bearing : ℝ
  refPcr : ℝ
  offPcr : ℝ
  calcHole : ℝ
  refMd : ℝ
  offMd : ℝ

/-- One pass of the loop of `MeshClearance._process_well` with `return_data`, `clearance.py`
966-1062. -/
noncomputable def meshRow (opt : Minimiser) (tree : V3 → ℕ) (s : MeshSettings) (ref off : SurveyG)
    (xyzR xyzO : ℕ → V3) (Rr Ro : List ℝ) (c : Contact) (i : ℕ) : Option MeshRow :=
  let idx := tree c.offPt
  match closestNev opt (sliceG ref i (some (i + 2))) (xyzR i) c.refPt, ref.st[i]?,
    offsetPoint opt off xyzO idx c.offPt, Rr[i]?, Ro[idx]? with
  | some r, some a, some (o, md), some rr, some ro =>
    let vec := o.nev - r.nev
    let cc := V3.norm vec
    some {
      offIndex := idx
      cc := cc
      sf := meshSfReported c.hit cc c.distance (V3.norm (c.offPt - c.refPt))
      refPos := r.nev
      offPos := o.nev
      bearing := bearingDeg (atan2 vec.y vec.x)
      refPcr := (r.val - s.sigmaPa / 2 - rr) / s.sigma
      offPcr := (o.val - s.sigmaPa / 2 - ro - s.Sm) / s.sigma
      calcHole := rr + ro
      refMd := a.md + r.x
      offMd := md }
  | _, _, _, _, _ => none

/-- The loop over some intervals, `clearance.py` 965-1062; `none` if a pass raises. -/
noncomputable def meshRows (row : ℕ → Option MeshRow) : List ℕ → Option (List MeshRow)
  | [] => some []
  | i :: l => match row i, meshRows row l with
    | some r, some rs => some (r :: rs)
    | _, _ => none

/-- `MeshClearance._process_well` with `return_data`, `clearance.py` 956-1062; `contact i` is what
the collision library finds for interval `i`. -/
noncomputable def processWell (opt : Minimiser) (tree : V3 → ℕ) (s : MeshSettings)
    (ref off : SurveyG) (xyzR xyzO : ℕ → V3) (Rr Ro : List ℝ) (contact : ℕ → Contact) :
    Option (List MeshRow) :=
  meshRows (fun i => meshRow opt tree s ref off xyzR xyzO Rr Ro (contact i) i)
    (List.range (ref.st.length - 1))

end Welleng.Clr
