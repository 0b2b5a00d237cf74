import Verif.Model.Vec

/-!
Model of the rest of `/repo/welleng/mesh.py`: sliced meshes (425-503), the transformed scene
(376-422) and the removal of faces in `fix_mesh` (506-533).

The geometry of one mesh is a parameter, as is the decimation of trimesh. Calls of trimesh that
repair windings and normals (`mesh.py` 536-537) are not modelled.
-/

namespace Welleng.Mesh

/-- Exceptions of the functions of this file, `mesh.py` 86-88, 401, 470 and `survey.py` 2110. -/
inductive SliceExc | assertion | index | value | other
  deriving DecidableEq

/-- `l[i:j]` of a sequence, negative bounds counting from the end; `survey.py` 2090-2097. -/
def pySlice {S : Type*} (l : List S) (i j : ℤ) : List S :=
  let pos (k : ℤ) : ℕ := if k < 0 then (k + l.length).toNat else k.toNat
  (l.drop (pos i)).take (pos j - pos i)

/-- The methods `WellMesh` accepts, `mesh.py` 86. -/
def acceptedMethods : List String := ["ellipse", "pedal_curve", "circle"]

/-- The default of the argument `method` of `sliced_mesh`, `mesh.py` 434. -/
def defaultMethod : String := "mesh_ellipse"

/-- One pass of `mesh.py` 484-497: the slice (`survey.py` 2069-2117, where `n[0]` fails for an empty
slice) and its mesh. `edge` builds the mesh of some stations once the method is accepted. -/
def sliceMesh {S M : Type*} (edge : List S → Except SliceExc M) (method : String) (l : List S)
    (i j : ℤ) : Except SliceExc M :=
  match pySlice l i j with
  | [] => .error .index
  | a :: t => if method ∈ acceptedMethods then edge (a :: t) else .error .assertion

/-- The end of the slice of a pass, `mesh.py` 477-479. -/
def sliceEnd (stop step i : ℤ) : ℤ := if i + step + 1 > stop then stop else i + step + 1

/-- The test for taking back the last mesh, `mesh.py` 480. -/
def stepsBack (i j : ℤ) (made : ℕ) : Bool := decide (j - i < 2) && decide (0 < made)

/-- One pass, `mesh.py` 477-501: either the start of the next slice with the meshes so far, or the
result. -/
def slicePass {S M : Type*} (edge : List S → Except SliceExc M) (method : String) (l : List S)
    (stop step : ℤ) (st : ℤ × List M) : Except SliceExc ((ℤ × List M) ⊕ List M) :=
  let j := sliceEnd stop step st.1
  let back := stepsBack st.1 j st.2.length
  let i' := if back then st.1 - step else st.1
  match sliceMesh edge method l i' j with
  | .error e => .error e
  | .ok m =>
    let meshes := (if back then st.2.dropLast else st.2) ++ [m]
    .ok (if j = stop then .inr meshes else .inl (i' + step, meshes))

/-- A loop without a condition (`mesh.py` 476) whose body goes on, ends it with a result or raises.
`none`: still running after `fuel` passes. -/
def runLoop {σ ε α : Type*} (body : σ → Except ε (σ ⊕ α)) : ℕ → σ → Option (Except ε α)
  | 0, _ => none
  | fuel + 1, s =>
    match body s with
    | .error e => some (.error e)
    | .ok (.inr a) => some (.ok a)
    | .ok (.inl s') => runLoop body fuel s'

/-- `sliced_mesh`, `mesh.py` 425-503, watched for `fuel` passes of its loop. -/
def slicedMesh {S M : Type*} (edge : List S → Except SliceExc M) (l : List S)
    (start stop step : ℤ) (method : String) (fuel : ℕ) : Option (Except SliceExc (List M)) :=
  if (l.length : ℤ) < stop then some (.error .assertion)
  else runLoop (slicePass edge method l (if stop = -1 then (l.length : ℤ) else stop) step) fuel
    (start, [])

/-! ### The transformed scene -/

/-- A mesh of a scene: its vertices and its triangles, `mesh.py` 406-417. -/
structure SceneMesh where
  vertices : List V3
  faces : List (ℕ × ℕ × ℕ)

/-- The argument `origin`, `mesh.py` 376, 401-404: nothing, a list of three numbers, or a numpy
array of three numbers. -/
inductive Origin
  | none | list (o : V3) | array (o : V3)

/-- `mesh.py` 401-404: the truth value of an array with several elements is an error. -/
def originVec : Origin → Except SliceExc V3
  | .none => .ok ⟨0, 0, 0⟩
  | .list o => .ok o
  | .array _ => .error .value

/-- One vertex, `mesh.py` 413-417. -/
noncomputable def moveVertex (T : V3) (scale : ℝ) (v : V3) : V3 :=
  ⟨(v.x - T.x) / scale, -(v.z - T.z) / scale, (v.y - T.y) / scale⟩

/-- One mesh, `mesh.py` 408-417. `decimate` is `simplify_quadratic_decimation` of trimesh, which
returns a new mesh; that mesh is dropped (410-412). -/
noncomputable def moveMesh (decimate : SceneMesh → ℤ → SceneMesh) (T : V3) (scale redux : ℝ)
    (m : SceneMesh) : SceneMesh :=
  let _ := decimate m ⌊(m.faces.length : ℝ) * redux⌋
  { m with vertices := m.vertices.map (moveVertex T scale) }

/-- `transform_trimesh_scene`, `mesh.py` 376-422; a scene is its named meshes. -/
noncomputable def transformScene (decimate : SceneMesh → ℤ → SceneMesh)
    (scene : List (String × SceneMesh)) (origin : Origin) (scale redux : ℝ) :
    Except SliceExc (List (String × SceneMesh)) :=
  match originVec origin with
  | .error e => .error e
  | .ok T => .ok (scene.map fun kv => (kv.1, moveMesh decimate T scale redux kv.2))

/-! ### Faces that `fix_mesh` keeps -/

/-- A triangle with two equal corners, `mesh.py` 525-529. -/
def flatFace (f : ℕ × ℕ × ℕ) : Bool := f.1 == f.2.1 || f.1 == f.2.2 || f.2.1 == f.2.2

/-- `good_faces` of `fix_mesh`, `mesh.py` 522-531; `unique_rows` keeps the first of equal rows (the
order in which it lists them is not modelled). -/
def goodFaces (faces : List (ℕ × ℕ × ℕ)) : List (ℕ × ℕ × ℕ) :=
  faces.dedup.filter fun f => !flatFace f

end Welleng.Mesh
