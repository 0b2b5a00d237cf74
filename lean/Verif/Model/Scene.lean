import Verif.Model.SlicedMesh

/-!
Model of `make_trimesh_scene`, `/repo/welleng/mesh.py` 350-373.
-/

namespace Welleng.Mesh

/-- What stops `make_trimesh_scene`, `mesh.py` 350-373: a mesh used as an index of a list, or a name that
is not in the dictionary. -/
inductive SceneExc | typeError | keyError
  deriving DecidableEq

/-- The argument `data`, `mesh.py` 350-359: a list of well meshes (as documented), or a dictionary of them
by name. -/
inductive SceneData
  | list (meshes : List SceneMesh)
  | dict (items : List (String × SceneMesh))

/-- The loop over a list, `mesh.py` 367-371: `data[well]` with a mesh for `well`. -/
def sceneOfList : List SceneMesh → Except SceneExc (List (String × SceneMesh))
  | [] => .ok []
  | _ :: _ => .error .typeError

/-- The loop over the names of a dictionary, `mesh.py` 367-371; `scene` is what has been added so far.
`to_trimesh` (325-347) keeps vertices and triangles, and trimesh adds a geometry under a new name at the
end. -/
def sceneLoop (items : List (String × SceneMesh)) :
    List String → List (String × SceneMesh) → Except SceneExc (List (String × SceneMesh))
  | [], scene => .ok scene
  | well :: names, scene =>
    match items.lookup well with
    | none => .error .keyError
    | some m => sceneLoop items names (scene ++ [(well, m)])

/-- `make_trimesh_scene`, `mesh.py` 350-373. -/
def makeScene : SceneData → Except SceneExc (List (String × SceneMesh))
  | .list meshes => sceneOfList meshes
  | .dict items => sceneLoop items (items.map Prod.fst) []

end Welleng.Mesh
