import Verif.Model.Mesh
import Verif.Model.Vec

/-!
Model of the stored mesh of a well, `/repo/welleng/mesh.py` 288-304, and of the figure made from
it, `/repo/welleng/visual.py` 480-491.
-/

namespace Welleng.Mesh

open Welleng

/-- `WellMesh._make_trimesh`, `mesh.py` 288-304: the vertices of the stored mesh are those of the
rings, ring by ring, then the first and the last position of the well. -/
def meshVertices (rings : List (List V3)) (nevs : List V3) : List V3 :=
  rings.flatten ++ nevs.head?.toList ++ nevs.getLast?.toList

/-- What `_mesh3d` raises, `visual.py` 488. -/
inductive FigExc | indexError
  deriving DecidableEq

/-- The traces of a mesh figure, `visual.py` 486-490: points and triangles of the surface, and the
points of the line of edges. -/
structure MeshFig where
  points : List V3
  faces : List (ℕ × ℕ × ℕ)
  edges : Option (List V3)

/-- `n, e, v = vertices.T` drawn with `x=e, y=n, z=v`, `visual.py` 484, 486. -/
def drawn (p : V3) : V3 := ⟨p.y, p.x, p.z⟩

/-- `vertices[faces.reshape(-1)]`, `visual.py` 488; `none` if an index is out of range. -/
def corners3 (vertices : List V3) (faces : List (ℕ × ℕ × ℕ)) : Option (List V3) :=
  (faces.flatMap fun f => [f.1, f.2.1, f.2.2]).mapM fun i => vertices[i]?

/-- `_mesh3d`, `visual.py` 480-491, without the layout: the vertices are `mesh.vertices`, those of
the rings, and the faces `mesh.faces`. -/
def mesh3d (rings : List (List V3)) (faces : List (ℕ × ℕ × ℕ)) (edges : Bool) :
    Except FigExc MeshFig :=
  if edges then
    match corners3 rings.flatten faces with
    | none => .error .indexError
    | some l => .ok ⟨rings.flatten.map drawn, faces, some (l.map drawn)⟩
  else .ok ⟨rings.flatten.map drawn, faces, none⟩

end Welleng.Mesh
