import Verif.Model.Angles
import Verif.Spec.Triangulation

/-!
Model of `/repo/welleng/mesh.py`: face indices (542-613), ring vertices (116-221) and ring
alignment (240-286).
-/

namespace Welleng.Mesh

open Real Welleng

/-- Entry `i` of `np.roll(np.arange(n), -1)`. -/
def next (n i : ℕ) : ℕ := if i + 1 = n then 0 else i + 1

/-- `get_ends`, first component, `mesh.py` 560-570. -/
def topFaces (n rows : ℕ) : List (ℕ × ℕ × ℕ) :=
  (List.range n).map fun i => (rows * n, i, next n i)

/-- `get_ends`, second component, `mesh.py` 572-578. -/
def bottomFaces (n rows : ℕ) : List (ℕ × ℕ × ℕ) :=
  (List.range n).map fun i => (rows * n + 1, (rows - 1) * n + next n i, (rows - 1) * n + i)

/-- The faces between rings, `mesh.py` 598-609: the array has shape `(6, n, rows - 1)`, so after
`.T.reshape(-1, 3)` ring gap is the outer and vertex the inner index, with two triangles each.
`lower[r] = r + r * (n - 1)` is `r * n`. -/
def sideFaces (n rows : ℕ) : List (ℕ × ℕ × ℕ) :=
  (List.range (rows - 1)).flatMap fun r => (List.range n).flatMap fun i =>
    [(i + r * n, i + (r + 1) * n, next n i + (r + 1) * n),
     (i + r * n, next n i + r * n, next n i + (r + 1) * n)]

/-- `get_faces`, `mesh.py` 583-613. -/
def getFaces (n rows : ℕ) : List (ℕ × ℕ × ℕ) :=
  topFaces n rows ++ sideFaces n rows ++ bottomFaces n rows

/-! ### Ring vertices -/

/-- Entry `j` of `np.linspace(0, 2π, n, endpoint=False)`, `mesh.py` 166. -/
noncomputable def lam (n j : ℕ) : ℝ := j * (2 * π / n)

/-- Semi-axis of the uncertainty edge, `mesh.py` 132-141, 149-161. -/
noncomputable def semiAxis (sd sigma radius Sm sigmaPa : ℝ) : ℝ :=
  sd * sigma + radius + Sm + sigmaPa / 2

/-- A vertex of the circle method in high side, lateral, along-hole coordinates,
`mesh.py` 120-122, 165-185. -/
noncomputable def circleVertex (radius : ℝ) (n j : ℕ) : Fin 3 → ℝ :=
  ![radius * cos (lam n j), radius * sin (lam n j), 0]

/-- A vertex of the ellipse method, `mesh.py` 165-185; `h`, `l` are the semi-axes and `θ` the
direction of the major axis, from the eigenvectors that `np.linalg.eigh` returns. -/
noncomputable def ellipseVertex (h l θ : ℝ) (n j : ℕ) : Fin 3 → ℝ :=
  let x := h * cos (lam n j)
  let y := l * sin (lam n j)
  ![x * cos θ - y * sin θ, x * sin θ + y * cos θ, 0]

/-- A vertex of the pedal-curve method for the angle `t`, `mesh.py` 201-212. -/
noncomputable def pedalVertex (h l t : ℝ) : Fin 3 → ℝ :=
  ![h * (l ^ 2 * cos t / (l ^ 2 * cos t ^ 2 + h ^ 2 * sin t ^ 2)),
    l * (h ^ 2 * sin t / (l ^ 2 * cos t ^ 2 + h ^ 2 * sin t ^ 2)), 0]

/-- A ring vertex in space, `mesh.py` 214-221. -/
noncomputable def placed (inc azi : ℝ) (nev w : Fin 3 → ℝ) : Fin 3 → ℝ :=
  hlaToNevVec inc azi w + nev

/-- The three methods, `mesh.py` 86-88. -/
inductive Method | circle | ellipse | pedalCurve
  deriving DecidableEq

/-- Number of vertices a ring gets: `np.linspace(..., n_verts)`, or two halves of
`int(n_verts / 2)` (`mesh.py` 166, 187-200). -/
def ringSize (m : Method) (nVerts : ℕ) : ℕ :=
  match m with
  | .pedalCurve => nVerts / 2 + nVerts / 2
  | _ => nVerts

/-- `rows = int(total_verts / self.n_verts)`, `mesh.py` 109-112. -/
def rowCount (m : Method) (nVerts stations : ℕ) : ℕ := stations * ringSize m nVerts / nVerts

/-! ### Alignment of rings -/

/-- The test for reversing a ring, `mesh.py` 274-277. -/
def reversed (n idxKey idxRotation : ℕ) : Bool :=
  decide ((idxRotation : ℤ) - idxKey < 0 ∧ 2 * |(idxRotation : ℤ) - idxKey| < n)

/-- The reordering of one ring in `_align_verts`, `mesh.py` 271-278; the two indices come from
nearest-neighbour queries. -/
def alignRing {α : Type*} (verts : List α) (idxKey idxRotation : ℕ) : List α :=
  let v := verts.drop idxKey ++ verts.take idxKey
  if reversed verts.length idxKey idxRotation then v.reverse else v

end Welleng.Mesh
