import Verif.Model.Vec

/-!
Specifications for sliced meshes and transformed scenes.
-/

namespace Welleng.Spec

/-- The legs of a list of stations: its consecutive pairs. -/
def legs {S : Type*} (l : List S) : List (S × S) := l.zip l.tail

/-- `parts` cuts `l` into pieces of `k` legs: every leg of `l` is in exactly one piece, in order;
every piece has at least one leg and at most `k`, and all but the last have `k`. -/
structure CutInto {S : Type*} (k : ℕ) (l : List S) (parts : List (List S)) : Prop where
  tile : (parts.map legs).flatten = legs l
  nonempty : ∀ p ∈ parts, 2 ≤ p.length
  short : ∀ p ∈ parts, p.length ≤ k + 1
  full : ∀ p ∈ parts.dropLast, p.length = k + 1

/-- The squared distance between two points. -/
def dist2 (p q : V3) : ℝ := (p.x - q.x) ^ 2 + (p.y - q.y) ^ 2 + (p.z - q.z) ^ 2

/-- Six times the signed volume of a tetrahedron with a corner at the first point. -/
def signedVolume (o p q r : V3) : ℝ :=
  (p.x - o.x) * ((q.y - o.y) * (r.z - o.z) - (q.z - o.z) * (r.y - o.y))
    - (p.y - o.y) * ((q.x - o.x) * (r.z - o.z) - (q.z - o.z) * (r.x - o.x))
    + (p.z - o.z) * ((q.x - o.x) * (r.y - o.y) - (q.y - o.y) * (r.x - o.x))

end Welleng.Spec
