import Mathlib.Data.List.Basic

/-! Triangulated surfaces given by vertex indices. -/

namespace Welleng.Spec

/-- A triangle, as three vertex indices in order. -/
abbrev Tri := ℕ × ℕ × ℕ

/-- The three directed edges of a triangle. -/
def Tri.edges (t : Tri) : List (ℕ × ℕ) := [(t.1, t.2.1), (t.2.1, t.2.2), (t.2.2, t.1)]

/-- The triangle runs along the edge from `u` to `v`. -/
def Tri.runs (u v : ℕ) (t : Tri) : Bool := t.edges.contains (u, v)

/-- Every edge of every triangle belongs to exactly two triangles of the list. -/
def Watertight (l : List Tri) : Prop :=
  ∀ t ∈ l, ∀ e ∈ t.edges, e.1 ≠ e.2 ∧ l.countP (fun g => g.runs e.1 e.2 || g.runs e.2 e.1) = 2

/-- Two triangles that share an edge run along it in opposite directions. -/
def Oriented (l : List Tri) : Prop :=
  ∀ t ∈ l, ∀ e ∈ t.edges, l.countP (fun g => g.runs e.1 e.2) = 1 ∧
    l.countP (fun g => g.runs e.2 e.1) = 1

end Welleng.Spec
