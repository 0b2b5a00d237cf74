import Verif.Model.Mesh
import Verif.Model.Visual
import Mathlib.Tactic.Ring
import Mathlib.Tactic.Linarith

/-! C402: the mesh of a well that is drilled on (`/repo/welleng/mesh.py` 288-304, 560-613). -/

namespace Welleng.Props

open Welleng Welleng.Mesh

/-- The corner points of a triangle. -/
def cornersOf (vertices : List V3) (f : ℕ × ℕ × ℕ) : Option V3 × Option V3 × Option V3 :=
  (vertices[f.1]?, vertices[f.2.1]?, vertices[f.2.2]?)

/-- The triangles of the mesh of a well, as points in space: `n` vertices for every ring. -/
def triangles (n : ℕ) (rings : List (List V3)) (nevs : List V3) :
    List (Option V3 × Option V3 × Option V3) :=
  (getFaces n rings.length).map (cornersOf (meshVertices rings nevs))

theorem ring_next_lt {n i : ℕ} (h : i < n) : next n i < n := by
  unfold next; split <;> omega

theorem rings_flatten_length {n : ℕ} : ∀ {rings : List (List V3)}, (∀ r ∈ rings, r.length = n) →
    rings.flatten.length = rings.length * n
  | [], _ => by simp
  | r :: t, h => by
    rw [List.flatten_cons, List.length_append, rings_flatten_length fun r hr => h r (by simp [hr]),
      h r (by simp), List.length_cons]
    ring

theorem meshVertices_ring {n : ℕ} {rings more : List (List V3)} (h : ∀ r ∈ rings, r.length = n)
    (nevs nevs' : List V3) {j : ℕ} (hj : j < rings.length * n) :
    (meshVertices (rings ++ more) nevs')[j]? = (meshVertices rings nevs)[j]? := by
  have hl := rings_flatten_length h
  unfold meshVertices
  rw [List.flatten_append]
  simp only [List.append_assoc]
  rw [List.getElem?_append_left (by omega), List.getElem?_append_left (by omega)]

theorem meshVertices_head {n : ℕ} {rings : List (List V3)} (h : ∀ r ∈ rings, r.length = n)
    {p : V3} {nevs : List V3} (hp : nevs.head? = some p) :
    (meshVertices rings nevs)[rings.length * n]? = some p := by
  have hl := rings_flatten_length h
  unfold meshVertices
  rw [List.append_assoc, List.getElem?_append_right (by omega), hl, hp]
  simp

theorem sideFaces_add (n rows k : ℕ) (hr : 0 < rows) :
    ∃ t, sideFaces n (rows + k) = sideFaces n rows ++ t ∧ t.length = k * (n * 2) := by
  obtain ⟨m, rfl⟩ : ∃ m, rows = m + 1 := ⟨rows - 1, by omega⟩
  unfold sideFaces
  rw [show m + 1 + k - 1 = m + k by omega, show m + 1 - 1 = m by omega, List.range_add,
    List.flatMap_append]
  refine ⟨_, rfl, ?_⟩
  simp [List.length_flatMap, Function.comp_def]

theorem sideFaces_bound {n rows : ℕ} {f : ℕ × ℕ × ℕ} (hf : f ∈ sideFaces n rows) :
    f.1 < rows * n ∧ f.2.1 < rows * n ∧ f.2.2 < rows * n := by
  unfold sideFaces at hf
  simp only [List.mem_flatMap, List.mem_range, List.mem_cons, List.not_mem_nil, or_false] at hf
  obtain ⟨r, hr, i, hi, hf⟩ := hf
  have hn := ring_next_lt hi
  have h2 : (r + 2) * n ≤ rows * n := Nat.mul_le_mul_right _ (by omega)
  have e1 : (r + 1) * n = r * n + n := by ring
  have e2 : (r + 2) * n = r * n + n + n := by ring
  rcases hf with rfl | rfl <;> simp only <;> omega

/-- **C402** Drilling on leaves the mesh above alone: of the triangles of a well's mesh only the
`n` that close its lower end disappear when the well is drilled on; the others are triangles of the
new mesh, in the same order, followed by `2 * n` for every new ring and `n` for the new end. -/
theorem C402_drilled_on {n : ℕ} {rings more : List (List V3)} {nevs moreNevs : List V3}
    (h : ∀ r ∈ rings, r.length = n) (h' : ∀ r ∈ more, r.length = n) (hr : rings ≠ [])
    (hn : nevs ≠ []) :
    ∃ kept lower new lower', triangles n rings nevs = kept ++ lower ∧
      triangles n (rings ++ more) (nevs ++ moreNevs) = kept ++ new ++ lower' ∧
      lower.length = n ∧ lower'.length = n ∧ new.length = more.length * (n * 2) := by
  have hpos : 0 < rings.length := List.length_pos_of_ne_nil hr
  obtain ⟨t, ht, htl⟩ := sideFaces_add n rings.length more.length hpos
  have hall : ∀ r ∈ rings ++ more, r.length = n := by
    intro r hr
    rcases List.mem_append.1 hr with hr | hr
    exacts [h r hr, h' r hr]
  obtain ⟨p, ps, rfl⟩ : ∃ p ps, nevs = p :: ps := List.exists_cons_of_ne_nil hn
  have hlen : (rings ++ more).length = rings.length + more.length := List.length_append
  have etop : (topFaces n (rings ++ more).length).map
      (cornersOf (meshVertices (rings ++ more) (p :: ps ++ moreNevs)))
      = (topFaces n rings.length).map (cornersOf (meshVertices rings (p :: ps))) := by
    unfold topFaces
    rw [List.map_map, List.map_map]
    refine List.map_congr_left fun i hi => ?_
    rw [List.mem_range] at hi
    have hn1 := ring_next_lt hi
    have hb : n ≤ rings.length * n := Nat.le_mul_of_pos_left n hpos
    simp only [Function.comp_apply, cornersOf]
    rw [meshVertices_head hall rfl, meshVertices_head h rfl,
      meshVertices_ring h _ _ (by omega), meshVertices_ring h _ _ (by omega)]
  have eside : (sideFaces n rings.length).map
      (cornersOf (meshVertices (rings ++ more) (p :: ps ++ moreNevs)))
      = (sideFaces n rings.length).map (cornersOf (meshVertices rings (p :: ps))) := by
    refine List.map_congr_left fun f hf => ?_
    obtain ⟨b1, b2, b3⟩ := sideFaces_bound hf
    simp only [cornersOf]
    rw [meshVertices_ring h _ _ b1, meshVertices_ring h _ _ b2, meshVertices_ring h _ _ b3]
  refine ⟨_, _, t.map (cornersOf (meshVertices (rings ++ more) (p :: ps ++ moreNevs))),
    (bottomFaces n (rings ++ more).length).map
      (cornersOf (meshVertices (rings ++ more) (p :: ps ++ moreNevs))),
    by rw [triangles, getFaces, List.map_append], ?_, by simp [bottomFaces], by simp [bottomFaces],
    by rw [List.length_map, htl]⟩
  rw [triangles, getFaces, List.map_append, List.map_append, etop, List.map_append, ← eside, hlen,
    ht, List.map_append]
  simp only [List.append_assoc]

/-- Non-vacuity: a well of two rings with three vertices each, drilled on by one ring. -/
example : ∃ kept lower new lower',
    triangles 3 [[0, 0, 0], [0, 0, 0]] [0, 0] = kept ++ lower ∧
    triangles 3 ([[0, 0, 0], [0, 0, 0]] ++ [[0, 0, 0]]) ([0, 0] ++ [0]) = kept ++ new ++ lower' ∧
    lower.length = 3 ∧ lower'.length = 3 ∧ new.length = 6 :=
  C402_drilled_on (by simp) (by simp) (by simp) (by simp)

end Welleng.Props
