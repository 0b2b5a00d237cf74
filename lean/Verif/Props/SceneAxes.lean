import Verif.Props.SlicedMesh

/-!
C419: the axes of a transformed scene.
-/

namespace Welleng.Props

open Welleng Welleng.Mesh

/-- **C419** For an origin given as a list or not given, a vertex `a` along the first axis, `b`
along the second and `depth` below the origin is shown `a` along the first axis, at height
`-depth` on the second and `b` along the third, all divided by the scale. -/
theorem C419_axes (decimate : SceneMesh → ℤ → SceneMesh) (scene : List (String × SceneMesh))
    (o : V3) (origin : Origin) (ho : origin = .list o ∨ origin = .none ∧ o = ⟨0, 0, 0⟩)
    (scale redux : ℝ) :
    ∃ g : V3 → V3,
      (∀ a b depth : ℝ, g ⟨o.x + a, o.y + b, o.z + depth⟩
        = ⟨a / scale, -depth / scale, b / scale⟩) ∧
      transformScene decimate scene origin scale redux =
        .ok (scene.map fun kv => (kv.1, ⟨kv.2.vertices.map g, kv.2.faces⟩)) := by
  refine ⟨moveVertex o scale, fun a b depth => ?_, ?_⟩
  · simp only [moveVertex, add_sub_cancel_left]
  · rcases ho with rfl | ⟨rfl, rfl⟩ <;> simp [transformScene, originVec, moveMesh]

/-- **C419** With a positive scale, of two vertices of a mesh the deeper one is shown lower. -/
theorem C419_deeper_is_lower (decimate : SceneMesh → ℤ → SceneMesh)
    (scene : List (String × SceneMesh)) (o : V3) (origin : Origin)
    (ho : origin = .list o ∨ origin = .none ∧ o = ⟨0, 0, 0⟩) (scale redux : ℝ) (hs : 0 < scale) :
    ∃ g : V3 → V3, (∀ p q : V3, p.z < q.z ↔ (g q).y < (g p).y) ∧
      transformScene decimate scene origin scale redux =
        .ok (scene.map fun kv => (kv.1, ⟨kv.2.vertices.map g, kv.2.faces⟩)) := by
  obtain ⟨g, h, hg⟩ := C419_axes decimate scene o origin ho scale redux
  refine ⟨g, fun p q => ?_, hg⟩
  have hp : ∀ p : V3, (g p).y = -(p.z - o.z) / scale := fun p => by
    have := congrArg V3.y (h (p.x - o.x) (p.y - o.y) (p.z - o.z))
    simpa only [add_sub_cancel] using this
  rw [hp, hp, div_lt_div_iff_of_pos_right hs]
  constructor <;> intro _ <;> linarith

/-- C419: a mesh with two vertices, the second 10 deeper, shown from an origin at scale 2. -/
example (decimate : SceneMesh → ℤ → SceneMesh) : ∃ g : V3 → V3,
    (∀ p q : V3, p.z < q.z ↔ (g q).y < (g p).y) ∧
      transformScene decimate [("well", ⟨[⟨1, 2, 5⟩, ⟨1, 2, 15⟩], []⟩)] (.list ⟨1, 0, 5⟩) 2 0.25 =
        .ok [("well", ⟨[g ⟨1, 2, 5⟩, g ⟨1, 2, 15⟩], []⟩)] :=
  C419_deeper_is_lower decimate [("well", ⟨[⟨1, 2, 5⟩, ⟨1, 2, 15⟩], []⟩)] ⟨1, 0, 5⟩ _ (.inl rfl) 2 0.25
    (by norm_num)

end Welleng.Props
