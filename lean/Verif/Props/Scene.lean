import Verif.Model.Scene

/-!
C364: the scene of a set of well meshes.
-/

namespace Welleng.Props

open Welleng Mesh

theorem lookup_of_mem {items : List (String × SceneMesh)} (hn : (items.map Prod.fst).Nodup)
    {x : String × SceneMesh} (hx : x ∈ items) : items.lookup x.1 = some x.2 := by
  induction items with
  | nil => simp at hx
  | cons y ys ih =>
    rw [List.map_cons, List.nodup_cons] at hn
    rcases List.mem_cons.mp hx with rfl | h
    · simp [List.lookup]
    · have : x.1 ≠ y.1 := fun h' => hn.1 (h' ▸ List.mem_map_of_mem h)
      rw [List.lookup, beq_false_of_ne this]
      exact ih hn.2 h

theorem sceneLoop_ok {items : List (String × SceneMesh)} (hn : (items.map Prod.fst).Nodup) :
    ∀ (rest scene : List (String × SceneMesh)), (∀ x ∈ rest, x ∈ items) →
      sceneLoop items (rest.map Prod.fst) scene = .ok (scene ++ rest)
  | [], scene, _ => by simp [sceneLoop]
  | x :: rest, scene, h => by
    rw [List.map_cons, sceneLoop, lookup_of_mem hn (h x (by simp))]
    show sceneLoop items (rest.map Prod.fst) (scene ++ [(x.1, x.2)]) = _
    rw [sceneLoop_ok hn rest _ fun y hy => h y (by simp [hy])]
    simp

/-- **C364** (partial) Given a dictionary, `make_trimesh_scene` returns a scene with each mesh once, under its
own name. -/
theorem C364_dictionary_partial {items : List (String × SceneMesh)} (hn : (items.map Prod.fst).Nodup) :
    makeScene (.dict items) = .ok items := by
  rw [makeScene, sceneLoop_ok hn items [] fun _ h => h, List.nil_append]

/-- **C364** is false of the code: every list of well meshes but the empty one, which is what the
documentation asks for, ends in a TypeError. -/
theorem C364_list_fails {meshes : List SceneMesh} (h : meshes ≠ []) :
    makeScene (.list meshes) = .error .typeError := by
  cases meshes with
  | nil => exact absurd rfl h
  | cons m ms => rfl

example : (([("A", ⟨[], []⟩), ("B", ⟨[⟨0, 0, 1⟩], []⟩)] : List (String × SceneMesh)).map Prod.fst).Nodup := by
  simp

end Welleng.Props
