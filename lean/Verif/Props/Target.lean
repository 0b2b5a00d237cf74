import Verif.Model.Target

/-!
C49: which shapes can be constructed; C94: which targets can be drawn.
-/

namespace Welleng.Props

open Target

variable {V : Type}

/-- C49 is false for polygons: no geometry constructs one, although the shape is advertised. -/
theorem C49_polygon_fails (geometry : List (String × V)) :
    Target.init true "polygon" geometry = .error .key := by
  simp [Target.init, shapes, geometryKeys, List.lookup]

/-- The argument names of the three shapes that work. -/
def shapeArgs : List (String × List String) :=
  [("circle", ["radius"]), ("ellipse", ["radius_1", "radius_2", "res"]),
    ("rectangle", ["pos1", "pos2"])]

/-- C49, what holds: a circle, ellipse or rectangle is constructed from exactly its argument names,
in any order; every other set of arguments is rejected with an assertion. -/
theorem C49_shapes_partial {shape : String} {ks : List String} (hs : (shape, ks) ∈ shapeArgs)
    (geometry : List (String × V)) :
    ((∀ k, k ∈ geometry.map Prod.fst ↔ k ∈ ks) →
      Target.init true shape geometry = .ok ⟨shape, geometry⟩) ∧
    (¬ (∀ k, k ∈ geometry.map Prod.fst ↔ k ∈ ks) →
      Target.init true shape geometry = .error .assertion) := by
  have hk : geometryKeys shape = some ks ∧ shape ∈ shapes := by
    simp only [shapeArgs, List.mem_cons, Prod.mk.injEq, List.not_mem_nil, or_false] at hs
    rcases hs with ⟨rfl, rfl⟩ | ⟨rfl, rfl⟩ | ⟨rfl, rfl⟩ <;> decide
  constructor
  · intro h
    simp only [Target.init, hk.1, hk.2, not_true_eq_false, if_false]
    rw [if_pos ⟨fun k hk => (h k).mp hk, fun k hk => (h k).mpr hk⟩]
  · intro h
    simp only [Target.init, hk.1, hk.2, not_true_eq_false, if_false]
    rw [if_neg]
    rintro ⟨h1, h2⟩
    exact h fun k => ⟨h1 k, h2 k⟩

example : Target.init true "rectangle" [("pos2", (1 : ℕ)), ("pos1", 2)]
    = .ok ⟨"rectangle", [("pos2", 1), ("pos1", 2)]⟩ :=
  (C49_shapes_partial (ks := ["pos1", "pos2"]) (by decide) _).1 (by
    intro k; simp only [List.map_cons, List.map_nil, List.mem_cons, List.not_mem_nil, or_false]
    exact or_comm)

/-- C49: an unknown shape, or a missing vedo, is an assertion error. -/
theorem C49_rejects {vedo : Bool} {shape : String} (h : vedo = false ∨ shape ∉ shapes)
    (geometry : List (String × V)) : Target.init vedo shape geometry = .error .assertion := by
  rcases h with rfl | h
  · simp [Target.init]
  · cases vedo <;> simp [Target.init, h]

/-- C94, what holds: a circle that was constructed is drawn with its radius. -/
theorem C94_circle_partial {geometry : List (String × V)} {t : Target.Target V}
    (h : Target.init true "circle" geometry = .ok t) :
    ∃ r, ("radius", r) ∈ geometry ∧ plotData t = .ok r := by
  have hp := C49_shapes_partial (shape := "circle") (ks := ["radius"]) (by decide) geometry
  by_cases hc : ∀ k, k ∈ geometry.map Prod.fst ↔ k ∈ ["radius"]
  swap
  · rw [hp.2 hc] at h; simp at h
  rw [hp.1 hc] at h
  simp only [Except.ok.injEq] at h
  subst h
  have hm := (hc "radius").mpr (by simp)
  cases hl : geometry.lookup "radius" with
  | none =>
    exfalso
    rw [List.lookup_eq_none_iff] at hl
    obtain ⟨p, hp, hpe⟩ := List.mem_map.mp hm
    exact absurd (hl p hp) (by simp [hpe])
  | some r =>
    refine ⟨r, ?_, by simp [plotData, hl]⟩
    rw [List.lookup_eq_some_iff] at hl
    obtain ⟨l1, l2, hl, -⟩ := hl
    rw [hl]; simp

/-- C94 is false: no other target can be drawn. -/
theorem C94_others_fail {shape : String} (hs : shape ≠ "circle") {geometry : List (String × V)}
    {t : Target.Target V} (h : Target.init true shape geometry = .ok t) :
    plotData t = .error .unboundLocal := by
  have : t.shape = shape := by
    unfold Target.init at h
    split_ifs at h with h1 h2
    · cases hk : geometryKeys shape with
      | none => simp [hk] at h
      | some ks =>
        simp only [hk] at h
        split_ifs at h
        simp only [Except.ok.injEq] at h
        rw [← h]
  simp [plotData, this, hs]

/-- Such targets exist. -/
example : ∃ t, Target.init true "rectangle" [("pos2", (1 : ℕ)), ("pos1", 2)] = .ok t :=
  ⟨_, (C49_shapes_partial (ks := ["pos1", "pos2"]) (by decide) _).1 (by
    intro k; simp only [List.map_cons, List.map_nil, List.mem_cons, List.not_mem_nil, or_false]
    exact or_comm)⟩

end Welleng.Props
