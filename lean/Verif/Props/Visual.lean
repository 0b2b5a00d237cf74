import Verif.Model.Visual
import Mathlib.Tactic.Linarith

/-! C285, C286: the stored mesh of a well and its figure. -/

namespace Welleng.Props

open Welleng Mesh

/-- Place of a vertex of a ring in the list of vertices. -/
theorem flatten_ring {P : Type*} {n : ℕ} : ∀ {rings : List (List P)},
    (∀ r ∈ rings, r.length = n) → ∀ {k i : ℕ} {ring : List P}, rings[k]? = some ring → i < n →
      rings.flatten[k * n + i]? = ring[i]?
  | [], _, _, _, _, h, _ => by simp at h
  | r :: t, hn, 0, i, ring, h, hi => by
    have hr : r.length = n := hn r (by simp)
    simp only [List.getElem?_cons_zero, Option.some.injEq] at h
    subst h
    simp only [List.flatten_cons, zero_mul, zero_add]
    rw [List.getElem?_append_left (by omega)]
  | r :: t, hn, k + 1, i, ring, h, hi => by
    have hr : r.length = n := hn r (by simp)
    simp only [List.getElem?_cons_succ] at h
    simp only [List.flatten_cons]
    rw [List.getElem?_append_right (by rw [hr, Nat.succ_mul]; omega), hr,
      show (k + 1) * n + i - n = k * n + i by rw [Nat.succ_mul]; omega]
    exact flatten_ring (fun r hr => hn r (by simp [hr])) h hi

theorem flatten_length {P : Type*} {n : ℕ} {rings : List (List P)}
    (h : ∀ r ∈ rings, r.length = n) : rings.flatten.length = rings.length * n := by
  induction rings with
  | nil => simp
  | cons r t ih =>
    simp only [List.flatten_cons, List.length_append, List.length_cons]
    rw [ih fun r hr => h r (by simp [hr]), h r (by simp), Nat.succ_mul, add_comm]

theorem next_lt {n i : ℕ} (hi : i < n) : next n i < n := by unfold next; split_ifs <;> omega

/-- C286. In the mesh stored for a well every triangle refers to three vertices of the mesh, each
end is closed by triangles between the position of the well at that end and two neighbouring
vertices of the last ring there, and each pair of neighbouring rings is joined by two triangles
for each pair of neighbouring places. -/
theorem C286_stored_mesh {n : ℕ} {rings : List (List V3)} {nevs : List V3} {p q : V3}
    (hn : ∀ r ∈ rings, r.length = n) (hlen : nevs.length = rings.length)
    (hp : nevs.head? = some p) (hq : nevs.getLast? = some q) :
    let v := meshVertices rings nevs
    let faces := getFaces n rings.length
    let shows (a b c : V3) := ∃ f ∈ faces, v[f.1]? = some a ∧ v[f.2.1]? = some b ∧ v[f.2.2]? = some c
    (∀ f ∈ faces, ∃ a b c, v[f.1]? = some a ∧ v[f.2.1]? = some b ∧ v[f.2.2]? = some c) ∧
    (∀ ring, rings.head? = some ring → ∀ (i : ℕ) a b, ring[i]? = some a →
      ring[if i + 1 = n then 0 else i + 1]? = some b → shows p a b) ∧
    (∀ ring, rings.getLast? = some ring → ∀ (i : ℕ) a b, ring[i]? = some a →
      ring[if i + 1 = n then 0 else i + 1]? = some b → shows q b a) ∧
    ∀ (k i : ℕ) ring ring' a b a' b', rings[k]? = some ring → rings[k + 1]? = some ring' →
      ring[i]? = some a → ring[if i + 1 = n then 0 else i + 1]? = some b →
      ring'[i]? = some a' → ring'[if i + 1 = n then 0 else i + 1]? = some b' →
      shows a a' b' ∧ shows a b b' := by
  intro v faces shows
  have hfl := flatten_length hn
  have hvl : v.length = rings.length * n + 2 := by
    simp [v, meshVertices, hp, hq, hfl]
  have hring : ∀ {k i : ℕ} {ring : List V3}, rings[k]? = some ring → i < n →
      v[k * n + i]? = ring[i]? := by
    intro k i ring hk hi
    have hlt : k * n + i < rings.flatten.length := by
      have hk' := (List.getElem?_eq_some_iff.1 hk).1
      rw [hfl]
      calc k * n + i < (k + 1) * n := by rw [Nat.succ_mul]; omega
        _ ≤ rings.length * n := Nat.mul_le_mul_right _ hk'
    simp only [v, meshVertices, List.append_assoc]
    rw [List.getElem?_append_left hlt]
    exact flatten_ring hn hk hi
  have htop : v[rings.length * n]? = some p := by
    simp only [v, meshVertices, List.append_assoc]
    rw [List.getElem?_append_right (by rw [hfl]), hfl]
    simp [hp]
  have hbot : v[rings.length * n + 1]? = some q := by
    simp only [v, meshVertices, List.append_assoc]
    rw [List.getElem?_append_right (by rw [hfl]; omega), hfl]
    simp [hp, hq]
  have hlt : ∀ {ring : List V3} {k i : ℕ} {a : V3}, rings[k]? = some ring → ring[i]? = some a →
      i < n := fun hk hi => by
    rw [← hn _ (List.mem_of_getElem? hk)]
    exact (List.getElem?_eq_some_iff.1 hi).1
  refine ⟨?_, ?_, ?_, ?_⟩
  · intro f hf
    have hsome : ∀ i, i < rings.length * n + 2 → ∃ a, v[i]? = some a := fun i hi =>
      ⟨v[i]'(by omega), List.getElem?_eq_getElem _⟩
    have hin : ∀ {k i : ℕ}, k < rings.length → i < n → k * n + i < rings.length * n + 2 := by
      intro k i hk hi
      calc k * n + i < (k + 1) * n := by rw [Nat.succ_mul]; omega
        _ ≤ rings.length * n := Nat.mul_le_mul_right _ hk
        _ ≤ _ := by omega
    have hr0 : 0 < rings.length := by
      rw [← hlen]; cases nevs with
      | nil => simp at hp
      | cons => simp
    have : f.1 < rings.length * n + 2 ∧ f.2.1 < rings.length * n + 2 ∧
        f.2.2 < rings.length * n + 2 := by
      simp only [faces, getFaces, List.mem_append] at hf
      rcases hf with (hf | hf) | hf
      · simp only [topFaces, List.mem_map, List.mem_range] at hf
        obtain ⟨i, hi, rfl⟩ := hf
        have h1 := hin hr0 hi
        have h2 := hin hr0 (next_lt hi)
        simp only [zero_mul, zero_add] at h1 h2
        exact ⟨by simp, h1, h2⟩
      · simp only [sideFaces, List.mem_flatMap, List.mem_range, List.mem_cons, List.not_mem_nil,
          or_false] at hf
        obtain ⟨r, hr, i, hi, rfl | rfl⟩ := hf
        · have h1 := hin (show r < rings.length by omega) hi
          have h2 := hin (show r + 1 < rings.length by omega) hi
          have h3 := hin (show r + 1 < rings.length by omega) (next_lt hi)
          exact ⟨by rw [add_comm] at h1; exact h1, by rw [add_comm] at h2; exact h2,
            by rw [add_comm] at h3; exact h3⟩
        · have h1 := hin (show r < rings.length by omega) hi
          have h2 := hin (show r < rings.length by omega) (next_lt hi)
          have h3 := hin (show r + 1 < rings.length by omega) (next_lt hi)
          exact ⟨by rw [add_comm] at h1; exact h1, by rw [add_comm] at h2; exact h2,
            by rw [add_comm] at h3; exact h3⟩
      · simp only [bottomFaces, List.mem_map, List.mem_range] at hf
        obtain ⟨i, hi, rfl⟩ := hf
        exact ⟨by simp, hin (by omega) (next_lt hi), hin (by omega) hi⟩
    obtain ⟨a, ha⟩ := hsome _ this.1
    obtain ⟨b, hb⟩ := hsome _ this.2.1
    obtain ⟨c, hc⟩ := hsome _ this.2.2
    exact ⟨a, b, c, ha, hb, hc⟩
  · intro ring hr i a b ha hb
    have hk : rings[0]? = some ring := by rw [← hr]; cases rings <;> rfl
    have hi := hlt hk ha
    refine ⟨(rings.length * n, i, next n i), ?_, htop, ?_, ?_⟩
    · simp only [faces, getFaces, List.mem_append, topFaces, List.mem_map, List.mem_range]
      exact .inl (.inl ⟨i, hi, rfl⟩)
    · have := hring hk hi; rw [zero_mul, zero_add] at this; exact this.trans ha
    · have := hring hk (next_lt hi); rw [zero_mul, zero_add] at this; exact this.trans hb
  · intro ring hr i a b ha hb
    have hk : rings[rings.length - 1]? = some ring := by rw [← hr, List.getLast?_eq_getElem?]
    have hi := hlt hk ha
    refine ⟨(rings.length * n + 1, (rings.length - 1) * n + next n i, (rings.length - 1) * n + i),
      ?_, hbot, (hring hk (next_lt hi)).trans hb, (hring hk hi).trans ha⟩
    simp only [faces, getFaces, List.mem_append, bottomFaces, List.mem_map, List.mem_range]
    exact .inr ⟨i, hi, rfl⟩
  · intro k i ring ring' a b a' b' hk hk' ha hb ha' hb'
    have hi := hlt hk ha
    have hlen' := (List.getElem?_eq_some_iff.1 hk').1
    have e1 := (hring hk hi).trans ha
    have e2 := (hring hk (next_lt hi)).trans hb
    have e3 := (hring hk' hi).trans ha'
    have e4 := (hring hk' (next_lt hi)).trans hb'
    have hmem : ∀ f, f ∈ [(i + k * n, i + (k + 1) * n, next n i + (k + 1) * n),
        (i + k * n, next n i + k * n, next n i + (k + 1) * n)] → f ∈ faces := by
      intro f hf
      simp only [faces, getFaces, List.mem_append]
      exact .inl (.inr (List.mem_flatMap.2 ⟨k, List.mem_range.2 (by omega),
        List.mem_flatMap.2 ⟨i, List.mem_range.2 hi, hf⟩⟩))
    refine ⟨⟨_, hmem _ (.head _), ?_, ?_, ?_⟩, ⟨_, hmem _ (.tail _ (.head _)), ?_, ?_, ?_⟩⟩ <;>
      (dsimp only; rw [add_comm]; assumption)

/-- C285 is false: the figure of a mesh is given triangles whose corners are not among its points
(the two ends of the well), and with edges it is never made. -/
theorem C285_caps_missing {n : ℕ} {rings : List (List V3)} (h0 : 0 < n)
    (hn : ∀ r ∈ rings, r.length = n) :
    (∃ fig, mesh3d rings (getFaces n rings.length) false = .ok fig ∧
      ∀ i < n, ∃ f ∈ fig.faces, f.2.1 = i ∧ fig.points[f.1]? = none) ∧
    mesh3d rings (getFaces n rings.length) true = .error .indexError := by
  have hfl := flatten_length hn
  constructor
  · refine ⟨_, rfl, fun i hi => ⟨(rings.length * n, i, next n i), ?_, rfl, ?_⟩⟩
    · simp only [getFaces, List.mem_append, topFaces, List.mem_map, List.mem_range]
      exact .inl (.inl ⟨i, hi, rfl⟩)
    · rw [List.getElem?_eq_none_iff, List.length_map, hfl]
  · have : corners3 rings.flatten (getFaces n rings.length) = none := by
      obtain ⟨m, rfl⟩ : ∃ m, n = m + 1 := ⟨n - 1, by omega⟩
      unfold corners3 getFaces topFaces
      rw [List.range_succ_eq_map]
      simp [hfl]
    simp [mesh3d, this]

/-- C285, what holds: the figure has the vertices of the mesh with east first and north second, so
that every corner of a triangle other than the two ends of the well is drawn where it is. -/
theorem C285_wall_partial {n : ℕ} {rings : List (List V3)} {nevs : List V3}
    (hn : ∀ r ∈ rings, r.length = n) :
    ∃ fig, mesh3d rings (getFaces n rings.length) false = .ok fig ∧
      fig.faces = getFaces n rings.length ∧ fig.edges = none ∧
      (∀ i < rings.length * n, ∃ p, (meshVertices rings nevs)[i]? = some p ∧
        fig.points[i]? = some ⟨p.y, p.x, p.z⟩) := by
  have hfl := flatten_length hn
  refine ⟨_, rfl, rfl, rfl, fun i hi => ⟨rings.flatten[i]'(by omega), ?_, ?_⟩⟩
  · simp only [meshVertices, List.append_assoc]
    rw [List.getElem?_append_left (by omega), List.getElem?_eq_getElem (by omega)]
  · rw [List.getElem?_map, List.getElem?_eq_getElem (show i < rings.flatten.length by omega)]
    rfl

theorem corners3_cons (v : List V3) (f : ℕ × ℕ × ℕ) (fs : List (ℕ × ℕ × ℕ)) :
    corners3 v (f :: fs) = v[f.1]?.bind fun a => v[f.2.1]?.bind fun b => v[f.2.2]?.bind fun c =>
      (corners3 v fs).map fun l => a :: b :: c :: l := by
  unfold corners3
  simp only [List.flatMap_cons, List.cons_append, List.nil_append, List.mapM_cons,
    Option.bind_eq_bind, Option.pure_def]
  cases v[f.1]? <;> cases v[f.2.1]? <;> cases v[f.2.2]? <;>
    cases List.mapM (fun i => v[i]?) (List.flatMap (fun f => [f.1, f.2.1, f.2.2]) fs) <;> rfl

theorem corners3_some {v : List V3} {fs : List (ℕ × ℕ × ℕ)} :
    (∀ f ∈ fs, f.1 < v.length ∧ f.2.1 < v.length ∧ f.2.2 < v.length) →
    ∃ l, corners3 v fs = some l ∧ l.length = 3 * fs.length ∧ ∀ (k : ℕ) (f : ℕ × ℕ × ℕ),
      fs[k]? = some f → l[3 * k]? = v[f.1]? ∧ l[3 * k + 1]? = v[f.2.1]? ∧
        l[3 * k + 2]? = v[f.2.2]? := by
  induction fs with
  | nil => intro _; exact ⟨[], by simp [corners3], rfl, by simp⟩
  | cons f fs ih =>
    intro h
    obtain ⟨l, hl, h1, h2⟩ := ih fun g hg => h g (.tail _ hg)
    obtain ⟨ha, hb, hc⟩ := h f (.head _)
    refine ⟨v[f.1] :: v[f.2.1] :: v[f.2.2] :: l, ?_, by simp [h1]; ring, ?_⟩
    · rw [corners3_cons, hl, List.getElem?_eq_getElem ha, List.getElem?_eq_getElem hb,
        List.getElem?_eq_getElem hc]
      rfl
    · intro k g hg
      match k with
      | 0 =>
        simp only [List.getElem?_cons_zero, Option.some.injEq] at hg
        subst hg
        simp
      | k + 1 =>
        rw [List.getElem?_cons_succ] at hg
        have := h2 k g hg
        rw [show 3 * (k + 1) = 3 * k + 1 + 1 + 1 by ring,
          show 3 * k + 1 + 1 + 1 + 1 = (3 * k + 1) + 1 + 1 + 1 by ring,
          show 3 * k + 1 + 1 + 1 + 2 = (3 * k + 2) + 1 + 1 + 1 by ring]
        simpa only [List.getElem?_cons_succ] using this

/-- C285, what holds of the edges: for triangles between points that are drawn, the line of edges
runs through the three corners of each triangle in turn, drawn where the corners are. -/
theorem C285_edges_partial {rings : List (List V3)} {faces : List (ℕ × ℕ × ℕ)}
    (h : ∀ f ∈ faces, f.1 < rings.flatten.length ∧ f.2.1 < rings.flatten.length ∧
      f.2.2 < rings.flatten.length) :
    ∃ fig l, mesh3d rings faces true = .ok fig ∧ fig.faces = faces ∧ fig.edges = some l ∧
      fig.points.length = rings.flatten.length ∧ l.length = 3 * faces.length ∧
      ∀ (k : ℕ) (f : ℕ × ℕ × ℕ), faces[k]? = some f → l[3 * k]? = fig.points[f.1]? ∧
        l[3 * k + 1]? = fig.points[f.2.1]? ∧ l[3 * k + 2]? = fig.points[f.2.2]? := by
  obtain ⟨l, hl, h1, h2⟩ := corners3_some h
  refine ⟨⟨rings.flatten.map drawn, faces, some (l.map drawn)⟩, l.map drawn, ?_, rfl, rfl,
    List.length_map _,
    by simpa using h1, ?_⟩
  · simp [mesh3d, hl]
  · intro k f hf
    obtain ⟨a, b, c⟩ := h2 k f hf
    simp only [List.getElem?_map, a, b, c, and_self]

/-- A well of two stations with rings of three vertices. -/
def prismRings : List (List V3) :=
  [[⟨1, 0, 0⟩, ⟨0, 1, 0⟩, ⟨-1, -1, 0⟩], [⟨1, 0, 9⟩, ⟨0, 1, 9⟩, ⟨-1, -1, 9⟩]]

example : (∀ r ∈ prismRings, r.length = 3) ∧
    (meshVertices prismRings [⟨0, 0, 0⟩, ⟨0, 0, 9⟩]).length = 8 ∧
    (getFaces 3 prismRings.length).length = 12 := by
  refine ⟨?_, by simp [meshVertices, prismRings], by decide⟩
  intro r hr
  simp only [prismRings, List.mem_cons, List.not_mem_nil, or_false] at hr
  rcases hr with rfl | rfl <;> rfl

/-- The hypothesis of `C285_edges_partial` is met by the wall of that well. -/
example : ∀ f ∈ [((0 : ℕ), (1 : ℕ), (3 : ℕ)), (1, 4, 3)], f.1 < prismRings.flatten.length ∧
    f.2.1 < prismRings.flatten.length ∧ f.2.2 < prismRings.flatten.length := by
  simp [prismRings]

end Welleng.Props
