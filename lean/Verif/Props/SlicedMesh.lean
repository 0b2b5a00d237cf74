import Verif.Model.SlicedMesh
import Verif.Spec.SlicedMesh
import Mathlib.Tactic.Ring
import Mathlib.Tactic.FieldSimp
import Mathlib.Tactic.Linarith
import Mathlib.Data.List.Dedup

/-!
C245-C250: sliced meshes, transformed scenes and repaired faces.
-/

namespace Welleng.Props

open Welleng Welleng.Mesh

/-! ### C245 -/

theorem legs_split {S : Type*} : ∀ (k : ℕ) (l : List S),
    Spec.legs (l.take (k + 1)) ++ Spec.legs (l.drop k) = Spec.legs l
  | 0, l => by cases l <;> simp [Spec.legs]
  | k + 1, [] => by simp [Spec.legs]
  | k + 1, [a] => by simp [Spec.legs]
  | k + 1, a :: b :: t => by
    have h := legs_split k (b :: t)
    simp only [Spec.legs, List.take_succ_cons, List.drop_succ_cons, List.tail_cons,
      List.zip_cons_cons, List.cons_append] at h ⊢
    rw [h]

theorem pySlice_nat {S : Type*} (l : List S) (i j : ℕ) :
    pySlice l (i : ℤ) (j : ℤ) = (l.drop i).take (j - i) := by
  have hi : ¬ (i : ℤ) < 0 := by omega
  have hj : ¬ (j : ℤ) < 0 := by omega
  simp only [pySlice, if_neg hi, if_neg hj, Int.toNat_natCast]

/-- One pass that does not step back. -/
theorem slicePass_ok {S M : Type*} (edge : List S → Except SliceExc M) (method : String)
    (l : List S) (stop step i j : ℤ) (acc : List M) (m : M)
    (hj : sliceEnd stop step i = j) (hb : 2 ≤ j - i) (hm : sliceMesh edge method l i j = .ok m) :
    slicePass edge method l stop step (i, acc) =
      .ok (if j = stop then .inr (acc ++ [m]) else .inl (i + step, acc ++ [m])) := by
  have hback : stepsBack i j acc.length = false := by
    rw [stepsBack, decide_eq_false (by omega)]; rfl
  unfold slicePass
  simp only [hj, hback, Bool.false_eq_true, if_false, hm]

theorem slicePass_fails {S M : Type*} (edge : List S → Except SliceExc M) (method : String)
    (l : List S) (stop step : ℤ) (st : ℤ × List M)
    (h : ∀ i j, ∃ e, sliceMesh edge method l i j = .error e) :
    ∃ e, slicePass edge method l stop step st = .error e := by
  unfold slicePass
  dsimp only
  obtain ⟨e, he⟩ := h (if stepsBack st.1 (sliceEnd stop step st.1) st.2.length = true
    then st.1 - step else st.1) (sliceEnd stop step st.1)
  exact ⟨e, by rw [he]⟩

theorem sliceMesh_nat {S M : Type*} {edge : List S → Except SliceExc M} {f : List S → M}
    (he : ∀ p, 2 ≤ p.length → edge p = .ok (f p)) {method : String} (hm : method ∈ acceptedMethods)
    (l : List S) {i j : ℕ} (hij : i + 2 ≤ j) (hj : j ≤ l.length) :
    sliceMesh edge method l (i : ℤ) (j : ℤ) = .ok (f ((l.drop i).take (j - i))) := by
  have hlen : ((l.drop i).take (j - i)).length = j - i := by
    rw [List.length_take, List.length_drop]; omega
  have h2 := he ((l.drop i).take (j - i)) (by omega)
  unfold sliceMesh
  rw [pySlice_nat]
  generalize (l.drop i).take (j - i) = p at *
  cases p with
  | nil => simp at hlen; omega
  | cons a t => simp [hm, h2]

theorem sliceLoop_cuts {S M : Type*} {edge : List S → Except SliceExc M} {f : List S → M}
    (he : ∀ p, 2 ≤ p.length → edge p = .ok (f p)) {method : String} (hm : method ∈ acceptedMethods)
    (l : List S) {s k : ℕ} (hs : s ≤ l.length) (hk : 1 ≤ k) : ∀ (n i : ℕ) (acc : List M),
    s ≤ i + n → i + 2 ≤ s → ∃ parts, Spec.CutInto k ((l.drop i).take (s - i)) parts ∧
      ∀ fuel, n ≤ fuel → runLoop (slicePass edge method l (s : ℤ) (k : ℤ)) fuel ((i : ℤ), acc) =
        some (.ok (acc ++ parts.map f)) := by
  intro n
  induction n with
  | zero => intro i acc h h2; omega
  | succ n ih =>
    intro i acc h h2
    by_cases hj : s ≤ i + k + 1
    · refine ⟨[(l.drop i).take (s - i)], ⟨by simp, ?_, ?_, by simp⟩, ?_⟩
      · simp only [List.mem_singleton, forall_eq, List.length_take, List.length_drop]; omega
      · simp only [List.mem_singleton, forall_eq, List.length_take, List.length_drop]; omega
      · intro fuel hf
        obtain ⟨fuel, rfl⟩ : ∃ m, fuel = m + 1 := ⟨fuel - 1, by omega⟩
        have hjj : sliceEnd s k i = s := by
          unfold sliceEnd; split <;> omega
        rw [runLoop, slicePass_ok edge method l s k i s acc _ hjj (by omega)
          (sliceMesh_nat he hm l h2 hs)]
        simp only [if_true, List.map_cons, List.map_nil]
    · obtain ⟨parts, hc, hr⟩ := ih (i + k)
        (acc ++ [f ((l.drop i).take (k + 1))]) (by omega) (by omega)
      refine ⟨(l.drop i).take (k + 1) :: parts, ⟨?_, ?_, ?_, ?_⟩, ?_⟩
      · rw [List.map_cons, List.flatten_cons, hc.tile]
        have h3 := legs_split k ((l.drop i).take (s - i))
        rw [List.take_take, min_eq_left (by omega), List.drop_take, List.drop_drop] at h3
        rw [← h3, Nat.sub_sub]
      · intro p hp
        rcases List.mem_cons.mp hp with rfl | hp
        · simp only [List.length_take, List.length_drop]; omega
        · exact hc.nonempty p hp
      · intro p hp
        rcases List.mem_cons.mp hp with rfl | hp
        · simp only [List.length_take, List.length_drop]; omega
        · exact hc.short p hp
      · intro p hp
        cases parts with
        | nil => simp at hp
        | cons q t =>
          rw [List.dropLast_cons_cons] at hp
          rcases List.mem_cons.mp hp with rfl | hp
          · simp only [List.length_take, List.length_drop]; omega
          · exact hc.full p hp
      · intro fuel hf
        obtain ⟨fuel, rfl⟩ : ∃ m, fuel = m + 1 := ⟨fuel - 1, by omega⟩
        have hjj : sliceEnd s k i = ((i + k + 1 : ℕ) : ℤ) := by
          rw [sliceEnd, if_neg (by omega)]; push_cast; rfl
        have hne : ¬ ((i + k + 1 : ℕ) : ℤ) = (s : ℤ) := by omega
        have hsl := sliceMesh_nat he hm l (i := i) (j := i + k + 1) (by omega) (by omega)
        rw [show i + k + 1 - i = k + 1 by omega] at hsl
        rw [runLoop, slicePass_ok edge method l s k i _ acc _ hjj (by omega) hsl, if_neg hne]
        dsimp only
        have := hr fuel (by omega)
        rw [Nat.cast_add] at this
        rw [this]
        simp

/-- C245: with a method `WellMesh` knows, a step of at least one and at least two stations between
`start` and `stop`, the call ends, and the meshes it returns are those of consecutive pieces of the
survey: every leg between the two bounds lies in exactly one piece, in order, and every piece but
the last has `step` legs. -/
theorem C245_pieces {S M : Type*} {edge : List S → Except SliceExc M} {f : List S → M}
    (he : ∀ p, 2 ≤ p.length → edge p = .ok (f p)) {method : String}
    (hm : method = "ellipse" ∨ method = "pedal_curve" ∨ method = "circle")
    (l : List S) (start stop step : ℕ) (hs : stop ≤ l.length) (h2 : start + 2 ≤ stop)
    (hk : 1 ≤ step) :
    ∃ parts passes, Spec.CutInto step ((l.take stop).drop start) parts ∧
      ∀ fuel, passes ≤ fuel →
        slicedMesh edge l start stop step method fuel = some (.ok (parts.map f)) := by
  obtain ⟨parts, hc, hr⟩ := sliceLoop_cuts he (method := method)
    (by simpa [acceptedMethods] using hm) l hs hk stop start [] (by omega) h2
  refine ⟨parts, stop, ?_, ?_⟩
  · rwa [List.drop_take]
  · intro fuel hf
    have h := hr fuel hf
    unfold slicedMesh
    rw [if_neg (by omega), if_neg (by omega), h]
    rfl

/-- C245 for the default `stop`: the whole survey from `start` on. -/
theorem C245_to_the_end {S M : Type*} {edge : List S → Except SliceExc M} {f : List S → M}
    (he : ∀ p, 2 ≤ p.length → edge p = .ok (f p)) {method : String}
    (hm : method = "ellipse" ∨ method = "pedal_curve" ∨ method = "circle")
    (l : List S) (start step : ℕ) (h2 : start + 2 ≤ l.length) (hk : 1 ≤ step) :
    ∃ parts passes, Spec.CutInto step (l.drop start) parts ∧
      ∀ fuel, passes ≤ fuel →
        slicedMesh edge l start (-1) step method fuel = some (.ok (parts.map f)) := by
  obtain ⟨parts, p, hc, hr⟩ := C245_pieces he hm l start l.length step le_rfl h2 hk
  refine ⟨parts, p, by simpa using hc, fun fuel hf => ?_⟩
  have h := hr fuel hf
  unfold slicedMesh at h ⊢
  rw [if_neg (by omega), if_neg (by omega)] at h
  rw [if_neg (by omega), if_pos rfl, h]

/-- A stop beyond the survey is refused. -/
theorem C245_out_of_range {S M : Type*} (edge : List S → Except SliceExc M) (method : String)
    (l : List S) (start stop step : ℤ) (h : (l.length : ℤ) < stop) (fuel : ℕ) :
    slicedMesh edge l start stop step method fuel = some (.error .assertion) := by
  rw [slicedMesh, if_pos h]

/-- Five stations in pieces of two legs, and of three legs. -/
example : slicedMesh (S := ℕ) (M := List ℕ) .ok [0, 1, 2, 3, 4] 0 (-1) 2 "ellipse" 9 =
    some (.ok [[0, 1, 2], [2, 3, 4]]) := by decide

example : slicedMesh (S := ℕ) (M := List ℕ) .ok [0, 1, 2, 3, 4] 0 (-1) 3 "circle" 9 =
    some (.ok [[0, 1, 2, 3], [3, 4]]) := by decide

/-! ### C246 -/

/-- C246 holds when the method is given: see C245. -/
theorem C246_given_method_partial {S M : Type*} {edge : List S → Except SliceExc M}
    {f : List S → M} (he : ∀ p, 2 ≤ p.length → edge p = .ok (f p)) (l : List S)
    (h2 : 2 ≤ l.length) :
    ∃ passes, ∀ fuel, passes ≤ fuel →
      slicedMesh edge l 0 (-1) 1 "ellipse" fuel =
        some (.ok ((Spec.legs l).map fun ab => f [ab.1, ab.2])) := by
  obtain ⟨parts, p, hc, hr⟩ := C245_to_the_end he (Or.inl rfl) l 0 1 (by omega) le_rfl
  refine ⟨p, fun fuel hf => ?_⟩
  have h := hr fuel hf
  have h' : slicedMesh edge l 0 (-1) 1 "ellipse" fuel = some (.ok (parts.map f)) := by
    exact_mod_cast h
  rw [h']
  congr 2
  have hall : ∀ p ∈ parts, p.length = 2 := fun p hp => by
    have := hc.nonempty p hp
    have := hc.short p hp
    omega
  have ht : (parts.map Spec.legs).flatten = Spec.legs l := by simpa using hc.tile
  rw [← ht]
  clear ht hc hr h h' hf
  induction parts with
  | nil => rfl
  | cons q t ih =>
    have hq := hall q (by simp)
    match q, hq with
    | [a, b], _ =>
      rw [List.map_cons, List.map_cons, List.flatten_cons, List.map_append,
        ← ih fun p hp => hall p (List.mem_cons_of_mem _ hp)]
      simp [Spec.legs]

/-- C246 is false: with the default method no call returns meshes, whatever the survey and the
other arguments; for a survey with stations and the default bounds it fails in the check of the
method. -/
theorem C246_default_fails {S M : Type*} (edge : List S → Except SliceExc M) (l : List S) :
    (∀ start stop step fuel meshes,
      slicedMesh edge l start stop step defaultMethod fuel ≠ some (.ok meshes)) ∧
    (l ≠ [] → ∀ fuel, 0 < fuel →
      slicedMesh edge l 0 (-1) 1 defaultMethod fuel = some (.error .assertion)) := by
  have hno : ∀ i j, sliceMesh edge defaultMethod l i j = .error .index ∨
      sliceMesh edge defaultMethod l i j = .error .assertion := by
    intro i j
    unfold sliceMesh
    cases pySlice l i j with
    | nil => exact Or.inl rfl
    | cons a t => right; simp only; rw [if_neg (by decide)]
  constructor
  · intro start stop step fuel meshes
    unfold slicedMesh
    split
    · simp
    · cases fuel with
      | zero => simp [runLoop]
      | succ n =>
        obtain ⟨e, he⟩ := slicePass_fails edge defaultMethod l
          (if stop = -1 then (l.length : ℤ) else stop) step (start, [])
          fun i j => (hno i j).elim (fun h => ⟨_, h⟩) fun h => ⟨_, h⟩
        rw [runLoop, he]
        simp
  · intro hl fuel hf
    obtain ⟨n, rfl⟩ : ∃ m, fuel = m + 1 := ⟨fuel - 1, by omega⟩
    obtain ⟨a, t, rfl⟩ := List.exists_cons_of_ne_nil hl
    unfold slicedMesh
    rw [if_neg (by omega), if_pos rfl]
    have hx : ∃ k : ℕ, sliceEnd ((a :: t).length : ℤ) 1 0 = ((k + 1 : ℕ) : ℤ) := by
      unfold sliceEnd
      split
      · exact ⟨t.length, by simp⟩
      · exact ⟨1, by norm_num⟩
    obtain ⟨k, hk⟩ := hx
    have hs : ∃ u, pySlice (a :: t) 0 ((k + 1 : ℕ) : ℤ) = a :: u := by
      rw [show (0 : ℤ) = ((0 : ℕ) : ℤ) from rfl, pySlice_nat]
      exact ⟨_, rfl⟩
    obtain ⟨u, hu⟩ := hs
    have hm : sliceMesh edge defaultMethod (a :: t) 0 ((k + 1 : ℕ) : ℤ) = .error .assertion := by
      unfold sliceMesh
      rw [hu]
      dsimp only
      rw [if_neg (by decide)]
    have hback : stepsBack 0 ((k + 1 : ℕ) : ℤ) ([] : List M).length = false := by
      simp [stepsBack]
    have hp : slicePass edge defaultMethod (a :: t) ((a :: t).length : ℤ) 1 (0, []) =
        .error .assertion := by
      unfold slicePass
      simp only [hk, hback, Bool.false_eq_true, if_false, hm]
    rw [runLoop, hp]

/-! ### C247 -/

/-- C247 holds for a step of at least one: see C245. It is false for a step of zero: whatever the
number of passes, the call is still running, if a mesh can be made of a single station. -/
theorem C247_step_zero_forever {S M : Type*} {edge : List S → Except SliceExc M} {f : List S → M}
    (he : ∀ p, 1 ≤ p.length → edge p = .ok (f p)) (l : List S) (start stop : ℕ)
    (hs : stop ≤ l.length) (h2 : start + 2 ≤ stop) (fuel : ℕ) :
    slicedMesh edge l start stop 0 "ellipse" fuel = none := by
  have hsl : sliceMesh edge "ellipse" l (start : ℤ) ((start + 1 : ℕ) : ℤ)
      = .ok (f ((l.drop start).take 1)) := by
    have hlen : ((l.drop start).take 1).length = 1 := by
      rw [List.length_take, List.length_drop]; omega
    have h1 := he ((l.drop start).take 1) (by omega)
    unfold sliceMesh
    rw [pySlice_nat, show start + 1 - start = 1 by omega]
    generalize (l.drop start).take 1 = p at *
    cases p with
    | nil => simp at hlen
    | cons a t => simp [acceptedMethods, h1]
  have hloop : ∀ fuel acc, runLoop (slicePass edge "ellipse" l (stop : ℤ) 0) fuel ((start : ℤ), acc)
      = none := by
    intro fuel
    induction fuel with
    | zero => intro acc; rfl
    | succ n ih =>
      intro acc
      have hjj : sliceEnd stop 0 start = ((start + 1 : ℕ) : ℤ) := by
        rw [sliceEnd, if_neg (by omega)]; push_cast; ring
      have hne : ¬ ((start + 1 : ℕ) : ℤ) = (stop : ℤ) := by omega
      have hi : ∀ b : Bool, (if b = true then (start : ℤ) - 0 else (start : ℤ)) = (start : ℤ) := by
        intro b; cases b <;> simp
      have hp : ∃ acc', slicePass edge "ellipse" l stop 0 (start, acc)
          = .ok (.inl ((start : ℤ), acc')) := by
        unfold slicePass
        dsimp only
        rw [hi, hjj, hsl]
        dsimp only
        rw [if_neg hne, add_zero]
        exact ⟨_, rfl⟩
      obtain ⟨acc', hp⟩ := hp
      rw [runLoop, hp]
      exact ih _
  unfold slicedMesh
  rw [if_neg (by omega), if_neg (by omega)]
  exact hloop fuel []

/-- C247, the part that holds: a step of at least one. -/
theorem C247_ends_partial {S M : Type*} {edge : List S → Except SliceExc M} {f : List S → M}
    (he : ∀ p, 2 ≤ p.length → edge p = .ok (f p)) (l : List S) (start stop step : ℕ)
    (hs : stop ≤ l.length) (h2 : start + 2 ≤ stop) (hk : 1 ≤ step) :
    ∃ fuel meshes, slicedMesh edge l start stop step "ellipse" fuel = some (.ok meshes) := by
  obtain ⟨parts, p, -, h⟩ := C245_pieces he (Or.inl rfl) l start stop step hs h2 hk
  exact ⟨p, _, h p le_rfl⟩

/-! ### C248, C249 -/

/-- C248: for an origin given as a list or not given, the scene keeps its meshes, their names and
their triangles in order; the origin becomes zero, every distance is divided by the scale, and
every volume keeps its sign. -/
theorem C248_similarity (decimate : SceneMesh → ℤ → SceneMesh) (scene : List (String × SceneMesh))
    (o : V3) (origin : Origin) (ho : origin = .list o ∨ origin = .none ∧ o = ⟨0, 0, 0⟩)
    (scale redux : ℝ) (hs : 0 < scale) :
    ∃ g : V3 → V3, g o = ⟨0, 0, 0⟩ ∧
      (∀ p q, Spec.dist2 (g p) (g q) = Spec.dist2 p q / scale ^ 2) ∧
      (∀ a p q r, Spec.signedVolume (g a) (g p) (g q) (g r)
        = Spec.signedVolume a p q r / scale ^ 3) ∧
      transformScene decimate scene origin scale redux =
        .ok (scene.map fun kv => (kv.1, ⟨kv.2.vertices.map g, kv.2.faces⟩)) := by
  refine ⟨moveVertex o scale, ?_, ?_, ?_, ?_⟩
  · ext <;> simp [moveVertex]
  · intro p q
    simp only [Spec.dist2, moveVertex]
    field_simp
    ring
  · intro a p q r
    simp only [Spec.signedVolume, moveVertex]
    field_simp
    ring
  · rcases ho with rfl | ⟨rfl, rfl⟩ <;> simp [transformScene, originVec, moveMesh]

/-- C249 holds for a list, and is false for an array: the call fails, whatever the scene. -/
theorem C249_array_fails (decimate : SceneMesh → ℤ → SceneMesh) (scene : List (String × SceneMesh))
    (o : V3) (scale redux : ℝ) :
    transformScene decimate scene (.array o) scale redux = .error .value := rfl

/-- C249, the part that holds: an origin given as a list, or none. -/
theorem C249_list_partial (decimate : SceneMesh → ℤ → SceneMesh) (scene : List (String × SceneMesh))
    (o : V3) (scale redux : ℝ) :
    ∃ out out', transformScene decimate scene (.list o) scale redux = .ok out ∧
      transformScene decimate scene .none scale redux = .ok out' ∧
      out.map (·.1) = scene.map (·.1) ∧ out'.map (·.1) = scene.map (·.1) := by
  refine ⟨_, _, rfl, rfl, ?_, ?_⟩ <;> simp [Function.comp_def]

/-- A vertex two metres east of the origin in a scene at scale 2. -/
example : moveVertex ⟨1, 0, 5⟩ 2 ⟨1, 2, 5⟩ = ⟨0, 0, 1⟩ := by
  ext <;> norm_num [moveVertex]

/-! ### C250 -/

/-- C250 is false: whatever the decimation does, the transformed scene has the triangles of the
given one, for every ratio. -/
theorem C250_not_reduced (decimate : SceneMesh → ℤ → SceneMesh)
    (scene out : List (String × SceneMesh)) (origin : Origin) (scale redux : ℝ)
    (h : transformScene decimate scene origin scale redux = .ok out) :
    out.map (fun kv => kv.2.faces) = scene.map fun kv => kv.2.faces := by
  cases origin <;> simp only [transformScene, originVec, Except.ok.injEq, reduceCtorEq] at h
  all_goals subst h; simp [moveMesh, Function.comp_def]

/-- So with the default ratio of a quarter, a mesh with triangles keeps more than a quarter of
them. -/
theorem C250_quarter (decimate : SceneMesh → ℤ → SceneMesh) (name : String) (m : SceneMesh)
    (hm : m.faces ≠ []) :
    ∃ m', transformScene decimate [(name, m)] .none 100 (1 / 4) = .ok [(name, m')] ∧
      (1 / 4 : ℝ) * m.faces.length < m'.faces.length := by
  refine ⟨_, rfl, ?_⟩
  have : 0 < m.faces.length := List.length_pos_of_ne_nil hm
  have h' : (0 : ℝ) < m.faces.length := by exact_mod_cast this
  simp only [moveMesh]
  linarith

/-- C250, the part that holds: with a ratio of one nothing is to be removed, and nothing is. -/
theorem C250_ratio_one_partial (decimate : SceneMesh → ℤ → SceneMesh) (name : String)
    (m : SceneMesh) (scale : ℝ) :
    ∃ m', transformScene decimate [(name, m)] .none scale 1 = .ok [(name, m')] ∧
      (m'.faces.length : ℝ) = 1 * m.faces.length := by
  refine ⟨_, rfl, by simp [moveMesh]⟩

/-! ### C251 -/

/-- C251: the repaired mesh has every triangle with three different corners of the given one
exactly once, and no other. -/
theorem C251_faces (faces : List (ℕ × ℕ × ℕ)) :
    (goodFaces faces).Nodup ∧ ∀ a b c, (a, b, c) ∈ goodFaces faces ↔
      (a, b, c) ∈ faces ∧ a ≠ b ∧ a ≠ c ∧ b ≠ c := by
  refine ⟨(List.nodup_dedup faces).filter _, fun a b c => ?_⟩
  simp [goodFaces, flatFace, List.mem_filter, and_assoc]

example : goodFaces [(0, 1, 2), (1, 1, 2), (0, 1, 2), (0, 2, 1)] = [(0, 1, 2), (0, 2, 1)] := by
  decide

end Welleng.Props
