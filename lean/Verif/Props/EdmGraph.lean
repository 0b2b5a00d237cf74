import Verif.Model.EdmGraph
import Verif.Props.EdmSurvey

/-!
C254-C256: tags, the wellbore graph and the look-up of a wellbore in an EDM file.
-/

namespace Welleng.Props

open Welleng Welleng.Edm

/-! ### C254 -/

/-- C254: the tags are those of the document, each once, in increasing order. -/
theorem C254_tags (root : List Node) :
    (∀ t, t ∈ getTags root ↔ ∃ c ∈ root, c.tag = t) ∧ (getTags root).Pairwise (· < ·) := by
  have hp : (getTags root).Perm (root.map (·.tag)).dedup := List.mergeSort_perm _ _
  refine ⟨fun t => by rw [hp.mem_iff, List.mem_dedup, List.mem_map], ?_⟩
  have hle : (getTags root).Pairwise fun a b => decide (a ≤ b) = true :=
    List.pairwise_mergeSort (le := fun a b : String => decide (a ≤ b))
      (fun a b c h1 h2 => by simpa using le_trans (by simpa using h1) (by simpa using h2))
      (fun a b => by simpa using le_total a b) _
  have hnd : (getTags root).Pairwise (· ≠ ·) := hp.nodup_iff.mpr (List.nodup_dedup _)
  exact (hle.and hnd).imp fun {a b} h => lt_of_le_of_ne (by simpa using h.1) h.2

example : getTags [⟨"CD_WELL", []⟩, ⟨"CD_CASE", []⟩, ⟨"CD_WELL", []⟩] = ["CD_CASE", "CD_WELL"] := by
  simp [getTags, List.mergeSort, List.MergeSort.Internal.splitInTwo]

/-! ### C255 -/

theorem graph_fold (l : List Bore) (g : Graph) :
    (∀ x, x ∈ (l.foldl addWellbore g).nodes ↔
      x ∈ g.nodes ∨ ∃ b ∈ l, x = b.id ∨ b.parent = some x) ∧
    (∀ e, e ∈ (l.foldl addWellbore g).edges ↔
      e ∈ g.edges ∨ ∃ b ∈ l, b.parent = some e.1 ∧ b.id = e.2) := by
  induction l generalizing g with
  | nil => simp
  | cons b t ih =>
    obtain ⟨h1, h2⟩ := ih (addWellbore g b)
    rw [List.foldl_cons]
    constructor
    · intro x
      rw [h1]
      simp only [addWellbore]
      cases hb : b.parent with
      | none => simp [hb, or_assoc]
      | some p =>
        simp only [List.mem_append, List.mem_cons, List.not_mem_nil, or_false, hb,
          Option.some.injEq, exists_eq_or_imp]
        constructor
        · rintro ((h | h | h) | h)
          · exact .inl h
          · exact .inr (.inl (.inr h.symm))
          · exact .inr (.inl (.inl h))
          · exact .inr (.inr h)
        · rintro (h | (h | h) | h)
          · exact .inl (.inl h)
          · exact .inl (.inr (.inr h))
          · exact .inl (.inr (.inl h.symm))
          · exact .inr h
    · intro e
      rw [h2]
      simp only [addWellbore]
      cases hb : b.parent with
      | none => simp [hb]
      | some p =>
        simp only [List.mem_append, List.mem_singleton, List.mem_cons, List.not_mem_nil, or_false,
          exists_eq_or_imp, hb,
          Option.some.injEq, or_assoc]
        refine or_congr_right (or_congr_left ⟨?_, ?_⟩)
        · rintro rfl; exact ⟨rfl, rfl⟩
        · rintro ⟨h1, h2⟩; exact Prod.ext h1.symm h2.symm

/-- C255, what holds: when all wellbore names differ, the nodes of the graph are the wellbores and
their parents, and two nodes are joined exactly when one is the parent of the other. -/
theorem C255_distinct_names_partial {root : List Bore} (hn : (root.map (·.name)).Nodup) :
    (∀ x, x ∈ (wellboreGraph root).nodes ↔ ∃ b ∈ root, x = b.id ∨ b.parent = some x) ∧
    (∀ x y, (wellboreGraph root).joins x y ↔
      (∃ b ∈ root, b.parent = some x ∧ b.id = y) ∨ ∃ b ∈ root, b.parent = some y ∧ b.id = x) := by
  have hg : wellboreGraph root = root.foldl addWellbore ⟨[], []⟩ := by
    rw [wellboreGraph, wellboreIds_distinct hn, List.foldl_map]
  obtain ⟨h1, h2⟩ := graph_fold root ⟨[], []⟩
  rw [hg]
  refine ⟨fun x => by rw [h1]; simp, fun x y => ?_⟩
  unfold Graph.joins
  rw [h2, h2]
  simp

/-- C255 is false: of two wellbores with the same name, of different wells, the first is missing
from the graph, and so is its edge. -/
theorem C255_same_name_lost :
    let root : List Bore :=
      [⟨"1", "Main", none⟩, ⟨"2", "ST1", some "1"⟩, ⟨"3", "Other", none⟩, ⟨"4", "ST1", some "3"⟩]
    "2" ∉ (wellboreGraph root).nodes ∧ ¬ (wellboreGraph root).joins "1" "2" := by
  refine ⟨by decide +kernel, ?_⟩
  unfold Graph.joins
  decide +kernel

/-- The hypotheses of the partial theorem are met by a sidetrack. -/
example : ([⟨"1", "Main", none⟩, ⟨"2", "ST1", some "1"⟩] : List Bore).map (·.name) |>.Nodup := by
  decide

/-! ### C256 -/

/-- C256, what holds: with names and identifiers all different, asking by identifier and asking by
name give the same wellbore. -/
theorem C256_same_wellbore_partial {root : List Bore} (hn : (root.map (·.name)).Nodup)
    (hi : (root.map (·.id)).Nodup) {b : Bore} (hb : b ∈ root) :
    resolve root b.id false = some (b.id, b.name) ∧
      resolve root b.name true = some (b.id, b.name) := by
  obtain ⟨h1, h2⟩ := C85_distinct_names_partial hn hi hb
  simp [resolve, h1, h2]

/-- C256 is false: of two wellbores with the same name the first cannot be reached, neither by its
identifier (an exception) nor by its name (the other wellbore is returned). -/
theorem C256_unreachable :
    let root : List Bore := [⟨"1", "Wellbore #1", none⟩, ⟨"2", "Wellbore #1", none⟩]
    resolve root "1" false = none ∧ resolve root "Wellbore #1" true = some ("2", "Wellbore #1") := by
  decide +kernel

end Welleng.Props
