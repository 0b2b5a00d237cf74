import Verif.Model.IndexEntry
import Verif.Props.EdmSurvey

/-!
C373: a tool added to the index of tool models.
-/

namespace Welleng.Props

open Ingest Extract Err
open Edm (dictSet)

/-- The value beside the last row with this label (without colons and brackets), if there is one. -/
def lastLabelled (k : String) (rows : List (Cell × Cell)) : Option Cell :=
  ((rows.filterMap fun r => match r.1 with
    | .str s => if removeChars s = k then some r.2 else none
    | _ => none).getLast?)

/-- **C373**, the header: it has every label with the value of the last row that carries it, and the
header cannot be read exactly if a label is a number. -/
theorem C373_header (rows : List (Cell × Cell)) :
    (iscwsaHeader [] rows = .error .attributeError ∧ ∃ r ∈ rows, ∃ x, r.1 = .num x) ∨
    ∃ h, iscwsaHeader [] rows = .ok h ∧ (∀ r ∈ rows, ∀ x, r.1 ≠ .num x) ∧
      ∀ k, h.lookup k = lastLabelled k rows := by
  suffices H : ∀ d : List (String × Cell),
      (iscwsaHeader d rows = .error .attributeError ∧ ∃ r ∈ rows, ∃ x, r.1 = .num x) ∨
      ∃ h, iscwsaHeader d rows = .ok h ∧ (∀ r ∈ rows, ∀ x, r.1 ≠ .num x) ∧
        ∀ k, h.lookup k = (lastLabelled k rows).or (d.lookup k) by
    have := H []
    simpa using this
  induction rows with
  | nil => intro d; exact .inr ⟨d, rfl, by simp, fun k => by simp [lastLabelled]⟩
  | cons r t ih =>
    intro d
    obtain ⟨a, v⟩ := r
    cases a with
    | empty =>
      rcases ih d with ⟨h, r, hr, x, hx⟩ | ⟨h, h1, h2, h3⟩
      · exact .inl ⟨h, r, List.mem_cons_of_mem _ hr, x, hx⟩
      · refine .inr ⟨h, h1, fun r hr x => ?_, fun k => ?_⟩
        · rcases List.mem_cons.mp hr with rfl | hr
          · simp
          · exact h2 r hr x
        · rw [h3 k]; simp [lastLabelled]
    | num x => exact .inl ⟨rfl, _, List.mem_cons_self, x, rfl⟩
    | str s =>
      rcases ih (dictSet d (removeChars s) v) with ⟨h, r, hr, x, hx⟩ | ⟨h, h1, h2, h3⟩
      · exact .inl ⟨h, r, List.mem_cons_of_mem _ hr, x, hx⟩
      · refine .inr ⟨h, h1, fun r hr x => ?_, fun k => ?_⟩
        · rcases List.mem_cons.mp hr with rfl | hr
          · simp
          · exact h2 r hr x
        · rw [h3 k, lookup_dictSet]
          by_cases hk : k = removeChars s
          · subst hk
            simp only [lastLabelled, List.filterMap_cons, if_true, List.getLast?_cons]
            generalize (List.filterMap _ t).getLast? = o
            cases o <;> simp
          · simp [lastLabelled, hk, Ne.symm hk]

/-- The entry is refused exactly if a field is missing, and has the values of the header otherwise. -/
theorem indexEntry_spec (header : List (String × Cell)) (fs : List String) :
    (indexEntry header fs = .error .keyError ∧ ∃ f ∈ fs, header.lookup f = none) ∨
    ∃ e, indexEntry header fs = .ok e ∧
      List.Forall₂ (fun f (p : String × Cell) => p.1 = indexName f ∧ header.lookup f = some p.2) fs e := by
  induction fs with
  | nil => exact .inr ⟨[], rfl, .nil⟩
  | cons f t ih =>
    simp only [indexEntry]
    cases hv : header.lookup f with
    | none => exact .inl ⟨rfl, f, List.mem_cons_self, hv⟩
    | some v =>
      rcases ih with ⟨h, g, hg, hn⟩ | ⟨e, h, he⟩
      · rw [h]; exact .inl ⟨rfl, g, List.mem_cons_of_mem _ hg, hn⟩
      · rw [h]; exact .inr ⟨_, rfl, .cons ⟨rfl, hv⟩ he⟩

/-- **C373**, the entry: a tool is added exactly if the header has all five fields.  It is then found under
its code with these fields, the revision under `Rev.`, and the entries of all other tools are as before. -/
theorem C373_entry (code : String) (header : List (String × Cell))
    (index : List (String × List (String × Cell))) :
    (addTool code header index = .error .keyError ∧
      ∃ f ∈ ["Application", "Short Name", "Long Name", "OWSG Prefix", "Revision No"],
        header.lookup f = none) ∨
    ∃ index' a s l p r, addTool code header index = .ok index' ∧
      header.lookup "Application" = some a ∧ header.lookup "Short Name" = some s ∧
      header.lookup "Long Name" = some l ∧ header.lookup "OWSG Prefix" = some p ∧
      header.lookup "Revision No" = some r ∧
      index'.lookup code = some [("Application", a), ("Short Name", s), ("Long Name", l),
        ("OWSG Prefix", p), ("Rev.", r)] ∧
      ∀ other, other ≠ code → index'.lookup other = index.lookup other := by
  rcases indexEntry_spec header indexFields with ⟨h, hm⟩ | ⟨e, h, he⟩
  · exact .inl ⟨by simp only [addTool, h], hm⟩
  · right
    rcases he with _ | ⟨⟨h1, a⟩, _ | ⟨⟨h2, s⟩, _ | ⟨⟨h3, l⟩, _ | ⟨⟨h4, p⟩, _ | ⟨⟨h5, r⟩, _ | _⟩⟩⟩⟩⟩
    refine ⟨_, _, _, _, _, _, by simp only [addTool, h]; rfl, a, s, l, p, r, ?_, fun o ho => ?_⟩
    · rw [lookup_dictSet, if_pos rfl]
      simp only [Option.some.injEq, List.cons.injEq, Prod.ext_iff, and_true]
      exact ⟨h1, h2, h3, h4, h5⟩
    · rw [lookup_dictSet, if_neg ho]

/-- Adding a tool again with another header leaves nothing of the first entry. -/
theorem C373_again (code : String) (h₁ h₂ : List (String × Cell))
    {index i₁ i₂ : List (String × List (String × Cell))} (a : addTool code h₁ index = .ok i₁)
    (b : addTool code h₂ i₁ = .ok i₂) : addTool code h₂ index = .ok i₂ := by
  have tw : ∀ (d : List (String × List (String × Cell))) v w,
      dictSet (dictSet d code v) code w = dictSet d code w := by
    intro d v w
    induction d with
    | nil => simp [dictSet]
    | cons q t ih =>
      by_cases hq : q.1 = code
      · simp [dictSet, hq]
      · simp [dictSet, hq, ih]
  simp only [addTool] at a b ⊢
  rcases indexEntry_spec h₁ indexFields with ⟨h, _⟩ | ⟨e, h, _⟩
  · rw [h] at a; cases a
  · rw [h] at a; cases a
    rcases indexEntry_spec h₂ indexFields with ⟨g, _⟩ | ⟨e', g, _⟩
    · rw [g] at b; cases b
    · rw [g] at b ⊢; cases b
      simp only [tw]

/-- A header with all fields and this Short Name. -/
def complete (header : List (String × Cell)) (name : String) : Prop :=
  header.lookup "Short Name" = some (.str name) ∧
  ∀ f ∈ indexFields, header.lookup f ≠ none

/-- A Short Name that only one tool has selects that tool, whatever the order of the index. -/
theorem errorModelFile_unique {L : List (String × String)} {code name : String} (hm : (code, name) ∈ L)
    (hu : ∀ e ∈ L, e.2 = name → e.1 = code) (hd : name ≠ "ISCWSA MWD Rev5") (yamls : List String)
    (dirs : List (List JsonFile)) : errorModelFile L yamls dirs name = toolFile yamls dirs code := by
  have hn : unalias name = name := if_neg hd
  rw [errorModelFile, hn, if_pos (List.mem_map.mpr ⟨_, hm, rfl⟩)]
  cases hf : L.find? fun e => decide (e.2 = name) with
  | none => exact absurd (List.find?_eq_none.mp hf _ hm) (by simp)
  | some e =>
    have h1 := List.find?_some hf
    simp only [hu e (List.mem_of_find?_eq_some hf) (by simpa using h1)]

/-- **C373**, the part that holds: a tool added under a new code is used for its Short Name if no other tool
of the index has that name, in whatever order the index is written. -/
theorem C373_used_partial {code name : String} {header : List (String × Cell)}
    {index : List (String × List (String × Cell))} (hc : complete header name)
    (hnew : ∀ e ∈ index, e.1 ≠ code) (hname : ∀ e ∈ shortNames index, e.2 ≠ name)
    (hd : name ≠ "ISCWSA MWD Rev5") (yamls : List String) (dirs : List (List JsonFile)) :
    ∃ index', addTool code header index = .ok index' ∧
      ∀ written, List.Perm written index' →
        errorModelFile (shortNames written) yamls dirs name = toolFile yamls dirs code := by
  rcases indexEntry_spec header indexFields with ⟨_, f, hf, hn⟩ | ⟨e, h, he⟩
  · exact absurd hn (hc.2 f hf)
  · refine ⟨_, by simp only [addTool, h]; rfl, fun w hw => ?_⟩
    have hs : e.lookup "Short Name" = some (.str name) := by
      rcases he with _ | ⟨⟨h1, a⟩, _ | ⟨⟨h2, s⟩, _⟩⟩
      rename_i p q _ _
      obtain ⟨p1, p2⟩ := p
      obtain ⟨q1, q2⟩ := q
      simp only [indexName] at h1 h2
      rw [hc.1] at s
      simp only [Option.some.injEq] at s
      subst h1 h2 s
      rfl
    rw [dictSet_new _ (fun hk => by
      obtain ⟨q, hq, hqc⟩ := List.mem_map.mp hk
      exact hnew q hq hqc)] at hw
    have hp := hw.filterMap fun e => match e.2.lookup "Short Name" with
      | some (Cell.str s) => some (e.1, s)
      | _ => none
    rw [List.filterMap_append] at hp
    have h2 : List.filterMap (fun e : String × List (String × Cell) => match e.2.lookup "Short Name" with
        | some (Cell.str s) => some (e.1, s)
        | _ => none) [(code, e)] = [(code, name)] := by
      simp [List.filterMap, hs]
    rw [h2] at hp
    refine errorModelFile_unique (hp.mem_iff.mpr (by simp)) (fun q hq hqn => ?_) hd yamls dirs
    rcases List.mem_append.mp (hp.mem_iff.mp hq) with h3 | h3
    · exact absurd hqn (hname q h3)
    · rw [List.mem_singleton.mp h3]

/-- The header of a tool with the name `X`. -/
def toolX : List (String × Cell) :=
  [("Application", .empty), ("Short Name", .str "X"), ("Long Name", .empty), ("OWSG Prefix", .empty),
   ("Revision No", .num 1)]

/-- C373 is false if a tool has the Short Name already: the added tool is not used. -/
theorem C373_name_taken : ∃ index', addTool "B" toolX [("A", [("Short Name", .str "X")])] = .ok index' ∧
    errorModelFile (shortNames index') ["A", "B"] [] "X" = .ok (.yaml "A") := by
  refine ⟨_, rfl, ?_⟩
  simp [shortNames, dictSet, List.lookup, errorModelFile, unalias, toolFile]

/-- Not vacuous. -/
example : complete toolX "X" ∧ (∀ e ∈ [("A", [("Short Name", Cell.str "Y")])], e.1 ≠ "B") ∧
    ∀ e ∈ shortNames [("A", [("Short Name", Cell.str "Y")])], e.2 ≠ "X" := by
  refine ⟨⟨rfl, fun f hf => ?_⟩, by simp, by simp [shortNames, List.lookup]⟩
  simp only [indexFields, List.mem_cons, List.not_mem_nil, or_false] at hf
  rcases hf with rfl | rfl | rfl | rfl | rfl <;> simp [toolX, List.lookup]

end Welleng.Props
