import Verif.Spec.EdmCase
import Verif.Props.Edm
import Verif.Props.EdmSurvey

/-!
C226-C229: the cases of a well in an EDM document.
-/

namespace Welleng.Props

open Edm
open Spec (rowsWith orNone references)

theorem matching_ok {k : String} {x : String} {rows l : List Attrs}
    (h : matching k (.text x) rows = .ok l) : l = rowsWith rows k x := by
  induction rows generalizing l with
  | nil => simp only [matching, Except.ok.injEq] at h; rw [← h]; rfl
  | cons r t ih =>
    simp only [matching] at h
    cases e : r.lookup k with
    | none => simp [e] at h
    | some y =>
      simp only [e] at h
      cases e2 : matching k (.text x) t with
      | error z => simp [e2] at h
      | ok m =>
        simp only [e2, Except.ok.injEq] at h
        rw [← h, ih e2, rowsWith, rowsWith]
        by_cases hy : y = x
        · rw [if_pos (by rw [hy]), List.filter_cons_of_pos (by simp [e, hy])]
        · rw [if_neg (by simp [hy]), List.filter_cons_of_neg (by simp [e, hy])]

theorem getData_ok {w : Tables} {x : String} {l : Link} {v : Val}
    (h : getData w (.text x) l = .ok v) :
    ∃ rows, w.lookup l.table = some rows ∧ v = orNone (rowsWith rows l.key x) := by
  unfold getData at h
  cases e : w.lookup l.table with
  | none => simp [e] at h
  | some rows =>
    refine ⟨rows, rfl, ?_⟩
    simp only [e] at h
    cases e2 : matching l.key (.text x) rows with
    | error z => simp [e2] at h
    | ok m =>
      rw [← matching_ok e2]
      rw [e2] at h
      cases m with
      | nil => simp at h; rw [← h]; rfl
      | cons a t => simp at h; rw [← h]; rfl

theorem setAttribute_other {w : Tables} {c c' : CaseObj} {l : Link}
    (h : setAttribute w c l = .ok c') {k : String} (hk : k ≠ l.out) :
    c'.lookup k = c.lookup k := by
  unfold setAttribute at h
  cases e : c.lookup l.key with
  | none => simp [e] at h; rw [h]
  | some v =>
    simp only [e] at h
    cases e2 : getData w v l with
    | error z => simp [e2] at h
    | ok x =>
      simp only [e2, Except.ok.injEq] at h
      rw [← h, lookup_dictSet, if_neg hk]

theorem linkAll_other {w : Tables} {ls : List Link} {c c' : CaseObj}
    (h : linkAll w c ls = .ok c') {k : String} (hk : k ∉ ls.map (·.out)) :
    c'.lookup k = c.lookup k := by
  induction ls generalizing c with
  | nil => simp [linkAll] at h; rw [h]
  | cons l t ih =>
    simp only [linkAll] at h
    simp only [List.map_cons, List.mem_cons, not_or] at hk
    cases e : setAttribute w c l with
    | error z => simp [e] at h
    | ok d =>
      simp only [e] at h
      rw [ih h hk.2, setAttribute_other e hk.1]

theorem linkAll_append {w : Tables} {p q : List Link} {c c' : CaseObj}
    (h : linkAll w c (p ++ q) = .ok c') : ∃ d, linkAll w c p = .ok d ∧ linkAll w d q = .ok c' := by
  induction p generalizing c with
  | nil => exact ⟨c, rfl, h⟩
  | cons l t ih =>
    simp only [List.cons_append, linkAll] at h
    cases e : setAttribute w c l with
    | error z => simp [e] at h
    | ok d =>
      simp only [e] at h
      obtain ⟨d', h1, h2⟩ := ih h
      exact ⟨d', by simp [linkAll, e, h1], h2⟩

/-- A link that is not overwritten later. -/
theorem linkAll_at {w : Tables} {p q : List Link} {l : Link} {c c' : CaseObj}
    (h : linkAll w c (p ++ l :: q) = .ok c') (hk : l.key ∉ p.map (·.out))
    (ho : l.out ∉ q.map (·.out)) {x : String} (hx : c.lookup l.key = some (.text x)) :
    ∃ rows, w.lookup l.table = some rows ∧
      c'.lookup l.out = some (orNone (rowsWith rows l.key x)) := by
  obtain ⟨d, h1, h2⟩ := linkAll_append h
  rw [← linkAll_other h1 hk] at hx
  simp only [linkAll] at h2
  cases e : setAttribute w d l with
  | error z => simp [e] at h2
  | ok d' =>
    simp only [e] at h2
    rw [linkAll_other h2 ho]
    unfold setAttribute at e
    simp only [hx] at e
    cases e2 : getData w (.text x) l with
    | error z => simp [e2] at e
    | ok v =>
      simp only [e2, Except.ok.injEq] at e
      obtain ⟨rows, h3, h4⟩ := getData_ok e2
      exact ⟨rows, h3, by rw [← e, lookup_dictSet, if_pos rfl, h4]⟩

/-- The same, with the names computed. -/
theorem linkAll_named {w : Tables} {ls p q : List Link} {l : Link} {c c' : CaseObj}
    (h : linkAll w c ls = .ok c') (hs : ls = p ++ l :: q) (hk : l.key ∉ p.map (·.out))
    (ho : l.out ∉ q.map (·.out)) {table key out x : String} (e1 : l.table = table)
    (e2 : l.key = key) (e3 : l.out = out) (hx : c.lookup key = some (.text x)) :
    ∃ rows, w.lookup table = some rows ∧ c'.lookup out = some (orNone (rowsWith rows key x)) := by
  subst e1 e2 e3 hs
  exact linkAll_at h hk ho hx

theorem lookup_caseOf (row : Attrs) (k : String) :
    (caseOf row).lookup k = (row.lookup k).map Val.text := by
  induction row with
  | nil => rfl
  | cons a t ih =>
    obtain ⟨k', v⟩ := a
    simp only [caseOf, List.map_cons, List.lookup_cons]
    by_cases h : (k == k') = true
    · simp [h]
    · simp only [Bool.not_eq_true] at h; simp only [h]; exact ih

theorem setPpfpt_other {isPp : String → Bool} {name : String → String}
    {sorted : String → Except Exc Val} {ts : List String} {c c' : CaseObj}
    (h : setPpfpt isPp name sorted ts c = .ok c') {k : String}
    (hk : ∀ t ∈ ts, isPp t = true → name t ≠ k) : c'.lookup k = c.lookup k := by
  induction ts generalizing c with
  | nil => simp [setPpfpt] at h; rw [h]
  | cons t ts ih =>
    simp only [setPpfpt] at h
    by_cases hp : isPp t = true
    · rw [if_pos hp] at h
      cases e : sorted t with
      | error z => simp [e] at h
      | ok x =>
        simp only [e] at h
        rw [ih h fun t' ht' => hk t' (List.mem_cons_of_mem _ ht'), lookup_dictSet,
          if_neg (Ne.symm (hk t List.mem_cons_self hp))]
    · rw [if_neg hp] at h
      exact ih h fun t' ht' => hk t' (List.mem_cons_of_mem _ ht')

theorem setSurveys_other {a b : List Attrs → Except Exc Val} {c c' : CaseObj}
    (h : setSurveys a b c = .ok c') {k : String} (h1 : k ≠ "survey") (h2 : k ≠ "survey_station") :
    c'.lookup k = c.lookup k := by
  unfold setSurveys at h
  split at h
  · simp at h
  · split at h
    · simp only [Except.ok.injEq] at h
      rw [← h, lookup_dictSet, if_neg h1, lookup_dictSet, if_neg h2]
    · simp at h
    · simp at h
  · simp at h

/-- The stages of `make_case`. -/
theorem makeCase_ok {h : Helpers} {w : Tables} {id : String} {c : CaseObj}
    (hm : makeCase h w id = .ok c) :
    ∃ cases row d e, w.lookup "CD_CASE" = some cases ∧ findCase id cases none = .ok (some row) ∧
      linkAll w (caseOf row) caseLinks = .ok d ∧ setSurveys h.station h.surveys d = .ok e ∧
      setPpfpt h.isPp h.name h.sorted (w.map (·.1)) e = .ok c := by
  unfold makeCase at hm
  cases e1 : w.lookup "CD_CASE" with
  | none => simp [e1] at hm
  | some cases =>
    simp only [e1] at hm
    cases e2 : findCase id cases none with
    | error z => simp [e2] at hm
    | ok f =>
      cases f with
      | none => simp [e2] at hm
      | some row =>
        simp only [e2] at hm
        cases e3 : linkAll w (caseOf row) caseLinks with
        | error z => simp [e3] at hm
        | ok d =>
          simp only [e3] at hm
          cases e4 : setSurveys h.station h.surveys d with
          | error z => simp [e4] at hm
          | ok e =>
            simp only [e4] at hm
            exact ⟨cases, row, d, e, rfl, e2, e3, e4, hm⟩

theorem findCase_eq {id : String} {cases : List Attrs} {f : Option Attrs} {r : Option Attrs}
    (h : findCase id cases f = .ok r) :
    r = ((rowsWith cases "case_id" id).getLast?).or f := by
  induction cases generalizing f with
  | nil => simp [findCase] at h; simp [rowsWith, h]
  | cons row t ih =>
    simp only [findCase] at h
    cases e : row.lookup "case_id" with
    | none => simp [e] at h
    | some x =>
      simp only [e] at h
      rw [ih h, rowsWith, rowsWith]
      by_cases hx : x = id
      · rw [if_pos hx, List.filter_cons_of_pos (by simp [e, hx])]
        cases hl : (t.filter fun r => r.lookup "case_id" = some id) with
        | nil => simp
        | cons b l => rw [List.getLast?_cons_cons]; simp [List.getLast?_cons]
      · rw [if_neg hx, List.filter_cons_of_neg (by simp [e, hx])]

/-! ### C226 -/

/-- Every record a case refers to, other than its assembly, is found: the attribute has exactly the
rows of the table with the id of the case. -/
theorem C226_references_partial {h : Helpers} {w : Tables} {id : String} {c : CaseObj}
    (hm : makeCase h w id = .ok c) {cases : List Attrs} (hc : w.lookup "CD_CASE" = some cases)
    {row : Attrs} (hr : rowsWith cases "case_id" id = [row])
    (label table key : String) (hl : (label, table, key) ∈ references)
    (hn : ∀ t ∈ w.map (·.1), h.isPp t = true → h.name t ≠ label)
    {x : String} (hx : row.lookup key = some x) :
    ∃ rows, w.lookup table = some rows ∧
      c.lookup label = some (orNone (rowsWith rows key x)) := by
  obtain ⟨cases', row', d, e, h1, h2, h3, h4, h5⟩ := makeCase_ok hm
  rw [hc] at h1; cases h1
  have hrow := findCase_eq h2
  rw [hr] at hrow
  simp only [List.getLast?_singleton, Option.some_or, Option.some.injEq] at hrow
  subst hrow
  have hx' : (caseOf row').lookup key = some (.text x) := by rw [lookup_caseOf, hx]; rfl
  rw [setPpfpt_other h5 hn]
  simp only [references, List.mem_cons, Prod.mk.injEq, List.not_mem_nil, or_false] at hl
  rcases hl with ⟨rfl, rfl, rfl⟩ | ⟨rfl, rfl, rfl⟩ | ⟨rfl, rfl, rfl⟩ | ⟨rfl, rfl, rfl⟩ |
    ⟨rfl, rfl, rfl⟩ | ⟨rfl, rfl, rfl⟩ | ⟨rfl, rfl, rfl⟩ | ⟨rfl, rfl, rfl⟩ <;>
    rw [setSurveys_other h4 (by decide) (by decide)]
  · exact linkAll_named (p := caseLinks.take 0) (l := ⟨"wellbore", "wellbore", "id", "wellbore"⟩)
      (q := caseLinks.drop 1) h3 rfl (by decide +kernel) (by decide +kernel) (by decide +kernel)
      (by decide +kernel) rfl hx'
  · exact linkAll_named (p := caseLinks.take 1) (l := ⟨"fluid", "fluid", "id", "fluid"⟩)
      (q := caseLinks.drop 2) h3 rfl (by decide +kernel) (by decide +kernel) (by decide +kernel)
      (by decide +kernel) rfl hx'
  · exact linkAll_named (p := caseLinks.take 2) (l := ⟨"scenario", "scenario", "id", "scenario"⟩)
      (q := caseLinks.drop 3) h3 rfl (by decide +kernel) (by decide +kernel) (by decide +kernel)
      (by decide +kernel) rfl hx'
  · exact linkAll_named (p := caseLinks.take 3) (l := ⟨"well", "well", "id", "well"⟩)
      (q := caseLinks.drop 4) h3 rfl (by decide +kernel) (by decide +kernel) (by decide +kernel)
      (by decide +kernel) rfl hx'
  · exact linkAll_named (p := caseLinks.take 4) (l := ⟨"datum", "datum", "id", "datum"⟩)
      (q := caseLinks.drop 5) h3 rfl (by decide +kernel) (by decide +kernel) (by decide +kernel)
      (by decide +kernel) rfl hx'
  · exact linkAll_named (p := caseLinks.take 5) (l := ⟨"hole_sect_group", "hole_sect_group", "id", "hole_sect_group"⟩)
      (q := caseLinks.drop 6) h3 rfl (by decide +kernel) (by decide +kernel) (by decide +kernel)
      (by decide +kernel) rfl hx'
  · exact linkAll_named (p := caseLinks.take 7) (l := ⟨"hole_sect", "hole_sect", "group_id", "hole_sect"⟩)
      (q := caseLinks.drop 8) h3 rfl (by decide +kernel) (by decide +kernel) (by decide +kernel)
      (by decide +kernel) rfl hx'
  · exact linkAll_named (p := caseLinks.take 9) (l := ⟨"wellbore", "survey_header", "id", "survey_header"⟩)
      (q := caseLinks.drop 10) h3 rfl (by decide +kernel) (by decide +kernel) (by decide +kernel)
      (by decide +kernel) rfl hx'

/-- The assembly is replaced by its components: it is the rows of `CD_ASSEMBLY_COMP`, whatever
`CD_ASSEMBLY` holds. -/
theorem C226_assembly_overwritten {h : Helpers} {w : Tables} {id : String} {c : CaseObj}
    (hm : makeCase h w id = .ok c) {cases : List Attrs} (hc : w.lookup "CD_CASE" = some cases)
    {row : Attrs} (hr : rowsWith cases "case_id" id = [row])
    (hn : ∀ t ∈ w.map (·.1), h.isPp t = true → h.name t ≠ "assembly")
    {x : String} (hx : row.lookup "assembly_id" = some x) :
    ∃ rows, w.lookup "CD_ASSEMBLY_COMP" = some rows ∧
      c.lookup "assembly" = some (orNone (rowsWith rows "assembly_id" x)) := by
  obtain ⟨cases', row', d, e, h1, h2, h3, h4, h5⟩ := makeCase_ok hm
  rw [hc] at h1; cases h1
  have hrow := findCase_eq h2
  rw [hr] at hrow
  simp only [List.getLast?_singleton, Option.some_or, Option.some.injEq] at hrow
  subst hrow
  have hx' : (caseOf row').lookup "assembly_id" = some (.text x) := by
    rw [lookup_caseOf, hx]; rfl
  rw [setPpfpt_other h5 hn, setSurveys_other h4 (by decide) (by decide)]
  exact linkAll_named (p := caseLinks.take 8) (l := ⟨"assembly", "assembly_comp", "id", "assembly"⟩)
      (q := caseLinks.drop 9) h3 rfl (by decide +kernel) (by decide +kernel) (by decide +kernel)
      (by decide +kernel) rfl hx'

/-- The survey and the stations of a case are made from the survey headers of its wellbore. -/
theorem C226_surveys {h : Helpers} {w : Tables} {id : String} {c : CaseObj}
    (hm : makeCase h w id = .ok c) {cases : List Attrs} (hc : w.lookup "CD_CASE" = some cases)
    {row : Attrs} (hr : rowsWith cases "case_id" id = [row])
    (hn : ∀ t ∈ w.map (·.1), h.isPp t = true → h.name t ≠ "survey" ∧ h.name t ≠ "survey_station")
    {x : String} (hx : row.lookup "wellbore_id" = some x) :
    ∃ headers a b, w.lookup "CD_SURVEY_HEADER" = some headers ∧
      h.station (rowsWith headers "wellbore_id" x) = .ok a ∧
      h.surveys (rowsWith headers "wellbore_id" x) = .ok b ∧
      c.lookup "survey_station" = some a ∧ c.lookup "survey" = some b := by
  obtain ⟨cases', row', d, e, h1, h2, h3, h4, h5⟩ := makeCase_ok hm
  rw [hc] at h1; cases h1
  have hrow := findCase_eq h2
  rw [hr] at hrow
  simp only [List.getLast?_singleton, Option.some_or, Option.some.injEq] at hrow
  subst hrow
  have hx' : (caseOf row').lookup "wellbore_id" = some (.text x) := by
    rw [lookup_caseOf, hx]; rfl
  obtain ⟨rows, g1, g2⟩ := linkAll_named (p := caseLinks.take 9)
    (l := ⟨"wellbore", "survey_header", "id", "survey_header"⟩) (q := caseLinks.drop 10) h3 rfl
    (by decide +kernel) (by decide +kernel) (table := "CD_SURVEY_HEADER") (by decide +kernel)
    (by decide +kernel) rfl hx'
  have ho : ∀ l : List Attrs, orNone l = .rows l ∨ orNone l = .missing := by
    intro l; cases l <;> simp [orNone]
  unfold setSurveys at h4
  rw [g2] at h4
  rcases ho (rowsWith rows "wellbore_id" x) with ho | ho <;> rw [ho] at h4 <;> dsimp only at h4
  · cases ha : h.station (rowsWith rows "wellbore_id" x) with
    | error y => simp [ha] at h4
    | ok a =>
      cases hb : h.surveys (rowsWith rows "wellbore_id" x) with
      | error y => simp [ha, hb] at h4
      | ok b =>
        simp only [ha, hb, Except.ok.injEq] at h4
        refine ⟨rows, a, b, g1, ha, hb, ?_, ?_⟩
        · rw [setPpfpt_other h5 fun t ht hp => (hn t ht hp).2, ← h4, lookup_dictSet,
            if_neg (by decide), lookup_dictSet, if_pos rfl]
        · rw [setPpfpt_other h5 fun t ht hp => (hn t ht hp).1, ← h4, lookup_dictSet, if_pos rfl]
  · simp at h4

/-- A well with one case, one assembly of two components and one survey header. -/
def sampleWell : Tables :=
  [("CD_CASE", [[("case_id", "c1"), ("case_name", "run"), ("wellbore_id", "w1"),
      ("assembly_id", "a1")]]),
    ("CD_WELLBORE", [[("wellbore_id", "w1"), ("wellbore_name", "A-1")]]),
    ("CD_ASSEMBLY", [[("assembly_id", "a1"), ("name", "BHA")]]),
    ("CD_ASSEMBLY_COMP", [[("assembly_id", "a1"), ("name", "bit")],
      [("assembly_id", "a1"), ("name", "collar")]]),
    ("CD_SURVEY_HEADER", [[("wellbore_id", "w1"), ("survey_header_id", "h1")]])]

/-- Helpers that do nothing. -/
def sampleHelpers : Helpers :=
  ⟨fun _ => .ok (.other 0), fun _ => .ok (.other 1), fun _ => false, id, fun _ => .ok .missing⟩

/-- The rows in a value. -/
def rowsOf : Val → List Attrs
  | .rows l => l
  | _ => []

/-- So the record of the assembly (its name, say) is nowhere in the case. -/
theorem C226_assembly_lost :
    ∃ c, makeCase sampleHelpers sampleWell "c1" = .ok c ∧
      c.lookup "wellbore" = some (.rows [[("wellbore_id", "w1"), ("wellbore_name", "A-1")]]) ∧
      c.lookup "assembly" = some (.rows [[("assembly_id", "a1"), ("name", "bit")],
        [("assembly_id", "a1"), ("name", "collar")]]) ∧
      ∀ kv ∈ c, [("assembly_id", "a1"), ("name", "BHA")] ∉ rowsOf kv.2 := by
  refine ⟨((makeCase sampleHelpers sampleWell "c1").toOption).getD [], ?_, ?_, ?_, ?_⟩ <;>
    decide +kernel

example : ∃ c, makeCase sampleHelpers sampleWell "c1" = .ok c ∧
    c.lookup "survey_station" = some (.other 0) ∧ c.lookup "survey" = some (.other 1) := by
  refine ⟨((makeCase sampleHelpers sampleWell "c1").toOption).getD [], ?_, ?_, ?_⟩ <;>
    decide +kernel

/-- The hypotheses are met by the sample. -/
example : sampleWell.lookup "CD_CASE" = some [[("case_id", "c1"), ("case_name", "run"),
      ("wellbore_id", "w1"), ("assembly_id", "a1")]] ∧
    rowsWith [[("case_id", "c1"), ("case_name", "run"), ("wellbore_id", "w1"),
      ("assembly_id", "a1")]] "case_id" "c1" = [[("case_id", "c1"), ("case_name", "run"),
      ("wellbore_id", "w1"), ("assembly_id", "a1")]] ∧
    ("wellbore", "CD_WELLBORE", "wellbore_id") ∈ references := by
  decide +kernel

/-! ### C227 -/

theorem findCase_total {id : String} {cases : List Attrs}
    (h : ∀ r ∈ cases, r.lookup "case_id" ≠ none) (f : Option Attrs) :
    ∃ r, findCase id cases f = .ok r := by
  induction cases generalizing f with
  | nil => exact ⟨f, rfl⟩
  | cons row t ih =>
    cases e : row.lookup "case_id" with
    | none => exact absurd e (h row List.mem_cons_self)
    | some x =>
      simp only [findCase, e]
      exact ih (fun r hr => h r (List.mem_cons_of_mem _ hr)) _

/-- There is no case for an unknown id, but `make_case` does not say so: it fails with an
`UnboundLocalError`. -/
theorem C227_unknown_id_fails (h : Helpers) (w : Tables) (id : String) {cases : List Attrs}
    (hc : w.lookup "CD_CASE" = some cases) (hid : ∀ r ∈ cases, r.lookup "case_id" ≠ none)
    (hr : rowsWith cases "case_id" id = []) : makeCase h w id = .error .unbound := by
  obtain ⟨r, hf⟩ := findCase_total hid (none : Option Attrs) (id := id)
  have := findCase_eq hf
  rw [hr] at this
  simp only [List.getLast?_nil, Option.none_or] at this
  subst this
  simp [makeCase, hc, hf]

/-- A case whose wellbore has no survey header fails as well. -/
theorem C227_no_survey_header_fails (h : Helpers) (w : Tables) (id : String) {cases : List Attrs}
    (hc : w.lookup "CD_CASE" = some cases) {row : Attrs}
    (hr : rowsWith cases "case_id" id = [row]) {x : String}
    (hx : row.lookup "wellbore_id" = some x) {headers : List Attrs}
    (hh : w.lookup "CD_SURVEY_HEADER" = some headers)
    (hn : rowsWith headers "wellbore_id" x = []) : ∃ e, makeCase h w id = .error e := by
  cases hm : makeCase h w id with
  | error e => exact ⟨e, rfl⟩
  | ok c =>
    exfalso
    obtain ⟨cases', row', d, e, h1, h2, h3, h4, h5⟩ := makeCase_ok hm
    rw [hc] at h1; cases h1
    have hrow := findCase_eq h2
    rw [hr] at hrow
    simp only [List.getLast?_singleton, Option.some_or, Option.some.injEq] at hrow
    subst hrow
    have hx' : (caseOf row').lookup "wellbore_id" = some (.text x) := by
      rw [lookup_caseOf, hx]; rfl
    obtain ⟨rows, g1, g2⟩ := linkAll_named (p := caseLinks.take 9)
      (l := ⟨"wellbore", "survey_header", "id", "survey_header"⟩) (q := caseLinks.drop 10) h3 rfl
      (by decide +kernel) (by decide +kernel) (table := "CD_SURVEY_HEADER") (by decide +kernel)
      (by decide +kernel) rfl hx'
    rw [hh] at g1; cases g1
    rw [hn] at g2
    simp only [setSurveys, g2, orNone] at h4
    simp at h4

/-- When a case is returned, it is the case asked for. -/
theorem C227_known_id_partial {h : Helpers} {w : Tables} {id : String} {c : CaseObj}
    (hm : makeCase h w id = .ok c)
    (hn : ∀ t ∈ w.map (·.1), h.isPp t = true → h.name t ≠ "case_id") :
    ∃ cases row, w.lookup "CD_CASE" = some cases ∧ row ∈ cases ∧
      row.lookup "case_id" = some id ∧ c.lookup "case_id" = some (.text id) := by
  obtain ⟨cases, row, d, e, h1, h2, h3, h4, h5⟩ := makeCase_ok hm
  have hrow := findCase_eq h2
  rw [Option.or_none] at hrow
  have hmem := List.mem_of_getLast? hrow.symm
  rw [rowsWith, List.mem_filter] at hmem
  have hid : row.lookup "case_id" = some id := by simpa using hmem.2
  refine ⟨cases, row, h1, hmem.1, hid, ?_⟩
  rw [setPpfpt_other h5 hn, setSurveys_other h4 (by decide) (by decide),
    linkAll_other h3 (by decide), lookup_caseOf, hid]
  rfl

example : makeCase sampleHelpers sampleWell "c2" = .error .unbound ∧
    ∃ c, makeCase sampleHelpers sampleWell "c1" = .ok c := by
  refine ⟨by decide +kernel, ((makeCase sampleHelpers sampleWell "c1").toOption).getD [], ?_⟩
  decide +kernel

/-! ### C228 -/

theorem caseName_eq {id : String} {cases : List Attrs} {r : Option String}
    (h : caseName id cases = .ok r) :
    r = (rowsWith cases "case_id" id).head?.bind (·.lookup "case_name") := by
  induction cases with
  | nil => simp [caseName] at h; simp [rowsWith, ← h]
  | cons row t ih =>
    simp only [caseName] at h
    cases e : row.lookup "case_id" with
    | none => simp [e] at h
    | some x =>
      simp only [e] at h
      by_cases hx : x = id
      · rw [if_pos hx] at h
        rw [rowsWith, List.filter_cons_of_pos (by simp [e, hx])]
        cases e2 : row.lookup "case_name" with
        | none => simp [e2] at h
        | some n => simp [e2] at h; simp [e2, h]
      · rw [if_neg hx] at h
        rw [ih h, rowsWith, rowsWith, List.filter_cons_of_neg (by simp [e, hx])]

/-- With one case of each id, the name looked up for an id is the name in the case made for it. -/
theorem C228_same_name_partial {h : Helpers} {w : Tables} {id : String} {c : CaseObj}
    (hm : makeCase h w id = .ok c) {cases : List Attrs} (hc : w.lookup "CD_CASE" = some cases)
    {row : Attrs} (hr : rowsWith cases "case_id" id = [row])
    (hn : ∀ t ∈ w.map (·.1), h.isPp t = true → h.name t ≠ "case_name")
    {r : Option String} (hk : caseName id cases = .ok r) :
    c.lookup "case_name" = r.map Val.text := by
  obtain ⟨cases', row', d, e, h1, h2, h3, h4, h5⟩ := makeCase_ok hm
  rw [hc] at h1; cases h1
  have hrow := findCase_eq h2
  rw [hr] at hrow
  simp only [List.getLast?_singleton, Option.some_or, Option.some.injEq] at hrow
  subst hrow
  rw [setPpfpt_other h5 hn, setSurveys_other h4 (by decide) (by decide),
    linkAll_other h3 (by decide), lookup_caseOf, caseName_eq hk, hr]
  rfl

/-- With two cases of the same id (of two scenarios, say) the name is that of the first and the case
is the last. -/
theorem C228_two_cases :
    ∃ (w : Tables) (cases : List Attrs) (c : CaseObj), w.lookup "CD_CASE" = some cases ∧
      makeCase sampleHelpers w "c1" = .ok c ∧ caseName "c1" cases = .ok (some "first") ∧
      c.lookup "case_name" = some (.text "second") := by
  let cases : List Attrs := [[("case_id", "c1"), ("case_name", "first"), ("wellbore_id", "w1")],
    [("case_id", "c1"), ("case_name", "second"), ("wellbore_id", "w1")]]
  let w : Tables := [("CD_CASE", cases), ("CD_WELLBORE", [[("wellbore_id", "w1")]]),
    ("CD_SURVEY_HEADER", [[("wellbore_id", "w1"), ("survey_header_id", "h1")]])]
  refine ⟨w, cases, ((makeCase sampleHelpers w "c1").toOption).getD [], ?_, ?_, ?_, ?_⟩ <;>
    decide +kernel

/-! ### C229 -/

theorem byGroup_entry {isGroup : String → Bool} {rows : List Attrs}
    {d0 d : List (String × List Attrs)} (h : byGroup isGroup rows d0 = .ok d) (g : String) :
    entry d g = entry d0 g ++
      rows.filter fun r => (r.find? fun kv => isGroup kv.1).map (·.2) = some g := by
  induction rows generalizing d0 with
  | nil => simp [byGroup] at h; simp [h]
  | cons row t ih =>
    simp only [byGroup] at h
    cases e : row.find? fun kv => isGroup kv.1 with
    | none => simp [e] at h
    | some kv =>
      simp only [e] at h
      rw [ih h, entry_dictAppend]
      by_cases hg : g = kv.2
      · rw [if_pos hg, List.filter_cons_of_pos (by simp [e, hg]), List.append_assoc]; rfl
      · rw [if_neg hg, List.filter_cons_of_neg (by simp [e, Ne.symm hg])]

theorem dictAppend_mem {A : Type} {d : List (String × List A)} {k : String} {x : A}
    {kv : String × List A} (h : kv ∈ dictAppend d k x) {y : A} (hy : y ∈ kv.2) :
    y = x ∨ ∃ kv' ∈ d, y ∈ kv'.2 := by
  induction d with
  | nil => simp only [dictAppend, List.mem_singleton] at h; subst h; left; simpa using hy
  | cons a t ih =>
    obtain ⟨k', l⟩ := a
    simp only [dictAppend] at h
    split at h
    · rw [List.mem_cons] at h
      rcases h with rfl | h
      · rw [List.mem_append, List.mem_singleton] at hy
        rcases hy with hy | hy
        · exact Or.inr ⟨_, List.mem_cons_self, hy⟩
        · exact Or.inl hy
      · exact Or.inr ⟨kv, List.mem_cons_of_mem _ h, hy⟩
    · rw [List.mem_cons] at h
      rcases h with rfl | h
      · exact Or.inr ⟨_, List.mem_cons_self, hy⟩
      · rcases ih h with h' | ⟨kv', h1, h2⟩
        · exact Or.inl h'
        · exact Or.inr ⟨kv', List.mem_cons_of_mem _ h1, h2⟩

theorem byGroup_mem {isGroup : String → Bool} {rows : List Attrs}
    {d0 d : List (String × List Attrs)} (h : byGroup isGroup rows d0 = .ok d) {kv : String × List Attrs}
    (hkv : kv ∈ d) {r : Attrs} (hr : r ∈ kv.2) : r ∈ rows ∨ ∃ kv' ∈ d0, r ∈ kv'.2 := by
  induction rows generalizing d0 with
  | nil => simp [byGroup] at h; subst h; exact Or.inr ⟨kv, hkv, hr⟩
  | cons row t ih =>
    simp only [byGroup] at h
    cases e : row.find? fun kv => isGroup kv.1 with
    | none => simp [e] at h
    | some q =>
      simp only [e] at h
      rcases ih h with h' | ⟨kv', h1, h2⟩
      · exact Or.inl (List.mem_cons_of_mem _ h')
      · rcases dictAppend_mem h1 h2 with rfl | h3
        · exact Or.inl List.mem_cons_self
        · exact Or.inr h3

theorem entry_map {A : Type} (f : List A → List A) (hf : f [] = []) (d : List (String × List A))
    (g : String) : entry (d.map fun kv => (kv.1, f kv.2)) g = f (entry d g) := by
  induction d with
  | nil => simp [entry, hf]
  | cons a t ih =>
    obtain ⟨k, l⟩ := a
    simp only [entry, List.map_cons, List.lookup_cons] at ih ⊢
    by_cases h : (g == k) = true
    · simp [h]
    · simp only [Bool.not_eq_true] at h; simp only [h]; exact ih

/-- When every row has a depth and its own group is the first column that names a group, each group
is made of its rows, every one once, in order of depth. -/
theorem C229_groups_partial {isGroup : String → Bool} {tvd : Attrs → Option ℚ} {rows : List Attrs}
    {d : List (String × List Attrs)} (h : sortPpfpt isGroup tvd rows = .ok d) (key : String)
    (hk : ∀ r ∈ rows, (r.find? fun kv => isGroup kv.1).map (·.2) = r.lookup key)
    (ht : ∀ r ∈ rows, tvd r ≠ none) (g : String) :
    (entry d g).Perm (rowsWith rows key g) ∧
      (entry d g).Pairwise fun a b => (tvd a).getD 0 ≤ (tvd b).getD 0 := by
  unfold sortPpfpt at h
  cases e : byGroup isGroup rows [] with
  | error z => simp [e] at h
  | ok b =>
    simp only [e] at h
    have hb : ∀ g, entry b g = rowsWith rows key g := by
      intro g
      rw [byGroup_entry e g, show entry ([] : List (String × List Attrs)) g = [] from rfl,
        List.nil_append, rowsWith]
      refine List.filter_congr fun r hr => ?_
      rw [hk r hr]
    have hsort : ∀ l : List Attrs,
        (l.insertionSort fun a b => (tvd a).getD 0 ≤ (tvd b).getD 0).Perm l ∧
        (l.insertionSort fun a b => (tvd a).getD 0 ≤ (tvd b).getD 0).Pairwise
          fun a b => (tvd a).getD 0 ≤ (tvd b).getD 0 := by
      intro l
      haveI : Std.Total fun a b : Attrs => (tvd a).getD 0 ≤ (tvd b).getD 0 := ⟨fun a b => le_total _ _⟩
      haveI : IsTrans Attrs fun a b => (tvd a).getD 0 ≤ (tvd b).getD 0 :=
        ⟨fun a b c h1 h2 => le_trans h1 h2⟩
      exact ⟨List.perm_insertionSort _ l, List.pairwise_insertionSort _ l⟩
    have hall : (b.any fun kv => kv.2.any fun r => (tvd r).isNone) = false := by
      rw [List.any_eq_false]
      intro kv hkv
      rw [Bool.not_eq_true, List.any_eq_false]
      intro r hr
      rcases byGroup_mem e hkv hr with h' | ⟨kv', h1, -⟩
      · simpa using ht r h'
      · simp at h1
    rw [hall, if_neg (by simp), Except.ok.injEq] at h
    rw [← h, entry_map (fun l => l.insertionSort fun a b => (tvd a).getD 0 ≤ (tvd b).getD 0) rfl,
      hb g]
    exact hsort _

/-- Three rows; columns whose name ends in `g` name a group, `tvd` is the depth. -/
def sampleRows (deep : Attrs) : List Attrs :=
  [[("pg", "a"), ("tvd", "2")], [("pg", "a"), ("tvd", "1")], deep]

/-- The depth of a sample row. -/
def sampleTvd (r : Attrs) : Option ℚ :=
  (r.lookup "tvd").map fun s => if s = "1" then 1 else if s = "2" then 2 else 3

/-- One row without a depth, in another group, and no group is sorted. -/
theorem C229_one_row_spoils_all :
    sortPpfpt (fun k => k = "pg") sampleTvd (sampleRows [("pg", "b")])
      = .ok [("a", [[("pg", "a"), ("tvd", "2")], [("pg", "a"), ("tvd", "1")]]),
          ("b", [[("pg", "b")]])] ∧
    sortPpfpt (fun k => k = "pg") sampleTvd (sampleRows [("pg", "b"), ("tvd", "3")])
      = .ok [("a", [[("pg", "a"), ("tvd", "1")], [("pg", "a"), ("tvd", "2")]]),
          ("b", [[("pg", "b"), ("tvd", "3")]])] := by
  refine ⟨?_, ?_⟩ <;> decide +kernel

/-- A row that also names a group of another kind, in an earlier column, is put under that name. -/
theorem C229_wrong_group :
    sortPpfpt (fun k => k = "pg" ∨ k = "hg") sampleTvd
        (sampleRows [("hg", "a"), ("pg", "b"), ("tvd", "3")])
      = .ok [("a", [[("pg", "a"), ("tvd", "1")], [("pg", "a"), ("tvd", "2")],
          [("hg", "a"), ("pg", "b"), ("tvd", "3")]])] := by
  decide +kernel

/-- The hypotheses of the partial theorem are met by the sample. -/
example : (∀ r ∈ sampleRows [("pg", "b"), ("tvd", "3")],
      (r.find? fun kv => decide (kv.1 = "pg")).map (·.2) = r.lookup "pg") ∧
    ∀ r ∈ sampleRows [("pg", "b"), ("tvd", "3")], sampleTvd r ≠ none := by
  decide +kernel

end Welleng.Props
