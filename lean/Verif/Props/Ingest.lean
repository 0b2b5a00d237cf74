import Verif.Model.Ingest
import Verif.Props.EdmSurvey
import Mathlib.Data.List.Induction
import Mathlib.Tactic.Ring
import Mathlib.Tactic.Linarith
import Mathlib.Tactic.NormNum

/-!
C50-C52: revision, legacy table, reference diagnostics. C95-C98: the validation harnesses.
-/

namespace Welleng.Props

open Ingest
open Edm (dictSet)

/-! ### C50 -/

/-- Revision `a` is later than revision `b`. -/
def Later (a b : ℕ × ℕ) : Prop := b.1 < a.1 ∨ (b.1 = a.1 ∧ b.2 < a.2)

/-- The cell at which the newest revision is first listed. -/
def NewestAt (parse : String → Option (ℕ × ℕ)) (cells : List (Option String)) (k : ℕ × ℕ)
    (v : String) : Prop :=
  ∃ pre post, cells = pre ++ some v :: post ∧ parse v = some k ∧
    (∀ c, some c ∈ pre → ∀ k', parse c = some k' → Later k k') ∧
    (∀ c, some c ∈ post → ∀ k', parse c = some k' → ¬ Later k' k)

theorem newestAt_snoc_skip {parse : String → Option (ℕ × ℕ)} {cells : List (Option String)}
    {k : ℕ × ℕ} {v : String} {c : Option String} (h : NewestAt parse cells k v)
    (hc : ∀ w, c = some w → ∀ k', parse w = some k' → ¬ Later k' k) :
    NewestAt parse (cells ++ [c]) k v := by
  obtain ⟨pre, post, rfl, h1, h2, h3⟩ := h
  refine ⟨pre, post ++ [c], by simp, h1, h2, ?_⟩
  intro w hw k' hk'
  rcases List.mem_append.mp hw with hw | hw
  · exact h3 w hw k' hk'
  · simp only [List.mem_singleton] at hw
    exact hc w hw.symm k' hk'

theorem later_trans {a b c : ℕ × ℕ} (h : Later a b) (h' : ¬ Later c b) : Later a c := by
  unfold Later at *
  omega

theorem rev_fold (parse : String → Option (ℕ × ℕ)) (cells : List (Option String)) :
    (∀ k v, cells.foldl (revStep parse) none = some (k, v) → NewestAt parse cells k v) ∧
    (cells.foldl (revStep parse) none = none → ∀ c, some c ∈ cells → parse c = none) := by
  induction cells using List.reverseRecOn with
  | nil => simp
  | append_singleton l c ih =>
    rw [List.foldl_append]
    simp only [List.foldl_cons, List.foldl_nil]
    generalize hb : l.foldl (revStep parse) none = best at ih ⊢
    cases c with
    | none =>
      simp only [revStep]
      refine ⟨fun k v h => newestAt_snoc_skip (ih.1 k v h) (by simp), fun h c hc => ?_⟩
      exact ih.2 h c (by simpa using hc)
    | some w =>
      cases hp : parse w with
      | none =>
        simp only [revStep, hp]
        refine ⟨fun k v h => newestAt_snoc_skip (ih.1 k v h) ?_, fun h c hc => ?_⟩
        · intro w' hw' k' hk'
          simp only [Option.some.injEq] at hw'
          rw [← hw', hp] at hk'; simp at hk'
        · rcases List.mem_append.mp hc with hc | hc
          · exact ih.2 h c hc
          · simp only [List.mem_singleton, Option.some.injEq] at hc
            rw [hc, hp]
      | some key =>
        cases best with
        | none =>
          simp only [revStep, hp]
          refine ⟨fun k v h => ?_, by simp⟩
          simp only [Option.some.injEq, Prod.mk.injEq] at h
          obtain ⟨rfl, rfl⟩ := h
          refine ⟨l, [], rfl, hp, ?_, by simp⟩
          intro c hc k' hk'
          rw [ih.2 rfl c hc] at hk'; simp at hk'
        | some b =>
          obtain ⟨kb, vb⟩ := b
          have hold := ih.1 kb vb rfl
          simp only [revStep, hp]
          by_cases hn : newer key kb = true
          · rw [if_pos hn]
            refine ⟨fun k v h => ?_, by simp⟩
            simp only [Option.some.injEq, Prod.mk.injEq] at h
            obtain ⟨rfl, rfl⟩ := h
            have hl : Later key kb := by simpa [newer, Later] using hn
            obtain ⟨pre, post, rfl, h1, h2, h3⟩ := hold
            refine ⟨_, [], rfl, hp, ?_, by simp⟩
            intro c hc k' hk'
            rcases List.mem_append.mp hc with hc | hc
            · have := h2 c hc k' hk'
              unfold Later at *; omega
            · rcases List.mem_cons.mp hc with hc | hc
              · simp only [Option.some.injEq] at hc
                rw [hc, h1] at hk'
                simp only [Option.some.injEq] at hk'
                rwa [← hk']
              · exact later_trans hl (h3 c hc k' hk')
          · rw [if_neg hn]
            refine ⟨fun k v h => ?_, by simp⟩
            simp only [Option.some.injEq, Prod.mk.injEq] at h
            obtain ⟨rfl, rfl⟩ := h
            refine newestAt_snoc_skip hold ?_
            intro w' hw' k' hk'
            simp only [Option.some.injEq] at hw'
            rw [← hw', hp] at hk'
            simp only [Option.some.injEq] at hk'
            rw [← hk']
            simpa [newer, Later] using hn

/-- C50: the reported revision is that of a cell that lists a revision which no other cell
exceeds (the first such cell). -/
theorem C50_newest {parse : String → Option (ℕ × ℕ)} {cells : List (Option String)} {v : String}
    (h : latestRevision parse cells = some v) : ∃ k, NewestAt parse cells k v := by
  unfold latestRevision at h
  cases hb : cells.foldl (revStep parse) none with
  | none => simp [hb] at h
  | some b =>
    obtain ⟨k, w⟩ := b
    simp only [hb, Option.map_some, Option.some.injEq] at h
    subst h
    exact ⟨k, (rev_fold parse cells).1 k w hb⟩

/-- C50: nothing is reported exactly when no cell lists a revision. -/
theorem C50_none {parse : String → Option (ℕ × ℕ)} {cells : List (Option String)} :
    latestRevision parse cells = none ↔ ∀ c, some c ∈ cells → parse c = none := by
  constructor
  · intro h
    unfold latestRevision at h
    exact (rev_fold parse cells).2 (by simpa using h)
  · intro h
    by_contra hc
    obtain ⟨v, hv⟩ := Option.ne_none_iff_exists'.mp hc
    obtain ⟨k, pre, post, rfl, hp, -⟩ := C50_newest hv
    rw [h v (by simp)] at hp
    simp at hp

/-- 5.11 is newer than 5.9. -/
example : latestRevision (fun s => if s = "Revision 5.9" then some (5, 9)
    else if s = "Revision 5.11" then some (5, 11) else none)
    [some "Revision 5.9", none, some "Revision 5.11", some "text"] = some "Revision 5.11" := by
  decide

/-! ### C51 -/

section Legacy

variable {K : Type} {fn : String → String} {si : String → K → K} {unitSi : String → String}

/-- C51 is false: with both an XCLA and an XCLL source only the later one is left, under the
name XCLA. -/
theorem C51_collision (a b : Term K) (ha : a.code = "XCLA") (hb : b.code = "XCLL") :
    legacyCodes fn si unitSi [a, b] = [("XCLA", entryOf fn si unitSi b)] := by
  simp [legacyCodes, legacyKey, ha, hb, dictSet]

theorem legacy_fold (terms : List (Term K)) (hn : (terms.map fun t => legacyKey t.code).Nodup) :
    legacyCodes fn si unitSi terms
      = terms.map fun t => (legacyKey t.code, entryOf fn si unitSi t) := by
  unfold legacyCodes
  suffices h : ∀ (d : List (String × Entry K)),
      (∀ t ∈ terms, legacyKey t.code ∉ d.map (·.1)) →
      terms.foldl (fun d t => dictSet d (legacyKey t.code) (entryOf fn si unitSi t)) d
        = d ++ terms.map fun t => (legacyKey t.code, entryOf fn si unitSi t) by
    simpa using h [] (by simp)
  induction terms with
  | nil => intro d _; simp
  | cons t ts ih =>
    intro d hd
    rw [List.map_cons, List.nodup_cons] at hn
    rw [List.foldl_cons, dictSet_new _ (hd t List.mem_cons_self), ih hn.2]
    · simp
    · intro t' ht'
      rw [List.map_append, List.mem_append, not_or]
      refine ⟨hd t' (List.mem_cons_of_mem _ ht'), ?_⟩
      simp only [List.map_cons, List.map_nil, List.mem_singleton]
      intro hc
      exact hn.1 (List.mem_map.mpr ⟨t', ht', hc⟩)

/-- C51, what holds: when the codes are distinct and XCLA and XCLL are not both present, every
source has its own entry, in order. -/
theorem C51_distinct_partial (terms : List (Term K)) (hn : (terms.map (·.code)).Nodup)
    (hx : ¬ ("XCLA" ∈ terms.map (·.code) ∧ "XCLL" ∈ terms.map (·.code))) :
    (legacyCodes fn si unitSi terms).length = terms.length ∧
    ∀ t ∈ terms, ((if t.code = "XCLL" then "XCLA" else t.code), entryOf fn si unitSi t)
      ∈ legacyCodes fn si unitSi terms := by
  have hk : (terms.map fun t => legacyKey t.code).Nodup := by
    have : (terms.map fun t => legacyKey t.code) = (terms.map (·.code)).map legacyKey := by simp
    rw [this]
    refine List.Nodup.map_on ?_ hn
    intro x hxm y hym hxy
    unfold legacyKey at hxy
    split_ifs at hxy with h1 h2 h2
    · rw [h1, h2]
    · exact absurd ⟨by rw [hxy]; exact hym, by rw [← h1]; exact hxm⟩ hx
    · exact absurd ⟨by rw [← hxy]; exact hxm, by rw [← h2]; exact hym⟩ hx
    · exact hxy
  rw [legacy_fold terms hk]
  refine ⟨by simp, fun t ht => List.mem_map.mpr ⟨t, ht, rfl⟩⟩

example : legacyCodes id (fun _ x => x) id
    ([⟨"XCLL", "XCL", 1, "m", "R"⟩, ⟨"ABZ", "ABZ", 2, "m/s2", "S"⟩] : List (Term ℕ))
    = [("XCLA", ⟨"XCL", 1, "m", "random"⟩), ("ABZ", ⟨"ABZ", 2, "m/s2", "systematic"⟩)] := by
  decide

end Legacy

/-! ### C52 -/

section Diagnostics

variable {V P : Type}

/-- The row of a code printed on a line. -/
def rowOf (code : String) : Line V P → Option V
  | .svy c v => if c = code then some v else none
  | _ => none

/-- A station header. -/
def stationOf : Line V P → Option P
  | .station p => some p
  | _ => none

theorem parse_block : ∀ (block : List (Line V P)) (d : List (String × V)) (p : P)
    (post : List (Line V P)), (∀ ln ∈ block, stationOf ln = none) →
    ∃ d', parse (block ++ .station p :: post) d = (p, d') :: parse post [] ∧
      ∀ code, d'.lookup code = if code ∈ aggregates then d.lookup code
        else ((block.filterMap (rowOf code)).getLast?).or (d.lookup code)
  | [], d, p, post, _ => ⟨d, rfl, by intro code; simp⟩
  | ln :: t, d, p, post, h => by
    have ht := fun x hx => h x (List.mem_cons_of_mem _ hx)
    cases ln with
    | station q => simp [stationOf] at h
    | other =>
      obtain ⟨d', h1, h2⟩ := parse_block t d p post ht
      exact ⟨d', by rw [List.cons_append, parse, h1], by
        intro code; rw [h2 code]; simp [rowOf]⟩
    | svy c v =>
      by_cases hc : c ∈ aggregates
      · obtain ⟨d', h1, h2⟩ := parse_block t d p post ht
        refine ⟨d', by rw [List.cons_append, parse, if_pos hc, h1], ?_⟩
        intro code
        rw [h2 code]
        by_cases hcode : code ∈ aggregates
        · simp [hcode]
        · have hne : c ≠ code := by rintro rfl; exact hcode hc
          simp [hcode, rowOf, hne]
      · obtain ⟨d', h1, h2⟩ := parse_block t (dictSet d c v) p post ht
        refine ⟨d', by rw [List.cons_append, parse, if_neg hc, h1], ?_⟩
        intro code
        rw [h2 code, lookup_dictSet]
        by_cases hcode : code ∈ aggregates
        · have hne : code ≠ c := by rintro rfl; exact hc hcode
          simp [hcode, hne]
        · by_cases hcc : code = c
          · subst hcc
            simp only [hcode, if_false, if_true]
            rw [List.filterMap_cons_some (b := v) (by simp [rowOf]), List.getLast?_cons]
            cases (t.filterMap (rowOf code)).getLast? <;> simp
          · have : rowOf code (Line.svy c v : Line V P) = none := by
              simp [rowOf, Ne.symm hcc]
            simp [hcode, hcc, List.filterMap_cons_none this]

theorem parse_append_station : ∀ (pre : List (Line V P)) (d : List (String × V)) (q : P)
    (post : List (Line V P)),
    parse (pre ++ .station q :: post) d = parse (pre ++ [.station q]) d ++ parse post []
  | [], d, q, post => rfl
  | ln :: t, d, q, post => by
    cases ln with
    | station p => simp only [List.cons_append, parse, parse_append_station t [] q post]
    | other => simp only [List.cons_append, parse, parse_append_station t d q post]
    | svy c v =>
      simp only [List.cons_append, parse]
      split_ifs
      · exact parse_append_station t d q post
      · exact parse_append_station t _ q post

/-- C52: the rows of a station are those printed after the previous station header (or the
beginning of the file) and before its own, the last row of a code winning; aggregate labels are
left out. -/
theorem C52_rows (pre block post : List (Line V P)) (p : P)
    (hpre : pre = [] ∨ ∃ pre' q, pre = pre' ++ [.station q])
    (hb : ∀ ln ∈ block, stationOf ln = none) :
    ∃ d, parseFile (pre ++ (block ++ .station p :: post))
        = parseFile pre ++ (p, d) :: parseFile post ∧
      ∀ code, d.lookup code = if code ∈ aggregates then none
        else (block.filterMap (rowOf code)).getLast? := by
  obtain ⟨d, h1, h2⟩ := parse_block block [] p post hb
  refine ⟨d, ?_, ?_⟩
  · unfold parseFile
    rcases hpre with rfl | ⟨pre', q, rfl⟩
    · simpa [parse] using h1
    · rw [List.append_assoc, List.singleton_append, parse_append_station, h1]
  · intro code
    rw [h2 code]; simp

/-- C52: there is one station per header, in order. -/
theorem C52_stations (lines : List (Line V P)) :
    (parseFile lines).map (·.1) = lines.filterMap stationOf := by
  unfold parseFile
  suffices h : ∀ d : List (String × V), (parse lines d).map (·.1) = lines.filterMap stationOf from
    h []
  induction lines with
  | nil => intro d; rfl
  | cons ln t ih =>
    intro d
    cases ln with
    | station p => simp [parse, ih, stationOf]
    | other => rw [parse, ih, List.filterMap_cons_none rfl]
    | svy c v =>
      rw [List.filterMap_cons_none rfl, parse]
      split_ifs <;> exact ih _

/-- The gathered rows of a term are those of the stations that have it, in order. -/
theorem C52_per_term (stations : List (P × List (String × V))) (term : String) (p : P) (v : V) :
    (p, v) ∈ perTerm stations term ↔ ∃ d, (p, d) ∈ stations ∧ d.lookup term = some v := by
  unfold perTerm
  simp only [List.mem_filterMap, Option.map_eq_some_iff, Prod.mk.injEq, Prod.exists]
  constructor
  · rintro ⟨q, d, h, w, hw, rfl, rfl⟩; exact ⟨d, h, hw⟩
  · rintro ⟨d, h, hw⟩; exact ⟨p, d, h, v, hw, rfl, rfl⟩

example : parseFile ([.svy "ABZ" 1, .svy "Total" 9, .svy "ABZ" 2, .station "a", .other,
    .svy "DRFR" 3, .station "b"] : List (Line ℕ String))
    = [("a", [("ABZ", 2)]), ("b", [("DRFR", 3)])] := by decide

end Diagnostics

/-! ### C95-C97: the workbook harness -/

section Validate

variable {α : Type} [Field α] [LinearOrder α] [IsStrictOrderedRing α]

theorem maxOf_le {l : List α} {b : α} (hb : 0 ≤ b) : maxOf l ≤ b ↔ ∀ x ∈ l, x ≤ b := by
  unfold maxOf
  induction l with
  | nil => simpa using hb
  | cons a t ih => simp [ih]

/-- C95, what holds: when no expected value is zero, a row passes exactly when all components are
within the absolute tolerance or all are within the relative tolerance. -/
theorem C95_verdict_partial {tolRel tolAbs : α} (hr : 0 ≤ tolRel) (ha : 0 ≤ tolAbs)
    {l : List (α × α)} (hl : ∀ p ∈ l, p.1 ≠ 0) :
    rowOk tolRel tolAbs l = true ↔
      (∀ p ∈ l, |p.2 - p.1| ≤ tolAbs) ∨ (∀ p ∈ l, |p.2 - p.1| ≤ tolRel * |p.1|) := by
  unfold rowOk absErr relErr
  rw [decide_eq_true_iff, maxOf_le ha, maxOf_le hr]
  have hf : (l.filter fun p => decide (0 < |p.1|)) = l := by
    rw [List.filter_eq_self]
    intro p hp
    simpa using hl p hp
  rw [hf]
  simp only [List.mem_map, forall_exists_index, and_imp, forall_apply_eq_imp_iff₂]
  apply or_congr_right
  refine forall_congr' fun p => forall_congr' fun hp => ?_
  rw [div_le_iff₀ (abs_pos.mpr (hl p hp))]

/-- C95 is false: a row whose expected values are all zero passes whatever welleng computed. -/
theorem C95_zero_row_passes {tolRel tolAbs : α} (hr : 0 ≤ tolRel) {l : List (α × α)}
    (hl : ∀ p ∈ l, p.1 = 0) : rowOk tolRel tolAbs l = true := by
  unfold rowOk
  rw [decide_eq_true_iff]
  right
  unfold relErr
  have : (l.filter fun p => decide (0 < |p.1|)) = [] := by
    rw [List.filter_eq_nil_iff]
    intro p hp
    simp [hl p hp]
  rw [this]
  simpa [maxOf] using hr

/-- An error of a thousand passes a tolerance of a millionth. -/
example : rowOk (1 / 1000 : ℚ) (1 / 1000000) [(0, 1000), (0, 1000)] = true :=
  C95_zero_row_passes (by norm_num) (by simp)

theorem mem_groupAdd (d : List (String × List Bool)) (c : String × Bool) :
    ((∃ kv ∈ groupAdd d c, false ∈ kv.2) ↔ ((∃ kv ∈ d, false ∈ kv.2) ∨ c.2 = false)) := by
  induction d with
  | nil => cases h : c.2 <;> simp [groupAdd, h]
  | cons a t ih =>
    obtain ⟨k, l⟩ := a
    simp only [groupAdd]
    split_ifs with h
    · simp only [List.mem_cons, exists_eq_or_imp, List.mem_append, List.not_mem_nil, or_false]
      rw [eq_comm (a := false)]
      constructor
      · rintro ((h | h) | h)
        · exact Or.inl (Or.inl h)
        · exact Or.inr h
        · exact Or.inl (Or.inr h)
      · rintro ((h | h) | h)
        · exact Or.inl (Or.inl h)
        · exact Or.inr h
        · exact Or.inl (Or.inr h)
    · simp only [List.mem_cons, exists_eq_or_imp, ih]
      exact or_assoc.symm

/-- C96, what holds: the exit code is zero exactly when every row that was compared passes. -/
theorem C96_exit_partial (rows : List (String × Bool)) :
    exitCode rows = 0 ↔ ∀ r ∈ rows, r.2 = true := by
  have hg : ∀ (rows : List (String × Bool)) (d : List (String × List Bool)),
      (∃ kv ∈ rows.foldl groupAdd d, false ∈ kv.2) ↔
        ((∃ kv ∈ d, false ∈ kv.2) ∨ ∃ r ∈ rows, r.2 = false) := by
    intro rows
    induction rows with
    | nil => intro d; simp
    | cons r t ih =>
      intro d
      rw [List.foldl_cons, ih, mem_groupAdd]
      simp only [List.mem_cons, exists_eq_or_imp]
      exact or_assoc
  have h1 : exitCode rows = 0 ↔ ¬ ∃ kv ∈ rows.foldl groupAdd [], false ∈ kv.2 := by
    unfold exitCode passFail
    rw [List.filter_map, List.length_map]
    have : ((rows.foldl groupAdd []).filter ((fun kv => !kv.2) ∘ fun kv : String × List Bool =>
        (kv.1, kv.2.all id))).length = 0 ↔ ¬ ∃ kv ∈ rows.foldl groupAdd [], false ∈ kv.2 := by
      rw [List.length_eq_zero_iff, List.filter_eq_nil_iff]
      simp
    split_ifs with hc
    · simp only [true_iff]; exact this.mp hc
    · simp only [one_ne_zero, false_iff]; rwa [← this]
  rw [h1, hg]
  simp only [List.not_mem_nil, false_and, exists_false, false_or, not_exists, not_and,
    Bool.not_eq_false]

/-- C96: which rows are compared: those whose source welleng has and whose depth is a station. -/
theorem C96_compared {codes : List String} {welleng : String → α → Option (List α)}
    {tolRel tolAbs : α} {rows : List (VRow α)} :
    exitCode (perSource codes welleng tolRel tolAbs rows) = 0 ↔
      ∀ r ∈ rows, r.source ∈ codes → ∀ w, welleng r.source r.md = some w →
        rowOk tolRel tolAbs (r.expected.zip w) = true := by
  rw [C96_exit_partial]
  unfold perSource
  simp only [List.mem_filterMap, forall_exists_index, and_imp]
  constructor
  · intro h r hr hs w hw
    have := h (r.source, rowOk tolRel tolAbs (r.expected.zip w)) r hr (by simp [hs, hw])
    exact this
  · intro h c r hr hc
    split_ifs at hc with hs
    cases hw : welleng r.source r.md with
    | none => simp [hw] at hc
    | some w =>
      simp only [hw, Option.map_some, Option.some.injEq] at hc
      rw [← hc]
      exact h r hr hs w hw

/-- C96 is false: if welleng has none of the sources of the workbook, the validation succeeds. -/
theorem C96_missing_sources {codes : List String} {welleng : String → α → Option (List α)}
    {tolRel tolAbs : α} {rows : List (VRow α)} (h : ∀ r ∈ rows, r.source ∉ codes) :
    exitCode (perSource codes welleng tolRel tolAbs rows) = 0 :=
  C96_compared.mpr fun r hr hs => absurd hs (h r hr)

/-- Rows that welleng does not have. -/
example : exitCode (perSource ["ABZ"] (fun _ _ => some [1, 2]) (1 / 1000 : ℚ) (1 / 1000000)
    [⟨"AMID", 30, [5, 6]⟩]) = 0 := C96_missing_sources (by simp)

/-! ### C97: the diagnostics harness -/

/-- C97: a random term matches exactly when it is reported at some station and every reported
sigma is within the tolerance of the absolute value of the formula times the magnitude:
inclination with high side, azimuth with lateral, depth with along hole. -/
theorem C97_match {mag tol : α} (ht : 0 ≤ tol) {fs : List (α × α × α)}
    {rows : List (Option (α × α × α))} (hlen : fs.length = rows.length) :
    verdict "Random" mag tol (some fs) rows = .matches_ ↔
      (∃ r, some r ∈ rows) ∧ ∀ p ∈ fs.zip rows, ∀ r, p.2 = some r →
        |(|p.1.2.1| * mag) - r.1| ≤ tol ∧ |(|p.1.2.2| * mag) - r.2.1| ≤ tol ∧
        |(|p.1.1| * mag) - r.2.2| ≤ tol := by
  unfold verdict
  rw [if_neg (by decide), if_neg (by simp)]
  simp only
  generalize hD : ((fs.zip rows).flatMap fun p =>
        match p.2 with
        | none => []
        | some r => [|(|p.1.2.1| * mag) - r.1|, |(|p.1.2.2| * mag) - r.2.1|,
            |(|p.1.1| * mag) - r.2.2|]) = D
  have hmem : ∀ x, x ∈ D ↔ ∃ p ∈ fs.zip rows, ∃ r, p.2 = some r ∧
      (x = |(|p.1.2.1| * mag) - r.1| ∨ x = |(|p.1.2.2| * mag) - r.2.1| ∨
        x = |(|p.1.1| * mag) - r.2.2|) := by
    intro x
    rw [← hD, List.mem_flatMap]
    refine exists_congr fun p => and_congr_right fun _ => ?_
    obtain ⟨f, o⟩ := p
    cases o with
    | none => simp
    | some r => simp
  have hne : D ≠ [] ↔ ∃ r, some r ∈ rows := by
    rw [List.ne_nil_iff_exists_cons]
    constructor
    · rintro ⟨x, t, hx⟩
      obtain ⟨p, hp, r, hr, -⟩ := (hmem x).mp (by rw [hx]; simp)
      exact ⟨r, by rw [← hr]; exact (List.of_mem_zip hp).2⟩
    · rintro ⟨r, hr⟩
      obtain ⟨i, hi, hri⟩ := List.mem_iff_getElem.mp hr
      have hi' : i < fs.length := by omega
      have : (fs[i], some r) ∈ fs.zip rows := by
        rw [List.mem_iff_getElem]
        exact ⟨i, by simp [hi, hi'], by simp [hri]⟩
      have hx := (hmem _).mpr ⟨_, this, r, rfl, Or.inl rfl⟩
      obtain ⟨y, s, hs⟩ := List.exists_cons_of_ne_nil (List.ne_nil_of_mem hx)
      exact ⟨y, s, hs⟩
  rw [← hne]
  by_cases h0 : D = []
  · simp [h0]
  rw [if_neg h0]
  have hle : maxOf D ≤ tol ↔ ∀ p ∈ fs.zip rows, ∀ r, p.2 = some r →
        |(|p.1.2.1| * mag) - r.1| ≤ tol ∧ |(|p.1.2.2| * mag) - r.2.1| ≤ tol ∧
        |(|p.1.1| * mag) - r.2.2| ≤ tol := by
    rw [maxOf_le ht]
    constructor
    · intro h p hp r hr
      exact ⟨h _ ((hmem _).mpr ⟨p, hp, r, hr, Or.inl rfl⟩),
        h _ ((hmem _).mpr ⟨p, hp, r, hr, Or.inr (Or.inl rfl)⟩),
        h _ ((hmem _).mpr ⟨p, hp, r, hr, Or.inr (Or.inr rfl)⟩)⟩
    · intro h x hx
      obtain ⟨p, hp, r, hr, hx⟩ := (hmem x).mp hx
      obtain ⟨h1, h2, h3⟩ := h p hp r hr
      rcases hx with rfl | rfl | rfl
      · exact h1
      · exact h2
      · exact h3
  by_cases hm : maxOf D ≤ tol
  · rw [if_pos hm]
    exact ⟨fun _ => ⟨h0, hle.mp hm⟩, fun _ => rfl⟩
  · simp only [hm, if_false]
    have hno : ¬ (D ≠ [] ∧ _) := fun hc => hm (hle.mpr hc.2)
    constructor
    · intro hc; split_ifs at hc
    · intro hc; exact absurd hc hno

/-- C97: a term that is not random is never compared. -/
theorem C97_not_random {prop : String} (hp : prop ≠ "Random") {mag tol : α}
    {interp : Option (List (α × α × α))} {rows : List (Option (α × α × α))} :
    verdict prop mag tol interp rows = .deferred ∨
      verdict prop mag tol interp rows = .unknownProp := by
  unfold verdict
  by_cases h : prop ∈ ["Systematic", "Global", "Well"]
  · left; rw [if_pos h]
  · right; rw [if_neg h, if_pos hp]

end Validate

end Welleng.Props
