import Verif.Model.EdmTables
import Verif.Props.EdmSurvey
import Mathlib.Data.List.Dedup

/-!
C291, C292: the hole sections of a well, and its pressure and temperature tables.
-/

namespace Welleng.Props

open Edm

/-! ### C291 -/

/-- Row `row` of the table `tag` belongs to the hole section group `g`. -/
def InGroup (data : List (String × List Node)) (tag : String) (row : Node) (g : String) : Prop :=
  ∃ rows, (tag, rows) ∈ data ∧ row ∈ rows ∧ row.get "hole_sect_group_id" = some g

theorem mem_holeSections (data : List (String × List Node)) (g : String) :
    g ∈ holeSections data ↔ ∃ tag row, InGroup data tag row g := by
  unfold holeSections InGroup
  rw [List.mem_dedup, List.mem_flatMap]
  constructor
  · rintro ⟨⟨tag, rows⟩, h1, h2⟩
    obtain ⟨row, hr, hg⟩ := List.mem_filterMap.1 h2
    exact ⟨tag, row, rows, h1, hr, hg⟩
  · rintro ⟨tag, row, rows, h1, hr, hg⟩
    exact ⟨(tag, rows), h1, List.mem_filterMap.2 ⟨row, hr, hg⟩⟩

theorem tagFold_lookup (tag g t : String) (rows : List Node) (d : List (String × Node)) :
    (rows.foldl (fun d row => if row.get "hole_sect_group_id" = some g
        then dictSet d tag row else d) d).lookup t
      = if t = tag then
          match (rows.filter fun r => r.get "hole_sect_group_id" = some g).getLast? with
          | some r => some r
          | none => d.lookup t
        else d.lookup t := by
  induction rows generalizing d with
  | nil => simp
  | cons r rs ih =>
    rw [List.foldl_cons, ih]
    by_cases hr : r.get "hole_sect_group_id" = some g
    · rw [if_pos hr, List.filter_cons_of_pos (by simpa using hr), lookup_dictSet,
        List.getLast?_cons]
      by_cases ht : t = tag
      · rw [if_pos ht, if_pos ht, if_pos ht]
        cases (rs.filter fun r => r.get "hole_sect_group_id" = some g).getLast? <;> rfl
      · rw [if_neg ht, if_neg ht, if_neg ht]
    · rw [if_neg hr, List.filter_cons_of_neg (by simpa using hr)]

theorem holeData_lookup {data : List (String × List Node)} (hn : (data.map (·.1)).Nodup)
    (g t : String) (d : List (String × Node)) :
    (data.foldl (fun d kv => kv.2.foldl (fun d row =>
        if row.get "hole_sect_group_id" = some g then dictSet d kv.1 row else d) d) d).lookup t
      = match data.lookup t with
        | some rows =>
          match (rows.filter fun r => r.get "hole_sect_group_id" = some g).getLast? with
          | some r => some r
          | none => d.lookup t
        | none => d.lookup t := by
  induction data generalizing d with
  | nil => rfl
  | cons kv rest ih =>
    obtain ⟨tag, rows⟩ := kv
    simp only [List.map_cons, List.nodup_cons] at hn
    rw [List.foldl_cons, ih hn.2, tagFold_lookup]
    by_cases ht : t = tag
    · subst ht
      have h0 : rest.lookup t = none := by
        rw [List.lookup_eq_none_iff]
        intro p hp
        rw [bne_iff_ne]
        rintro rfl
        exact hn.1 (List.mem_map.2 ⟨p, hp, rfl⟩)
      rw [h0]
      simp [List.lookup]
    · rw [if_neg ht, List.lookup, beq_false_of_ne ht]

theorem dictSet_fold {A : Type} (f : String → A) (l : List String) (d : List (String × A))
    (k : String) :
    (l.foldl (fun d h => dictSet d h (f h)) d).lookup k
      = if k ∈ l then some (f k) else d.lookup k := by
  induction l generalizing d with
  | nil => simp
  | cons a t ih =>
    rw [List.foldl_cons, ih, lookup_dictSet]
    by_cases h : k ∈ t
    · rw [if_pos h, if_pos (List.mem_cons_of_mem _ h)]
    · rw [if_neg h]
      by_cases h2 : k = a
      · subst h2; simp
      · rw [if_neg h2, if_neg (by simp [h, h2])]

/-- C291: every hole section group that occurs in the tables of a well is listed, once; nothing
else is. -/
theorem C291_listing (data : List (String × List Node)) :
    (holeSections data).Nodup ∧
    ∀ g, g ∈ holeSections data ↔ ∃ tag row, InGroup data tag row g :=
  ⟨List.nodup_dedup _, mem_holeSections data⟩

/-- C291: the table of hole sections has an entry for every group listed (or asked for) and for no
other; in it a tag has a row exactly when a row of that tag belongs to the group, and the row is one
of those. -/
theorem C291_table {data : List (String × List Node)} (hn : (data.map (·.1)).Nodup)
    (asked : Option (List String)) (g : String) :
    (g ∈ asked.getD (holeSections data) → ∃ d, (holeSectionTable data asked).lookup g = some d ∧
      ∀ tag, (∀ row, d.lookup tag = some row → InGroup data tag row g) ∧
        ((∃ row, InGroup data tag row g) → ∃ row, d.lookup tag = some row)) ∧
    (g ∉ asked.getD (holeSections data) → (holeSectionTable data asked).lookup g = none) := by
  unfold holeSectionTable
  rw [dictSet_fold]
  constructor
  · intro hg
    rw [if_pos hg]
    refine ⟨_, rfl, fun tag => ?_⟩
    unfold holeSectionData
    rw [holeData_lookup hn]
    have hlk : ∀ rows, data.lookup tag = some rows ↔ (tag, rows) ∈ data := by
      intro rows
      clear hg
      induction data with
      | nil => simp
      | cons kv rest ih =>
        obtain ⟨t, rs⟩ := kv
        simp only [List.map_cons, List.nodup_cons] at hn
        by_cases ht : tag = t
        · subst ht
          have : (tag, rows) ∉ rest := fun h => hn.1 (List.mem_map.2 ⟨_, h, rfl⟩)
          simp [List.lookup, this, eq_comm]
        · rw [List.lookup, beq_false_of_ne ht]
          simp only [ih hn.2, List.mem_cons, Prod.mk.injEq, ht, false_and, false_or]
    constructor
    · intro row h
      cases hd : data.lookup tag with
      | none => rw [hd] at h; simp at h
      | some rows =>
        rw [hd] at h
        dsimp only at h
        cases hl : (rows.filter fun r => r.get "hole_sect_group_id" = some g).getLast? with
        | none => rw [hl] at h; simp at h
        | some r =>
          rw [hl] at h
          simp only [Option.some.injEq] at h
          subst h
          have := List.mem_of_getLast? hl
          rw [List.mem_filter] at this
          exact ⟨rows, (hlk rows).1 hd, this.1, by simpa using this.2⟩
    · rintro ⟨row, rows, h1, h2, h3⟩
      rw [(hlk rows).2 h1]
      dsimp only
      cases hl : (rows.filter fun r => r.get "hole_sect_group_id" = some g).getLast? with
      | some r => exact ⟨r, rfl⟩
      | none =>
        rw [List.getLast?_eq_none_iff] at hl
        have : row ∈ rows.filter fun r => r.get "hole_sect_group_id" = some g :=
          List.mem_filter.2 ⟨h2, by simpa using h3⟩
        rw [hl] at this
        simp at this
  · intro hg
    rw [if_neg hg]
    rfl

/-- Two tables, three rows, two groups. -/
def holeDoc : List (String × List Node) :=
  [("CD_HOLE_SECT", [⟨"CD_HOLE_SECT", [("hole_sect_group_id", "g"), ("od", "12")]⟩,
     ⟨"CD_HOLE_SECT", [("hole_sect_group_id", "h")]⟩]),
   ("CD_HOLE_SECT_GROUP", [⟨"CD_HOLE_SECT_GROUP", [("hole_sect_group_id", "g")]⟩])]

/-- C291 is not vacuous. -/
example : (holeDoc.map (·.1)).Nodup ∧ "g" ∈ holeSections holeDoc ∧ "h" ∈ holeSections holeDoc ∧
    "x" ∉ holeSections holeDoc := by decide +kernel

/-! ### C292 -/

/-- The row has the three fields and the two numbers can be read. -/
def RowReads (num : String → Option ℚ) (groupKey valueKey : String) (p : Attrs) (r : Row) : Prop :=
  p.lookup groupKey = some r.group ∧
  (∃ x, p.lookup "tvd" = some x ∧ num x = some r.tvd) ∧
  ∃ x, p.lookup valueKey = some x ∧ num x = some r.value

theorem readRow_iff {num : String → Option ℚ} {gk vk : String} {p : Attrs} {r : Row} :
    readRow num gk vk p = .ok r ↔ RowReads num gk vk p r := by
  unfold readRow RowReads number field
  cases p.lookup gk with
  | none => simp
  | some g =>
    cases p.lookup "tvd" with
    | none => simp
    | some t =>
      cases ht : num t with
      | none => simp [ht]
      | some tq =>
        cases p.lookup vk with
        | none => simp [ht]
        | some v =>
          cases hv : num v with
          | none => simp [ht, hv]
          | some vq =>
            obtain ⟨rg, rt, rv⟩ := r
            simp [ht, hv]

theorem readRows_ok {num : String → Option ℚ} {gk vk : String} {ps : List Attrs} {rs : List Row} :
    readRows num gk vk ps = .ok rs ↔ List.Forall₂ (RowReads num gk vk) ps rs := by
  induction ps generalizing rs with
  | nil => simp [readRows, eq_comm]
  | cons p ps ih =>
    rw [readRows, List.forall₂_cons_left_iff]
    cases h : readRow num gk vk p with
    | error e =>
      simp only [reduceCtorEq, false_iff, not_exists, not_and]
      intro r rs' hr
      rw [← readRow_iff, h] at hr
      cases hr
    | ok r =>
      have hr := readRow_iff.1 h
      cases h2 : readRows num gk vk ps with
      | error e =>
        simp only [reduceCtorEq, false_iff, not_exists, not_and]
        intro r' rs' _ hf
        rw [← ih, h2] at hf
        cases hf
      | ok rs2 =>
        simp only [Except.ok.injEq]
        constructor
        · rintro rfl
          exact ⟨r, rs2, hr, ih.1 h2, rfl⟩
        · rintro ⟨r', rs', hr', hf, rfl⟩
          rw [← readRow_iff, h, Except.ok.injEq] at hr'
          rw [← ih, h2, Except.ok.injEq] at hf
          rw [hr', hf]

/-- C292 (partial): when every row of the table reads, the group `g` has exactly its rows, in
order of depth. -/
theorem C292_complete_partial {num : String → Option ℚ} {w : Tables} {table gk vk : String}
    {ps : List Attrs} {rs : List Row} (ht : w.lookup table = some ps)
    (h : List.Forall₂ (RowReads num gk vk) ps rs) :
    ∃ d, tableOrNone num w table gk vk = .ok (some d) ∧
      ∀ g, (entry d g).Perm ((rs.filter (·.group = g)).map fun r => (r.tvd, r.value)) ∧
        ((entry d g).map (·.1)).Pairwise (· ≤ ·) := by
  refine ⟨ppfpt rs, ?_, C87_tables rs⟩
  unfold tableOrNone
  rw [ht]
  dsimp only
  rw [readRows_ok.2 h]

theorem readRow_no_depth {num : String → Option ℚ} {gk vk : String} {p : Attrs}
    (h : p.lookup "tvd" = none) : readRow num gk vk p = .error .key := by
  unfold readRow number field
  rw [h]
  cases p.lookup gk <;> rfl

/-- C292 is false: one row without a depth and the whole table is reported absent, whatever
complete rows precede it and whatever rows follow. -/
theorem C292_table_lost {num : String → Option ℚ} {w : Tables} {table gk vk : String}
    {before after : List Attrs} {p : Attrs} {rs : List Row}
    (ht : w.lookup table = some (before ++ p :: after))
    (hb : List.Forall₂ (RowReads num gk vk) before rs) (hp : p.lookup "tvd" = none) :
    tableOrNone num w table gk vk = .ok none := by
  have : readRows num gk vk (before ++ p :: after) = .error .key := by
    clear ht
    induction hb with
    | nil => simp [readRows, readRow_no_depth hp]
    | cons h1 _ ih => rw [List.cons_append, readRows, readRow_iff.2 h1, ih]
  unfold tableOrNone
  rw [ht]
  dsimp only
  rw [this]

/-- C292: a depth or value that is not a number is reported as an error, not as a missing table,
whatever complete rows precede it and whatever rows follow. -/
theorem C292_bad_number {num : String → Option ℚ} {w : Tables} {table gk vk : String}
    {before after : List Attrs} {p : Attrs} {rs : List Row} {g t v : String}
    (ht : w.lookup table = some (before ++ p :: after))
    (hb : List.Forall₂ (RowReads num gk vk) before rs) (hg : p.lookup gk = some g)
    (hd : p.lookup "tvd" = some t) (hv : p.lookup vk = some v) (hbad : num t = none ∨ num v = none) :
    tableOrNone num w table gk vk = .error .value := by
  have hr : readRow num gk vk p = .error .value := by
    have h1 : field p gk = .ok g := by unfold field; rw [hg]
    have h2 : field p "tvd" = .ok t := by unfold field; rw [hd]
    have h3 : field p vk = .ok v := by unfold field; rw [hv]
    unfold readRow number
    rw [h1, h2, h3]
    cases ht' : num t with
    | none => simp [ht']
    | some x =>
      rcases hbad with h | h
      · rw [h] at ht'; cases ht'
      · simp [h, ht']
  have : readRows num gk vk (before ++ p :: after) = .error .value := by
    clear ht
    induction hb with
    | nil => simp [readRows, hr]
    | cons h1 _ ih => rw [List.cons_append, readRows, readRow_iff.2 h1, ih]
  unfold tableOrNone
  rw [ht]
  dsimp only
  rw [this]

/-- C292: the result is the same as for a well that has no such table. -/
theorem C292_like_absent {num : String → Option ℚ} {w : Tables} {table : String} (gk vk : String)
    (h : w.lookup table = none) : tableOrNone num w table gk vk = .ok none := by
  unfold tableOrNone
  rw [h]

/-- C292 (partial): the three tables returned are the pore pressure, the fracture gradient and the
temperature table of the well, each read as above. -/
theorem C292_each_partial {num : String → Option ℚ} {w : Tables} {T : Tables3}
    (h : ppfptData num w = .ok T) :
    tableOrNone num w "CD_PORE_PRESSURE" "pore_pressure_group_id" "pore_pressure" = .ok T.pore ∧
    tableOrNone num w "CD_FRAC_GRADIENT" "frac_gradient_group_id" "frac_gradient_pressure"
      = .ok T.frac ∧
    tableOrNone num w "CD_TEMP_GRADIENT" "temp_gradient_group_id" "temperature" = .ok T.temp := by
  unfold ppfptData at h
  split at h
  · cases h
  · split at h
    · cases h
    · split at h
      · cases h
      · cases h
        refine ⟨by assumption, by assumption, by assumption⟩

/-- C292, both sides on one table: the complete rows alone, and with a row lacking its depth. -/
example :
    let num : String → Option ℚ := fun x => if x = "1000" then some 1000 else some 1
    let a : Attrs := [("pore_pressure_group_id", "g"), ("tvd", "1000"), ("pore_pressure", "1")]
    let b : Attrs := [("pore_pressure_group_id", "g"), ("pore_pressure", "1")]
    ppfptData num [("CD_PORE_PRESSURE", [a])] = .ok ⟨some [("g", [(1000, 1)])], none, none⟩ ∧
    ppfptData num [("CD_PORE_PRESSURE", [a, b])] = .ok ⟨none, none, none⟩ := by
  decide +kernel

/-- The hypotheses of `C292_bad_number` are met. -/
example :
    let num : String → Option ℚ := fun x => if x = "deep" then none else some 1
    let a : Attrs := [("pore_pressure_group_id", "g"), ("tvd", "1000"), ("pore_pressure", "1")]
    let b : Attrs := [("pore_pressure_group_id", "g"), ("tvd", "deep"), ("pore_pressure", "1")]
    ppfptData num [("CD_PORE_PRESSURE", [a, b])] = .error .value := by
  decide +kernel

/-! ### C88 -/

/-- C88, exactly what is kept: for every tag, the last of its rows that belong to the group. -/
theorem C88_last_row_partial {data : List (String × List Node)} (hn : (data.map (·.1)).Nodup)
    {tag : String} {rows : List Node} (ht : (tag, rows) ∈ data) (g : String) :
    (holeSectionData data g).lookup tag
      = (rows.filter fun r => r.get "hole_sect_group_id" = some g).getLast? := by
  have hl : data.lookup tag = some rows := by
    induction data with
    | nil => simp at ht
    | cons kv rest ih =>
      obtain ⟨t, rs⟩ := kv
      simp only [List.map_cons, List.nodup_cons] at hn
      rcases List.mem_cons.1 ht with h | h
      · obtain ⟨rfl, rfl⟩ := Prod.mk.inj h
        simp [List.lookup]
      · have : tag ≠ t := by
          rintro rfl
          exact hn.1 (List.mem_map.2 ⟨_, h, rfl⟩)
        rw [List.lookup, beq_false_of_ne this]
        exact ih hn.2 h
  unfold holeSectionData
  rw [holeData_lookup hn, hl]
  dsimp only
  cases (rows.filter fun r => r.get "hole_sect_group_id" = some g).getLast? <;> rfl

/-- The hypotheses of `C88_last_row_partial` are met by two tags, one with two rows of the group. -/
example :
    let a : Node := ⟨"CD_HOLE_SECT", [("hole_sect_group_id", "g"), ("name", "17.5 in")]⟩
    let b : Node := ⟨"CD_HOLE_SECT", [("hole_sect_group_id", "g"), ("name", "12.25 in")]⟩
    let data := [("CD_CASE", [a]), ("CD_HOLE_SECT", [a, b])]
    (data.map (·.1)).Nodup ∧ (("CD_HOLE_SECT", [a, b]) : String × List Node) ∈ data := by
  decide

end Welleng.Props
