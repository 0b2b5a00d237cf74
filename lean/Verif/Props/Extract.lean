import Verif.Model.Extract
import Verif.Props.Workbook
import Verif.Props.EdmSurvey

/-!
C303-C305: the scripts that extract tool models from workbooks
(`/repo/welleng/errors/extract_iscwsa_codes.py`,
`/repo/welleng/errors/extract_owsg_codes_generic.py`).
-/

namespace Welleng.Props

open Ingest Extract
open Edm (dictSet)

/-! ### C303: the table of error sources -/

/-- An entry of the table of `iscwsa_ingest`, as the scripts store it. -/
def asExtracted (p : String × Entry ℝ) : Option String × Entry Cell :=
  (some p.1, ⟨p.2.function, .num p.2.magnitude, p.2.unit, p.2.propagation⟩)

/-- A term read by `iscwsa_ingest`, whose magnitude may be missing, from one with a magnitude. -/
def withMagnitude (t : Term ℝ) : Term (Option ℝ) :=
  ⟨t.code, t.wtFn, some t.magnitude, t.unit, t.propagation⟩

theorem setKey_map (d : List (String × Entry ℝ)) (k : String) (v : Entry ℝ) :
    setKey (d.map asExtracted) (some k) (asExtracted (k, v)).2 = (dictSet d k v).map asExtracted := by
  induction d with
  | nil => rfl
  | cons a t ih =>
    obtain ⟨k', v'⟩ := a
    simp only [List.map_cons, dictSet, setKey, asExtracted] at ih ⊢
    by_cases h : k' = k
    · simp [h, asExtracted]
    · simp [h, ih, asExtracted]

/-- A row that is complete: a number in column D, a code, function, magnitude, unit and possibly a
propagation, without blanks around code and propagation. -/
def Complete (r : List Cell) (t : Term ℝ) : Prop :=
  (∃ no, r[3]? = some (.num no)) ∧ r[4]? = some (.str t.code) ∧ t.code ≠ "" ∧
  Owsg.stripS t.code = t.code ∧ r[6]? = some (.str t.wtFn) ∧ r[9]? = some (.num t.magnitude) ∧
  r[10]? = some (.str t.unit) ∧ Owsg.stripS t.propagation = t.propagation ∧
  (r[11]? = some (.str t.propagation) ∨ r[11]? = some .empty ∧ t.propagation = "")

/-- The rows that the script for OWSG workbooks (`skip`) does not pass over. -/
def Kept (skip : Bool) (r : List Cell) : Bool :=
  match skip, col r 4 with
  | true, .empty => false
  | _, _ => true

theorem complete_term {text : ℝ → String} {parse : String → Option ℝ} {r : List Cell} {t : Term ℝ}
    (h : Complete r t) : termOf text parse r = some (withMagnitude t) := by
  obtain ⟨⟨no, h3⟩, h4, hne, hs, h6, h9, h10, hp, h11⟩ := h
  have e11 : cellText text (col r 11) = t.propagation := by
    rcases h11 with h | ⟨h, he⟩
    · simp [col, h, cellText]
    · simp [col, h, cellText, he]
  have c3 : col r 3 = .num no := by simp [col, h3]
  have c4 : col r 4 = .str t.code := by simp [col, h4]
  have c6 : col r 6 = .str t.wtFn := by simp [col, h6]
  have c9 : col r 9 = .num t.magnitude := by simp [col, h9]
  have c10 : col r 10 = .str t.unit := by simp [col, h10]
  unfold termOf
  rw [e11, c3, c4, c6, c9, c10, hp]
  simp [isNum, truthy, hne, cellText, hs, toFloat, withMagnitude]

theorem complete_entry {r : List Cell} {t : Term ℝ} (h : Complete r t) :
    rawEntry (rawOf r) = .ok (asExtracted (t.code, entryOf legacyFn magnitudeSi unitSi t)).2 := by
  obtain ⟨⟨no, h3⟩, h4, hne, hs, h6, h9, h10, hp, h11⟩ := h
  have c6 : col r 6 = .str t.wtFn := by simp [col, h6]
  have c10 : col r 10 = .str t.unit := by simp [col, h10]
  have c9 : col r 9 = .num t.magnitude := by simp [col, h9]
  have c11 : col r 11 = .str t.propagation ∨ col r 11 = .empty ∧ t.propagation = "" := by
    rcases h11 with h | ⟨h, he⟩
    · exact .inl (by simp [col, h])
    · exact .inr ⟨by simp [col, h], he⟩
  have e0 : propagationOf "" = "systematic" := by simp [propagationOf]
  simp only [rawEntry, rawOf, c6, c10, c9]
  unfold magnitudeIn
  by_cases hd : "deg".toList <:+: t.unit.toList
  · rw [if_pos hd]
    rcases c11 with h | ⟨h, he⟩ <;> simp only [h, asExtracted, entryOf, magnitudeSi, if_pos hd]
    rw [he, e0]
  · rw [if_neg hd]
    rcases c11 with h | ⟨h, he⟩ <;> simp only [h, asExtracted, entryOf, magnitudeSi, if_neg hd]
    rw [he, e0]

theorem errorDict_complete (text : ℝ → String) : ∀ (rs : List (List Cell)) (ts : List (Term ℝ))
    (d : List (String × Entry ℝ)), List.Forall₂ Complete rs ts →
    errorDict text (d.map asExtracted) (rs.map rawOf) = .ok ((ts.foldl (fun d t =>
      dictSet d (legacyKey t.code) (entryOf legacyFn magnitudeSi unitSi t)) d).map asExtracted)
  | _, _, d, .nil => rfl
  | r :: rs, t :: ts, d, .cons h hs => by
    have hk : keyOf text (rawOf r).code = some (legacyKey t.code) := by
      simp [rawOf, col, h.2.1, keyOf]
    rw [List.map_cons, errorDict, complete_entry h]
    simp only [hk, List.foldl_cons]
    have := setKey_map d (legacyKey t.code) (entryOf legacyFn magnitudeSi unitSi t)
    have e : (asExtracted (legacyKey t.code, entryOf legacyFn magnitudeSi unitSi t)).2
        = (asExtracted (t.code, entryOf legacyFn magnitudeSi unitSi t)).2 := rfl
    rw [e] at this
    rw [this]
    exact errorDict_complete text rs ts _ hs

/-- **C303** (the part that holds) From a sheet whose first three rows hold no term and whose other
rows are complete, or with the script for OWSG workbooks are complete or have no code, the scripts
extract the table that `iscwsa_ingest` makes of the terms it reads from that sheet. -/
theorem C303_same_table_partial (text : ℝ → String) (parse : String → Option ℝ) (skip : Bool)
    (rows : List (List Cell)) (ts : List (Term ℝ))
    (htop : ∀ r ∈ rows.take 3, ∀ no, r[3]? ≠ some (.num no))
    (hrows : List.Forall₂ Complete
      ((rows.drop 3).filter (Kept skip)) ts) :
    modelTerms text parse rows = ts.map withMagnitude ∧
      extractCodes text skip rows = .ok ((legacyTable ts).map asExtracted) := by
  constructor
  · unfold modelTerms
    conv_lhs => rw [← List.take_append_drop 3 rows]
    rw [List.filterMap_append]
    have h1 : (rows.take 3).filterMap (termOf text parse) = [] := by
      rw [List.filterMap_eq_nil_iff]
      intro r hr
      have := htop r hr
      unfold termOf
      rw [if_neg]
      rcases h : col r 3 with _ | no | s
      · simp [isNum]
      · exact absurd (col_num.1 h) (this no)
      · simp [isNum]
    rw [h1, List.nil_append]
    have h2 : ∀ (rs : List (List Cell)) (ts : List (Term ℝ)),
        List.Forall₂ Complete (rs.filter (Kept skip)) ts →
        rs.filterMap (termOf text parse) = ts.map withMagnitude := by
      intro rs
      induction rs with
      | nil => intro ts h; cases h; rfl
      | cons r rs ih =>
        intro ts h
        rw [List.filter_cons] at h
        split_ifs at h with hc
        · cases h with
          | cons h hs =>
            rw [List.filterMap_cons, complete_term h]
            simp [ih _ hs]
        · have : termOf text parse r = none := by
            unfold termOf
            rw [if_neg]
            rcases h4 : col r 4 with _ | x | s <;> simp [Kept, h4, truthy] at hc ⊢
          rw [List.filterMap_cons, this]
          exact ih _ h
    exact h2 _ _ hrows
  · unfold extractCodes codeRows
    rw [List.filter_map]
    rw [List.filter_congr (q := Kept skip) (l := rows.drop 3) (fun r _ => by
      simp only [Function.comp_def, Kept, rawOf]
      cases skip <;> cases col r 4 <;> rfl)]
    exact errorDict_complete text _ ts [] hrows

/-- **C303** is false of the script for ISCWSA workbooks: a blank row below the heading ends the
extraction with an exception. -/
theorem C303_blank_row (text : ℝ → String) (rows : List (List Cell)) {r : List Cell}
    (hr : r ∈ rows.drop 3) (hb : ∀ c ∈ r, c = .empty) :
    ∃ e, extractCodes text false rows = .error e := by
  have hbad : rawEntry (rawOf r) = .error .attributeError := by
    have : col r 6 = .empty := by
      unfold col
      cases h : r[6]? with
      | none => rfl
      | some c => exact hb c (List.mem_of_getElem? h)
    simp [rawEntry, rawOf, this]
  have key : ∀ (rs : List Raw) (d : List (Option String × Entry Cell)), rawOf r ∈ rs →
      ∃ e, errorDict text d rs = .error e := by
    intro rs
    induction rs with
    | nil => intro d h; simp at h
    | cons x rs ih =>
      intro d h
      rw [errorDict]
      rcases hx : rawEntry x with e | v
      · exact ⟨e, rfl⟩
      · rcases List.mem_cons.1 h with rfl | h
        · rw [hbad] at hx; cases hx
        · exact ih _ h
  refine key _ [] ?_
  unfold codeRows
  rw [List.mem_filter]
  exact ⟨List.mem_map_of_mem hr, by simp⟩

/-- **C303** is false of both scripts: a blank behind a code, which `iscwsa_ingest` removes, stays in
the key of the extracted table. -/
theorem C303_padded_code (text : ℝ → String) (parse : String → Option ℝ) (skip : Bool) :
    let rows : List (List Cell) := [[], [], [], [.empty, .empty, .empty, .num 1, .str "DREF ", .empty,
      .str "DREF", .empty, .empty, .num 0.35, .str "m", .str "R"]]
    modelTerms text parse rows = [⟨"DREF", "DREF", some 0.35, "m", "R"⟩] ∧
      extractCodes text skip rows = .ok [(some "DREF ", ⟨"DREF", .num 0.35, "m", "random"⟩)] := by
  have h1 : Owsg.stripS "DREF " = "DREF" := by decide +kernel
  have h2 : Owsg.stripS "R" = "R" := by decide +kernel
  have h3 : legacyFn "DREF" = "DREF" := by decide +kernel
  have h4 : unitSi "m" = "m" := by decide +kernel
  have h5 : ¬ "deg".toList <:+: "m".toList := by decide +kernel
  have h8 : ¬ ['d', 'e', 'g'] <:+: ['m'] := by decide +kernel
  have h6 : propagationOf "R" = "random" := by decide +kernel
  have h7 : legacyKey "DREF " = "DREF " := by decide +kernel
  constructor
  · simp [modelTerms, termOf, col, isNum, truthy, cellText, toFloat, h1, h2]
  · cases skip <;>
      simp [extractCodes, codeRows, rawOf, col, errorDict, rawEntry, magnitudeIn, h3, h4, h5, h6, h7,
        keyOf, setKey, h8]

/-- A sheet with three rows of heading and two complete rows. -/
example (text : ℝ → String) (parse : String → Option ℝ) (skip : Bool) :
    let rows : List (List Cell) := [[], [.str "Error Term"], [],
      [.empty, .empty, .empty, .num 1, .str "DREF", .empty, .str "DREF", .empty, .empty, .num 0.35,
        .str "m", .str "R"],
      [.empty, .empty, .empty, .num 2, .str "XCLL", .empty, .str "XCL-L", .empty, .empty, .num 1,
        .str "deg", .empty]]
    let ts : List (Term ℝ) := [⟨"DREF", "DREF", 0.35, "m", "R"⟩, ⟨"XCLL", "XCL-L", 1, "deg", ""⟩]
    modelTerms text parse rows = ts.map withMagnitude ∧
      extractCodes text skip rows = .ok ((legacyTable ts).map asExtracted) := by
  intro rows ts
  have h1 : Owsg.stripS "DREF" = "DREF" := by decide +kernel
  have h2 : Owsg.stripS "R" = "R" := by decide +kernel
  have h3 : Owsg.stripS "XCLL" = "XCLL" := by decide +kernel
  have h4 : Owsg.stripS "" = "" := by decide +kernel
  refine C303_same_table_partial text parse skip rows ts ?_ ?_
  · intro r hr no
    simp only [rows, List.take_succ_cons, List.take_zero, List.mem_cons, List.not_mem_nil,
      or_false] at hr
    rcases hr with rfl | rfl | rfl <;> simp
  · cases skip <;> simp only [rows, ts, List.drop_succ_cons, List.drop_zero, Kept, col,
      List.filter_cons, List.getElem?_cons_succ, List.getElem?_cons_zero, Option.getD_some,
      if_true, List.filter_nil] <;>
    exact .cons ⟨⟨1, rfl⟩, rfl, by simp, h1, rfl, rfl, rfl, h2, .inl rfl⟩
      (.cons ⟨⟨2, rfl⟩, rfl, by simp, h3, rfl, rfl, rfl, h4, .inr ⟨rfl, rfl⟩⟩ .nil)

/-! ### C304: the settings of the gyro -/

/-- A block of the sheet that starts with a heading for a gyro: the indented settings below it and
the rows up to the next block. -/
structure Block where
  heading : String
  note : Cell
  settings : List (String × Cell)
  after : List (Cell × Cell)

/-- The rows of a block. -/
def Block.rows (b : Block) : List (Cell × Cell) :=
  (.str b.heading, b.note) :: b.settings.map (fun p => (.str p.1, p.2)) ++ b.after

/-- The name of a setting: without the indentation and colons. -/
def settingName (s : String) : String :=
  String.ofList ((s.toList.dropWhile fun c => c == ' ').filter fun c => !(c == ':'))

/-- A row outside the blocks: blank in the first column, or a text that does not speak of a gyro. -/
def PlainRow (r : Cell × Cell) : Prop :=
  r.1 = .empty ∨ ∃ s, r.1 = .str s ∧ hasGyro s = false

/-- A text that is neither empty nor indented. -/
def FlushText (c : Cell) : Prop := ∃ s a l, c = .str s ∧ s.toList = a :: l ∧ a ≠ ' '

/-- A block as the script can read it; `val` are the values of the settings. -/
structure Block.Readable (parse : String → Option ℝ) (val : Cell → Cell) (b : Block) : Prop where
  gyro : hasGyro b.heading = true
  flush : FlushText (.str b.heading)
  indented : ∀ p ∈ b.settings, ∃ l, p.1.toList = ' ' :: l
  value : ∀ p ∈ b.settings, settingValue parse p.2 = .ok (val p.2)
  names : (b.settings.map fun p => settingName p.1).Nodup
  plain : ∀ r ∈ b.after, PlainRow r
  ended : ∀ r ∈ b.after.head?, FlushText r.1

/-- The settings of a block by name. -/
def Block.group (val : Cell → Cell) (b : Block) : List (String × Cell) :=
  b.settings.map fun p => (settingName p.1, val p.2)

/-- The texts in rows outside the blocks. -/
def plainTexts (rows : List (Cell × Cell)) : List (String × Cell) :=
  rows.filterMap fun r => match r.1 with
    | .str s => some (s, r.2)
    | _ => none

theorem headerLoop_append (parse : String → Option ℝ) (a b : List (Cell × Cell)) (st : HState) :
    headerLoop parse st (a ++ b) = match headerLoop parse st a with
      | .error e => .error e
      | .ok st' => headerLoop parse st' b := by
  induction a generalizing st with
  | nil => rfl
  | cons r t ih =>
    rw [List.cons_append, headerLoop, headerLoop]
    cases headerRow parse st r.1 r.2 with
    | error e => rfl
    | ok st' => exact ih st'

theorem headerLoop_plain (parse : String → Option ℝ) (rows : List (Cell × Cell)) (st : HState)
    (ht : st.tag = none) (h : ∀ r ∈ rows, PlainRow r) :
    headerLoop parse st rows = .ok { st with d := st.d ++ plainTexts rows } := by
  induction rows generalizing st with
  | nil => simp [headerLoop, plainTexts]
  | cons r t ih =>
    obtain ⟨c0, c1⟩ := r
    have ih' := fun st ht => ih st ht fun r hr => h r (List.mem_cons_of_mem _ hr)
    rw [headerLoop, headerRow, ht]
    rcases h (c0, c1) List.mem_cons_self with h0 | ⟨s, h0, hg⟩
    · simp only at h0
      subst h0
      simp only [plainRow]
      rw [ih' st ht]
      simp [plainTexts, ht]
    · simp only at h0
      subst h0
      simp only [plainRow, hg, Bool.false_eq_true, if_false]
      rw [ih' _ (by simpa using ht)]
      simp [plainTexts, ht]

theorem dictSet_twice {A : Type} (d : List (String × A)) (k : String) (v w : A) :
    dictSet (dictSet d k v) k w = dictSet d k w := by
  induction d with
  | nil => simp [dictSet]
  | cons a t ih =>
    obtain ⟨k', v'⟩ := a
    by_cases h : k' = k
    · simp [dictSet, h]
    · simp [dictSet, h, ih]

theorem headerLoop_settings (parse : String → Option ℝ) (val : Cell → Cell)
    (l : List (String × Cell)) (st : HState) (t : String) (g : List (String × Cell))
    (ht : st.tag = some t) (hg : st.temp.lookup t = some g)
    (hi : ∀ p ∈ l, ∃ x, p.1.toList = ' ' :: x)
    (hv : ∀ p ∈ l, settingValue parse p.2 = .ok (val p.2))
    (hn : (g.map (·.1) ++ l.map fun p => settingName p.1).Nodup) :
    headerLoop parse st (l.map fun p => (.str p.1, p.2))
      = .ok ⟨st.d, if l = [] then st.temp else
          dictSet st.temp t (g ++ l.map fun p => (settingName p.1, val p.2)), st.tag⟩ := by
  induction l generalizing st g with
  | nil => simp [headerLoop]
  | cons p l ih =>
    obtain ⟨x, hx⟩ := hi p List.mem_cons_self
    have hnew : settingName p.1 ∉ g.map (·.1) := by
      intro hc
      have := List.nodup_append.1 hn
      exact this.2.2 _ hc _ (by simp) rfl
    have hname : noColon (String.ofList (p.1.toList.dropWhile fun c => c == ' '))
        = settingName p.1 := by
      simp [noColon, settingName]
    have hrow : headerRow parse st (.str p.1) p.2 = .ok { st with
        temp := dictSet st.temp t (g ++ [(settingName p.1, val p.2)]) } := by
      unfold headerRow
      rw [ht]
      simp only [hx, if_true, hv p List.mem_cons_self, hg, Option.getD_some]
      rw [← hx, hname, dictSet_new _ hnew]
    rw [List.map_cons, headerLoop]
    simp only [hrow]
    rw [ih ⟨st.d, dictSet st.temp t (g ++ [(settingName p.1, val p.2)]), st.tag⟩
      (g ++ [(settingName p.1, val p.2)]) ht (by simp [lookup_dictSet])
      (fun q hq => hi q (List.mem_cons_of_mem _ hq)) (fun q hq => hv q (List.mem_cons_of_mem _ hq))
      (by simpa using hn)]
    by_cases hl : l = []
    · simp [hl]
    · simp [hl, dictSet_twice]

/-- A row that is neither empty nor indented ends a group. -/
theorem headerRow_flush (parse : String → Option ℝ) (st : HState) {c0 : Cell} (c1 : Cell)
    (h : FlushText c0) :
    headerRow parse st c0 c1 = headerRow parse { st with tag := none } c0 c1 := by
  obtain ⟨s, a, l, rfl, hs, ha⟩ := h
  unfold headerRow
  cases ht : st.tag with
  | none => simp [plainRow, ht]
  | some t => simp only [hs, ha, if_false]

theorem headerLoop_block (parse : String → Option ℝ) (val : Cell → Cell) (b : Block)
    (hb : b.Readable parse val) (st : HState) (hn : noColon b.heading ∉ st.temp.map (·.1)) :
    ∃ tag, headerLoop parse st b.rows = .ok ⟨st.d ++ plainTexts b.after,
      st.temp ++ [(noColon b.heading, b.group val)], tag⟩ := by
  have h1 : headerRow parse st (.str b.heading) b.note = .ok { st with
      tag := some (noColon b.heading), temp := st.temp ++ [(noColon b.heading, [])] } := by
    rw [headerRow_flush _ _ _ hb.flush]
    simp [headerRow, plainRow, hb.gyro, dictSet_new _ hn]
  have hlook : (st.temp ++ [(noColon b.heading, ([] : List (String × Cell)))]).lookup
      (noColon b.heading) = some [] := by
    rw [← dictSet_new _ hn, lookup_dictSet, if_pos rfl]
  have htemp : (if b.settings = [] then st.temp ++ [(noColon b.heading, [])] else
      dictSet (st.temp ++ [(noColon b.heading, [])]) (noColon b.heading)
        ([] ++ b.settings.map fun p => (settingName p.1, val p.2)))
      = st.temp ++ [(noColon b.heading, b.group val)] := by
    split_ifs with he
    · simp [Block.group, he]
    · rw [← dictSet_new _ hn, dictSet_twice, dictSet_new _ hn]
      simp [Block.group]
  unfold Block.rows
  rw [List.cons_append, headerLoop]
  simp only [h1]
  rw [headerLoop_append, headerLoop_settings parse val b.settings _ (noColon b.heading) [] rfl hlook
    hb.indented hb.value (by simpa using hb.names)]
  simp only [htemp]
  rcases ha : b.after with _ | ⟨r, t⟩
  · exact ⟨some (noColon b.heading), by simp [headerLoop, plainTexts]⟩
  · have hf : FlushText r.1 := hb.ended r (by simp [ha])
    have hp : ∀ q ∈ r :: t, PlainRow q := by rw [← ha]; exact hb.plain
    refine ⟨none, ?_⟩
    rw [headerLoop, headerRow_flush _ _ _ hf]
    exact headerLoop_plain parse (r :: t) ⟨st.d, st.temp ++ [(noColon b.heading, b.group val)], none⟩
      rfl hp

theorem headerLoop_blocks (parse : String → Option ℝ) (val : Cell → Cell) (bs : List Block)
    (hb : ∀ b ∈ bs, b.Readable parse val) (st : HState)
    (hn : (st.temp.map (·.1) ++ bs.map fun b => noColon b.heading).Nodup) :
    ∃ tag, headerLoop parse st (bs.flatMap Block.rows) = .ok
      ⟨st.d ++ bs.flatMap fun b => plainTexts b.after,
        st.temp ++ bs.map fun b => (noColon b.heading, b.group val), tag⟩ := by
  induction bs generalizing st with
  | nil => exact ⟨st.tag, by simp [headerLoop]⟩
  | cons b bs ih =>
    obtain ⟨tag, h⟩ := headerLoop_block parse val b (hb b List.mem_cons_self) st (by
      intro hc
      exact (List.nodup_append.1 hn).2.2 _ hc _ (by simp) rfl)
    obtain ⟨tag', h'⟩ := ih (fun b hb' => hb b (List.mem_cons_of_mem _ hb'))
      ⟨st.d ++ plainTexts b.after, st.temp ++ [(noColon b.heading, b.group val)], tag⟩
      (by simpa using hn)
    refine ⟨tag', ?_⟩
    rw [List.flatMap_cons, headerLoop_append, h]
    simp only [h']
    simp

theorem fold_dictSet_lookup {A B : Type} (name : A → String) (f : A → B) (l : List A)
    (hn : (l.map name).Nodup) (d : List (String × B)) :
    (∀ a ∈ l, (l.foldl (fun d a => dictSet d (name a) (f a)) d).lookup (name a) = some (f a)) ∧
    ∀ k ∉ l.map name, (l.foldl (fun d a => dictSet d (name a) (f a)) d).lookup k = d.lookup k := by
  induction l generalizing d with
  | nil => simp
  | cons a t ih =>
    rw [List.map_cons, List.nodup_cons] at hn
    have := ih hn.2 (dictSet d (name a) (f a))
    constructor
    · intro b hb
      rcases List.mem_cons.1 hb with rfl | hb
      · rw [List.foldl_cons, this.2 _ hn.1, lookup_dictSet, if_pos rfl]
      · exact this.1 b hb
    · intro k hk
      simp only [List.map_cons, List.mem_cons, not_or] at hk
      rw [List.foldl_cons, this.2 _ hk.2, lookup_dictSet, if_neg hk.1]

/-- **C304** (the part that holds) The header of a sheet that is made of rows outside blocks and of
readable blocks is a dictionary in which every block is found under its heading, with its settings by
name, and every other row by its text. -/
theorem C304_groups_partial (parse : String → Option ℝ) (val : Cell → Cell)
    (top : List (Cell × Cell)) (htop : ∀ r ∈ top, PlainRow r) (bs : List Block)
    (hb : ∀ b ∈ bs, b.Readable parse val) (hn : (bs.map fun b => noColon b.heading).Nodup) :
    ∃ h, extractHeader parse (top ++ bs.flatMap Block.rows) = .ok h ∧
      (∀ b ∈ bs, h.lookup (noColon b.heading) = some (.group (b.group val))) ∧
      ((((plainTexts top ++ bs.flatMap fun b => plainTexts b.after).map
          fun p => removeChars p.1) ++ bs.map fun b => noColon b.heading).Nodup →
        ∀ p ∈ plainTexts top ++ bs.flatMap fun b => plainTexts b.after,
          h.lookup (removeChars p.1) = some (.cell p.2)) := by
  obtain ⟨tag, h⟩ := headerLoop_blocks parse val bs hb ⟨plainTexts top, [], none⟩ (by simpa using hn)
  refine ⟨headerDict ⟨plainTexts top ++ bs.flatMap fun b => plainTexts b.after,
    bs.map fun b => (noColon b.heading, b.group val), tag⟩, ?_, ?_, ?_⟩
  · unfold extractHeader
    rw [headerLoop_append, headerLoop_plain parse top {} rfl htop]
    simp only [List.nil_append]
    simp only [h, List.nil_append]
  · intro b hbm
    unfold headerDict
    have := (fold_dictSet_lookup (fun p : String × List (String × Cell) => p.1)
      (fun p => HVal.group p.2) (bs.map fun b => (noColon b.heading, b.group val))
      (by simpa [Function.comp_def] using hn) ((plainTexts top ++ bs.flatMap fun b =>
        plainTexts b.after).foldl (fun h p => dictSet h (removeChars p.1) (.cell p.2)) [])).1
      (noColon b.heading, b.group val) (List.mem_map_of_mem hbm)
    exact this
  · intro hnd p hp
    rw [List.nodup_append] at hnd
    unfold headerDict
    have h2 := (fold_dictSet_lookup (fun p : String × List (String × Cell) => p.1)
      (fun p => HVal.group p.2) (bs.map fun b => (noColon b.heading, b.group val))
      (by simpa [Function.comp_def] using hn) ((plainTexts top ++ bs.flatMap fun b =>
        plainTexts b.after).foldl (fun h p => dictSet h (removeChars p.1) (.cell p.2)) [])).2
      (removeChars p.1) (by
        intro hc
        rw [List.map_map] at hc
        exact hnd.2.2 _ (List.mem_map_of_mem (f := fun p : String × Cell => removeChars p.1) hp) _
          hc rfl)
    refine h2.trans ?_
    exact (fold_dictSet_lookup (fun p : String × Cell => removeChars p.1)
      (fun p => HVal.cell p.2) _ hnd.1 []).1 p hp

/-- **C304** What the keys are: a label without its colons and square brackets, a heading without its
colons, all other characters kept in order. -/
theorem C304_labels (s : String) :
    (removeChars s).toList = s.toList.filter (fun c => c ∉ [':', '[', ']']) ∧
      (noColon s).toList = s.toList.filter (· ≠ ':') := by
  constructor
  · rw [removeChars, String.toList_ofList]
    refine List.filter_congr fun c _ => ?_
    simp
    by_cases h1 : c = ':' <;> by_cases h2 : c = '[' <;> by_cases h3 : c = ']' <;> simp [h1, h2, h3]
  · rw [noColon, String.toList_ofList]
    refine List.filter_congr fun c _ => ?_
    by_cases h1 : c = ':' <;> simp [h1]

/-- **C304** What the values are: a number followed by a blank and by a text with "deg" in it is stored
in radians, any text without "deg" as it stands. -/
theorem C304_values (parse : String → Option ℝ) :
    (∀ (w rest : List Char) (x : ℝ), ' ' ∉ w → "deg".toList <:+: rest →
      parse (String.ofList w) = some x →
      settingValue parse (.str (String.ofList (w ++ ' ' :: rest))) = .ok (.num (x * Real.pi / 180))) ∧
    ∀ s : String, ¬ "deg".toList <:+: s.toList → settingValue parse (.str s) = .ok (.str s) := by
  constructor
  · intro w rest x hw hd hx
    have h1 : "deg".toList <:+: (String.ofList (w ++ ' ' :: rest)).toList := by
      rw [String.toList_ofList]
      obtain ⟨a, b, rfl⟩ := hd
      exact ⟨w ++ ' ' :: a, b, by simp⟩
    have h2 : (w ++ ' ' :: rest).takeWhile (fun c => !(c == ' ')) = w := by
      rw [List.takeWhile_append_of_pos]
      · simp
      · intro c hc
        have : c ≠ ' ' := fun h => hw (h ▸ hc)
        simp [this]
    rw [settingValue, if_pos h1, String.toList_ofList, h2, hx]
    simp only [radians]
  · intro s h
    rw [settingValue, if_neg h]

/-- **C304** A heading speaks of a gyro in whatever case the word is written. -/
theorem C304_any_case (a b w : List Char) (hw : w.map Char.toLower = "gyro".toList) :
    hasGyro (String.ofList (a ++ w ++ b)) = true := by
  rw [hasGyro, decide_eq_true_eq, String.toList_ofList (l := a ++ w ++ b), lower, List.map_append,
    List.map_append, hw]
  exact ⟨_, _, rfl⟩

example : "GYRO".toList.map Char.toLower = "gyro".toList ∧
    "Gyro".toList.map Char.toLower = "gyro".toList := by decide +kernel

/-- **C304** is false of the code: a blank row right below a block ends the extraction with an
exception, whatever follows. -/
theorem C304_blank_after_block (parse : String → Option ℝ) (val : Cell → Cell)
    (top : List (Cell × Cell)) (htop : ∀ r ∈ top, PlainRow r) (b : Block)
    (hb : b.Readable parse val) (ha : b.after = []) (c : Cell) (rest : List (Cell × Cell)) :
    extractHeader parse (top ++ b.rows ++ (.empty, c) :: rest) = .error .typeError := by
  unfold extractHeader Block.rows
  have h1 : headerRow parse ⟨plainTexts top, [], none⟩ (.str b.heading) b.note
      = .ok ⟨plainTexts top, [(noColon b.heading, [])], some (noColon b.heading)⟩ := by
    simp [headerRow, plainRow, hb.gyro, dictSet]
  rw [List.append_assoc, headerLoop_append, headerLoop_plain parse top {} rfl htop]
  simp only [List.nil_append, ha, List.append_nil, List.cons_append]
  rw [headerLoop]
  simp only [h1]
  rw [headerLoop_append, headerLoop_settings parse val b.settings _ (noColon b.heading) [] rfl
    (by simp [List.lookup]) hb.indented hb.value (by simpa using hb.names)]
  rfl

/-- **C304** is false of the code: so does a setting whose value is a number. -/
theorem C304_number_setting (parse : String → Option ℝ) (s t : String) (x : ℝ) (c : Cell)
    (hs : hasGyro s = true) (ht : ∃ l, t.toList = ' ' :: l) (rest : List (Cell × Cell)) :
    extractHeader parse ((.str s, c) :: (.str t, .num x) :: rest) = .error .typeError := by
  obtain ⟨l, hl⟩ := ht
  simp [extractHeader, headerLoop, headerRow, plainRow, hs, hl, settingValue]

/-- A sheet with a row, a gyro with two settings and a row below. -/
example : ∃ h, extractHeader (fun s => if s = "90" then some 90 else none)
      [(.str "Tool:", .str "GYRO-NS"), (.empty, .empty), (.str "Gyro Mode:", .empty),
        (.str "  Start Inclination:", .str "90 deg"), (.str "  Running Speed:", .str "60 m/min"),
        (.str "Revision:", .num 5)] = .ok h := by
  classical
  have hd1 : "deg".toList <:+: "90 deg".toList := by decide +kernel
  have hd2 : ¬ "deg".toList <:+: "60 m/min".toList := by decide +kernel
  have hw : String.ofList ("90 deg".toList.takeWhile fun c => !(c == ' ')) = "90" := by
    decide +kernel
  let b : Block := ⟨"Gyro Mode:", .empty, [("  Start Inclination:", .str "90 deg"),
    ("  Running Speed:", .str "60 m/min")], [(.str "Revision:", .num 5)]⟩
  obtain ⟨h, hh, -⟩ := C304_groups_partial (fun s => if s = "90" then some 90 else none)
    (fun c => if c = .str "90 deg" then .num (radians 90) else c)
    [(.str "Tool:", .str "GYRO-NS"), (.empty, .empty)] (by
      intro r hr
      simp only [List.mem_cons, List.not_mem_nil, or_false] at hr
      rcases hr with rfl | rfl
      · exact .inr ⟨"Tool:", rfl, by decide +kernel⟩
      · exact .inl rfl) [b] (by
      intro b' hb'
      rw [List.mem_singleton] at hb'
      subst hb'
      refine ⟨by decide +kernel, ⟨"Gyro Mode:", 'G', "yro Mode:".toList, rfl, by decide +kernel,
        by decide⟩, ?_, ?_, ?_, ?_, ?_⟩
      · intro p hp
        simp only [b, List.mem_cons, List.not_mem_nil, or_false] at hp
        rcases hp with rfl | rfl
        · exact ⟨" Start Inclination:".toList, by decide +kernel⟩
        · exact ⟨" Running Speed:".toList, by decide +kernel⟩
      · intro p hp
        simp only [b, List.mem_cons, List.not_mem_nil, or_false] at hp
        rcases hp with rfl | rfl
        · simp only [settingValue, if_pos hd1, hw, if_true]
        · simp only [settingValue, if_neg hd2]
          simp
      · decide +kernel
      · intro r hr
        simp only [b, List.mem_singleton] at hr
        subst hr
        exact .inr ⟨"Revision:", rfl, by decide +kernel⟩
      · intro r hr
        simp only [b, List.head?_cons, Option.mem_some_iff] at hr
        subst hr
        exact ⟨"Revision:", 'R', "evision:".toList, rfl, by decide +kernel, by decide⟩)
    (by simp)
  exact ⟨h, hh⟩

/-! ### C305: the index -/

/-- A row of the index with the short name `s`: every field is named once. -/
def NamedRow (r : IRow) (s : String) : Prop :=
  (r.fields.map (·.1)).Nodup ∧ ("Short Name", s) ∈ r.fields

/-- The key under which a row is stored. -/
def rowKey (r : IRow) : String := indexKey r.owsgPrefix r.second

/-- **C305** The keys: the prefix of the tool, with `_Fl` appended for a floating installation, which is
one whose second name ends in `_Fl`. -/
theorem C305_keys (r : IRow) :
    (∀ stem : List Char, r.second = String.ofList (stem ++ ['_', 'F', 'l']) →
      rowKey r = r.owsgPrefix ++ "_Fl") ∧
    ((∀ stem : List Char, r.second.toList ≠ stem ++ ['_', 'F', 'l']) → r.second ≠ "Fl" →
      rowKey r = r.owsgPrefix) := by
  constructor
  · intro stem h
    rw [rowKey, indexKey, h, if_pos]
    right
    rw [String.toList_ofList (l := stem ++ ['_', 'F', 'l'])]
    exact ⟨stem, rfl⟩
  · intro h1 h2
    rw [rowKey, indexKey, if_neg]
    rintro (h | ⟨stem, h⟩)
    · exact h2 (String.toList_injective h)
    · exact h1 stem h.symm

theorem namedRow_lookup {r : IRow} {s : String} (h : NamedRow r s) :
    (r.fields.foldl (fun e f => dictSet e f.1 f.2) []).lookup "Short Name" = some s :=
  (fold_dictSet_lookup (fun p : String × String => p.1) (fun p => p.2) r.fields h.1 []).1 _ h.2

theorem mem_dictSet {A : Type} (d : List (String × A)) (k : String) (v : A)
    (hn : (d.map (·.1)).Nodup) : ((dictSet d k v).map (·.1)).Nodup ∧
    ∀ p ∈ dictSet d k v, p = (k, v) ∨ p.1 ≠ k ∧ p ∈ d := by
  by_cases h : k ∈ d.map (·.1)
  · induction d with
    | nil => simp at h
    | cons a t ih =>
      obtain ⟨k', v'⟩ := a
      rw [List.map_cons, List.nodup_cons] at hn
      by_cases hk : k' = k
      · subst hk
        simp only [dictSet, if_true]
        refine ⟨by simpa using hn, fun p hp => ?_⟩
        rcases List.mem_cons.1 hp with rfl | hp
        · exact .inl rfl
        · refine .inr ⟨fun he => hn.1 ?_, List.mem_cons_of_mem _ hp⟩
          exact List.mem_map.2 ⟨p, hp, he⟩
      · have hm : k ∈ t.map (·.1) := by
          rcases List.mem_cons.1 h with h | h
          · exact absurd h.symm hk
          · exact h
        obtain ⟨i1, i2⟩ := ih hn.2 hm
        simp only [dictSet, if_neg hk]
        refine ⟨?_, fun p hp => ?_⟩
        · rw [List.map_cons, List.nodup_cons]
          refine ⟨fun hc => ?_, i1⟩
          obtain ⟨q, hq, he⟩ := List.mem_map.1 hc
          rcases i2 q hq with rfl | ⟨_, hq⟩
          · exact hk he.symm
          · exact hn.1 (he ▸ List.mem_map_of_mem hq)
        · rcases List.mem_cons.1 hp with rfl | hp
          · exact .inr ⟨hk, List.mem_cons_self⟩
          · rcases i2 p hp with h | ⟨h1, h2⟩
            · exact .inl h
            · exact .inr ⟨h1, List.mem_cons_of_mem _ h2⟩
  · rw [dictSet_new v h]
    refine ⟨?_, fun p hp => ?_⟩
    · rw [List.map_append, List.nodup_append]
      refine ⟨hn, by simp, ?_⟩
      rintro a ha b hb rfl
      simp only [List.map_cons, List.map_nil, List.mem_singleton] at hb
      exact h (hb ▸ ha)
    · rcases List.mem_append.1 hp with hp | hp
      · exact .inr ⟨fun he => h (he ▸ List.mem_map_of_mem hp), hp⟩
      · exact .inl (by simpa using hp)

/-- The fields of a row as a dictionary. -/
def fieldsOf (r : IRow) : List (String × String) := r.fields.foldl (fun e f => dictSet e f.1 f.2) []

theorem makeIndex_snoc (rows : List IRow) (r : IRow) :
    makeIndex (rows ++ [r]) = dictSet (makeIndex rows) (rowKey r) (fieldsOf r) := by
  simp [makeIndex, rowKey, fieldsOf]

/-- The index holds, under the key of a row, the last row with that key. -/
theorem mem_makeIndex (rows : List IRow) : ((makeIndex rows).map (·.1)).Nodup ∧
    ∀ p ∈ makeIndex rows, ∃ (i : ℕ) (r : IRow), rows[i]? = some r ∧ p = (rowKey r, fieldsOf r) ∧
      ∀ (j : ℕ) (q : IRow), i < j → rows[j]? = some q → rowKey q ≠ rowKey r := by
  induction rows using List.reverseRecOn with
  | nil => simp [makeIndex]
  | append_singleton rows r ih =>
    obtain ⟨h1, h2⟩ := mem_dictSet (makeIndex rows) (rowKey r) (fieldsOf r) ih.1
    rw [makeIndex_snoc]
    refine ⟨h1, fun p hp => ?_⟩
    rcases h2 p hp with rfl | ⟨hk, hp⟩
    · refine ⟨rows.length, r, by simp, rfl, fun j q hj hq => ?_⟩
      rw [List.getElem?_eq_none (by simp; omega)] at hq
      cases hq
    · obtain ⟨i, s, hi, rfl, hl⟩ := ih.2 p hp
      have hi' : i < rows.length := (List.getElem?_eq_some_iff.1 hi).1
      refine ⟨i, s, by rw [List.getElem?_append_left hi']; exact hi, rfl, fun j q hj hq => ?_⟩
      by_cases hjl : j < rows.length
      · rw [List.getElem?_append_left hjl] at hq
        exact hl j q hj hq
      · rw [List.getElem?_append_right (by omega)] at hq
        have : q = r := by
          have := List.mem_of_getElem? hq
          simpa using this
        subst this
        exact fun h => hk h.symm

theorem makeIndex_distinct (rows : List IRow) (hk : (rows.map rowKey).Nodup) :
    makeIndex rows = rows.map fun r => (rowKey r, fieldsOf r) := by
  induction rows using List.reverseRecOn with
  | nil => rfl
  | append_singleton rows r ih =>
    rw [List.map_append, List.nodup_append] at hk
    rw [makeIndex_snoc, ih hk.1, dictSet_new]
    · simp
    · rw [List.map_map]
      intro hc
      exact hk.2.2 _ hc _ (by simp) rfl

/-- **C305** (the part that holds) If the keys and the short names of the tools differ, then every
tool is found by its short name. -/
theorem C305_found_partial (rows : List IRow) (name : IRow → String)
    (hname : ∀ r ∈ rows, NamedRow r (name r)) (hk : (rows.map rowKey).Nodup)
    (hs : (rows.map name).Nodup) {r : IRow} (hr : r ∈ rows) :
    getIndex (name r) (makeIndex rows) = .ok (some (rowKey r)) ∧
      (makeIndex rows).lookup (rowKey r) = some (fieldsOf r) := by
  rw [makeIndex_distinct rows hk]
  induction rows with
  | nil => cases hr
  | cons a t ih =>
    have hl := namedRow_lookup (hname a List.mem_cons_self)
    simp only [List.map_cons, List.nodup_cons] at hk hs
    simp only [List.map_cons, getIndex, fieldsOf, hl]
    rcases List.mem_cons.1 hr with rfl | hr
    · simp [List.lookup]
    · have h1 : name a ≠ name r := fun h => hs.1 (h ▸ List.mem_map_of_mem hr)
      have h2 : rowKey r ≠ rowKey a := fun h => hk.1 (h ▸ List.mem_map_of_mem hr)
      rw [if_neg h1, List.lookup, beq_false_of_ne h2]
      exact ih (fun q hq => hname q (List.mem_cons_of_mem _ hq)) hk.2 hs.2 hr

/-- **C305** is false of the code: a tool is lost from the index if a later one has its prefix (and
both or none are for floating installations). -/
theorem C305_shared_prefix (rows : List IRow) (name : IRow → String)
    (hname : ∀ r ∈ rows, NamedRow r (name r)) {i j : ℕ} {r q : IRow} (hi : rows[i]? = some r)
    (hj : rows[j]? = some q) (hij : i < j) (hkey : rowKey q = rowKey r)
    (hs : ∀ (l : ℕ) (x : IRow), rows[l]? = some x → name x = name r → l = i) :
    getIndex (name r) (makeIndex rows) = .ok none := by
  have key : ∀ d : List (String × List (String × String)),
      (∀ p ∈ d, ∃ s, p.2.lookup "Short Name" = some s ∧ s ≠ name r) →
      getIndex (name r) d = .ok none := by
    intro d
    induction d with
    | nil => intro _; rfl
    | cons p t ih =>
      intro h
      obtain ⟨s, h1, h2⟩ := h p List.mem_cons_self
      obtain ⟨k, v⟩ := p
      simp only at h1
      simp only [getIndex, h1, if_neg h2]
      exact ih fun p hp => h p (List.mem_cons_of_mem _ hp)
  refine key _ fun p hp => ?_
  obtain ⟨l, x, hl, rfl, hlast⟩ := (mem_makeIndex rows).2 p hp
  refine ⟨name x, namedRow_lookup (hname x (List.mem_of_getElem? hl)), fun he => ?_⟩
  have := hs l x hl he
  subst this
  rw [hi] at hl
  cases hl
  exact hlast j q hij hj hkey

/-- A fixed and a floating tool with the same prefix. -/
example : (makeIndex [⟨"A001Mb", "MWD", [("OWSG Prefix", "A001Mb"), ("Short Name", "MWD")]⟩,
      ⟨"A001Mb", "MWD_Fl", [("OWSG Prefix", "A001Mb"), ("Short Name", "MWD_Fl")]⟩]).map (·.1)
      = ["A001Mb", "A001Mb_Fl"] ∧
    getIndex "MWD_Fl" (makeIndex [⟨"A001Mb", "MWD", [("OWSG Prefix", "A001Mb"), ("Short Name", "MWD")]⟩,
      ⟨"A001Mb", "MWD_Fl", [("OWSG Prefix", "A001Mb"), ("Short Name", "MWD_Fl")]⟩])
      = .ok (some "A001Mb_Fl") ∧
    getIndex "MWD" (makeIndex [⟨"A001Mb", "MWD", [("OWSG Prefix", "A001Mb"), ("Short Name", "MWD")]⟩,
      ⟨"A001Mb", "MWD+IFR", [("OWSG Prefix", "A001Mb"), ("Short Name", "MWD+IFR")]⟩])
      = .ok none := by
  refine ⟨by decide +kernel, by decide +kernel, by decide +kernel⟩

end Welleng.Props
