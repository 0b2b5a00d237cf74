import Verif.Model.Ingest
import Verif.Model.Angles

/-!
Model of the sheet readers of `/repo/welleng/errors/iscwsa_ingest.py`.  A sheet is the list of rows
that openpyxl returns; opening the workbook is not modelled.  Numbers are reals and NaN is `none`.
Dates and booleans do not occur.
-/

namespace Welleng.Ingest

open Edm (dictSet)

/-- A cell value, `iscwsa_ingest.py` 192-203. -/
inductive Cell
  | empty
  | num (x : ℝ)
  | str (s : String)

/-- `_to_float`, `iscwsa_ingest.py` 196-202; `parse` is `float` on text, `none` if it raises. -/
def toFloat (parse : String → Option ℝ) : Cell → Option ℝ
  | .empty => none
  | .num x => some x
  | .str s => parse s

/-- `isinstance(v, (int, float))`, `iscwsa_ingest.py` 362-408. -/
def isNum : Cell → Bool
  | .num _ => true
  | _ => false

/-- The text of a header cell; `none` for an empty cell.  Number cells do not equal any label and
are taken as empty, `iscwsa_ingest.py` 205-252. -/
def label : Cell → Option String
  | .str s => some s
  | _ => none

/-- `_NEV_COLS`, `iscwsa_ingest.py` 358. -/
def nevCols : List String := ["NN", "EE", "VV", "NE", "NV", "EV"]

/-- `_HLA_COLS`, `iscwsa_ingest.py` 359. -/
def hlaCols : List String := ["HH", "LL", "AA", "HL", "HA", "LA"]

/-- One data row of `_extract_cov_columns`, `iscwsa_ingest.py` 362-369. -/
def extractRow (parse : String → Option ℝ) (header : List Cell) (labels : List String)
    (r : List Cell) : List (Option ℝ) :=
  labels.map fun l =>
    if some l ∈ header.map label then
      (r[(header.map label).idxOf (some l)]?).bind (toFloat parse)
    else none

/-- Data rows of the TOTALS and source sheets, `iscwsa_ingest.py` 376 and 422. -/
def dataRows (rows : List (List Cell)) : List (List Cell) :=
  (rows.drop 2).filter fun r => (r.head?.map isNum).getD false

/-- `parse_totals_sheet`, `iscwsa_ingest.py` 372-383, without the depth column; `none` is the
`IndexError` of a sheet with fewer than two rows. -/
def parseTotals (parse : String → Option ℝ) (rows : List (List Cell)) :
    Option (List (List (Option ℝ)) × List (List (Option ℝ))) :=
  (rows[1]?).map fun h =>
    ((dataRows rows).map (extractRow parse h nevCols),
      (dataRows rows).map (extractRow parse h hlaCols))

/-- `nev_positions`, `iscwsa_ingest.py` 393. -/
def nevPositions (header : List Cell) : List ℕ :=
  (List.range header.length).filter fun i =>
    decide (((header.map label)[i]?.join).any (fun l => decide (l ∈ nevCols)))

/-- A row of the Validation sheet: the two blocks of six values, `iscwsa_ingest.py` 386-408. -/
structure SheetRow where
  diagnostic : List (Option ℝ)
  calculated : List (Option ℝ)

/-- One row of `parse_validation_sheet`, `iscwsa_ingest.py` 395-407 (depth and source are read
apart).  Rows of a sheet have the length of the header; a shorter row would raise. -/
def validationRow (parse : String → Option ℝ) (header r : List Cell) : SheetRow :=
  ⟨((nevPositions header).take 6).map fun i => (r[i]?).bind (toFloat parse),
   (((nevPositions header).drop 6).take 6).map fun i => (r[i]?).bind (toFloat parse)⟩

/-! ### Blocks of a source sheet -/

/-- A labelled block of columns in row 1, `iscwsa_ingest.py` 205-252. -/
structure Span where
  start : ℕ
  label : String
  span : ℕ
  deriving DecidableEq

/-- `start <= idx < start + span`, `iscwsa_ingest.py` 411-459. -/
def Span.covers (s : Span) (i : ℕ) : Bool := decide (s.start ≤ i ∧ i < s.start + s.span)

/-- The second loop of `_merged_header_spans`, `iscwsa_ingest.py` 219-229.  The dictionary is the
list of spans, which have different starts. -/
def addCells (spans : List Span) (cells : List (ℕ × Option String)) : List Span :=
  cells.foldl (fun acc c =>
    match c.2 with
    | none => acc
    | some v =>
      if acc.any (fun s => decide (s.start = c.1)) then acc
      else if acc.any (fun s => s.covers c.1) then acc
      else acc ++ [⟨c.1, v, 1⟩]) spans

/-- `_merged_header_spans`, `iscwsa_ingest.py` 205-230: the merged ranges of the row with a label,
then the single cells. -/
def headerSpans (merged : List (ℕ × Option String × ℕ)) (row : List (Option String)) : List Span :=
  addCells (merged.filterMap fun m => m.2.1.map fun l => ⟨m.1, l, m.2.2⟩)
    (row.zipIdx.map fun p => (p.2, p.1))

/-- `label if count == 0 else f"{label}_{count + 1}"`, `iscwsa_ingest.py` 433-434. -/
def numbered (l : String) (count : ℕ) : String :=
  if count = 0 then l else l ++ "_" ++ toString (count + 1)

/-- `seen.get(label, 0)`. -/
def seenCount (seen : List (String × ℕ)) (l : String) : ℕ :=
  ((seen.find? fun p => decide (p.1 = l)).map (·.2)).getD 0

/-- The columns of a block, `iscwsa_ingest.py` 437-447. -/
def readBlock {K : Type} (toF : Cell → Option K) (subcols : List (Option String))
    (data : List (List Cell)) (s : Span) : List (String × List (Option K)) :=
  (List.range s.span).foldl (fun b o =>
    match (subcols[s.start + o]?).join with
    | none => b
    | some sub => dictSet b sub (data.map fun r => (r[s.start + o]?).bind toF)) []

/-- The loop over the blocks of `parse_error_source_sheet`, `iscwsa_ingest.py` 425-449: the labels
seen and the blocks read so far. -/
def sourceStep {B : Type} (read : Span → List B) (first : Option String)
    (st : List (String × ℕ) × List (String × List B)) (s : Span) :
    List (String × ℕ) × List (String × List B) :=
  if some s.label = first then st
  else
    let count := seenCount st.1 s.label
    let seen := dictSet st.1 s.label (count + 1)
    if read s = [] then (seen, st.2)
    else (seen, dictSet st.2 (numbered s.label count) (read s))

/-- The blocks of `parse_error_source_sheet`; `spans` in the order of their starts,
`iscwsa_ingest.py` 411-459. -/
def sourceBlocks {B : Type} (read : Span → List B) (first : Option String) (spans : List Span) :
    List (String × List B) :=
  (spans.foldl (sourceStep read first) ([], [])).2

/-! ### Units of the legacy table -/

/-- `unit.replace("deg", "rad")`, `iscwsa_ingest.py` 104. -/
def replaceDeg : List Char → List Char
  | 'd' :: 'e' :: 'g' :: t => 'r' :: 'a' :: 'd' :: replaceDeg t
  | c :: t => c :: replaceDeg t
  | [] => []

open Classical in
/-- `magnitude_si`, `iscwsa_ingest.py` 95-99. -/
noncomputable def magnitudeSi (unit : String) (m : ℝ) : ℝ :=
  if "deg".toList <:+: unit.toList then radians m else m

/-- `unit_si`, `iscwsa_ingest.py` 102-104. -/
def unitSi (unit : String) : String := String.ofList (replaceDeg unit.toList)

/-- `wt_fn.replace("-", "_")`, `iscwsa_ingest.py` 538. -/
def legacyFn (s : String) : String :=
  String.ofList (s.toList.map fun c => if c = '-' then '_' else c)

/-- `to_legacy_codes_dict` with its conversions, `iscwsa_ingest.py` 510-544. -/
noncomputable def legacyTable (terms : List (Term ℝ)) : List (String × Entry ℝ) :=
  legacyCodes legacyFn magnitudeSi unitSi terms

end Welleng.Ingest
