import Verif.Model.Sheets
import Verif.Model.Owsg

/-!
Model of the readers of the Model and Wellpath sheets of `/repo/welleng/errors/iscwsa_ingest.py`
(255-354), of the alignment of the source sheets (462-507), and of the survey and the totals of
`/repo/welleng/errors/iscwsa_validate.py` (107-136, 202-216). Lower case is that of ASCII letters.
Rows have the columns that are read without a check of their length.
-/

namespace Welleng.Ingest

open Edm (dictSet)

/-- `str(v) if v is not None else ""`, `iscwsa_ingest.py` 277-283; `text` is `str` of a number. -/
def cellText (text : ℝ → String) : Cell → String
  | .empty => ""
  | .num x => text x
  | .str s => s

open Classical in
/-- The truth value of a cell, `iscwsa_ingest.py` 260, 272. -/
noncomputable def truthy : Cell → Bool
  | .empty => false
  | .num x => decide (x ≠ 0)
  | .str s => decide (s ≠ "")

/-- A cell of a row; a missing column is taken as empty, `iscwsa_ingest.py` 270-294. -/
def col (r : List Cell) (i : ℕ) : Cell := (r[i]?).getD .empty

/-- One row of the Model sheet, `iscwsa_ingest.py` 269-296: the term it gives, if any. A magnitude
that is no number is NaN. -/
noncomputable def termOf (text : ℝ → String) (parse : String → Option ℝ) (r : List Cell) :
    Option (Term (Option ℝ)) :=
  if isNum (col r 3) && truthy (col r 4) then
    some ⟨Owsg.stripS (cellText text (col r 4)), cellText text (col r 6),
      toFloat parse (col r 9), cellText text (col r 10), Owsg.stripS (cellText text (col r 11))⟩
  else none

/-- The terms of `parse_model_sheet`, `iscwsa_ingest.py` 255-297. -/
noncomputable def modelTerms (text : ℝ → String) (parse : String → Option ℝ)
    (rows : List (List Cell)) : List (Term (Option ℝ)) :=
  rows.filterMap (termOf text parse)

/-- A station of the Wellpath sheet, `iscwsa_ingest.py` 336-342. -/
structure WStation where
  md : ℝ
  inc : Option ℝ
  azi : Option ℝ
  tvd : Option ℝ
  toolface : Option ℝ

/-- A column that counts as zero if the row is too short, `iscwsa_ingest.py` 332-334. -/
def floatOr0 (parse : String → Option ℝ) (r : List Cell) (i : ℕ) : Option ℝ :=
  match r[i]? with
  | none => some 0
  | some c => toFloat parse c

/-- One row of the survey table, `iscwsa_ingest.py` 328-342. -/
def stationOf (parse : String → Option ℝ) (r : List Cell) : Option WStation :=
  match col r 4 with
  | .num m => some ⟨m, floatOr0 parse r 5, floatOr0 parse r 6, floatOr0 parse r 7,
      toFloat parse (col r 8)⟩
  | _ => none

/-- The survey table, `iscwsa_ingest.py` 326-342: from the third row on. -/
def stationsOf (parse : String → Option ℝ) (rows : List (List Cell)) : List WStation :=
  (rows.drop 2).filterMap (stationOf parse)

/-- Lower case, `iscwsa_ingest.py` 310-322. -/
def lower (s : List Char) : List Char := s.map Char.toLower

/-- What is collected from the labelled rows, `iscwsa_ingest.py` 302-324. -/
structure Refs where
  wellName : String := ""
  depthUnits : List Char := ['m']
  ftToM : ℝ := 0.3048
  refs : List (String × ℝ) := []

/-- `label.split("(")[0].strip().lower()`, `iscwsa_ingest.py` 322. -/
def refKey (label : List Char) : String :=
  String.ofList (lower (Wbp.strip (label.takeWhile (· ≠ '('))))

/-- One of the first rows, `iscwsa_ingest.py` 306-324. -/
def refStep (text : ℝ → String) (st : Refs) (r : List Cell) : Refs :=
  match col r 0 with
  | .empty => st
  | c =>
    let label := Wbp.strip (cellText text c).toList
    if label = "Well".toList then { st with wellName := cellText text (col r 1) }
    else if "depth units".toList <+: lower label then
      match col r 1 with
      | .empty => st
      | u => { st with depthUnits := lower (Wbp.strip (cellText text u).toList) }
    else if "feet to metres".toList <+: lower label then
      match col r 1 with
      | .num x => { st with ftToM := x }
      | _ => st
    else
      match col r 1 with
      | .num x => { st with refs := dictSet st.refs (refKey label) x }
      | _ => st

/-- The labelled rows of the Wellpath sheet, `iscwsa_ingest.py` 300-324. -/
def parseRefs (text : ℝ → String) (rows : List (List Cell)) : Refs :=
  (rows.take 12).foldl (refStep text) {}

/-- `_build_survey`, `iscwsa_validate.py` 131-133: the depths that the survey is given. -/
noncomputable def surveyDepths (text : ℝ → String) (parse : String → Option ℝ)
    (rows : List (List Cell)) : List ℝ :=
  let wp := parseRefs text rows
  let scale := if "ft".toList <+: wp.depthUnits then wp.ftToM else 1
  (stationsOf parse rows).map fun s => s.md * scale

/-- A source tab: its depths and the columns of its blocks, `iscwsa_ingest.py` 151-157. -/
structure Tab (K : Type) where
  md : List K
  blocks : List (String × List (String × List K))
  deriving DecidableEq

/-- The truncation of a source tab to the stations of the well path, `iscwsa_ingest.py` 488-495. -/
def alignTab {K : Type} (n : ℕ) (t : Tab K) : Tab K :=
  if n ≠ 0 ∧ n < t.md.length then
    ⟨t.md.take n, t.blocks.map fun b => (b.1, b.2.map fun c => (c.1, c.2.take n))⟩
  else t

/-- `_NON_SOURCE_SHEETS`, `iscwsa_ingest.py` 457-459. -/
def nonSource : List String :=
  ["Readme", "Model", "Wellpath", "Validation", "CovChart", "TOTALS", "drdp"]

/-- The source tabs of `load_iscwsa_example`, `iscwsa_ingest.py` 476-496; `tab` reads a sheet. -/
def sourceTabs {K : Type} (codes : List String) (n : ℕ) (tab : String → Tab K)
    (sheets : List String) : List (String × Tab K) :=
  sheets.foldl (fun d s =>
    if s ∈ nonSource then d
    else if s ∈ codes then dictSet d s (alignTab n (tab s)) else d) []

/-- The comparison of the totals, `iscwsa_validate.py` 202-216: row `i` of the sheet is compared
with station `i` of the survey. `none` is the `IndexError` of a sheet with more rows. The result is
the depth that is reported and the pair of values that is compared. -/
def totalsPairs {K : Type} (scale : ℝ) (sheet : List (ℝ × K)) (survey : List (ℝ × K)) :
    Option (List (ℝ × K × K)) :=
  if sheet.length ≤ survey.length then
    some ((sheet.zip survey).map fun p => (p.1.1 * scale, p.1.2, p.2.2))
  else none

end Welleng.Ingest
