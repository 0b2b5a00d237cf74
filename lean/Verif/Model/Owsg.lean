import Verif.Model.Wbp
import Mathlib.Data.Rat.Floor

/-!
Model of `/repo/welleng/errors/tools/owsg_to_json.py`: one sheet of an OWSG workbook converted to a
JSON tool model. A sheet is its rows of cells as pandas returns them; an empty cell is NaN. Numbers
are rational. The output is the data that is written; JSON text is not modelled.
-/

namespace Welleng.Owsg

/-- A cell, `owsg_to_json.py` 108-168. Dates are not modelled. -/
inductive Cell
  | blank
  | num (q : ℚ)
  | text (s : String)
  deriving DecidableEq

/-- Conversions of Python between numbers and text: `int(s)`, `float(s)` (`none` is a
`ValueError`), `str(x)` of a number that is not whole, and `uuid5` of a seed;
`owsg_to_json.py` 128-131, 173, 289-310. -/
structure Py where
  int : String → Option ℤ
  float : String → Option ℚ
  repr : ℚ → String
  uuid : String → String

/-- `str.strip`, `owsg_to_json.py` 131, 140, 190. -/
def stripS (s : String) : String := String.ofList (Wbp.strip s.toList)

/-- Truncation towards zero, `int(x)` of a number, `owsg_to_json.py` 129, 148, 308-310. -/
def trunc (q : ℚ) : ℤ := if 0 ≤ q then ⌊q⌋ else ⌈q⌉

/-- `str(x)` of a number read from a cell: whole numbers are integers, `owsg_to_json.py` 168. -/
def showNum (py : Py) (q : ℚ) : String := if q.den = 1 then toString q.num else py.repr q

/-- `_scrub`, `owsg_to_json.py` 164-168. -/
def scrub (py : Py) : Cell → String
  | .blank => ""
  | .num q => showNum py q
  | .text s => s

/-- `_formula_str`, `owsg_to_json.py` 116-131. -/
def formulaStr (py : Py) : Cell → String
  | .blank => "0"
  | .num q => showNum py q
  | .text s => stripS s

/-- `_singularity_or_none`, `owsg_to_json.py` 134-140. -/
def singularity (py : Py) : Cell → Option String
  | .blank => none
  | .num q => if q = 0 then none else some (stripS (showNum py q))
  | .text s => some (stripS s)

/-- The columns of a row that are read, `owsg_to_json.py` 47-66. -/
structure Row where
  label : Cell
  labelVal : Cell
  no : Cell
  code : Cell
  wtfn : Cell
  magnitude : Cell
  units : Cell
  prop : Cell
  p1 : Cell
  p2 : Cell
  p3 : Cell
  depth : Cell
  inclination : Cell
  azimuth : Cell
  singNorth : Cell
  singEast : Cell
  singVert : Cell

/-- One term of the result, `owsg_to_json.py` 299-318. -/
structure Term where
  uuid : String
  name : String
  weightFunction : String
  value : ℚ
  units : String
  depthFactor : ℤ
  inclinationFactor : ℤ
  azimuthFactor : ℤ
  mode : String
  depth : String
  inclination : String
  azimuth : String
  north : Option String
  east : Option String
  vertical : Option String
  deriving DecidableEq

/-- A warning: what the message is about, `owsg_to_json.py` 235-237, 271-289. -/
inductive Warning
  | toolType (raw : String)
  | unit (code raw : String)
  | mode (code raw : String)
  | magnitude (code raw : String)
  deriving DecidableEq

/-- `ALLOWED_UNITS`, `owsg_to_json.py` 100. -/
def allowedUnits : List String := ["m", "1/m", "nT", "m/s2", "deg", "deg/nT", "deg/hr", "rad"]

/-- `PROP_MODE_MAP.get`, `owsg_to_json.py` 70-76. -/
def propMode : String → Option String
  | "R" => some "Random"
  | "S" => some "Systematic"
  | "G" => some "Global"
  | "W" => some "Well"
  | _ => none

/-- `_term_rows`, `owsg_to_json.py` 198-204: rows with a number in the column of numbers. -/
def isTermRow (r : Row) : Bool :=
  match r.no with
  | .num _ => true
  | _ => false

/-- `int(cell)` of a factor column, or 0 for an empty cell, `owsg_to_json.py` 307-309; `none` is a
`ValueError`. -/
def factor (py : Py) : Cell → Option ℤ
  | .blank => some 0
  | .num q => some (trunc q)
  | .text s => py.int s

/-- The magnitude with its warning, `owsg_to_json.py` 285-289. -/
def magnitudeOf (py : Py) (code : String) : Cell → ℚ × List Warning
  | .blank => (0, [])
  | .num q => (q, [])
  | .text s =>
    match py.float s with
    | some q => (q, [])
    | none => (0, [.magnitude code s])

/-- One row that has a code, `owsg_to_json.py` 262-318; `none` is a `ValueError`. -/
def convertRow (py : Py) (setLabel owsgPrefix : String) (r : Row) : Option (Term × List Warning) :=
  let code := scrub py r.code
  let units := scrub py r.units
  let prop := scrub py r.prop
  let mag := magnitudeOf py code r.magnitude
  let warnings := (if units ∈ allowedUnits then [] else [.unit code units]) ++
    (if (propMode prop).isSome then [] else [.mode code prop]) ++ mag.2
  match factor py r.p1, factor py r.p2, factor py r.p3 with
  | some f1, some f2, some f3 =>
    some (⟨py.uuid ("welleng/owsg/" ++ (setLabel ++ "/" ++ owsgPrefix ++ "/" ++ code)), code,
      scrub py r.wtfn, mag.1, units, f1, f2, f3, (propMode prop).getD prop,
      formulaStr py r.depth, formulaStr py r.inclination, formulaStr py r.azimuth,
      singularity py r.singNorth, singularity py r.singEast, singularity py r.singVert⟩, warnings)
  | _, _, _ => none

/-- The loop over the rows, `owsg_to_json.py` 260-319. -/
def convertRows (py : Py) (setLabel owsgPrefix : String) : List Row → Option (List Term × List Warning)
  | [] => some ([], [])
  | r :: t =>
    if isTermRow r && scrub py r.code != "" then
      match convertRow py setLabel owsgPrefix r, convertRows py setLabel owsgPrefix t with
      | some x, some y => some (x.1 :: y.1, x.2 ++ y.2)
      | _, _ => none
    else convertRows py setLabel owsgPrefix t

/-! ### Metadata -/

/-- `str(label).rstrip(":").strip()`, `owsg_to_json.py` 188. -/
def keyOf (s : String) : String :=
  stripS (String.ofList (s.toList.reverse.dropWhile (· == ':')).reverse)

/-- `_extract_metadata_kv`, `owsg_to_json.py` 181-195; later rows replace earlier ones. -/
def metadataKv (py : Py) : List Row → List (String × Cell) → List (String × Cell)
  | [], kv => kv
  | r :: t, kv =>
    metadataKv py t <|
      if r.label = .blank then kv
      else if (stripS (match r.labelVal with | .blank => "nan" | c => scrub py c)).startsWith "Short Name"
      then kv
      else (keyOf (scrub py r.label), r.labelVal) :: kv.filter fun p => p.1 ≠ keyOf (scrub py r.label)

/-- `_scrub(kv.get(key) or alt)`: an absent key, empty text and the number 0 are replaced; an empty
cell (NaN) is not; `owsg_to_json.py` 220-224. -/
def scrubOr (py : Py) (kv : List (String × Cell)) (key alt : String) : String :=
  match kv.lookup key with
  | none => alt
  | some (.text "") => alt
  | some (.num q) => if q = 0 then alt else showNum py q
  | some c => scrub py c

/-- Python's `a or b` for texts, `owsg_to_json.py` 243-254. -/
def orText (a b : String) : String := if a = "" then b else a

/-- A decimal digit, `\d` in `owsg_to_json.py` 150. -/
def digit? (c : Char) : Bool := '0' ≤ c && c ≤ '9'

/-- The number that a list of digits denotes, `owsg_to_json.py` 153. -/
def digitsVal (l : List Char) : ℕ := l.foldl (fun v c => 10 * v + (c.toNat - '0'.toNat)) 0

/-- The end of the pattern, `\s*(deg)?$`, `owsg_to_json.py` 150. -/
def degTail (l : List Char) : Bool :=
  let t := l.dropWhile (· = ' ')
  t == [] || t == ['d', 'e', 'g']

/-- The pattern of `_parse_inc_range` without the sign, `owsg_to_json.py` 150, and the number. -/
def matchUnsigned (l : List Char) : Option ℚ :=
  let w := l.takeWhile digit?
  let rest := l.dropWhile digit?
  if w = [] then none
  else match rest with
    | '.' :: t =>
      let f := t.takeWhile digit?
      if f = [] then none
      else if degTail (t.dropWhile digit?) then
        some ((digitsVal w : ℚ) + (digitsVal f : ℚ) / 10 ^ f.length) else none
    | _ => if degTail rest then some (digitsVal w : ℚ) else none

/-- The pattern of `_parse_inc_range`, `owsg_to_json.py` 150-153. -/
def matchRange (l : List Char) : Option ℚ :=
  match l with
  | '-' :: t => (matchUnsigned t).map fun q => -q
  | _ => matchUnsigned l

/-- `round(x)`, to the nearest integer, ties to even, `owsg_to_json.py` 153. -/
def roundEven (q : ℚ) : ℤ :=
  let d := q - ⌊q⌋
  if d < 1 / 2 then ⌊q⌋ else if 1 / 2 < d then ⌊q⌋ + 1
  else if ⌊q⌋ % 2 = 0 then ⌊q⌋ else ⌊q⌋ + 1

/-- `_parse_inc_range`, `owsg_to_json.py` 143-153. -/
def incRange : Option Cell → Option ℤ
  | none => none
  | some .blank => none
  | some (.num q) => some (trunc q)
  | some (.text s) => (matchRange (Wbp.strip s.toList)).map roundEven

/-- `x or d` for a number that may be missing, `owsg_to_json.py` 239-240. -/
def orNum (x : Option ℤ) (d : ℤ) : ℤ :=
  match x with
  | none => d
  | some v => if v = 0 then d else v

/-- `revision_number`, `owsg_to_json.py` 246-248. -/
def revision : Option Cell → ℤ
  | some (.num q) => trunc q
  | _ => 0

/-- What the result of `convert_sheet` says about the model, `owsg_to_json.py` 242-256. -/
structure Meta where
  uuid : String
  modelId : String
  shortName : String
  longName : String
  revision : ℤ
  tags : List String
  warned : List Warning
  incMin : ℤ
  incMax : ℤ

/-- The tool type given, `owsg_to_json.py` 226: looked up in a map whose keys are `known`. -/
def rawToolType (py : Py) (kv : List (String × Cell)) (shortName : String) : String :=
  scrubOr py kv "Tool Type" shortName

/-- `convert_sheet`, `owsg_to_json.py` 207-332 (without the other texts of the metadata); `none` is
an exception. `known` says which tool types are in the map. -/
def convertSheet (py : Py) (known : String → Bool)
    (rows : List Row) (sheet setLabel : String) : Option (Meta × List Term × List Warning) :=
  let kv := metadataKv py rows []
  let short := scrubOr py kv "Short Name" sheet
  let long := scrubOr py kv "Long Name" short
  let owsgPrefix := scrubOr py kv "OWSG Prefix" sheet
  let raw := rawToolType py kv short
  match convertRows py setLabel owsgPrefix rows with
  | none => none
  | some (terms, ws) =>
    let warnings := (if known raw then [] else [.toolType raw]) ++ ws
    some (⟨py.uuid ("welleng/owsg/" ++ (setLabel ++ "/" ++ owsgPrefix)), orText owsgPrefix short,
      orText short sheet, orText long (orText short sheet), revision (kv.lookup "Revision No"),
      ["owsg-" ++ setLabel.toLower, "sheet-" ++ sheet], warnings.take 5,
      orNum (incRange (kv.lookup "Inclination Range Min")) 0,
      orNum (incRange (kv.lookup "Inclination Range Max")) 180⟩, terms, warnings)

/-! ### Files -/

/-- A character that `_safe_filename` keeps, `owsg_to_json.py` 354-355. -/
def safeChar (c : Char) : Bool :=
  ('A' ≤ c && c ≤ 'Z') || ('a' ≤ c && c ≤ 'z') || ('0' ≤ c && c ≤ '9') || c == '_' || c == '+' ||
    c == '-' || c == '.'

/-- `_safe_filename`, `owsg_to_json.py` 354-355. -/
def safeFilename (s : List Char) : List Char := s.map fun c => if safeChar c then c else '_'

/-- The directory after `convert_workbook`, `owsg_to_json.py` 358-374: sheets with term rows are
written in order, a file of the same name is replaced. -/
def writeAll {A : Type*} : List (List Char × A) → (List Char → Option A) → List Char → Option A
  | [], d => d
  | (sheet, x) :: t, d =>
    writeAll t fun f => if f = safeFilename sheet then some x else d f

end Welleng.Owsg
