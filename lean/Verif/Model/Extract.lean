import Verif.Model.Workbook

/-!
Model of the two scripts that extract a tool model from a workbook into the older YAML form,
`/repo/welleng/errors/extract_iscwsa_codes.py` and
`/repo/welleng/errors/extract_owsg_codes_generic.py`.  A sheet is the list of its rows.  Opening
workbooks and reading and writing YAML files is not modelled.
-/

namespace Welleng.Extract

open Ingest
open Edm (dictSet)

/-- The exceptions the scripts can raise, `extract_owsg_codes_generic.py` 54-138. -/
inductive Exc | attributeError | typeError | indexError | valueError | keyError
  deriving DecidableEq

/-- Assignment to a key of a dictionary whose keys need not be text,
`extract_owsg_codes_generic.py` 128. -/
def setKey {K V : Type} [DecidableEq K] (d : List (K × V)) (k : K) (v : V) : List (K × V) :=
  match d with
  | [] => [(k, v)]
  | (k', v') :: t => if k' = k then (k', v) :: t else (k', v') :: setKey t k v

/-- A row of the list `d` of `extract_codes`, `extract_owsg_codes_generic.py` 106-117,
`extract_iscwsa_codes.py` 87-96: columns E, G, J, K and L (the rows are read from column D on).  A
missing column is taken as empty. -/
structure Raw where
  code : Cell
  function : Cell
  magnitude : Cell
  unit : Cell
  propagation : Cell

/-- The cells of one row, `extract_owsg_codes_generic.py` 106-117. -/
def rawOf (r : List Cell) : Raw := ⟨col r 4, col r 6, col r 9, col r 10, col r 11⟩

/-- A code as key; `None` is `none` and `"XCLL"` is renamed, `extract_owsg_codes_generic.py` 107-110,
`extract_iscwsa_codes.py` 87-89.  A number is taken as its text. -/
def keyOf (text : ℝ → String) : Cell → Option String
  | .empty => none
  | .num x => some (text x)
  | .str s => some (legacyKey s)

open Classical in
/-- `m if 'deg' not in u else radians(m)`, `extract_owsg_codes_generic.py` 130. -/
noncomputable def magnitudeIn (u : String) (m : Cell) : Except Exc Cell :=
  if "deg".toList <:+: u.toList then
    match m with
    | .num x => .ok (.num (radians x))
    | _ => .error .typeError
  else .ok m

/-- One entry of `make_error_dict`, `extract_owsg_codes_generic.py` 127-136 (the same at
`extract_iscwsa_codes.py` 106-115). -/
noncomputable def rawEntry (r : Raw) : Except Exc (Entry Cell) :=
  match r.function with
  | .str f =>
    match r.unit with
    | .str u =>
      match magnitudeIn u r.magnitude with
      | .error e => .error e
      | .ok m => .ok ⟨legacyFn f, m, unitSi u, match r.propagation with
          | .str p => propagationOf p
          | _ => "systematic"⟩
    | _ => .error .typeError
  | _ => .error .attributeError

/-- The loop of `make_error_dict`, `extract_owsg_codes_generic.py` 124-138. -/
noncomputable def errorDict (text : ℝ → String) (d : List (Option String × Entry Cell)) :
    List Raw → Except Exc (List (Option String × Entry Cell))
  | [] => .ok d
  | r :: t =>
    match rawEntry r with
    | .error e => .error e
    | .ok v => errorDict text (setKey d (keyOf text r.code) v) t

/-- The rows of `extract_codes`: from the fourth on, and with `skip` (the script for OWSG workbooks)
only those with a code, `extract_owsg_codes_generic.py` 99-117, `extract_iscwsa_codes.py` 80-96. -/
def codeRows (skip : Bool) (rows : List (List Cell)) : List Raw :=
  ((rows.drop 3).map rawOf).filter fun r => !(skip && match r.code with
    | .empty => true
    | _ => false)

/-- `extract_codes`, `extract_owsg_codes_generic.py` 95-121 and `extract_iscwsa_codes.py` 76-100. -/
noncomputable def extractCodes (text : ℝ → String) (skip : Bool) (rows : List (List Cell)) :
    Except Exc (List (Option String × Entry Cell)) :=
  errorDict text [] (codeRows skip rows)

/-! ### The header -/

/-- A value of the header: a cell or a group of settings, `extract_owsg_codes_generic.py` 54-92. -/
inductive HVal
  | cell (c : Cell)
  | group (g : List (String × Cell))

/-- `remove_characters`, `extract_owsg_codes_generic.py` 151-155, for the characters of line 23. -/
def removeChars (s : String) : String :=
  String.ofList (s.toList.filter fun c => !(c == ':' || c == '[' || c == ']'))

/-- `replace(":", "")`, `extract_owsg_codes_generic.py` 73, 80 (`lstrip` of 73 removes blanks here). -/
def noColon (s : String) : String := String.ofList (s.toList.filter fun c => !(c == ':'))

/-- `"gyro" in row[0].lower()`, `extract_owsg_codes_generic.py` 79. -/
def hasGyro (s : String) : Bool := decide ("gyro".toList <:+: lower s.toList)

/-- The variables of the loop, `extract_owsg_codes_generic.py` 56-58. -/
structure HState where
  d : List (String × Cell) := []
  temp : List (String × List (String × Cell)) := []
  tag : Option String := none

open Classical in
/-- The value of a setting, `extract_owsg_codes_generic.py` 69-72: `in` needs text; `parse` is `float`
on text, of the first word. -/
noncomputable def settingValue (parse : String → Option ℝ) : Cell → Except Exc Cell
  | .str v =>
    if "deg".toList <:+: v.toList then
      match parse (String.ofList (v.toList.takeWhile fun c => !(c == ' '))) with
      | some x => .ok (.num (radians x))
      | none => .error .valueError
    else .ok (.str v)
  | _ => .error .typeError

/-- A row outside a group, `extract_owsg_codes_generic.py` 77-85. -/
def plainRow (st : HState) (c0 c1 : Cell) : Except Exc HState :=
  match c0 with
  | .empty => .ok st
  | .num _ => .error .attributeError
  | .str s =>
    if hasGyro s then
      .ok { st with tag := some (noColon s), temp := dictSet st.temp (noColon s) [] }
    else .ok { st with d := st.d ++ [(s, c1)] }

/-- One row, `extract_owsg_codes_generic.py` 67-85. -/
noncomputable def headerRow (parse : String → Option ℝ) (st : HState) (c0 c1 : Cell) :
    Except Exc HState :=
  match st.tag with
  | none => plainRow st c0 c1
  | some t =>
    match c0 with
    | .str s =>
      match s.toList with
      | [] => .error .indexError
      | c :: _ =>
        if c = ' ' then
          match settingValue parse c1 with
          | .error e => .error e
          | .ok v => .ok { st with temp := dictSet st.temp t (dictSet ((st.temp.lookup t).getD [])
              (noColon (String.ofList (s.toList.dropWhile fun c => c == ' '))) v) }
        else plainRow { st with tag := none } c0 c1
    | _ => .error .typeError

/-- The loop over the rows, `extract_owsg_codes_generic.py` 60-85. -/
noncomputable def headerLoop (parse : String → Option ℝ) (st : HState) :
    List (Cell × Cell) → Except Exc HState
  | [] => .ok st
  | r :: t =>
    match headerRow parse st r.1 r.2 with
    | .error e => .error e
    | .ok st' => headerLoop parse st' t

/-- `make_header_dict` and `h.update(temp)`, `extract_owsg_codes_generic.py` 87-92, 141-155. -/
def headerDict (st : HState) : List (String × HVal) :=
  st.temp.foldl (fun h p => dictSet h p.1 (.group p.2))
    (st.d.foldl (fun h p => dictSet h (removeChars p.1) (.cell p.2)) [])

/-- `extract_header`, `extract_owsg_codes_generic.py` 54-92. -/
noncomputable def extractHeader (parse : String → Option ℝ) (rows : List (Cell × Cell)) :
    Except Exc (List (String × HVal)) :=
  match headerLoop parse {} rows with
  | .error e => .error e
  | .ok st => .ok (headerDict st)

/-! ### The index -/

/-- The key of a tool in the index, `extract_owsg_codes_generic.py` 176-179:
`row[2].split('_')[-1] == 'Fl'` says that the name is `Fl` or ends in `_Fl`. -/
def indexKey (owsgPrefix shortName : String) : String :=
  if shortName.toList = "Fl".toList ∨ "_Fl".toList <:+ shortName.toList then owsgPrefix ++ "_Fl" else owsgPrefix

/-- A row of the sheet `Index` as pairs of field and value; `row[1]` and `row[2]` are texts,
`extract_owsg_codes_generic.py` 167-184. -/
structure IRow where
  owsgPrefix : String
  second : String
  fields : List (String × String)

/-- `make_index`, `extract_owsg_codes_generic.py` 167-184. -/
def makeIndex (rows : List IRow) : List (String × List (String × String)) :=
  rows.foldl (fun d r => dictSet d (indexKey r.owsgPrefix r.second)
    (r.fields.foldl (fun e f => dictSet e f.1 f.2) [])) []

/-- `get_index`, `extract_owsg_codes_generic.py` 187-192; the error is the `KeyError` of an entry
without `Short Name`. -/
def getIndex (shortName : String) : List (String × List (String × String)) →
    Except Exc (Option String)
  | [] => .ok none
  | (k, v) :: t =>
    match v.lookup "Short Name" with
    | none => .error .keyError
    | some s => if s = shortName then .ok (some k) else getIndex shortName t

end Welleng.Extract
