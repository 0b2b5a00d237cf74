import Verif.Model.Edm

/-!
Model of the cases of a well in `/repo/welleng/exchange/edm.py` 215-327: `make_case` and
`get_case_name_from_id`.
-/

namespace Welleng.Edm

/-- The attributes of an element, `edm.py` 72-79. -/
abbrev Attrs := List (String × String)

/-- `Well.well_data`, `edm.py` 236-240. -/
abbrev Tables := List (String × List Attrs)

/-- What the attribute of a case can be: a text of its row, the rows found, `None`, or anything
else, `edm.py` 224-233, 286-291. -/
inductive Val
  | text (s : String)
  | rows (l : List Attrs)
  | missing
  | other (n : ℕ)
  deriving DecidableEq

/-- The exceptions that occur, `edm.py` 281-427. -/
inductive Exc | key | unbound | type | index
  deriving DecidableEq

/-- A `Case`, `edm.py` 224-233: its attributes. -/
abbrev CaseObj := List (String × Val)

/-- `Case(row)` for a row of texts, `edm.py` 224-233. -/
def caseOf (row : Attrs) : CaseObj := row.map fun kv => (kv.1, .text kv.2)

/-- One of the dictionaries of `make_case` with its defaults, `edm.py` 260-268, 289-304. -/
structure Link where
  label : String
  tag : String
  suffix : String
  out : String

/-- `f"{label}_{suffix}"`, `edm.py` 269, 418. -/
def Link.key (l : Link) : String := l.label ++ "_" ++ l.suffix

/-- `f"CD_{tag_label}".upper()`, `edm.py` 417. -/
def Link.table (l : Link) : String := ("CD_" ++ l.tag).toUpper

/-- The loop of `get_data`, `edm.py` 420-422: a row without the key is a KeyError. -/
def matching (k : String) (v : Val) : List Attrs → Except Exc (List Attrs)
  | [] => .ok []
  | row :: t =>
    match row.lookup k with
    | none => .error .key
    | some x =>
      match matching k v t with
      | .error e => .error e
      | .ok l => .ok (if Val.text x = v then row :: l else l)

/-- `Well.get_data`, `edm.py` 413-427. -/
def getData (w : Tables) (v : Val) (l : Link) : Except Exc Val :=
  match w.lookup l.table with
  | none => .error .key
  | some rows =>
    match matching l.key v rows with
    | .error e => .error e
    | .ok [] => .ok .missing
    | .ok (r :: t) => .ok (.rows (r :: t))

/-- `Well._set_attribute`, `edm.py` 260-279. -/
def setAttribute (w : Tables) (c : CaseObj) (l : Link) : Except Exc CaseObj :=
  match c.lookup l.key with
  | none => .ok c
  | some v =>
    match getData w v l with
    | .error e => .error e
    | .ok x => .ok (dictSet c l.out x)

/-- The list of `make_case`, `edm.py` 288-304. -/
def caseLinks : List Link :=
  [⟨"wellbore", "wellbore", "id", "wellbore"⟩, ⟨"fluid", "fluid", "id", "fluid"⟩,
    ⟨"scenario", "scenario", "id", "scenario"⟩, ⟨"well", "well", "id", "well"⟩,
    ⟨"datum", "datum", "id", "datum"⟩,
    ⟨"hole_sect_group", "hole_sect_group", "id", "hole_sect_group"⟩,
    ⟨"assembly", "assembly", "id", "assembly"⟩, ⟨"hole_sect", "hole_sect", "group_id", "hole_sect"⟩,
    ⟨"assembly", "assembly_comp", "id", "assembly"⟩,
    ⟨"wellbore", "survey_header", "id", "survey_header"⟩]

/-- The loop over the list, `edm.py` 306-309. -/
def linkAll (w : Tables) : CaseObj → List Link → Except Exc CaseObj
  | c, [] => .ok c
  | c, l :: t =>
    match setAttribute w c l with
    | .error e => .error e
    | .ok c' => linkAll w c' t

/-- The loop that finds the case, `edm.py` 282-285: the last row with the id. -/
def findCase (id : String) : List Attrs → Option Attrs → Except Exc (Option Attrs)
  | [], found => .ok found
  | row :: t, found =>
    match row.lookup "case_id" with
    | none => .error .key
    | some x => findCase id t (if x = id then some row else found)

/-- `Well._get_surveys`, `edm.py` 353-400, as far as it decides whether the case gets its surveys:
`survey` is a name that exists only if the case has survey headers.  `station` and `surveys` stand
for the values of 360-398, computed from the headers (see `survey`). -/
def setSurveys (station surveys : List Attrs → Except Exc Val) (c : CaseObj) : Except Exc CaseObj :=
  match c.lookup "survey_header" with
  | none => .error .unbound
  | some (.rows hs) =>
    match station hs, surveys hs with
    | .ok a, .ok b => .ok (dictSet (dictSet c "survey_station" a) "survey" b)
    | .error e, _ => .error e
    | _, .error e => .error e
  | some _ => .error .type

/-- `Well._get_ppfpt`, `edm.py` 313-327: the tables whose name has a key word and not `TEMPLATE`.
`isPp`, `name` and `sorted` stand for the test, `t.lower()[3:]` and `_sort_ppfpt_data`. -/
def setPpfpt (isPp : String → Bool) (name : String → String) (sorted : String → Except Exc Val) :
    List String → CaseObj → Except Exc CaseObj
  | [], c => .ok c
  | t :: ts, c =>
    if isPp t then
      match sorted t with
      | .error e => .error e
      | .ok x => setPpfpt isPp name sorted ts (dictSet c (name t) x)
    else setPpfpt isPp name sorted ts c

/-- What `make_case` uses of other functions, `edm.py` 310-311. -/
structure Helpers where
  station : List Attrs → Except Exc Val
  surveys : List Attrs → Except Exc Val
  isPp : String → Bool
  name : String → String
  sorted : String → Except Exc Val

/-- `Well.make_case`, `edm.py` 281-311.  Without a case `_get_surveys(None)` is called, which fails
at `case.survey = survey`. -/
def makeCase (h : Helpers) (w : Tables) (id : String) : Except Exc CaseObj :=
  match w.lookup "CD_CASE" with
  | none => .error .key
  | some cases =>
    match findCase id cases none with
    | .error e => .error e
    | .ok none => .error .unbound
    | .ok (some row) =>
      match linkAll w (caseOf row) caseLinks with
      | .error e => .error e
      | .ok c =>
        match setSurveys h.station h.surveys c with
        | .error e => .error e
        | .ok c' => setPpfpt h.isPp h.name h.sorted (w.map (·.1)) c'

/-- `EDM.get_case_name_from_id`, `edm.py` 215-221, on the `CD_CASE` elements: the first with the id.
The inner `none` is the `None` returned for an unknown id. -/
def caseName (id : String) : List Attrs → Except Exc (Option String)
  | [] => .ok none
  | row :: t =>
    match row.lookup "case_id" with
    | none => .error .key
    | some x =>
      if x = id then
        match row.lookup "case_name" with
        | none => .error .key
        | some n => .ok (some n)
      else caseName id t

/-! ### Pressure and temperature tables -/

/-- The loop of `_sort_ppfpt_data`, `edm.py` 341-346: rows by the value of the first key that has
`_group_id` in it (`isGroup`). -/
def byGroup (isGroup : String → Bool) : List Attrs → List (String × List Attrs) →
    Except Exc (List (String × List Attrs))
  | [], d => .ok d
  | row :: t, d =>
    match row.find? fun kv => isGroup kv.1 with
    | none => .error .index
    | some kv => byGroup isGroup t (dictAppend d kv.2 row)

/-- `Well._sort_ppfpt_data`, `edm.py` 329-351.  `tvd` is `float(k['tvd'])`, `none` the KeyError: one
row without a depth and all the groups are returned as they are. -/
def sortPpfpt (isGroup : String → Bool) (tvd : Attrs → Option ℚ) (data : List Attrs) :
    Except Exc (List (String × List Attrs)) :=
  match byGroup isGroup data [] with
  | .error e => .error e
  | .ok d =>
    if d.any fun kv => kv.2.any fun r => (tvd r).isNone then .ok d
    else .ok (d.map fun kv => (kv.1, kv.2.insertionSort fun a b => (tvd a).getD 0 ≤ (tvd b).getD 0))

end Welleng.Edm
