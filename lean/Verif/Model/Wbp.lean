import Mathlib.Data.List.Basic
import Mathlib.Data.List.Infix

/-!
Model of `welleng/exchange/wbp.py`: reading and writing `.wbp` well plan files.

A line is its kind and its payload; whether a payload is well formed (numbers parse, codes are
known) is the argument `fmt`.
-/

namespace Welleng.Wbp

/-- A line of a file, as `_process_wbp_data` distinguishes them, `wbp.py` 246-287. -/
inductive Line
  /-- nothing but white space -/
  | blank
  /-- first word `!` -/
  | bang
  /-- first word `DEPTH`, with the second word -/
  | depth (key : String)
  /-- first word `TARGETS:` -/
  | targets
  /-- first word `WELLPLANS:` -/
  | wellplans
  /-- anything else: the text before the first colon, and the rest -/
  | data (code : String) (payload : String)
  deriving DecidableEq

/-- The exceptions that occur, `wbp.py` 96-372. -/
inductive Err
  | index | key | attribute | value
  deriving DecidableEq

/-- `self.flag`, `wbp.py` 235-288. -/
inductive Flag | none | targets | wellplans | done
  deriving DecidableEq

/-- The part of a `WellPlan` that the reader maintains; `log` (not in the code) records the lines
read, `wbp.py` 96-288. -/
structure Plan where
  flag : Flag
  tieOn : Bool
  units : Option String
  header : Option String
  targets : ℕ
  steps : List String
  log : List Line
  deriving DecidableEq

/-- The keys of the `DEPTH` table of `wbp.yaml`, `wbp.py` 369-372. -/
def depthKeys : List String := ["1", "2", "3", "4"]

/-- A new `WellPlan`, `wbp.py` 177-191. -/
def Plan.init (units : Option String) : Plan := ⟨.none, false, units, none, 0, [], []⟩

/-- One line in a target section, `wbp.py` 259-268.  A geometry line sets attributes on a
dictionary (297-301), which fails. -/
def handleTarget (fmt : String → String → Bool) (p : Plan) (code payload : String) :
    Except Err Plan :=
  if code = "T" then .ok { p with targets := p.targets + 1 }
  else if code = "L" ∨ code = "C" then
    if fmt code payload then if p.targets = 0 then .error .index else .ok p
    else .error .value
  else if code = "G" then .error (if p.targets = 0 then .index else .attribute)
  else .ok p

/-- One line elsewhere, `wbp.py` 270-287; `none` is the `break` at a second header. -/
def handleRec (fmt : String → String → Bool) (p : Plan) (code payload : String) :
    Except Err (Option Plan) :=
  if code = "W" then
    if p.flag = .done then .ok none
    else if fmt code payload then
      .ok (some { p with
        flag := .done
        tieOn := true
        header := some payload })
    else .error .value
  else if code = "P" then
    if fmt code payload then .ok (some { p with steps := p.steps ++ [payload] })
    else .error .value
  else if code = "L" then
    if fmt code payload then
      if p.steps = [] then .error .index else .ok (some { p with tieOn := false })
    else .error .value
  else if code = "X" then
    if fmt code payload then .ok (some { p with steps := p.steps ++ [payload] })
    else .error .value
  else if code = "S" then
    if p.steps = [] then .error .index
    else if fmt code payload then .ok (some p) else .error .value
  else .ok (some p)

/-- One line, `wbp.py` 246-287.  `l[0]` of a blank line is an index error. -/
def handle (fmt : String → String → Bool) (p : Plan) : Line → Except Err (Option Plan)
  | .blank => .error .index
  | .bang => .ok (some p)
  | .depth k =>
    if k ∈ depthKeys then
      .ok (some { p with
        units := some k
        flag := .none })
    else .error .key
  | .targets => .ok (some { p with flag := .targets })
  | .wellplans =>
    .ok (some { p with
      flag := .wellplans
      tieOn := true })
  | .data code payload =>
    if p.flag = .targets then (handleTarget fmt p code payload).map some
    else handleRec fmt p code payload

/-- `_process_wbp_data`, `wbp.py` 235-288: the plan and the lines not read. -/
def process (fmt : String → String → Bool) : Plan → List Line → Except Err (Plan × List Line)
  | p, [] => .ok (p, [])
  | p, ln :: t =>
    match handle fmt p ln with
    | .error e => .error e
    | .ok none => .ok (p, ln :: t)
    | .ok (some p') => process fmt { p' with log := p'.log ++ [ln] } t

/-- The `while True` of `load`, `wbp.py` 434-452.  The outer `none` would be a loop that goes on
for more than `fuel` plans. -/
def loadLoop (fmt : String → String → Bool) :
    ℕ → Option String → List Line → Option (Except Err (List Plan))
  | 0, _, _ => none
  | f + 1, units, lines =>
    match process fmt (Plan.init units) lines with
    | .error e => some (.error e)
    | .ok (p, rest) =>
      if rest = [] then some (.ok [p])
      else (loadLoop fmt f p.units rest).map fun r => r.map (p :: ·)

/-- `load`, `wbp.py` 407-452. -/
def load (fmt : String → String → Bool) (lines : List Line) : Option (Except Err (List Plan)) :=
  loadLoop fmt (lines.length + 1) none lines

/-! ### Duplicate stations -/

/-- The loop of `strip_duplicates`, `wbp.py` 770-781: `last` is `temp[-1]`; stations are
compared by inclination only. -/
def stripFrom {α : Type} [DecidableEq α] {S : Type} (inc : S → α) (last : S) : List S → List S
  | [] => []
  | s :: t => if inc s = inc last then stripFrom inc last t else s :: stripFrom inc s t

/-- `strip_duplicates`, `wbp.py` 755-797, on the stations. -/
def stripDuplicates {α : Type} [DecidableEq α] {S : Type} (inc : S → α) : List S → List S
  | [] => []
  | s :: t => s :: stripFrom inc s t

/-! ### The header line -/

/-- `f"{s:>w}"`, `wbp.py` 477-500. -/
def rjust (w : ℕ) (s : List Char) : List Char := List.replicate (w - s.length) ' ' ++ s

/-- `f"{s:<w}"`, `wbp.py` 477-500. -/
def ljust (w : ℕ) (s : List Char) : List Char := s ++ List.replicate (w - s.length) ' '

/-- `data[i:j]`, `wbp.py` 313-325. -/
def slice (i j : ℕ) (s : List Char) : List Char := (s.take j).drop i

/-- White space, for `str.strip` (blanks only; tabs and line ends do not occur inside a
line), `wbp.py` 374-382. -/
def strip (s : List Char) : List Char :=
  ((s.dropWhile (· = ' ')).reverse.dropWhile (· = ' ')).reverse

/-- `string_strip`, `wbp.py` 374-382. -/
def stringStrip (s : List Char) : Option (List Char) :=
  if strip s = [] then none else some (strip s)

/-- The fields of a header; `kind`, `unit`, `method`, `dirty` are the one-character codes, the
numbers are their text, `wbp.py` 477-500. -/
structure Header where
  kind : Char
  unit : Char
  method : Char
  dirty : Char
  sidetrack : List Char
  plan : List Char
  parent : List Char
  dls : List Char
  extension : List Char
  deriving DecidableEq

/-- `add_header`, `wbp.py` 477-500, given the codes and the text of the two numbers. -/
def writeHeader (h : Header) : List Char :=
  ['W', ':', h.kind, h.unit, h.method, h.dirty] ++ [' ', ' ', ' ', '0'] ++ [' ', '1', '2', '3'] ++
  (' ' :: rjust 7 h.sidetrack) ++ (' ' :: ljust 60 h.plan) ++ (' ' :: ljust 60 h.parent) ++
  (' ' :: rjust 6 h.dls) ++ (' ' :: rjust 7 h.extension)

/-- What the reader takes from a header line, `wbp.py` 313-325. -/
structure ReadHeader where
  kind : Option Char
  method : Option Char
  dirty : Option Char
  sidetrack : Option (List Char)
  plan : Option (List Char)
  parent : Option (List Char)
  dls : Option (List Char)
  extension : Option (List Char)
  deriving DecidableEq

/-- `_add_wellplan_header`, `wbp.py` 313-325, before the table look-ups and number parsing. -/
def readHeader (s : List Char) : ReadHeader :=
  ⟨s[2]?, s[4]?, s[5]?, stringStrip (slice 14 22 s), stringStrip (slice 23 84 s),
    stringStrip (slice 84 144 s), stringStrip (slice 144 151 s), stringStrip (slice 151 160 s)⟩

/-! ### Tables -/

/-- A unit, `wbp.py` 561-578. -/
inductive U | feet | meters
  deriving DecidableEq

/-- `wbp_dict['DEPTH']`: key, surface unit, depth unit (`wbp.yaml` 1-13). -/
def depthTable : List (String × U × U) :=
  [("1", .feet, .feet), ("2", .meters, .meters), ("3", .feet, .meters), ("4", .meters, .feet)]

/-- `get_unit_key`, `wbp.py` 561-568: the first key with these units; `none` is the index
error. -/
def unitKey (surface depth : Option U) : Option String :=
  ((depthTable.filter fun r => some r.2.1 = surface ∧ some r.2.2 = depth).map (·.1)).head?

/-- `_get_units`, `wbp.py` 369-371: (surface unit, depth unit); `none` is the key error. -/
def unitsOf (key : String) : Option (U × U) := depthTable.lookup key

/-- `get_key`, `wbp.py` 571-577: the first key with this value; `none` is the index error. -/
def getKey {V : Type} [DecidableEq V] (d : List (Char × V)) (v : V) : Option Char :=
  ((d.filter fun r => r.2 = v).map (·.1)).head?

/-- `wbp_dict['LOCATION']['type']`, `wbp.yaml` 22-32. -/
def typeTable : List (Char × String) :=
  [('0', "unknown"), ('1', "surface"), ('2', "ow_sidetrack"), ('3', "wp_sidetrack"),
    ('4', "look_ahead"), ('5', "ow_well"), ('6', "complex_extension"), ('7', "site"),
    ('8', "site_based_plan"), ('9', "compass_well")]

/-- `wbp_dict['LOCATION']['plan_method']`, `wbp.yaml` 34-38. -/
def methodTable : List (Char × String) :=
  [('0', "curve_only"), ('1', "curve_hold"), ('2', "opt_align"), ('9', "something_special")]

/-- Writing a header whose side track id was read from a file: `f" {sidetrack_id:>7}"` fails for
`None` (`wbp.py` 491). -/
def formatSidetrack : Option (List Char) → Except Err (List Char)
  | some s => .ok (rjust 7 s)
  | none => .error .value

end Welleng.Wbp
