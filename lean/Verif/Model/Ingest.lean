import Verif.Model.Edm
import Mathlib.Algebra.Order.Group.Abs
import Mathlib.Algebra.Order.Field.Basic

/-!
Model of the parts of `/repo/welleng/errors/iscwsa_ingest.py`, `iscwsa_validate.py`,
`copsegrove.py` and `copsegrove_validate.py` that decide something: which revision is reported,
which entry an error source becomes, which rows belong to which station, and which comparisons
pass. Reading the files (openpyxl, regular expressions) is a parameter or is done before the model
starts. The survey and the error model that is validated are parameters; they are modelled
elsewhere.
-/

namespace Welleng.Ingest

open Edm (dictSet)

/-! ### `iscwsa_ingest.py` -/

/-- `key > best` on pairs of integers, `iscwsa_ingest.py` 29-48. -/
def newer (a b : ℕ × ℕ) : Bool := decide (b.1 < a.1 ∨ (b.1 = a.1 ∧ b.2 < a.2))

/-- The loop body of `_latest_readme_revision`, `iscwsa_ingest.py` 36-47. `parse` is the match with
the revision pattern. The second component is the text of the cell (`str(v).strip()` is not
modelled). -/
def revStep (parse : String → Option (ℕ × ℕ)) (best : Option ((ℕ × ℕ) × String))
    (cell : Option String) : Option ((ℕ × ℕ) × String) :=
  match cell with
  | none => best
  | some v =>
    match parse v with
    | none => best
    | some key =>
      match best with
      | none => some (key, v)
      | some b => if newer key b.1 then some (key, v) else some b

/-- `_latest_readme_revision`, `iscwsa_ingest.py` 28-48. -/
def latestRevision (parse : String → Option (ℕ × ℕ)) (cells : List (Option String)) :
    Option String :=
  (cells.foldl (revStep parse) none).map (·.2)

/-- `PROPAGATION_MAP.get(p, 'systematic')`, `iscwsa_ingest.py` 60-65 and 542. -/
def propagationOf (p : String) : String :=
  if p = "R" then "random" else if p = "S" then "systematic" else if p = "G" then "global"
  else if p = "W" then "within_pad" else "systematic"

/-- An error term of the Model sheet (the fields used by the conversion),
`iscwsa_ingest.py` 60-108. -/
structure Term (K : Type) where
  code : String
  wtFn : String
  magnitude : K
  unit : String
  propagation : String
  deriving DecidableEq

/-- An entry of the legacy table, `iscwsa_ingest.py` 510-544. -/
structure Entry (K : Type) where
  function : String
  magnitude : K
  unit : String
  propagation : String
  deriving DecidableEq

/-- The key of a term, `iscwsa_ingest.py` 536. -/
def legacyKey (code : String) : String := if code = "XCLL" then "XCLA" else code

/-- The entry of a term, `iscwsa_ingest.py` 537-542; `fn`, `si`, `unitSi` are the text and unit
conversions (`wt_fn.replace`, `magnitude_si`, `unit_si`). -/
def entryOf {K : Type} (fn : String → String) (si : String → K → K) (unitSi : String → String)
    (t : Term K) : Entry K :=
  ⟨fn t.wtFn, si t.unit t.magnitude, unitSi t.unit, propagationOf t.propagation⟩

/-- `to_legacy_codes_dict`, `iscwsa_ingest.py` 534-544 (the code table). -/
def legacyCodes {K : Type} (fn : String → String) (si : String → K → K) (unitSi : String → String)
    (terms : List (Term K)) : List (String × Entry K) :=
  terms.foldl (fun d t => dictSet d (legacyKey t.code) (entryOf fn si unitSi t)) []

/-! ### `copsegrove.py` -/

/-- A line of a diagnostics file, after matching with the two patterns, `copsegrove.py` 74-111. -/
inductive Line (V P : Type)
  | svy (code : String) (v : V)
  | station (p : P)
  | other

/-- Labels that are skipped, `copsegrove.py` 90-91. -/
def aggregates : List String :=
  ["Sensor", "Az", "Magnetic", "Align", "Reading", "Depth", "Totals", "Total"]

/-- The loop of `parse_copsegrove`, `copsegrove.py` 84-108; `pending` is the dictionary of rows
seen since the last station. -/
def parse {V P : Type} : List (Line V P) → List (String × V) → List (P × List (String × V))
  | [], _ => []
  | .svy code v :: t, pending =>
    if code ∈ aggregates then parse t pending else parse t (dictSet pending code v)
  | .station p :: t, pending => (p, pending) :: parse t []
  | .other :: t, pending => parse t pending

/-- `parse_copsegrove`, `copsegrove.py` 74-111. -/
def parseFile {V P : Type} (lines : List (Line V P)) : List (P × List (String × V)) :=
  parse lines []

/-- `per_term_sigmas`, `copsegrove.py` 114-134. -/
def perTerm {V P : Type} (stations : List (P × List (String × V))) (term : String) :
    List (P × V) :=
  stations.filterMap fun s => (s.2.lookup term).map fun v => (s.1, v)

/-! ### `iscwsa_validate.py` -/

section Validate

variable {α : Type} [Field α] [LinearOrder α]

/-- `np.max` of numbers that are not negative, `iscwsa_validate.py` 139-144. -/
def maxOf (l : List α) : α := l.foldr max 0

/-- `abs_err`, `iscwsa_validate.py` 185: pairs are (expected, actual). -/
def absErr (l : List (α × α)) : α := maxOf (l.map fun p => |p.2 - p.1|)

/-- `_relative_error`, `iscwsa_validate.py` 135-140. -/
def relErr (l : List (α × α)) : α :=
  maxOf ((l.filter fun p => decide (0 < |p.1|)).map fun p => |p.2 - p.1| / |p.1|)

/-- `ok`, `iscwsa_validate.py` 187 and 214. -/
def rowOk (tolRel tolAbs : α) (l : List (α × α)) : Bool :=
  decide (absErr l ≤ tolAbs ∨ relErr l ≤ tolRel)

/-- A row of the Validation sheet, `iscwsa_ingest.py` 386-408. -/
structure VRow (α : Type) where
  source : String
  md : α
  expected : List α

/-- The loop over the rows, `iscwsa_validate.py` 168-200: `welleng code md` is the packed
covariance of a source at a depth, `none` when the depth is not a station; `codes` are the sources
that welleng has. The result is the source of each compared row and its verdict. -/
def perSource (codes : List String) (welleng : String → α → Option (List α)) (tolRel tolAbs : α)
    (rows : List (VRow α)) : List (String × Bool) :=
  rows.filterMap fun r =>
    if r.source ∈ codes then
      (welleng r.source r.md).map fun w => (r.source, rowOk tolRel tolAbs (r.expected.zip w))
    else none

/-- `by_code.setdefault(code, []).append(c)`, `iscwsa_validate.py` 68-70. -/
def groupAdd (d : List (String × List Bool)) (c : String × Bool) : List (String × List Bool) :=
  match d with
  | [] => [(c.1, [c.2])]
  | (k, l) :: t => if k = c.1 then (k, l ++ [c.2]) :: t else (k, l) :: groupAdd t c

/-- `source_pass_fail`, `iscwsa_validate.py` 66-71. -/
def passFail (rows : List (String × Bool)) : List (String × Bool) :=
  (rows.foldl groupAdd []).map fun kv => (kv.1, kv.2.all id)

/-- The exit code of `main`, `iscwsa_validate.py` 247-248: zero or one. -/
def exitCode (rows : List (String × Bool)) : ℕ :=
  if ((passFail rows).filter fun kv => !kv.2).length = 0 then 0 else 1

/-! ### `copsegrove_validate.py` -/

/-- The verdicts, `copsegrove_validate.py` 103-193. -/
inductive Verdict
  | deferred | unknownProp | interpFail | notInFile | matches_ | near | differ
  deriving DecidableEq

/-- The verdict on a term, `copsegrove_validate.py` 103-193. `interp` gives the interpreter's three
formulas at each station, in the order depth, inclination, azimuth, or `none` if the evaluation
raised; a station's row is in the order high side, lateral, along hole. -/
def verdict (prop : String) (mag tol : α) (interp : Option (List (α × α × α)))
    (rows : List (Option (α × α × α))) : Verdict :=
  if prop ∈ ["Systematic", "Global", "Well"] then .deferred
  else if prop ≠ "Random" then .unknownProp
  else match interp with
    | none => .interpFail
    | some fs =>
      let diffs := (fs.zip rows).flatMap fun p =>
        match p.2 with
        | none => []
        | some r => [|(|p.1.2.1| * mag) - r.1|, |(|p.1.2.2| * mag) - r.2.1|,
            |(|p.1.1| * mag) - r.2.2|]
      if diffs = [] then .notInFile
      else if maxOf diffs ≤ tol then .matches_
      else if maxOf diffs ≤ 5 * tol then .near
      else .differ

end Validate

end Welleng.Ingest
