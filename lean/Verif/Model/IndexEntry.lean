import Verif.Model.Extract
import Verif.Model.ToolIndex

/-!
Model of the header and of the index entry written by
`/repo/welleng/errors/extract_iscwsa_codes.py`.  Reading and writing the YAML file of the index is not
modelled: the index is a dictionary.
-/

namespace Welleng.Extract

open Ingest
open Edm (dictSet)

/-- `extract_header` and `make_header_dict`, `extract_iscwsa_codes.py` 53-73, 120-134: rows without a
label are left out, and a label that is a number has no `replace`. -/
def iscwsaHeader (h : List (String × Cell)) : List (Cell × Cell) → Except Exc (List (String × Cell))
  | [] => .ok h
  | (.empty, _) :: t => iscwsaHeader h t
  | (.num _, _) :: _ => .error .attributeError
  | (.str s, v) :: t => iscwsaHeader (dictSet h (removeChars s) v) t

/-- The fields copied to the index, `extract_iscwsa_codes.py` 138-140. -/
def indexFields : List String :=
  ["Application", "Short Name", "Long Name", "OWSG Prefix", "Revision No"]

/-- The name of a field in the index, `extract_iscwsa_codes.py` 144-147. -/
def indexName (f : String) : String := if f = "Revision No" then "Rev." else f

/-- The entry of a tool, `extract_iscwsa_codes.py` 138-147. -/
def indexEntry (header : List (String × Cell)) : List String → Except Exc (List (String × Cell))
  | [] => .ok []
  | f :: t =>
    match header.lookup f with
    | none => .error .keyError
    | some v => match indexEntry header t with
      | .error e => .error e
      | .ok r => .ok ((indexName f, v) :: r)

/-- `make_index`, `extract_iscwsa_codes.py` 137-162: the index afterwards (`yaml.dump` writes it in the
order of its keys). -/
def addTool (code : String) (header : List (String × Cell)) (index : List (String × List (String × Cell))) :
    Except Exc (List (String × List (String × Cell))) :=
  match indexEntry header indexFields with
  | .error e => .error e
  | .ok entry => .ok (dictSet index code entry)

/-- Key and Short Name of the entries, as read by `error.py` 42-66; an entry without Short Name or with
one that is no text is left out here. -/
def shortNames (index : List (String × List (String × Cell))) : List (String × String) :=
  index.filterMap fun e => match e.2.lookup "Short Name" with
    | some (.str s) => some (e.1, s)
    | _ => none

end Welleng.Extract
