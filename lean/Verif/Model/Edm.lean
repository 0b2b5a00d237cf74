import Mathlib.Data.Rat.Defs
import Mathlib.Algebra.Order.Ring.Rat
import Mathlib.Data.List.Sort
import Mathlib.Data.List.Basic

/-!
Model of `welleng/exchange/edm.py`: queries on an EDM document.

The XML parser is not modelled: a document is the list of the children of its root, each a tag
with attributes.  Depths, which the file stores as text, are rational numbers.
-/

namespace Welleng.Edm

/-- A child of the root: `child.tag` and `child.attrib`, `edm.py` 55-79. -/
structure Node where
  tag : String
  attrib : List (String × String)
  deriving DecidableEq

/-- `attrib.get(k)`, `edm.py` 62. -/
def Node.get (c : Node) (k : String) : Option String := c.attrib.lookup k

/-- The argument `logic` of `get_attributes`, `edm.py` 49, 68-69. -/
inductive Logic | and | or
  deriving DecidableEq

/-- `data[tag].append(x)`, or `data[tag] = [x]` when the key is absent; insertion order is
kept, `edm.py` 72-79. -/
def dictAppend {A : Type} (d : List (String × List A)) (k : String) (x : A) :
    List (String × List A) :=
  match d with
  | [] => [(k, [x])]
  | (k', l) :: t => if k' = k then (k', l ++ [x]) :: t else (k', l) :: dictAppend t k x

/-- `k in child.attrib and child.attrib[k] in v`, `edm.py` 60-65. -/
def attrOk (c : Node) (q : String × List String) : Bool :=
  match c.get q.1 with
  | some x => q.2.contains x
  | none => false

/-- The test of `edm.py` 66-70 on the booleans so far. -/
def logicOk : Logic → List Bool → Bool
  | .and, l => l.all id
  | .or, l => l.any id

/-- The loop over the attributes, `edm.py` 58-74, started with the booleans `bs`: after every
attribute the test is made and the child appended. -/
def attrLoop (logic : Logic) (c : Node) :
    List (String × List String) → List Bool → List (String × List Node) → List (String × List Node)
  | [], _, data => data
  | q :: t, bs, data =>
    let bs := bs ++ [attrOk c q]
    attrLoop logic c t bs (if logicOk logic bs then dictAppend data c.tag c else data)

/-- `EDM.get_attributes`, `edm.py` 27-80, for a list of tags; the values of the attributes are
already wrapped in lists.  (The appended value is `child.attrib`; the model keeps the child.) -/
def getAttributes (root : List Node) (tags : List String) (attributes : List (String × List String))
    (logic : Logic) : List (String × List Node) :=
  root.foldl (fun data c =>
    if tags.contains c.tag then
      if attributes.isEmpty then dictAppend data c.tag c
      else attrLoop logic c attributes [] data
    else data) []

/-- The entry of a result: absent keys count as empty, `edm.py` 72-79. -/
def entry {A : Type} (d : List (String × List A)) (k : String) : List A := (d.lookup k).getD []

/-! ### Wellbores -/

/-- A `CD_WELLBORE` element, `edm.py` 177-189. -/
structure Bore where
  id : String
  name : String
  parent : Option String
  deriving DecidableEq

/-- `EDM.get_parents`, `edm.py` 177-189.  `rest` is what remains of the loop over the document,
`preds` the list passed in, which is extended in place and returned.  `none` is Python's
recursion limit. -/
def getParents (all : List Bore) (fuel : ℕ) (rest : List Bore) (id : String)
    (preds : List String) : Option (List String) :=
  match fuel, rest with
  | 0, _ => none
  | _ + 1, [] => some preds
  | f + 1, c :: t =>
    if c.id = id then
      match c.parent with
      | some p => (getParents all f all p (preds ++ [p])).bind (getParents all (f + 1) t id)
      | none => some preds
    else getParents all (f + 1) t id preds
termination_by (fuel, rest.length)

/-- The default list of `get_parents` is created once (`predecessors=[]`, `edm.py` 177): a call
without that argument starts from what the previous calls left and leaves its result. -/
def parentsCall (all : List Bore) (limit : ℕ) (left : List String) (id : String) :
    Option (List String) :=
  getParents all limit all id left

/-- What is left in the default list after a history of calls, `edm.py` 177-189. -/
def history (all : List Bore) (limit : ℕ) : List String → List String → Option (List String)
  | left, [] => some left
  | left, id :: t => (parentsCall all limit left id).bind fun l => history all limit l t

/-- Assignment to a dictionary key, `edm.py` 82-121. -/
def dictSet {A : Type} (d : List (String × A)) (k : String) (v : A) : List (String × A) :=
  match d with
  | [] => [(k, v)]
  | (k', v') :: t => if k' = k then (k', v) :: t else (k', v') :: dictSet t k v

/-- `get_wellbore_ids`, `edm.py` 108-113: keyed by the wellbore name. -/
def wellboreIds (root : List Bore) : List (String × Bore) :=
  root.foldl (fun d b => dictSet d b.name b) []

/-- `wellbore_id_to_name`, `edm.py` 82-92. -/
def idToName (root : List Bore) : List (String × String) :=
  (wellboreIds root).foldl (fun d kv => dictSet d kv.2.id kv.2.name) []

/-- `wellbore_name_to_id`, `edm.py` 82-92. -/
def nameToId (root : List Bore) : List (String × String) :=
  (wellboreIds root).foldl (fun d kv => dictSet d kv.2.name kv.2.id) []

/-! ### Collected data -/

/-- Lists are mutable objects; a heap of them, `edm.py` 143-150. -/
abbrev Heap := ℕ → List Node

/-- `EDM.add_attributes`, `edm.py` 143-150: an existing list is extended in place, otherwise the
very list of `additional` becomes the entry. -/
def addAttributes (h : Heap) (attributes : List (String × ℕ)) :
    List (String × ℕ) → Heap × List (String × ℕ)
  | [] => (h, attributes)
  | (k, r) :: t =>
    match attributes.lookup k with
    | some r' => addAttributes (Function.update h r' (h r' ++ h r)) attributes t
    | none => addAttributes h (attributes ++ [(k, r)]) t

/-- The two calls of `add_attributes` in `get_wellbore_data`, `edm.py` 161-173: when there are no
predecessors the second call gets the same `additional` again. -/
def collect (h : Heap) (attributes additional : List (String × ℕ))
    (surveys : Option (List (String × ℕ))) : Heap × List (String × ℕ) :=
  let r := addAttributes h attributes additional
  addAttributes r.1 r.2 (surveys.getD additional)

/-! ### Surveys -/

/-- A survey header: its id, `md_max`, and the header and depth it is tied to, `edm.py` 353-411. -/
structure Hdr where
  id : String
  mdMax : ℚ
  tie : Option (String × ℚ)
  deriving DecidableEq

/-- A survey station, `edm.py` 353-400. -/
structure St where
  hdr : String
  md : ℚ
  deriving DecidableEq

/-- `Well.get_parent_surveys`, `edm.py` 402-411; `none` is Python's recursion limit. -/
def parentSurveys : ℕ → List Hdr → String → List (String × ℚ) → Option (List (String × ℚ))
  | 0, _, _, _ => none
  | f + 1, hs, id, data =>
    hs.foldlM (fun d h =>
      if h.id = id then
        match h.tie with
        | some (t, depth) => parentSurveys f hs t (dictSet d id depth)
        | none => some d
      else some d) data

/-- The loop over one entry of `survey_lists`, `edm.py` 376-397: `cur` is `current_md`. -/
def gather (stations : List St) : List (String × ℚ) → ℚ → List St
  | [], _ => []
  | (k, v) :: t, cur =>
    if v < cur then
      stations.filter (fun s => s.hdr = k ∧ v ≤ s.md ∧ s.md ≤ cur) ++ gather stations t v
    else gather stations t cur

/-- The survey of one header of `Well._get_surveys`, `edm.py` 368-398: sorted by depth. -/
def survey (limit : ℕ) (headers : List Hdr) (stations : List St) (h : Hdr) : Option (List St) :=
  (parentSurveys limit headers h.id [(h.id, h.mdMax)]).map fun data =>
    (gather stations data h.mdMax).insertionSort fun a b => a.md ≤ b.md

/-! ### Tables -/

/-- A row of a pressure or temperature table, `edm.py` 329-351, 500-520. -/
structure Row where
  group : String
  tvd : ℚ
  value : ℚ
  deriving DecidableEq

/-- `Well._get_ppfpt_data`, `edm.py` 499-541: rows by group, each group sorted by depth. -/
def ppfpt (rows : List Row) : List (String × List (ℚ × ℚ)) :=
  (rows.foldl (fun d r => dictAppend d r.group (r.tvd, r.value)) []).map fun kv =>
    (kv.1, kv.2.insertionSort fun a b => a.1 ≤ b.1)

/-- `Well._get_hole_section_data`, `edm.py` 441-452: for every tag the entry is replaced by each
matching row. -/
def holeSectionData (data : List (String × List Node)) (group : String) : List (String × Node) :=
  data.foldl (fun d kv => kv.2.foldl (fun d row =>
    if row.get "hole_sect_group_id" = some group then dictSet d kv.1 row else d) d) []

end Welleng.Edm
