import Verif.Model.WbpText

/-!
Model of the plans with a parent file of `/repo/welleng/exchange/wbp.py`: `get_parent_survey`
(385-403), `_get_surface_location` (221-233) and `export` with `parent_data` (580-622).
-/

namespace Welleng.Wbp

/-- `word in line`, `wbp.py` 224, 396. -/
def mentions (word line : Text) : Bool := decide (word <:+: line)

/-- Exceptions of this part, `wbp.py` 221-233, 385-403. -/
inductive PErr | assertionError | attributeError | valueError
  deriving DecidableEq

/-- The loop of `get_parent_survey`, `wbp.py` 393-403; `skip` is `flag`. -/
def parentFrom : Bool → List Text → List Text
  | _, [] => []
  | skip, line :: t =>
    if mentions "WELLPLANS".toList line then parentFrom false t
    else if skip then parentFrom skip t
    else line :: parentFrom skip t

/-- `get_parent_survey`, `wbp.py` 385-403, of the lines of the file. -/
def parentLines (file : List Text) : List Text := parentFrom true (file.map rstrip)

/-- `get_parent_survey`, `wbp.py` 385-403: `read` gives the lines of a file. -/
def getParent (read : Text → List Text) : Option Text → Except PErr (Option (List Text))
  | none => .ok none
  | some name =>
    if name.drop (name.length - 4) = ".wbp".toList then .ok (some (parentLines (read name)))
    else .error .assertionError

/-- `_get_surface_location` with parent data, `wbp.py` 221-228, and the use of the datum in
`_get_local_coordinates`, 214-219.  `npFloat` tells whether numpy has the name `np.float` (it does
not from version 1.24 on). -/
def surfaceLocation (npFloat : Bool) (parent : List Text) : Except PErr Loc :=
  match parent.find? (mentions "L:".toList) with
  | none => .error .attributeError
  | some line =>
    match words line with
    | [_, e, n, v] =>
      if npFloat then
        match parseFloat e, parseFloat n, parseFloat v with
        | some e, some n, some v => .ok ⟨e, n, v⟩
        | _, _, _ => .error .valueError
      else .error .attributeError
    | _ => .error .valueError

/-- `export` if the first plan has parent data, `wbp.py` 580-622; see `exportText`. -/
def exportWithParent (notes parent : List Text) : List WPlan → Option (List Text)
  | [] => some []
  | p :: t =>
    match unitKey p.surface p.depth, targetLines p.targets, plansLines (p :: t) with
    | some u, some g, some b =>
      some (("DEPTH ".toList ++ u.toList) :: notes.map (['!', ' '] ++ ·) ++
        ("TARGETS:".toList :: g) ++ ("WELLPLANS:".toList :: (parent ++ b)))
    | _, _, _ => none

end Welleng.Wbp
