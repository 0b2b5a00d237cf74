import Verif.Model.EdmCase

/-! What the attributes of a case should be. -/

namespace Welleng.Spec

open Edm

/-- The rows of a table whose column `key` is `x`. -/
def rowsWith (rows : List Attrs) (key x : String) : List Attrs :=
  rows.filter fun r => r.lookup key = some x

/-- The rows, or `None` if there are none. -/
def orNone : List Attrs → Val
  | [] => .missing
  | r :: t => .rows (r :: t)

/-- The records a case refers to: attribute, table and column. -/
def references : List (String × String × String) :=
  [("wellbore", "CD_WELLBORE", "wellbore_id"), ("fluid", "CD_FLUID", "fluid_id"),
    ("scenario", "CD_SCENARIO", "scenario_id"), ("well", "CD_WELL", "well_id"),
    ("datum", "CD_DATUM", "datum_id"),
    ("hole_sect_group", "CD_HOLE_SECT_GROUP", "hole_sect_group_id"),
    ("hole_sect", "CD_HOLE_SECT", "hole_sect_group_id"),
    ("survey_header", "CD_SURVEY_HEADER", "wellbore_id")]

end Welleng.Spec
