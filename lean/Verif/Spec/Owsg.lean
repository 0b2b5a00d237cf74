import Verif.Model.Owsg

/-!
What a term of a converted tool model says about the row of the workbook it comes from.
-/

namespace Welleng.Spec

open Welleng.Owsg

/-- A row of the table of terms: it has a number, and a code. -/
def hasTerm (r : Row) : Bool :=
  (match r.no with | .num _ => true | _ => false) && r.code != .blank && r.code != .text ""

/-- A formula cell and the formula: text is kept up to surrounding blanks, a whole number is written
in digits, an empty cell is zero. -/
def SameFormula (c : Cell) (f : String) : Prop :=
  (∀ s, c = .text s → f = String.ofList (Wbp.strip s.toList)) ∧
  (∀ n : ℤ, c = .num n → f = toString n) ∧
  (c = .blank → f = "0")

/-- A singularity cell and the singularity: absent exactly when the cell is empty or zero. -/
def SameSingularity (c : Cell) (f : Option String) : Prop :=
  (f = none ↔ c = .blank ∨ c = .num 0) ∧
  ∀ s, c = .text s → f = some (String.ofList (Wbp.strip s.toList))

/-- The letters of the workbook and the modes of the schema. -/
def modeTable : List (String × String) :=
  [("R", "Random"), ("S", "Systematic"), ("G", "Global"), ("W", "Well")]

/-- The term says what the row says. -/
structure Represents (r : Row) (t : Term) : Prop where
  name : ∀ s, r.code = .text s → t.name = s
  weight : ∀ s, r.wtfn = .text s → t.weightFunction = s
  value : ∀ q, r.magnitude = .num q → t.value = q
  units : ∀ s, r.units = .text s → t.units = s
  mode : ∀ p ∈ modeTable, r.prop = .text p.1 → t.mode = p.2
  depthFactor : ∀ n : ℤ, r.p1 = .num n → t.depthFactor = n
  inclinationFactor : ∀ n : ℤ, r.p2 = .num n → t.inclinationFactor = n
  azimuthFactor : ∀ n : ℤ, r.p3 = .num n → t.azimuthFactor = n
  depth : SameFormula r.depth t.depth
  inclination : SameFormula r.inclination t.inclination
  azimuth : SameFormula r.azimuth t.azimuth
  north : SameSingularity r.singNorth t.north
  east : SameSingularity r.singEast t.east
  vertical : SameSingularity r.singVert t.vertical

/-- The characters of a sheet name that a file name may keep: letters, digits, `_`, `+`, `-` and
`.`. -/
def FileChar (c : Char) : Prop := c.isAlphanum = true ∨ c ∈ ['_', '+', '-', '.']

end Welleng.Spec
