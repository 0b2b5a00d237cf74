import Verif.Model.Workbook

/-!
What a labelled row of a sheet says, written without reference to the code.
-/

namespace Welleng.Spec

/-- A text names `key`: blanks, the name in any case, blanks, and then nothing or a bracket. -/
def Names (s key : List Char) : Prop :=
  ∃ a name b rest, s = a ++ name ++ b ++ rest ∧ (∀ c ∈ a, c = ' ') ∧ (∀ c ∈ b, c = ' ') ∧
    (rest = [] ∨ rest.head? = some '(') ∧ '(' ∉ name ∧
    name.head? ≠ some ' ' ∧ name.getLast? ≠ some ' ' ∧ name.map Char.toLower = key

/-- The length of a unit of depth in metres, for the words that name a metre or a foot. -/
noncomputable def unitLength (u : List Char) : Option ℝ :=
  let w := u.map Char.toLower
  if w ∈ ["m".toList, "metre".toList, "metres".toList, "meter".toList, "meters".toList] then some 1
  else if w ∈ ["ft".toList, "foot".toList, "feet".toList] then some 0.3048
  else none

end Welleng.Spec
