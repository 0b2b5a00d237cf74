import Verif.Model.Interpolate

/-!
Vocabulary for the closest-point and refinement properties.
-/

namespace Welleng.Spec

open Welleng

/-- The optimiser stays in the bounds `[0, b]` it is given and, for an objective that is not
negative, returns a point whose value is within `ε` of every value on the interval. -/
def FindsMinimum (ε : ℝ) (opt : (ℝ → ℝ) → ℝ → ℝ) : Prop :=
  ∀ f b, 0 ≤ b → (∀ y, 0 ≤ f y) →
    0 ≤ opt f b ∧ opt f b ≤ b ∧ ∀ y, 0 ≤ y → y ≤ b → f (opt f b) ≤ f y + ε

/-- `q` is the point of the well between its stations `j` and `j + 1` at the distance `x` along
the hole from station `j`. -/
def OnWell (st : List Station) (nev : List V3) (j : ℕ) (x : ℝ) (q : V3) : Prop :=
  ∃ a b p, st[j]? = some a ∧ st[j + 1]? = some b ∧ nev[j]? = some p ∧
    0 ≤ x ∧ x ≤ b.md - a.md ∧ q = interpPosNev p a b x

end Welleng.Spec
