import Mathlib.Data.Real.Basic
import Mathlib.Algebra.BigOperators.Group.Finset.Basic
import Mathlib.Algebra.BigOperators.Intervals

/-!
What a tortuosity index adds up: a well is cut into sections at stations `E 0 < E 1 < …`; down to
a station `j` of section `m` (`E m < j ≤ E (m+1)`) the total is the excess of each completed
section plus that of the section in progress.
-/

namespace Welleng.Spec

open Finset

/-- Total down to station `j`, which lies in section `m` (counted from 0). -/
noncomputable def sectionTotal (excess : ℕ → ℕ → ℝ) (E : ℕ → ℕ) (m j : ℕ) : ℝ :=
  ∑ i ∈ range m, excess (E i) (E (i + 1)) + excess (E m) j

/-- `E` lists the section boundaries of a survey of `n` intervals: the first station, each
station where `cut` holds, and the last station. -/
structure Sections (cut : ℕ → Prop) (n N : ℕ) (E : ℕ → ℕ) : Prop where
  first : E 0 = 0
  last : E N = n
  mono : ∀ m, m < N → E m < E (m + 1)
  mem : ∀ j, 0 < j → j < n → (cut j ↔ ∃ m, 0 < m ∧ m < N ∧ E m = j)

end Welleng.Spec
