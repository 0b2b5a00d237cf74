import Verif.Spec.Closest

/-!
Vocabulary for the results of a mesh clearance calculation (C240-C244).
-/

namespace Welleng.Spec

open Welleng

/-- Station `i` is a nearest one to `p`. -/
def NearestIndex (nev : List V3) (p : V3) (i : ℕ) : Prop :=
  ∃ q, nev[i]? = some q ∧ ∀ r ∈ nev, V3.norm (q - p) ≤ V3.norm (r - p)

/-- `q` is the point of the well at the measured depth `md`, which is in interval `j`. -/
def AtDepth (st : List Station) (nev : List V3) (j : ℕ) (md : ℝ) (q : V3) : Prop :=
  ∃ a, st[j]? = some a ∧ OnWell st nev j (md - a.md) q

/-- Measured depths increase, and no interval turns by half a circle or more. -/
def Gentle (st : List Station) : Prop :=
  (st.Pairwise fun a b => a.md < b.md) ∧
    ∀ (i : ℕ) a b, st[i]? = some a → st[i + 1]? = some b → dogleg2 a b < Real.pi

end Welleng.Spec
