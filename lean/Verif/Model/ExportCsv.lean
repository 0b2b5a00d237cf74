import Verif.Model.Sections
import Verif.Model.MinCurve

/-!
Model of `export_csv` of a survey, `/repo/welleng/survey.py` 2446-2606, up to the text of the file.
The optimiser is a parameter. Azimuths are grid azimuths.
-/

namespace Welleng.Sec

/-- The stations of the survey that `func` makes of the rows of the listing, `survey.py` 2587-2597. -/
noncomputable def listed (l : List TurnPoint) : List Station :=
  (getData l).map fun r => ⟨r.1, radians r.2.1, radians r.2.2.1⟩

/-- The largest component, `np.amax(np.absolute(v))`, `survey.py` 2603. -/
noncomputable def maxAbs (v : V3) : ℝ := max |v.x| (max |v.y| |v.z|)

/-- How far the listing for the tolerance `x` ends from the survey, `survey.py` 2585-2604. -/
noncomputable def endError (dlsCont : Bool) (around : ℝ → ℝ) (u : LenUnit) (sv : ℕ → Row) (n : ℕ)
    (x : ℝ) : Option ℝ :=
  match getSections x x dlsCont around u sv n with
  | none => none
  | some l =>
    match minCurve (listed l) (sv 0).pos u with
    | .error _ => none
    | .ok out => out.poss.getLast?.map fun p => maxAbs (p - (sv n).pos)

/-- `func`, `survey.py` 2567-2606. -/
noncomputable def objective (tolerance : ℝ) (dlsCont : Bool) (around : ℝ → ℝ) (u : LenUnit)
    (sv : ℕ → Row) (n : ℕ) (x : ℝ) : Option ℝ :=
  (endError dlsCont around u sv n x).map fun e => |tolerance - e|

/-- `export_csv`, `survey.py` 2470-2480, 2506-2524: the control points that are listed; `minimize`
is the optimiser, which is given the objective. -/
noncomputable def exportCsv (minimize : (ℝ → Option ℝ) → ℝ) (tolerance : ℝ) (dlsCont : Bool)
    (around : ℝ → ℝ) (u : LenUnit) (sv : ℕ → Row) (n : ℕ) : Option (List TurnPoint) :=
  let x := minimize (objective tolerance dlsCont around u sv n)
  getSections x x dlsCont around u sv n

end Welleng.Sec
