import Verif.Model.Survey
import Mathlib.Algebra.Order.Field.Basic

/-!
Model of `interpolate_survey_tvd`, `/repo/welleng/survey.py` 2848-2917.
-/

namespace Welleng.Rt

/-- What the loop reads of a node: depth, vertical depth, flag `interpolated`. -/
@[ext] structure Nd where
  md : ℝ
  z : ℝ
  interp : Bool

/-- `np.isclose(a, b)` with its default tolerances, `survey.py` 2848-2917. -/
def isclose (a b : ℝ) : Prop := |a - b| ≤ 1e-8 + 1e-5 * |b|

/-- The parameters: `step` as passed, `near` is `np.isclose`, and `mdAt md2 tvd` is the measured depth
of the node that `get_node_tvd` (2819-2845) finds at the vertical depth `tvd` in the interval that ends at
`md2`.  Simplification: the node found has the vertical depth asked for, and the search does not fail
(`interpolate_tvd` is modelled in `Verif.Model.InterpTvd`). -/
structure Cfg where
  step : ℝ
  near : ℝ → ℝ → Prop
  mdAt : ℝ → ℝ → ℝ

/-- The loop `while 1` for the interval that ends at the station `b = (md2, tvd2)`, 2888-2909, with at
most `fuel` passes (`none`: not finished).  `nodes` has the last node first; `t` is `tvds[-1]`. -/
noncomputable def interval (c : Cfg) (b : ℝ × ℝ) : ℕ → List Nd → ℝ → Option (List Nd × ℝ)
  | 0, _, _ => none
  | _ + 1, [], _ => none
  | fuel + 1, n1 :: rest, t =>
    open Classical in
    if c.near n1.md b.1 then some ({ n1 with interp := false } :: rest, t)
    else if n1.z > t ∧ t ≥ b.2 then
      interval c b fuel (⟨c.mdAt b.1 t, t, true⟩ :: n1 :: rest) (t - c.step)
    else if n1.z < t + c.step ∧ t + c.step ≤ b.2 then
      interval c b fuel (⟨c.mdAt b.1 (t + c.step), t + c.step, true⟩ :: n1 :: rest) (t + c.step)
    else some (⟨b.1, b.2, false⟩ :: n1 :: rest, t)

/-- The loop over the stations after the first, 2878-2909. -/
noncomputable def sweep (c : Cfg) (fuel : ℕ) : List (ℝ × ℝ) → List Nd → ℝ → Option (List Nd)
  | [], nodes, _ => some nodes
  | b :: rest, nodes, t =>
    match interval c b fuel nodes t with
    | none => none
    | some (nodes', t') => sweep c fuel rest nodes' t'

/-- The nodes, 2875-2909: `st` are `(md, tvd)` of the stations.  The argument `stop` is not used. -/
noncomputable def nodes (c : Cfg) (fuel : ℕ) (start : Option ℝ) (st : List (ℝ × ℝ)) :
    Option (List Nd) :=
  match st with
  | [] => none
  | s :: rest => (sweep c fuel rest [⟨s.1, s.2, false⟩] (start.getD s.2)).map List.reverse

/-- Why no survey is returned: the header's unit is not `"meters"`, the default of the constructor
(697-699), or minimum curvature fails. -/
inductive Exc | assertionError | minCurve (e : MinCurveErr)

/-- The survey built from the nodes, 2911-2917: positions as `(n, e, tvd)`.  Neither `start_nev` nor
`start_xyz` nor `unit` is passed.  The header's azimuth reference has become `grid` (1892-1893), the one
of the nodes' azimuths. -/
noncomputable def rebuilt (headerUnit : LenUnit) (st : List Station) : Except Exc (List V3) :=
  if headerUnit = .meters then
    match minCurve st 0 .meters with
    | .ok out => .ok (out.poss.map (Sv.nevAttr 0 0))
    | .error e => .error (.minCurve e)
  else .error .assertionError

end Welleng.Rt
