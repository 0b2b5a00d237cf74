import Verif.Model.Fluid

/-!
Model of `Fluid.get_density_profile`, `/repo/welleng/fluid.py` 214-266. The optimiser is a
parameter: what it answers for one depth and one thermal gradient.
-/

namespace Welleng.Fluid

/-- Exceptions of `get_density_profile`, `fluid.py` 240-266: arithmetic on a list, shapes that do
not fit (also an empty profile), and those of the objective. -/
inductive ProfErr | type | value | inner (e : Err)
  deriving DecidableEq

/-- The argument `temperature`, `fluid.py` 217, 230-232: a number, a numpy array or a list. -/
inductive TempArg
  | number (t : ℝ) | array (ts : List ℝ) | list (ts : List ℝ)

open Classical in
/-- `np.nan_to_num((t - temp_reference) / d)` for one entry, `fluid.py` 243-247; `big` is the
largest float, which takes the place of an infinite quotient. -/
noncomputable def gradientOf (big tref t d : ℝ) : ℝ :=
  if d = 0 then (if t = tref then 0 else if tref < t then big else -big) else (t - tref) / d

/-- The array of gradients, `fluid.py` 241-247, with numpy's rules for the shapes. -/
noncomputable def gradients (big tref : ℝ) (depth : List ℝ) : TempArg → Except ProfErr (List ℝ)
  | .list _ => .error .type
  | .number t => .ok (depth.map (gradientOf big tref t))
  | .array ts =>
    if ts.length = depth.length then .ok (List.zipWith (gradientOf big tref) ts depth)
    else match ts, depth with
      | [t], _ => .ok (depth.map (gradientOf big tref t))
      | _, [d] => .ok (ts.map fun t => gradientOf big tref t d)
      | _, _ => .error .value

/-- The calls of the optimiser for pairs of a depth and a gradient, `fluid.py` 249-264. -/
def solveAll (solve : ℝ → ℝ → Except Err ℝ) : List (ℝ × ℝ) → Except ProfErr (List ℝ)
  | [] => .ok []
  | p :: t =>
    match solve p.1 p.2 with
    | .error e => .error (.inner e)
    | .ok r =>
      match solveAll solve t with
      | .error e => .error e
      | .ok rs => .ok (r :: rs)

/-- `get_density_profile`, `fluid.py` 214-266, for the depths `depth` (a number is a list of one,
241). -/
noncomputable def densityProfile (solve : ℝ → ℝ → Except Err ℝ) (big tref : ℝ) (depth : List ℝ)
    (temperature : TempArg) : Except ProfErr (List ℝ) :=
  match gradients big tref depth temperature with
  | .error e => .error e
  | .ok gs =>
    match solveAll solve (depth.zip gs) with
    | .error e => .error e
    | .ok [] => .error .value
    | .ok (r :: rs) => .ok (r :: rs)

end Welleng.Fluid
