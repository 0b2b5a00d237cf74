import Verif.Model.Interpolate
import Mathlib.Data.List.GetD

/-!
Model of `interpolate_tvd` without `node_origin`, `/repo/welleng/survey.py` 1949-2066.
-/

namespace Welleng.Tvd

open Real

/-- Ways in which `interpolate_tvd` gives no usable result: a failing assertion (2040, 2056), a
division by a zero vertical extent (2007-2012, the depth is NaN or infinite), or too few
stations. -/
inductive Err | assertion | notFinite | tooShort
  deriving DecidableEq

/-- `tidy_up_angle`, `survey.py` 1968-1974. -/
noncomputable def tidyUp (d : ℝ) : ℝ := if |d| > π then pmod d (2 * π) else d

/-- The angle `d` of `survey.py` 2026-2051.  For a negative radicand both candidates are NaN and
the assertion fails. -/
noncomputable def solveAngle (a b c : ℝ) : Except Err ℝ :=
  let disc := a ^ 2 + b ^ 2 - c ^ 2
  if disc < 0 then .error .assertion
  else
    let d1 := tidyUp (2 * atan2 (a + √disc) (b + c))
    let d2 := tidyUp (2 * atan2 (a - √disc) (b + c))
    if d1 ≥ 0 ∨ d2 ≥ 0 then
      .ok (if d1 < 0 then d2 else if d2 < 0 then d1 else min d1 d2)
    else .error .assertion

/-- `a`, `b`, `c` of `survey.py` 2014-2024; `v1`, `v2` are the vertical parts of the two
directions. -/
noncomputable def coeffs (coeff v1 v2 dogleg dtvd deltaMd : ℝ) : ℝ × ℝ × ℝ :=
  let a := coeff * v1 * sin dogleg
  let b := coeff * v1 * cos dogleg - coeff * v2
  (a, b, coeff * dtvd * dogleg * sin dogleg / deltaMd + b)

/-- The distance `x` below the upper station, `survey.py` 2006-2056. -/
noncomputable def distance (coeff : ℝ) (s1 s2 : Station) (tvd1 tvd2 tvd : ℝ) : Except Err ℝ :=
  let dogleg := dogleg2 s1 s2
  if dogleg = 0 then
    if tvd2 - tvd1 = 0 then .error .notFinite
    else .ok ((tvd - tvd1) / (tvd2 - tvd1) * (s2.md - s1.md))
  else
    let k := coeffs coeff (getVec s1.inc s1.azi true).z (getVec s2.inc s2.azi true).z dogleg
      (tvd - tvd1) (s2.md - s1.md)
    match solveAngle k.1 k.2.1 k.2.2 with
    | .error e => .error e
    | .ok d =>
      let x := d / dogleg * (s2.md - s1.md)
      if x ≤ s2.md - s1.md then .ok x else .error .assertion

/-- The bisection of `np.searchsorted(a, v, side="right")` between `lo` and `hi`, with at most `fuel`
halvings, as called at `survey.py` 1978: the list need not be ascending, and vertical depths of a well
that rises are not. -/
noncomputable def bisectRight (a : List ℝ) (v : ℝ) : ℕ → ℕ → ℕ → ℕ
  | 0, lo, _ => lo
  | fuel + 1, lo, hi =>
    if lo < hi then
      let mid := lo + (hi - lo) / 2
      if a.getD mid 0 ≤ v then bisectRight a v fuel (mid + 1) hi else bisectRight a v fuel lo mid
    else lo

/-- `np.searchsorted(a, v, side="right")`, `survey.py` 1978.  As many halvings as entries are
enough. -/
noncomputable def searchsortedRight (a : List ℝ) (v : ℝ) : ℕ := bisectRight a v a.length 0 a.length

/-- `idx` and `coeff`, `survey.py` 1976-1983, for `n ≥ 2` stations. -/
noncomputable def interval (tvds : List ℝ) (tvd : ℝ) : ℕ × ℝ :=
  let k := searchsortedRight tvds tvd          -- idx = k - 1
  if k = tvds.length then (tvds.length - 2, 1)
  else if k = 0 then (tvds.length - 2, -1)
  else (k - 1, 1)

/-- `interpolate_tvd`, `survey.py` 1949-2066.  `f` gives the `(x, y, z)` row of each station. -/
noncomputable def interpolateTvd (sv : SurveyG) (f : ℕ → V3) (tvd : ℝ) : Except Err NodeOut :=
  let i := interval (sv.nev.map V3.z) tvd
  match sv.st[i.1]?, sv.st[i.1 + 1]?, sv.nev[i.1]?, sv.nev[i.1 + 1]? with
  | some s1, some s2, some p1, some p2 =>
    match distance i.2 s1 s2 p1.z p2.z tvd with
    | .error e => .error e
    | .ok x =>
      match interpolateSurvey sv (f i.1) x i.1 with
      | some node => .ok { node with interpolated := decide (x > 0) }
      | none => .error .tooShort
  | _, _, _, _ => .error .tooShort

end Welleng.Tvd
