import Verif.Model.Interpolate
import Mathlib.Analysis.SpecialFunctions.Log.Base

/-!
Model of the tortuosity indices and of the directional difficulty index,
`/repo/welleng/survey.py` 1521-1717.

A survey has stations `0 … n`; `md` and `pos` give their measured depth and position. The outcome
of the tolerance tests that decide whether neighbouring intervals belong together
(`survey.py` 1684-1706, `np.isclose` on normals and severities) is a parameter `continuous`, one
entry for each station `1 … n-1`.
-/

namespace Welleng.Ti

open Real

/-- `np.where(continuous == False)[0] + k`, `survey.py` 1710. -/
def breaks (k : ℕ) : List Bool → List ℕ
  | [] => []
  | c :: t => if c = false then k :: breaks (k + 1) t else breaks (k + 1) t

/-- `starts`, `survey.py` 1708-1711. -/
def starts (continuous : List Bool) : List ℕ := 0 :: breaks 1 continuous

/-- `n_sections_arr` at station `j`, `survey.py` 1716. -/
noncomputable def sectionNo (md : ℕ → ℝ) (sts : List ℕ) (j : ℕ) : ℕ :=
  searchsortedLeft (sts.map md) (md j)

/-- `starts[n_sections_arr - 1]`, the row read at `survey.py` 1541 and 1596. (`n_sections_arr` is
0, and the last row is read, only if depths do not increase; not modelled.) -/
noncomputable def sectionStart (md : ℕ → ℝ) (sts : List ℕ) (j : ℕ) : ℕ :=
  sts.getD (sectionNo md sts j - 1) 0

/-- `b` at station `j` for the tortuosity index, `survey.py` 1596-1604. -/
noncomputable def excessTi (coeff : ℝ) (md : ℕ → ℝ) (pos : ℕ → V3) (s j : ℕ) : ℝ :=
  ((md j - md s) / coeff) / (V3.norm (pos j - pos s) / coeff) - 1

/-- `b` at station `j` for the modified index, `survey.py` 1540-1550. -/
noncomputable def excessMti (coeff : ℝ) (md : ℕ → ℝ) (pos : ℕ → V3) (s j : ℕ) : ℝ :=
  (((md j - md s) / coeff) / (V3.norm (pos j - pos s) / coeff) - 1) / ((md j - md s) / coeff)

/-- One turn of the loop `survey.py` 1555-1560 / 1608-1613: append the section's entries, raised by
`cumsum`, then take `cumsum` from the end of `a` (`IndexError` if `a` is empty). -/
noncomputable def sectionTurn (b : List (ℕ × ℝ)) (state : List ℝ × ℝ) (k : ℕ) :
    Option (List ℝ × ℝ) :=
  let a := state.1 ++ (b.filter (fun e => e.1 = k)).map (fun e => e.2 + state.2)
  a.getLast?.map (fun l => (a, l))

/-- The loop over the sections, `survey.py` 1553-1561 / 1606-1614. -/
noncomputable def accumulate (b : List (ℕ × ℝ)) (sections : ℕ) : Option (List ℝ) :=
  ((List.range' 1 sections).foldlM (sectionTurn b) ([], 0)).map Prod.fst

/-- The common part of both indices; `scale` is the factor that depends on the depth.  `none`: an
exception (empty section, or columns of different lengths), `survey.py` 1521-1636. -/
noncomputable def index (excess : ℕ → ℕ → ℝ) (scale : ℝ → ℝ) (md : ℕ → ℝ) (n : ℕ)
    (continuous : List Bool) : Option (List ℝ) :=
  let sts := starts continuous
  let js := List.range' 1 n
  match accumulate
      (js.map fun j => (sectionNo md sts j, excess (sectionStart md sts j) j)) sts.length with
  | none => none
  | some a =>
    if a.length = n then
      some (0 :: List.zipWith (fun j x =>
        (sectionNo md sts j : ℝ) / ((sectionNo md sts j : ℝ) + 1) * scale (md j - md 0) * x) js a)
    else none

/-- `tortuosity_index`, `survey.py` 1582-1636 (`coeff` 0.3048 and `kappa` 1e7 by default). -/
noncomputable def tortuosityIndex (coeff kappa : ℝ) (md : ℕ → ℝ) (pos : ℕ → V3) (n : ℕ)
    (continuous : List Bool) : Option (List ℝ) :=
  index (excessTi coeff md pos) (fun l => kappa / (l / coeff)) md n continuous

/-- `modified_tortuosity_index`, `survey.py` 1521-1579 (`coeff` and `kappa` 1 by default). -/
noncomputable def modifiedTortuosityIndex (coeff kappa : ℝ) (md : ℕ → ℝ) (pos : ℕ → V3) (n : ℕ)
    (continuous : List Bool) : Option (List ℝ) :=
  index (excessMti coeff md pos) (fun l => kappa * (l / coeff)) md n continuous

/-- Metres to feet, as `ureg` does, `survey.py` 1521-1636. -/
noncomputable def toFeet (x : ℝ) : ℝ := x / 0.3048

/-- One entry of `directional_difficulty_index`, `survey.py` 1638-1668; `turned` is the sum of the
doglegs down to the station, in radians.  Division by zero and the logarithm of a number that is
not positive give NaN or infinity, which `np.nan_to_num` replaces by 0. -/
noncomputable def ddi (md north east tvd turned : ℝ) : ℝ :=
  if tvd = 0 then 0
  else
    let q := toFeet md * toFeet (√(north ^ 2 + east ^ 2)) * degrees turned / toFeet tvd
    if q ≤ 0 then 0 else logb 10 q

end Welleng.Ti
