import Verif.Model.Vec

/-!
Model of the minimum-curvature code in `/repo/welleng/utils.py` lines 9-157.
-/

namespace Welleng

open Real

/-- One row `[md, inc, azi]` of a survey; angles in radians
(`utils.py` 95-104, `survey.py` 594-769). -/
@[ext] structure Station where
  md : ℝ
  inc : ℝ
  azi : ℝ

/-- `utils.get_dogleg`, `utils.py` 9-28 (scalar form of the vectorised code).
`Real.arcsin` is constant outside `[-1, 1]` where numpy returns NaN; that the
argument always is in range is theorem `dogleg_arg_mem`. -/
noncomputable def getDogleg (inc1 azi1 inc2 azi2 : ℝ) : ℝ :=
  2 * arcsin (√(
    sin ((inc2 - inc1) / 2) ^ 2
    + sin inc1 * sin inc2 * sin ((azi2 - azi1) / 2) ^ 2))

/-- `utils.get_rf`, `utils.py` 31-48. -/
noncomputable def getRf (dogleg : ℝ) : ℝ :=
  if dogleg = 0 then 1 else 2 / dogleg * tan (dogleg / 2)

/-- The body of `utils.min_curve_step`, `utils.py` 71-80, for a given ratio
factor.  The row is `[N, E, V]`. -/
noncomputable def minCurveStepRf (deltaMd inc1 azi1 inc2 azi2 rf : ℝ) : V3 :=
  let scale := deltaMd * rf / 2
  ⟨scale * (sin inc1 * cos azi1 + sin inc2 * cos azi2),
   scale * (sin inc1 * sin azi1 + sin inc2 * sin azi2),
   scale * (cos inc1 + cos inc2)⟩

/-- `utils.min_curve_step` with `rf=None`, `utils.py` 51-80.  The row is
`[N, E, V]`. -/
noncomputable def minCurveStep (deltaMd inc1 azi1 inc2 azi2 : ℝ) : V3 :=
  minCurveStepRf deltaMd inc1 azi1 inc2 azi2 (getRf (getDogleg inc1 azi1 inc2 azi2))

/-- `f` of each adjacent pair: the `arr[:-1]`, `arr[1:]` idiom, `utils.py` 126-127. -/
def pairwise {α β : Type*} (f : α → α → β) : List α → List β
  | a :: b :: t => f a b :: pairwise f (b :: t)
  | _ => []

/-- `np.cumsum(..., axis=0) + start` started from `acc`, `utils.py` 153-157. -/
def cumsumFrom (acc : V3) : List V3 → List V3
  | [] => []
  | d :: t => (acc + d) :: cumsumFrom (acc + d) t

/-- Errors raised by `MinCurve.__init__`, `utils.py` 111-117. -/
inductive MinCurveErr | unknownUnit | tooShort
  deriving DecidableEq

/-- `unit` argument: `"meters"`, `"feet"` or something else, `utils.py` 111. -/
inductive LenUnit | meters | feet | other
  deriving DecidableEq

/-- One entry of `dls`: a float, or `inf` (a non-zero dogleg over a zero
length; `0/0` is replaced by `0`, `utils.py` 146-150). -/
inductive Dls | val (d : ℝ) | inf

/-- `np.degrees`, `utils.py` 140-157. -/
noncomputable def degrees (r : ℝ) : ℝ := r * 180 / π

/-- `np.radians`, `utils.py` 84-157. -/
noncomputable def radians (d : ℝ) : ℝ := d * π / 180

/-- `dls` of one station pair, `utils.py` 145-150. -/
noncomputable def dlsOf (coeff dogleg deltaMd : ℝ) : Dls :=
  if deltaMd = 0 then (if dogleg = 0 then .val 0 else .inf)
  else .val (degrees dogleg / deltaMd * coeff)

/-- Attributes set by `MinCurve.__init__`, `utils.py` 84-157. -/
structure MinCurveOut where
  deltaMd : List ℝ
  dogleg : List ℝ
  rf : List ℝ
  delta : List V3
  dls : List Dls
  poss : List V3

/-- Dogleg of a station pair, `utils.py` 132. -/
noncomputable def dogleg2 (a b : Station) : ℝ := getDogleg a.inc a.azi b.inc b.azi

/-- Row `[delta_x, delta_y, delta_z]` of a station pair: `delta_y` is the N and
`delta_x` the E component, `utils.py` 138-143. -/
noncomputable def deltaXyz (a b : Station) : V3 :=
  let d := minCurveStepRf (b.md - a.md) a.inc a.azi b.inc b.azi (getRf (dogleg2 a b))
  ⟨d.y, d.x, d.z⟩

/-- `MinCurve.__init__`, `utils.py` 83-157.  `survey` is the zipped
`(md, inc, azi)`; `np.diff(md, prepend=0)` makes the first `delta_md` equal to
the first `md`. -/
noncomputable def minCurve (survey : List Station) (startXyz : V3) (unit : LenUnit) :
    Except MinCurveErr MinCurveOut :=
  match unit with
  | .other => .error .unknownUnit
  | u =>
    match survey with
    | s0 :: s1 :: rest =>
      let s := s0 :: s1 :: rest
      let coeff : ℝ := if u = .meters then 30 else 100
      let delta := (0 : V3) :: pairwise deltaXyz s
      .ok {
        deltaMd := s0.md :: pairwise (fun a b => b.md - a.md) s
        dogleg := 0 :: pairwise dogleg2 s
        rf := 1 :: pairwise (fun a b => getRf (dogleg2 a b)) s
        delta := delta
        dls := .val 0 :: pairwise (fun a b => dlsOf coeff (dogleg2 a b) (b.md - a.md)) s
        poss := cumsumFrom startXyz delta }
    | _ => .error .tooShort

end Welleng
