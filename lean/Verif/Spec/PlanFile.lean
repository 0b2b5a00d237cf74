import Verif.Model.WbpText

/-!
What it means for a plan to survive being written to a `.wbp` file and read back.
-/

namespace Welleng.Spec

open Wbp

/-- `y` is `x` to within half a unit of the `d`-th decimal. -/
def Near (d : ℕ) (x y : ℚ) : Prop := |y - x| ≤ 1 / 2 / 10 ^ d

/-- The same place, to half a hundredth in each coordinate. -/
def LocNear : Option Loc → Option Loc → Prop
  | some l, some m => Near 2 l.x m.x ∧ Near 2 l.y m.y ∧ Near 2 l.z m.z
  | _, _ => False

/-- Depth to half a hundredth, azimuth and inclination to half a thousandth. -/
def StationNear : Option (ℚ × ℚ × ℚ) → Option (ℚ × ℚ × ℚ) → Prop
  | some s, some t => Near 2 s.1 t.1 ∧ Near 3 s.2.1 t.2.1 ∧ Near 3 s.2.2 t.2.2
  | _, _ => False

/-- The same kind of step with the same numbers to half a unit of the last decimal printed. -/
def StepNear : Step → Step → Prop
  | .turn t, .turn u => StationNear (some (t.md, t.azi, t.inc)) (some (u.md, u.azi, u.inc)) ∧
      Near 3 t.build u.build ∧ Near 3 t.turn u.turn ∧ Near 3 t.dls u.dls ∧
      (-99 ≤ t.toolface → Near 3 t.toolface u.toolface) ∧ Near 2 t.toolface u.toolface ∧
      LocNear t.loc u.loc
  | .surv s, .surv u => Near 1 s.cov.xx u.cov.xx ∧ Near 1 s.cov.xy u.cov.xy ∧
      Near 1 s.cov.xz u.cov.xz ∧ Near 1 s.cov.yy u.cov.yy ∧ Near 1 s.cov.yz u.cov.yz ∧
      Near 1 s.cov.zz u.cov.zz ∧ Near 2 s.cov.bx u.cov.bx ∧ Near 2 s.cov.byy u.cov.byy ∧
      Near 2 s.cov.bz u.cov.bz ∧ StationNear s.station u.station ∧ LocNear s.loc u.loc
  | _, _ => False

/-- The plans read are the plans written, one for one and step for step. -/
def PlansNear (ws : List WPlan) (rs : List RPlan) : Prop :=
  List.Forall₂ (fun w r => List.Forall₂ StepNear w.steps r.steps) ws rs

/-- Method, target or tool of a step. -/
def names : Step → Option Text × Option Text
  | .turn t => (t.method, t.target)
  | .surv s => (some s.tool, none)

/-- Whether a step is a tie-on point. -/
def isTieOn : Step → Bool
  | .turn t => t.tieOn
  | .surv _ => false

/-- The quadratic form of a symmetric matrix. -/
def quad (c : Cov) (x y z : ℚ) : ℚ :=
  c.xx * x ^ 2 + c.yy * y ^ 2 + c.zz * z ^ 2 + 2 * (c.xy * x * y + c.xz * x * z + c.yz * y * z)

/-- A covariance matrix: no direction has a negative variance. -/
def IsCovariance (c : Cov) : Prop := ∀ x y z, 0 ≤ quad c x y z

/-- The units of a plan read from a file: surface and depth. -/
def unitsRead (r : RPlan) : Option (U × U) := r.units.bind fun k => unitsOf (String.ofList k)

end Welleng.Spec
