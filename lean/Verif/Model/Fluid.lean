import Mathlib.Analysis.SpecialFunctions.Log.Basic

/-!
Model of `/repo/welleng/fluid.py`: the reference volumes and the objective that
`get_density_profile` minimises. Floats are reals. The optimiser itself (scipy's SLSQP) is not
modelled; `DensityDiesel` (a cubic interpolation of a table) is not modelled.
-/

namespace Welleng.Fluid

/-- Exceptions, `fluid.py` 88, 149-212. -/
inductive Err
  | assertion | zeroDivision
  deriving DecidableEq

/-- Coefficients of a density that is affine in temperature and pressure; `fluid.py` 12-13. -/
structure Coef where
  c0 : ℝ
  c1 : ℝ
  c2 : ℝ

/-- `A`, `fluid.py` 12 (oil). -/
noncomputable def oil : Coef := ⟨7.24032, -0.00284383, 0.000027566⟩

/-- `B`, `fluid.py` 13 (water). -/
noncomputable def water : Coef := ⟨8.63186, -0.00331977, 0.000023717⟩

/-- `G`, `fluid.py` 16. -/
noncomputable def G : ℝ := 0.052

/-- `WEIGHTING_MATERIAL_DENSITY`, `fluid.py` 19-22, after `lower()`. -/
noncomputable def materialDensity (name : String) : Option ℝ :=
  if name = "barite" then some 35 else if name = "spe_11118" then some 24 else none

/-- `_get_density_base_fluids.func`, `fluid.py` 113-116. -/
def Coef.density (c : Coef) (temperature pressure : ℝ) : ℝ :=
  c.c0 + c.c1 * temperature + c.c2 * pressure

/-- Reference state of a fluid, `fluid.py` 59-106. -/
structure Ref where
  fluidDensity : ℝ
  oilDensity : ℝ
  waterDensity : ℝ
  solidDensity : ℝ
  volWater : ℝ
  volOil : ℝ
  volSolid : ℝ

/-- `base_fluid_density_reference`, `fluid.py` 126-129. -/
def baseDensity (w waterDensity oilDensity : ℝ) : ℝ := w * waterDensity + (1 - w) * oilDensity

/-- `volume_weighting_material`, `fluid.py` 131-134. -/
noncomputable def volumeAdded (rho base solid : ℝ) : ℝ := (rho - base) / solid

open Classical in
/-- `Fluid.__init__` with `_get_volumes_reference`, `fluid.py` 59-146. `material` is the lower-case
name. -/
noncomputable def init (rho temp pressure w : ℝ) (material : String) : Except Err Ref :=
  match materialDensity material with
  | none => .error .assertion
  | some solid =>
    let o := oil.density temp pressure
    let wd := water.density temp pressure
    let v := volumeAdded rho (baseDensity w wd o) solid
    if 1 + v = 0 then .error .zeroDivision
    else .ok ⟨rho, o, wd, solid, w / (1 + v), (1 - w) / (1 + v), v / (1 + v)⟩

/-- `_get_coefficients`, `fluid.py` 149-167, for one of the two liquids: the density at the top and
its change per foot of depth. -/
noncomputable def coefficients (c : Coef) (rhoAvg pressure tempTop gradient : ℝ) : ℝ × ℝ :=
  (c.c0 + c.c1 * tempTop + c.c2 * pressure, c.c1 * gradient + G * c.c2 * rhoAvg)

open Classical in
/-- `_func`, `fluid.py` 170-195, for arguments with non-zero divisors. -/
noncomputable def func (rhoAvg rhoTop vw vo depth a1 a2 b1 b2 : ℝ) : ℝ :=
  if depth = 0 then rhoTop
  else
    (rhoTop * depth - (vo * a1 * rhoAvg / a2) * Real.log ((a1 + a2 * depth) / a1)) /
        (depth * (1 - vw - vo))
      - (vw * b1 * rhoAvg / b2 * Real.log ((b1 + b2 * depth) / b1)) / (depth * (1 - vw - vo))

/-- `_get_density`, `fluid.py` 197-213: the objective at an average density. -/
noncomputable def objective (rhoAvg rhoTop tempTop vw vo pressure depth gradient : ℝ) : ℝ :=
  let a := coefficients oil rhoAvg pressure tempTop gradient
  let b := coefficients water rhoAvg pressure tempTop gradient
  |rhoAvg - func rhoAvg rhoTop vw vo depth a.1 a.2 b.1 b.2|

/-- When `_func` raises (`fluid.py` 174-195): a zero divisor or the logarithm of a number that is
not positive. -/
def raises (vw vo depth a1 a2 b1 b2 : ℝ) : Prop :=
  depth ≠ 0 ∧ (a1 = 0 ∨ a2 = 0 ∨ b1 = 0 ∨ b2 = 0 ∨ (a1 + a2 * depth) / a1 ≤ 0 ∨
    (b1 + b2 * depth) / b1 ≤ 0 ∨ depth * (1 - vw - vo) = 0)

open Classical in
/-- `_get_density` with its exceptions (all lumped together), `fluid.py` 196-212. -/
noncomputable def getDensity (rhoAvg rhoTop tempTop vw vo pressure depth gradient : ℝ) :
    Except Err ℝ :=
  let a := coefficients oil rhoAvg pressure tempTop gradient
  let b := coefficients water rhoAvg pressure tempTop gradient
  if raises vw vo depth a.1 a.2 b.1 b.2 then .error .zeroDivision
  else .ok (objective rhoAvg rhoTop tempTop vw vo pressure depth gradient)

end Welleng.Fluid
