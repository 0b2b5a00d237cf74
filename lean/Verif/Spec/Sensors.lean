import Mathlib.Analysis.SpecialFunctions.Trigonometric.Deriv
import Mathlib.Analysis.SpecialFunctions.Sqrt

/-!
Specification: how a magnetic survey tool computes inclination and azimuth from its six sensors,
and what the sensitivity of these to the readings is. Independent of the code; these are the
equations of the papers on which the error models are based (Williamson, SPE 67616).
-/

namespace Welleng.Spec

open Real Filter Topology

/-- Readings of three accelerometers and three magnetometers; `z` is along the hole. -/
structure Readings where
  gx : ℝ
  gy : ℝ
  gz : ℝ
  mx : ℝ
  my : ℝ
  mz : ℝ

/-- The readings of perfect sensors at inclination `I`, magnetic azimuth `A` and toolface `t`, in a
gravity field `G` and a magnetic field `B` with dip `d`. -/
noncomputable def nominal (G B d I A t : ℝ) : Readings where
  gx := -(G * sin I * sin t)
  gy := -(G * sin I * cos t)
  gz := G * cos I
  mx := B * ((cos d * cos I * cos A - sin d * sin I) * sin t + cos d * sin A * cos t)
  my := B * ((cos d * cos I * cos A - sin d * sin I) * cos t - cos d * sin A * sin t)
  mz := B * (cos d * sin I * cos A + sin d * cos I)

/-- The size of the measured gravity vector. -/
noncomputable def Readings.g (r : Readings) : ℝ := √(r.gx ^ 2 + r.gy ^ 2 + r.gz ^ 2)

/-- `I` and `A` are the inclination and azimuth computed from the readings:
`cos I = Gz / |G|` and
`tan A = (Gx By - Gy Bx) |G| / (Bz (Gx² + Gy²) - Gz (Gx Bx + Gy By))`. -/
def Solves (r : Readings) (I A : ℝ) : Prop :=
  r.gz = r.g * cos I ∧
  (r.gx * r.my - r.gy * r.mx) * r.g * cos A
    = (r.mz * (r.gx ^ 2 + r.gy ^ 2) - r.gz * (r.gx * r.mx + r.gy * r.my)) * sin A

/-- The readings with an error of size `x` in the direction `u`. -/
def Readings.shift (r u : Readings) (x : ℝ) : Readings :=
  ⟨r.gx + x * u.gx, r.gy + x * u.gy, r.gz + x * u.gz, r.mx + x * u.mx, r.my + x * u.my,
    r.mz + x * u.mz⟩

/-- The change of inclination and azimuth per unit of error `u` of the readings: every
differentiable solution of the survey equations has this derivative. -/
def Sensitivity (G B d I A t : ℝ) (u : Readings) (dI dA : ℝ) : Prop :=
  ∀ fI fA : ℝ → ℝ, fI 0 = I → fA 0 = A → DifferentiableAt ℝ fI 0 → DifferentiableAt ℝ fA 0 →
    (∀ᶠ x in 𝓝 0, Solves ((nominal G B d I A t).shift u x) (fI x) (fA x)) →
    deriv fI 0 = dI ∧ deriv fA 0 = dA

/-- Survey with axial interference correction: the reading along the hole is replaced by the one
expected from the reference field `B`, `d` at the computed inclination and azimuth. -/
def SolvesAxial (B d : ℝ) (r : Readings) (I A : ℝ) : Prop :=
  Solves { r with mz := B * (cos d * sin I * cos A + sin d * cos I) } I A

/-- Sensitivity of the corrected survey to an error `u` of the readings, `b` of the reference field
strength and `e` of the reference dip. -/
def SensitivityAxial (G B d I A t : ℝ) (u : Readings) (b e : ℝ) (dI dA : ℝ) : Prop :=
  ∀ fI fA : ℝ → ℝ, fI 0 = I → fA 0 = A → DifferentiableAt ℝ fI 0 → DifferentiableAt ℝ fA 0 →
    (∀ᶠ x in 𝓝 0, SolvesAxial (B + x * b) (d + x * e) ((nominal G B d I A t).shift u x)
      (fI x) (fA x)) →
    deriv fI 0 = dI ∧ deriv fA 0 = dA

/-- Unit errors of the single sensors. -/
def errGx : Readings := ⟨1, 0, 0, 0, 0, 0⟩
def errGy : Readings := ⟨0, 1, 0, 0, 0, 0⟩
def errGz : Readings := ⟨0, 0, 1, 0, 0, 0⟩
def errMx : Readings := ⟨0, 0, 0, 1, 0, 0⟩
def errMy : Readings := ⟨0, 0, 0, 0, 1, 0⟩
def errMz : Readings := ⟨0, 0, 0, 0, 0, 1⟩
/-- No error. -/
def errNone : Readings := ⟨0, 0, 0, 0, 0, 0⟩

/-- An error proportional to the reading of the sensor (a scale factor error). -/
def scaled (r u : Readings) : Readings :=
  ⟨r.gx * u.gx, r.gy * u.gy, r.gz * u.gz, r.mx * u.mx, r.my * u.my, r.mz * u.mz⟩

end Welleng.Spec
