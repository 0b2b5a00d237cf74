import Verif.Model.Header

/-!
Model of `SurveyParameters.get_factors_from_x_y`, `/repo/welleng/survey.py` 97-220. The map
projection and the geomagnetic calculator are parameters.
-/

namespace Welleng.Hdr

/-- A map projection: longitude and latitude of a map coordinate, and meridian convergence and
scale at a longitude and latitude, `survey.py` 164-165. -/
structure Projection where
  inverse : ℝ → ℝ → ℝ × ℝ
  factors : ℝ → ℝ → ℝ × ℝ

/-- The dictionary that is returned, `survey.py` 185-218, without the name of the map. -/
structure Factors where
  x : ℝ
  y : ℝ
  northing : ℝ
  easting : ℝ
  latitude : ℝ
  longitude : ℝ
  convergence : ℝ
  scaleFactor : ℝ
  bTotal : Option ℝ
  declination : Option ℝ
  dip : Option ℝ
  date : String

/-- `get_factors_from_x_y`, `survey.py` 164-220. `down` says whether the units of the inclination
contain the word; a look-up that fails, or is not installed, gives `None` for its three values. -/
def getFactors (env : Env) (down : Field → Bool) (p : Projection) (x y : ℝ) (altitude : Option ℝ)
    (date : Option String) : Factors :=
  let lonLat := p.inverse x y
  let result := p.factors lonLat.1 lonLat.2
  let date := date.getD env.today
  let mag : Option Field :=
    match env.lookup with
    | none => none
    | some f => f lonLat.2 lonLat.1 (altitude.getD 0) (some date)
  { x := x
    y := y
    northing := y
    easting := x
    latitude := lonLat.2
    longitude := lonLat.1
    convergence := result.1
    scaleFactor := result.2
    bTotal := mag.map (·.bTotal)
    declination := mag.map (·.declination)
    dip := mag.map fun r => r.inclination * (if down r then -1 else 1)
    date := date }

end Welleng.Hdr
