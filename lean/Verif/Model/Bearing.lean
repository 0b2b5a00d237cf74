import Verif.Model.Clearance

/-!
Model of the bearings of `IscwsaClearance`, `/repo/welleng/clearance.py` 778-807 and 831-838.
-/

namespace Welleng.Clr

open Real Err

/-- `(np.around(np.arctan2(b, a), 6) + 2π) % 2π`, `clearance.py` 778-783 and 789-794; `around` is
`np.around(·, 6)`. -/
noncomputable def bearing (around : ℝ → ℝ) (a b : ℝ) : ℝ :=
  pmod (around (atan2 b a) + π * 2) (π * 2)

/-- `(np.degrees(x) + 360) % 360`, `clearance.py` 785, 796-798. -/
noncomputable def bearingDeg (x : ℝ) : ℝ := pmod (degrees x + 360) 360

/-- `hoz_bearing` of one station of the reference at `p` with the closest point `q`,
`clearance.py` 778-783. -/
noncomputable def hozBearing (around : ℝ → ℝ) (p q : V) : ℝ :=
  bearing around (unitDelta p q 0) (unitDelta p q 1)

/-- `toolface_bearing`, `clearance.py` 787-794 and 804-807: `inc` and `azi` are the row of
`self.ref.survey_rad`. -/
noncomputable def toolfaceBearing (around : ℝ → ℝ) (inc azi : ℝ) (p q : V) : ℝ :=
  bearing around (nevToHlaVec inc azi (unitDelta p q) 0) (nevToHlaVec inc azi (unitDelta p q) 1)

/-- `trav_cyl_azi_deg`, `clearance.py` 831-838: `aziDeg` is the grid azimuth of the reference. -/
noncomputable def travCylDeg (aziDeg tfDeg : ℝ) : ℝ := pmod (aziDeg + tfDeg + 360) 360

/-- The grid azimuth (radians) in `self.ref.survey_rad` of a station entered with inclination `inc`
(radians) and azimuth `azi`.  Without a kick-off point `self.ref` is the reference
(`clearance.py` 171-172), whose `survey_rad` is copied before the vertical section overwrites
azimuths (`survey.py` 717).  Below one it is rebuilt from `azi_grid_rad` (`clearance.py` 191-213,
`refAzis`), after the overwriting. -/
noncomputable def usedAzi (ki : ℕ) (h : Sv.Header) (deg : Bool) (inc azi : ℝ) : ℝ :=
  if ki = 0 then (Sv.processAziRef h deg azi).gridRad
  else (refAzis h (Sv.constructedAzis h deg inc azi)).gridRad

/-- The bearings of a station. -/
@[ext] structure Bearings where
  hozDeg : ℝ
  toolfaceDeg : ℝ
  travCylDeg : ℝ

/-- `hoz_bearing_deg`, `toolface_bearing_deg` and `trav_cyl_azi_deg` of a station at `p` with the
closest point `q`, `clearance.py` 778-807 and 831-838; `ki` is the index of the kick-off point. -/
noncomputable def bearings (around : ℝ → ℝ) (ki : ℕ) (h : Sv.Header) (deg : Bool) (inc azi : ℝ)
    (p q : V) : Bearings :=
  let tf := bearingDeg (toolfaceBearing around inc (usedAzi ki h deg inc azi) p q)
  ⟨bearingDeg (hozBearing around p q), tf,
    travCylDeg (Sv.constructedAzis h deg inc azi).gridDeg tf⟩

end Welleng.Clr
