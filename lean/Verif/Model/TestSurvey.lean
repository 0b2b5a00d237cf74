import Verif.Model.Header
import Verif.Model.MinCurve

/-!
Model of the test survey of `/repo/welleng/errors/conformance.py`.  Reading the JSON file is not modelled.
-/

namespace Welleng.Conf

/-- What `standard_test_survey` reads from the header of its file, `conformance.py` 204-217; the angles in
such a file are in radians. -/
structure FileHeader where
  latitude : ℝ
  bTotal : ℝ
  dip : ℝ
  declination : ℝ
  convergence : Option ℝ
  g : ℝ
  aziReference : String

/-- The header made by `standard_test_survey`, `conformance.py` 210-217. -/
noncomputable def testHeader (env : Hdr.Env) (h : FileHeader) : Except Hdr.Exc Hdr.Header :=
  Hdr.header env
    { name := some "iscwsa-test-1", latitude := some h.latitude, bTotal := some h.bTotal
      dip := some (degrees h.dip), declination := some (degrees h.declination)
      convergence := h.convergence.getD 0, g := h.g, aziReference := h.aziReference }

/-- `survey_rad` of the survey made by `standard_test_survey`, `conformance.py` 218-223: the angles are
handed over in degrees, and converted by the survey (`survey.py` 896-911). -/
noncomputable def testStations (rows : List Station) : List Station :=
  rows.map fun r => ⟨r.md, radians (degrees r.inc), radians (degrees r.azi)⟩

end Welleng.Conf
