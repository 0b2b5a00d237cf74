import Verif.Model.TestSurvey
import Verif.Lemmas.Survey

/-!
C374: the survey on which tool models are compared.
-/

namespace Welleng.Props

open Real Conf Sv

/-- A position and an azimuth reference a header accepts. -/
def Acceptable (h : FileHeader) : Prop :=
  (-90 ≤ h.latitude ∧ h.latitude ≤ 90) ∧ h.aziReference ∈ ["true", "magnetic", "grid"]

/-- **C374**, the part that holds: the survey has the stations of its file, and the header has the field,
the gravity, the dip and the declination of the file, whatever a geomagnetic calculator says; a header is
made exactly if latitude and reference are acceptable. -/
theorem C374_file_partial (env : Hdr.Env) (h : FileHeader) (rows : List Station) :
    testStations rows = rows ∧
    (Acceptable h → ∃ r, testHeader env h = .ok r ∧ r.latitude = h.latitude ∧ r.bTotal = h.bTotal ∧
      r.dip = h.dip ∧ r.declination = h.declination ∧ r.g = h.g ∧ r.aziReference = h.aziReference ∧
      r.convergence = radians (h.convergence.getD 0)) ∧
    (¬ Acceptable h → testHeader env h = .error .assertionError) := by
  refine ⟨?_, fun ha => ?_, fun ha => ?_⟩
  · simp [testStations, radians_degrees]
  · have e : testHeader env h = .ok (Hdr.build env
        { name := some "iscwsa-test-1", latitude := some h.latitude, bTotal := some h.bTotal
          dip := some (degrees h.dip), declination := some (degrees h.declination)
          convergence := h.convergence.getD 0, g := h.g, aziReference := h.aziReference }) := by
      simp only [testHeader, Hdr.header]
      rw [if_neg (by simpa [Hdr.inBounds] using ha.1), if_neg (by simp [Hdr.inBounds]),
        if_neg (not_not.mpr ha.2), if_neg (by simp)]
    exact ⟨_, e, by simp [Hdr.build, Hdr.toRad, Hdr.orLookup, radians_degrees]⟩
  · simp only [testHeader, Hdr.header]
    by_cases h1 : Hdr.inBounds (some h.latitude) (-90) 90
    · rw [if_neg (by simpa using h1), if_neg (by simp [Hdr.inBounds]), if_pos]
      intro h2
      exact ha ⟨by simpa [Hdr.inBounds] using h1, h2⟩
    · rw [if_pos h1]

/-- C374 is false of the convergence: it is read as degrees, so it is right exactly if it is zero or
missing. -/
theorem C374_convergence (env : Hdr.Env) {h : FileHeader} (ha : Acceptable h) :
    ∃ r, testHeader env h = .ok r ∧ (r.convergence = h.convergence.getD 0 ↔ h.convergence.getD 0 = 0) := by
  obtain ⟨r, hr, _, _, _, _, _, _, hc⟩ := (C374_file_partial env h []).2.1 ha
  refine ⟨r, hr, ?_⟩
  rw [hc, radians]
  constructor
  · intro h1
    by_contra h0
    have hp : π < 180 := by linarith [pi_le_four]
    have : h.convergence.getD 0 * (π - 180) = 0 := by linarith
    rcases mul_eq_zero.mp this with h2 | h2
    · exact h0 h2
    · linarith
  · intro h0
    rw [h0]; simp

/-- Not vacuous: the header of the file that is shipped. -/
example : Acceptable ⟨60, 50000, 1.2566370614359172, -0.06981317007977318, some 0, 9.80665, "true"⟩ :=
  ⟨by norm_num, by simp⟩

end Welleng.Props
