import Verif.Model.Frame
import Verif.Lemmas.Angles
import Mathlib.Tactic.Linarith
import Mathlib.Tactic.NormNum
import Mathlib.Tactic.FieldSimp

/-!
C257, C258: a survey as a data frame.
-/

namespace Welleng.Props

open Real Welleng Welleng.Frame

/-- C257: every entry of the toolface column is in [0, 360) and points in the direction of the
toolface of the survey at that station. -/
theorem C257_toolface (s : Source) :
    ∃ col, (toFrame s).lookup "TOOLFACE (deg)" = some col ∧ col.length = s.toolface.length ∧
      ∀ (i : ℕ) tf, s.toolface[i]? = some tf → ∃ t, col[i]? = some t ∧ 0 ≤ t ∧ t < 360 ∧
        cos (t * π / 180) = cos tf ∧ sin (t * π / 180) = sin tf := by
  refine ⟨s.toolface.map toolfaceEntry, by simp [toFrame, List.lookup], by simp, ?_⟩
  intro i tf h
  refine ⟨toolfaceEntry tf, by simp [h], pmod_nonneg _ (by norm_num), pmod_lt _ (by norm_num), ?_⟩
  obtain ⟨k, hk⟩ := exists_pmod (degrees (tf + 2 * π)) 360
  have hr : toolfaceEntry tf * π / 180 = tf + ((k + 1 : ℤ) : ℝ) * (2 * π) := by
    rw [toolfaceEntry, hk, degrees]
    push_cast
    field_simp
    ring
  rw [hr, cos_add_int_mul_two_pi, sin_add_int_mul_two_pi]
  exact ⟨rfl, rfl⟩

/-- Metres in one unit of length. -/
noncomputable def metresPer : LenUnit → ℝ
  | .feet => 0.3048
  | _ => 1

/-- The entry of the column labelled `MD (m)`. -/
theorem mdColumn (s : Source) : (toFrame s).lookup "MD (m)" = some s.md := by
  simp [toFrame, List.lookup]

/-- C258, what holds: for a survey in metres the columns labelled in metres hold metres. -/
theorem C258_metres_partial (s : Source) (hu : s.unit = .meters) :
    (toFrame s).lookup "MD (m)" = some (s.md.map fun d => d * metresPer s.unit) ∧
    (toFrame s).lookup "NORTHING (m)" = some (s.nev.map fun p => p.x * metresPer s.unit) ∧
    (toFrame s).lookup "EASTING (m)" = some (s.nev.map fun p => p.y * metresPer s.unit) ∧
    (toFrame s).lookup "TVDSS (m)" = some (s.nev.map fun p => p.z * metresPer s.unit) ∧
    (toFrame s).lookup "X (m)" = some (s.xyz.map fun p => p.x * metresPer s.unit) ∧
    (toFrame s).lookup "Y (m)" = some (s.xyz.map fun p => p.y * metresPer s.unit) ∧
    (toFrame s).lookup "Z (m)" = some (s.xyz.map fun p => p.z * metresPer s.unit) := by
  simp [toFrame, List.lookup, hu, metresPer]

/-- C258 is false for a survey in feet: every depth other than zero is wrong in the column that is
labelled in metres. -/
theorem C258_feet_wrong (s : Source) (hu : s.unit = .feet) (i : ℕ) (d : ℝ)
    (hd : s.md[i]? = some d) (h0 : d ≠ 0) :
    ∃ col c, (toFrame s).lookup "MD (m)" = some col ∧ col[i]? = some c ∧
      c ≠ d * metresPer s.unit := by
  refine ⟨s.md, d, mdColumn s, hd, fun h => h0 ?_⟩
  rw [hu, metresPer] at h
  linarith

/-- A survey in feet. -/
example : ∃ s : Source, s.unit = .feet ∧ s.md[1]? = some 100 :=
  ⟨⟨.feet, [0, 100], [⟨0, 0, 0⟩, ⟨0, 0, 100⟩], [⟨0, 0, 0⟩, ⟨0, 0, 100⟩], [0, 0], [0, 0]⟩, rfl, rfl⟩

end Welleng.Props
