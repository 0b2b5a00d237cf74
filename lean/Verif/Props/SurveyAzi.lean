import Verif.Lemmas.Survey
import Mathlib.Tactic.NormNum

/-!
Properties C16, C17, C56, C58: azimuth references, position tables and slices of a survey
(`/repo/welleng/survey.py` 771-894, 1285-1321, 2069-2117).
-/

namespace Welleng.Props

open Real Welleng Welleng.Sv

/-! ## C16 -/

/-- The relation between the six stored azimuths of a station: degrees and radians agree,
true = grid + convergence and magnetic = true - declination (convergence and declination in
radians, `1 rad = 180/π` degrees). -/
structure Consistent (convergence declination : ℝ) (a : Azis) : Prop where
  grid_unit : a.gridDeg = a.gridRad * 180 / π
  true_unit : a.trueDeg = a.trueRad * 180 / π
  mag_unit : a.magDeg = a.magRad * 180 / π
  true_grid : a.trueRad = a.gridRad + convergence
  mag_true : a.magRad = a.trueRad - declination

/-- C16: whatever reference and unit the azimuth of a station is entered in, the stored
azimuths are consistent and the entered one is stored unchanged. -/
theorem C16_azimuths_consistent (h : Header) (deg : Bool) (azi : ℝ) :
    Consistent h.convergence h.declination (processAziRef h deg azi) ∧
    (processAziRef h deg azi).get h.aziRef deg = azi := by
  have hd : ∀ x, degrees x = x * 180 / π := fun _ => rfl
  refine ⟨?_, ?_⟩
  · unfold processAziRef
    cases h.aziRef <;> cases deg <;> constructor <;>
      simp only [if_true, if_false, Bool.false_eq_true, ← hd, degrees_radians, degrees_add,
        degrees_sub, radians_degrees, radians_add, radians_sub] <;> ring
  · unfold processAziRef
    cases h.aziRef <;> cases deg <;> rfl

/-- Consistency determines all six azimuths from any one of them. -/
theorem C16_consistent_unique {c d : ℝ} {a b : Azis} (ha : Consistent c d a)
    (hb : Consistent c d b) (ref : AziRef) (deg : Bool) (h : a.get ref deg = b.get ref deg) :
    a = b := by
  obtain ⟨a1, a2, a3, a4, a5⟩ := ha
  obtain ⟨b1, b2, b3, b4, b5⟩ := hb
  have inj : ∀ x y : ℝ, x * 180 / π = y * 180 / π → x = y := by
    intro x y hxy
    have := pi_ne_zero
    field_simp at hxy
    exact hxy
  have key : a.gridRad = b.gridRad := by
    cases ref <;> cases deg <;> simp only [Azis.get] at h
    · exact h
    · exact inj _ _ (by rw [← a1, ← b1]; exact h)
    · linarith
    · have := inj _ _ (by rw [← a2, ← b2]; exact h : a.trueRad * 180 / π = b.trueRad * 180 / π)
      linarith
    · linarith
    · have := inj _ _ (by rw [← a3, ← b3]; exact h : a.magRad * 180 / π = b.magRad * 180 / π)
      linarith
  have kt : a.trueRad = b.trueRad := by linarith
  have km : a.magRad = b.magRad := by linarith
  ext
  · rw [a1, b1, key]
  · exact key
  · rw [a2, b2, kt]
  · exact kt
  · rw [a3, b3, km]
  · exact km

/-- C16: re-entering any stored azimuth under its own reference and unit reproduces all the
others. -/
theorem C16_reentry (h h' : Header) (deg deg' : Bool) (azi : ℝ)
    (hc : h'.convergence = h.convergence) (hd : h'.declination = h.declination) :
    processAziRef h' deg' ((processAziRef h deg azi).get h'.aziRef deg')
      = processAziRef h deg azi := by
  obtain ⟨c1, -⟩ := C16_azimuths_consistent h deg azi
  obtain ⟨c2, e2⟩ := C16_azimuths_consistent h' deg' ((processAziRef h deg azi).get h'.aziRef deg')
  rw [hc, hd] at c2
  exact C16_consistent_unique c2 c1 h'.aziRef deg' e2

/-- C16: a finished survey has consistent azimuths at every station that is not exactly
vertical. -/
theorem C16_constructed_nonvertical (h : Header) (deg : Bool) {inc : ℝ} (azi : ℝ) (hi : inc ≠ 0) :
    Consistent h.convergence h.declination (constructedAzis h deg inc azi) ∧
    (constructedAzis h deg inc azi).get h.aziRef deg = azi := by
  have : constructedAzis h deg inc azi = processAziRef h deg azi := by
    unfold constructedAzis overwriteVertical
    cases h.verticalSectionAzimuth <;> simp [hi]
  rw [this]
  exact C16_azimuths_consistent h deg azi

/-- A magnetic survey with non-zero convergence and declination. -/
example : (constructedAzis ⟨.magnetic, 0.02, 0.05, 1, some 0, .meters⟩ false 1 0.5).gridRad
    = 0.5 + 0.05 - 0.02 := by
  obtain ⟨hc, hg⟩ := C16_constructed_nonvertical ⟨.magnetic, 0.02, 0.05, 1, some 0, .meters⟩ false
    (inc := 1) 0.5 one_ne_zero
  have h4 := hc.true_grid
  have h5 := hc.mag_true
  simp only [Azis.get] at hg h4 h5
  linarith

/-! ## C56: vertical stations -/

/-- C56 is false of the code: at an exactly vertical station the constructor overwrites the
radian azimuth in the survey's reference by the vertical-section azimuth, so the azimuth that
was entered is lost and degrees and radians disagree unless they happen to be equal. -/
theorem C56_vertical_azimuth_overwritten (h : Header) (deg : Bool) (azi v : ℝ)
    (hv : h.verticalSectionAzimuth = some v) :
    (constructedAzis h deg 0 azi).get h.aziRef false = v ∧
    (constructedAzis h deg 0 azi).get h.aziRef true = (processAziRef h deg azi).get h.aziRef true ∧
    (radians ((processAziRef h deg azi).get h.aziRef true) ≠ v →
      ¬ Consistent h.convergence h.declination (constructedAzis h deg 0 azi)) := by
  have e : constructedAzis h deg 0 azi = (processAziRef h deg azi).setRad h.aziRef v := by
    unfold constructedAzis overwriteVertical
    simp [hv]
  rw [e]
  have hd : ∀ x, x * 180 / π = degrees x := fun _ => rfl
  refine ⟨?_, ?_, ?_⟩
  · cases h.aziRef <;> rfl
  · cases h.aziRef <;> rfl
  · intro hne hc
    apply hne
    cases hr : h.aziRef
    · have := hc.grid_unit
      rw [hr] at this
      simp only [Azis.setRad, hd] at this
      simp only [Azis.get]
      rw [this, radians_degrees]
    · have := hc.true_unit
      rw [hr] at this
      simp only [Azis.setRad, hd] at this
      simp only [Azis.get]
      rw [this, radians_degrees]
    · have := hc.mag_unit
      rw [hr] at this
      simp only [Azis.setRad, hd] at this
      simp only [Azis.get]
      rw [this, radians_degrees]

/-- The default header (section azimuth 0), a vertical first station entered at azimuth 45°:
the stored degrees are 45, the stored radians 0. -/
example : let h : Header := ⟨.grid, 0, 0, 1, some 0, .meters⟩
    (constructedAzis h true 0 45).gridDeg = 45 ∧ (constructedAzis h true 0 45).gridRad = 0 := by
  intro h
  have := C56_vertical_azimuth_overwritten h true 45 0 rfl
  exact ⟨this.2.1, this.1⟩

/-- C56: asking for a vertical section changes nothing but the reference azimuth (in radians)
of exactly vertical stations, and leaves surveys without such stations untouched. -/
theorem C56_query_harmless_partial (ref : AziRef) (vsa : ℝ) (rows : List Row) :
    (∀ (k : ℕ) (r : Row), rows[k]? = some r → r.inc ≠ 0 → (getVerticalSection ref vsa rows).1[k]? = some r) ∧
    ((getVerticalSection ref vsa rows).1.map fun r => (r.inc, r.n, r.e))
      = rows.map fun r => (r.inc, r.n, r.e) := by
  constructor
  · intro k r hk hi
    simp only [getVerticalSection, List.getElem?_map, hk, Option.map_some, overwriteVertical,
      if_neg hi]
  · simp [getVerticalSection, Function.comp_def]

/-! ## C17 -/

/-- C17: the difference between the two position tables, for every point. -/
theorem C17_position_difference (gsf : ℝ) (startXyz startNev p : V3) :
    posNev gsf startNev p - nevAttr startXyz startNev p
      = ⟨(gsf - 1) * p.y + startXyz.y, (gsf - 1) * p.x + startXyz.x, startXyz.z⟩ := by
  ext <;> simp [posNev, nevAttr, getNev] <;> ring

/-- C17: for a survey that starts at the local origin and has no grid scaling the two tables
are equal. -/
theorem C17_tables_agree_partial (h : Header) (startNev : V3) (st : List Station) (u : LenUnit)
    {t t' : List V3} (hg : h.gridScaleFactor = 1)
    (hok : positionTables h 0 startNev st u = .ok (t, t')) : t = t' := by
  unfold positionTables at hok
  cases hm : minCurve st 0 u with
  | error e => rw [hm] at hok; simp at hok
  | ok out =>
    rw [hm] at hok
    simp only [Except.ok.injEq, Prod.mk.injEq] at hok
    rw [← hok.1, ← hok.2]
    apply List.map_congr_left
    intro p _
    ext <;> simp [posNev, nevAttr, getNev, hg]

/-- C17 is false of the code: with a non-zero `start_xyz` (and no grid scaling) the two
tables differ at every station of every survey. -/
theorem C17_start_xyz_counted_twice (h : Header) (startXyz startNev : V3) (st : List Station)
    (u : LenUnit) {t t' : List V3} (hs : startXyz ≠ 0) (hg : h.gridScaleFactor = 1)
    (hok : positionTables h startXyz startNev st u = .ok (t, t')) :
    t.length = st.length ∧ t'.length = st.length ∧
    ∀ (k : ℕ) (p p' : V3), t[k]? = some p → t'[k]? = some p' → p ≠ p' := by
  unfold positionTables at hok
  cases hm : minCurve st startXyz u with
  | error e => rw [hm] at hok; simp at hok
  | ok out =>
    rw [hm] at hok
    simp only [Except.ok.injEq, Prod.mk.injEq] at hok
    obtain ⟨rfl, rfl⟩ := hok
    have hl : out.poss.length = st.length := by rw [minCurve_poss hm, positions_length]
    refine ⟨by simpa using hl, by simpa using hl, ?_⟩
    intro k p p' h1 h2 hpp
    simp only [List.getElem?_map, Option.map_eq_some_iff] at h1 h2
    obtain ⟨q, hq, rfl⟩ := h1
    obtain ⟨q', hq', rfl⟩ := h2
    rw [hq] at hq'
    obtain rfl := Option.some.inj hq'
    have := C17_position_difference h.gridScaleFactor startXyz startNev q
    rw [hpp, sub_self, hg] at this
    apply hs
    have hx := congrArg V3.x this
    have hy := congrArg V3.y this
    have hz := congrArg V3.z this
    simp at hx hy hz
    exact V3.ext hy.symm hx.symm hz.symm

/-- The survey of the previous theorem exists: two vertical stations. -/
example : ∃ t t', positionTables ⟨.grid, 0, 0, 1, some 0, .meters⟩ ⟨10, 20, 5⟩ 0
    [⟨0, 0, 0⟩, ⟨100, 0, 0⟩] .meters = .ok (t, t') := ⟨_, _, rfl⟩

/-- C17 is false of the code: with a grid scale factor other than one, `pos_nev` and
`n, e, tvd` of every station with a horizontal offset differ. -/
theorem C17_grid_scale_factor_only_in_one_table {gsf : ℝ} (hg : gsf ≠ 1) (startNev p : V3)
    (hp : p.x ≠ 0 ∨ p.y ≠ 0) : posNev gsf startNev p ≠ nevAttr 0 startNev p := by
  intro h
  have := C17_position_difference gsf 0 startNev p
  rw [h, sub_self] at this
  have hx := congrArg V3.x this
  have hy := congrArg V3.y this
  simp only [V3.zero_x, V3.zero_y, add_zero] at hx hy
  have h1 : gsf - 1 ≠ 0 := sub_ne_zero.2 hg
  rcases hp with hp | hp
  · exact (mul_ne_zero h1 hp) hy.symm
  · exact (mul_ne_zero h1 hp) hx.symm

example : posNev 0.9996 0 ⟨100, 0, 50⟩ ≠ nevAttr 0 0 ⟨100, 0, 50⟩ :=
  C17_grid_scale_factor_only_in_one_table (by norm_num) _ _ (Or.inl (by norm_num))

/-! ## C58: slicing -/

/-- C58: a slice of a grid-referenced survey keeps the azimuths of its non-vertical
stations. -/
theorem C58_slice_keeps_grid_azimuths_partial (h : Header) (deg : Bool) {inc : ℝ} (azi : ℝ)
    (hi : inc ≠ 0) (hr : h.aziRef = .grid) :
    sliceAzis h inc (processAziRef h deg azi).gridRad = constructedAzis h deg inc azi := by
  have e : ∀ d z, constructedAzis h d inc z = processAziRef h d z := by
    intro d z
    unfold constructedAzis overwriteVertical
    cases h.verticalSectionAzimuth <;> simp [hi]
  rw [sliceAzis, e, e]
  have := C16_reentry h h deg false azi rfl rfl
  rw [hr] at this
  exact this

/-- C58 is false of the code: slicing a survey entered in true or magnetic azimuths turns every
station by the convergence, or by convergence minus declination. -/
theorem C58_slice_turns_the_well (h : Header) (deg : Bool) {inc : ℝ} (azi : ℝ) (hi : inc ≠ 0) :
    (sliceAzis h inc (processAziRef h deg azi).gridRad).gridRad
      = (constructedAzis h deg inc azi).gridRad
        + (match h.aziRef with
          | .grid => 0
          | .true_ => -h.convergence
          | .magnetic => h.declination - h.convergence) := by
  have e : ∀ d z, constructedAzis h d inc z = processAziRef h d z := by
    intro d z
    unfold constructedAzis overwriteVertical
    cases h.verticalSectionAzimuth <;> simp [hi]
  rw [sliceAzis, e, e]
  obtain ⟨c, hg⟩ := C16_azimuths_consistent h false (processAziRef h deg azi).gridRad
  have h4 := c.true_grid
  have h5 := c.mag_true
  cases hr : h.aziRef <;> rw [hr] at hg <;> simp only [Azis.get] at hg <;> simp only <;> linarith

/-- True reference, one degree of convergence: the slice is turned by a degree. -/
example : (sliceAzis ⟨.true_, π / 180, 0, 1, some 0, .meters⟩ 1
    (processAziRef ⟨.true_, π / 180, 0, 1, some 0, .meters⟩ true 45).gridRad).gridRad
      ≠ (constructedAzis ⟨.true_, π / 180, 0, 1, some 0, .meters⟩ true 1 45).gridRad := by
  rw [C58_slice_turns_the_well _ true 45 one_ne_zero]
  have := pi_pos
  intro h
  simp only at h
  linarith

end Welleng.Props
