import Verif.Model.Bearing
import Verif.Spec.Bearing
import Verif.Lemmas.Angles
import Mathlib.Analysis.Real.Pi.Bounds
import Mathlib.Tactic.LinearCombination

/-!
C176: horizontal bearing.  C177: toolface bearing.  C178: travelling cylinder.  C179: bearings
below a kick-off point.
-/

namespace Welleng.Props

open Real Clr Spec Err

/-- `np.around(·, 6)` moves a number by at most half a unit of the sixth decimal. -/
def RoundsTo6 (around : ℝ → ℝ) : Prop := ∀ x, |around x - x| ≤ 5e-7

theorem pmod_eq_add (a : ℝ) (b : ℝ) : ∃ m : ℤ, pmod a b = a + m * b :=
  ⟨-⌊a / b⌋, by unfold pmod; push_cast; ring⟩

theorem atan2_polar (x y : ℝ) : ∃ r, 0 ≤ r ∧ x = r * cos (atan2 y x) ∧ y = r * sin (atan2 y x) := by
  by_cases h : x = 0 ∧ y = 0
  · exact ⟨0, le_rfl, by simp [h.1], by simp [h.2]⟩
  · have h' : x ≠ 0 ∨ y ≠ 0 := by tauto
    have hp : 0 < x ^ 2 + y ^ 2 := by
      rcases h' with h | h <;> positivity
    refine ⟨√(x ^ 2 + y ^ 2), sqrt_nonneg _, ?_, ?_⟩
    · rw [cos_atan2 h', mul_div_cancel₀ _ (sqrt_pos.mpr hp).ne']
    · rw [sin_atan2, mul_div_cancel₀ _ (sqrt_pos.mpr hp).ne']

theorem bearingDeg_range (x : ℝ) : 0 ≤ bearingDeg x ∧ bearingDeg x < 360 :=
  ⟨pmod_nonneg _ (by norm_num), pmod_lt _ (by norm_num)⟩

/-- A bearing in degrees is the rounded angle up to whole turns. -/
theorem bearingDeg_turns (around : ℝ → ℝ) (a b : ℝ) :
    ∃ m : ℤ, bearingDeg (bearing around a b) * π / 180 = around (atan2 b a) + m * (2 * π) := by
  obtain ⟨m, hm⟩ := pmod_eq_add (around (atan2 b a) + π * 2) (π * 2)
  obtain ⟨k, hk⟩ := pmod_eq_add (degrees (bearing around a b) + 360) 360
  refine ⟨m + k + 2, ?_⟩
  unfold bearingDeg
  rw [hk]
  unfold bearing degrees
  rw [hm]
  have := pi_pos
  push_cast
  field_simp
  ring

theorem seenAt_shift {ε b x y : ℝ} {φ r : ℝ} {m : ℤ} (hr : 0 ≤ r) (hx : x = r * cos φ)
    (hy : y = r * sin φ) (h : |b * π / 180 - m * (2 * π) - φ| ≤ ε) : SeenAt ε b x y := by
  refine ⟨r, φ + m * (2 * π), hr, ?_, ?_, ?_⟩
  · rw [cos_add_int_mul_two_pi, hx]
  · rw [sin_add_int_mul_two_pi, hy]
  · rw [show b * π / 180 - (φ + m * (2 * π)) = b * π / 180 - m * (2 * π) - φ by ring]; exact h

theorem unitDelta_smul (p q : V) : ∀ i, q i - p i = distanceCc p q * unitDelta p q i := by
  intro i
  unfold unitDelta distanceCc
  split_ifs with h
  · have h0 : ∑ i, (q i - p i) ^ 2 = 0 := by
      have := sq_sqrt (show 0 ≤ ∑ i, (q i - p i) ^ 2 from Finset.sum_nonneg fun i _ => sq_nonneg _)
      rw [h] at this; linarith
    have := (Finset.sum_eq_zero_iff_of_nonneg fun i _ => sq_nonneg (q i - p i)).mp h0 i
      (Finset.mem_univ _)
    rw [h, zero_mul]
    exact pow_eq_zero_iff two_ne_zero |>.mp this
  · rw [mul_div_cancel₀ _ h]

theorem distanceCc_nonneg (p q : V) : 0 ≤ distanceCc p q := sqrt_nonneg _

/-- C176: the horizontal bearing is in `[0, 360)` and points, to half a unit of the sixth decimal
of a radian, from the station to the closest point of the offset well. -/
theorem C176_horizontal {around : ℝ → ℝ} (ha : RoundsTo6 around) (ki : ℕ) (h : Sv.Header)
    (deg : Bool) (inc azi : ℝ) (p q : V) :
    let b := (bearings around ki h deg inc azi p q).hozDeg
    0 ≤ b ∧ b < 360 ∧ SeenAt 5e-7 b (q 0 - p 0) (q 1 - p 1) := by
  refine ⟨(bearingDeg_range _).1, (bearingDeg_range _).2, ?_⟩
  obtain ⟨r, hr, hx, hy⟩ := atan2_polar (unitDelta p q 0) (unitDelta p q 1)
  obtain ⟨m, hm⟩ := bearingDeg_turns around (unitDelta p q 0) (unitDelta p q 1)
  have hD := distanceCc_nonneg p q
  refine seenAt_shift (r := distanceCc p q * r) (m := m) (mul_nonneg hD hr)
    (by rw [unitDelta_smul p q 0, mul_assoc, ← hx])
    (by rw [unitDelta_smul p q 1, mul_assoc, ← hy]) ?_
  show |bearingDeg (hozBearing around p q) * π / 180 - _ - _| ≤ _
  unfold hozBearing
  rw [hm, add_sub_cancel_right]
  exact ha _

/-- The vector from `p` to `q`. -/
def vecOf (p q : V) : V3 := ⟨q 0 - p 0, q 1 - p 1, q 2 - p 2⟩

theorem hla_split (inc azi : ℝ) (d : V) :
    (⟨d 0, d 1, d 2⟩ : V3) = nevToHlaVec inc azi d 0 • highSide inc azi
      + nevToHlaVec inc azi d 1 • rightSide azi + nevToHlaVec inc azi d 2 • tangent inc azi := by
  have h1 := sin_sq_add_cos_sq inc
  have h2 := sin_sq_add_cos_sq azi
  simp only [nevToHlaVec, Fin.sum_univ_three, getTransform, Matrix.of_apply, Matrix.cons_val]
  ext <;> simp only [V3.add_x, V3.add_y, V3.add_z, V3.smul_x, V3.smul_y, V3.smul_z, highSide,
    rightSide, tangent]
  · linear_combination (-d 0 * cos azi ^ 2 - d 1 * sin azi * cos azi) * h1 - d 0 * h2
  · linear_combination (-d 1 * sin azi ^ 2 - d 0 * sin azi * cos azi) * h1 - d 1 * h2
  · linear_combination (-d 2) * h1

theorem toolface_dir (around : ℝ → ℝ) (inc used : ℝ) (p q : V) :
    ∃ (r θ : ℝ) (m : ℤ), 0 ≤ r ∧
      bearingDeg (toolfaceBearing around inc used p q) * π / 180 = around θ + m * (2 * π) ∧
      ∃ t : ℝ, vecOf p q = t • tangent inc used + r • toolDir inc used θ := by
  set d := unitDelta p q with hd
  obtain ⟨r, hr, hx, hy⟩ := atan2_polar (nevToHlaVec inc used d 0) (nevToHlaVec inc used d 1)
  obtain ⟨m, hm⟩ := bearingDeg_turns around (nevToHlaVec inc used d 0) (nevToHlaVec inc used d 1)
  have hD := distanceCc_nonneg p q
  refine ⟨distanceCc p q * r, atan2 (nevToHlaVec inc used d 1) (nevToHlaVec inc used d 0), m,
    mul_nonneg hD hr, hm, distanceCc p q * nevToHlaVec inc used d 2, ?_⟩
  have hs := hla_split inc used d
  have hv : vecOf p q = distanceCc p q • (⟨d 0, d 1, d 2⟩ : V3) := by
    ext <;> simp only [vecOf, V3.smul_x, V3.smul_y, V3.smul_z] <;> exact unitDelta_smul p q _
  rw [hv, hs]
  set θ := atan2 (nevToHlaVec inc used d 1) (nevToHlaVec inc used d 0)
  rw [hx, hy]
  unfold toolDir
  ext <;> simp <;> ring

/-- The toolface is right with respect to the azimuth that was used. -/
theorem toolface_used {around : ℝ → ℝ} (ha : RoundsTo6 around) (ki : ℕ) (h : Sv.Header)
    (deg : Bool) (inc azi : ℝ) (p q : V) :
    AtToolface 5e-7 (bearings around ki h deg inc azi p q).toolfaceDeg inc
      (usedAzi ki h deg inc azi) (vecOf p q) := by
  obtain ⟨r, θ, m, hr, hm, t, ht⟩ := toolface_dir around inc (usedAzi ki h deg inc azi) p q
  refine ⟨t, r, θ + m * (2 * π), hr, ?_, ?_⟩
  · unfold toolDir
    rw [cos_add_int_mul_two_pi, sin_add_int_mul_two_pi]
    exact ht
  · show |bearingDeg (toolfaceBearing around inc (usedAzi ki h deg inc azi) p q) * π / 180 - _| ≤ _
    rw [hm, show around θ + m * (2 * π) - (θ + m * (2 * π)) = around θ - θ by ring]
    exact ha θ

/-- C177: without a kick-off point the toolface bearing is in `[0, 360)` and is, to half a unit of
the sixth decimal of a radian, the toolface at which the closest point of the offset well lies. -/
theorem C177_toolface {around : ℝ → ℝ} (ha : RoundsTo6 around) (h : Sv.Header) (deg : Bool)
    (inc azi : ℝ) (p q : V) :
    let b := (bearings around 0 h deg inc azi p q).toolfaceDeg
    0 ≤ b ∧ b < 360 ∧
      AtToolface 5e-7 b inc (Sv.processAziRef h deg azi).gridRad (vecOf p q) :=
  ⟨(bearingDeg_range _).1, (bearingDeg_range _).2, toolface_used ha 0 h deg inc azi p q⟩

/-- In a vertical hole a toolface is a direction from north less the azimuth. -/
theorem seenAt_of_atToolface {ε b g : ℝ} {p q : V} (h : AtToolface ε b 0 g (vecOf p q)) (k : ℤ) :
    SeenAt ε (b + degrees g + k * 360) (q 0 - p 0) (q 1 - p 1) := by
  obtain ⟨t, r, θ, hr, hv, hb⟩ := h
  have hx := congrArg V3.x hv
  have hy := congrArg V3.y hv
  simp [vecOf, tangent, toolDir, highSide, rightSide] at hx hy
  refine seenAt_shift (φ := g + θ) (r := r) (m := k) hr
    (by rw [hx, cos_add]; ring) (by rw [hy, sin_add]; ring) ?_
  rw [show (b + degrees g + k * 360) * π / 180 - k * (2 * π) - (g + θ) = b * π / 180 - θ by
    unfold degrees; have := pi_pos; field_simp; ring]
  exact hb

theorem constructed_gridDeg (h : Sv.Header) (deg : Bool) (inc azi : ℝ) :
    (Sv.constructedAzis h deg inc azi).gridDeg = degrees (Sv.processAziRef h deg azi).gridRad := by
  have e : (Sv.constructedAzis h deg inc azi).gridDeg = (Sv.processAziRef h deg azi).gridDeg := by
    unfold Sv.constructedAzis Sv.overwriteVertical
    split
    · split_ifs
      · cases h.aziRef <;> rfl
      · rfl
    · rfl
  rw [e]
  unfold Sv.processAziRef
  have := pi_pos
  cases h.aziRef <;> cases deg <;> simp [degrees, radians] <;> field_simp

theorem travCyl_turns (around : ℝ → ℝ) (ki : ℕ) (h : Sv.Header) (deg : Bool) (inc azi : ℝ)
    (p q : V) : ∃ k : ℤ, (bearings around ki h deg inc azi p q).travCylDeg
      = (bearings around ki h deg inc azi p q).toolfaceDeg
        + degrees (Sv.processAziRef h deg azi).gridRad + k * 360 := by
  obtain ⟨k, hk⟩ := pmod_eq_add ((Sv.constructedAzis h deg inc azi).gridDeg
    + (bearings around ki h deg inc azi p q).toolfaceDeg + 360) 360
  refine ⟨k + 1, ?_⟩
  show pmod _ _ = _
  refine hk.trans ?_
  rw [constructed_gridDeg]
  push_cast
  ring

/-- C178: without a kick-off point the travelling cylinder azimuth is in `[0, 360)` and is the
toolface bearing plus the grid azimuth up to whole turns; in a vertical hole, whatever azimuth is
recorded there, it is the horizontal direction to the closest point of the offset well. -/
theorem C178_travelling_cylinder {around : ℝ → ℝ} (ha : RoundsTo6 around) (h : Sv.Header)
    (deg : Bool) (inc azi : ℝ) (p q : V) :
    let b := bearings around 0 h deg inc azi p q
    0 ≤ b.travCylDeg ∧ b.travCylDeg < 360 ∧
    (∃ k : ℤ, b.travCylDeg
      = b.toolfaceDeg + degrees (Sv.processAziRef h deg azi).gridRad + k * 360) ∧
    (inc = 0 → SeenAt 5e-7 b.travCylDeg (q 0 - p 0) (q 1 - p 1)) := by
  refine ⟨pmod_nonneg _ (by norm_num), pmod_lt _ (by norm_num), travCyl_turns .., ?_⟩
  rintro rfl
  obtain ⟨k, hk⟩ := travCyl_turns around 0 h deg 0 azi p q
  rw [hk]
  exact seenAt_of_atToolface (toolface_used ha 0 h deg 0 azi p q) k

/-- C179 (partial): with azimuths from grid north a kick-off point changes no bearing of an
inclined station. -/
theorem C179_kickoff_harmless_partial (around : ℝ → ℝ) (ki : ℕ) {h : Sv.Header}
    (hg : h.aziRef = .grid) (deg : Bool) {inc : ℝ} (hi : inc ≠ 0) (azi : ℝ) (p q : V) :
    bearings around ki h deg inc azi p q = bearings around 0 h deg inc azi p q := by
  have hu : usedAzi ki h deg inc azi = usedAzi 0 h deg inc azi := by
    unfold usedAzi refAzis Sv.constructedAzis Sv.overwriteVertical
    rw [if_pos rfl]
    by_cases h0 : ki = 0
    · rw [if_pos h0]
    · rw [if_neg h0]
      cases h.verticalSectionAzimuth <;> simp [Sv.processAziRef, hg, hi]
  unfold bearings
  rw [hu]

/-- C179: below a kick-off point with azimuths from true north the azimuth used for the toolface
is wrong by the convergence, at every inclined station. -/
theorem C179_true_north_used {ki : ℕ} (hk : ki ≠ 0) {h : Sv.Header} (ht : h.aziRef = .true_)
    (deg : Bool) {inc : ℝ} (hi : inc ≠ 0) (azi : ℝ) :
    usedAzi ki h deg inc azi = (Sv.processAziRef h deg azi).gridRad - h.convergence := by
  unfold usedAzi refAzis Sv.constructedAzis Sv.overwriteVertical
  rw [if_neg hk]
  cases h.verticalSectionAzimuth <;> simp [Sv.processAziRef, ht, hi]

/-- Two different bearings of one point are apart by whole turns, up to the tolerances. -/
theorem seenAt_unique {ε b b' x y : ℝ} (h : SeenAt ε b x y) (h' : SeenAt ε b' x y)
    (hne : x ≠ 0 ∨ y ≠ 0) : ∃ m : ℤ, |(b - b') * π / 180 - m * (2 * π)| ≤ 2 * ε := by
  obtain ⟨r, θ, hr, hx, hy, hb⟩ := h
  obtain ⟨r', θ', hr', hx', hy', hb'⟩ := h'
  have hr0 : 0 < r := by
    refine lt_of_le_of_ne hr fun h0 => ?_
    subst h0
    rcases hne with h | h
    · exact h (by rw [hx]; ring)
    · exact h (by rw [hy]; ring)
  have hrr : r ^ 2 = r' ^ 2 := by
    have e1 : r ^ 2 = x ^ 2 + y ^ 2 := by
      rw [hx, hy]; linear_combination (-r ^ 2) * sin_sq_add_cos_sq θ
    have e2 : r' ^ 2 = x ^ 2 + y ^ 2 := by
      rw [hx', hy']; linear_combination (-r' ^ 2) * sin_sq_add_cos_sq θ'
    rw [e1, e2]
  have hre : r = r' := (pow_left_inj₀ hr hr' two_ne_zero).mp hrr
  subst hre
  have hc : cos θ = cos θ' := mul_left_cancel₀ hr0.ne' (by rw [← hx, ← hx'])
  have hs : sin θ = sin θ' := mul_left_cancel₀ hr0.ne' (by rw [← hy, ← hy'])
  have : (θ : Real.Angle) = θ' := Real.Angle.cos_sin_inj hc hs
  obtain ⟨m, hm⟩ := Real.Angle.angle_eq_iff_two_pi_dvd_sub.mp this
  refine ⟨m, ?_⟩
  have e : (b - b') * π / 180 - m * (2 * π) = (b * π / 180 - θ) - (b' * π / 180 - θ') := by
    have : θ - θ' = m * (2 * π) := by rw [hm]; ring
    linear_combination this
  rw [e]
  calc _ ≤ |b * π / 180 - θ| + |b' * π / 180 - θ'| := abs_sub _ _
    _ ≤ 2 * ε := by linarith

/-- In a vertical hole the travelling cylinder azimuth is off by the error of the azimuth used. -/
theorem travCyl_wrong {around : ℝ → ℝ} (ha : RoundsTo6 around) (ki : ℕ) (h : Sv.Header)
    (deg : Bool) (azi : ℝ) (p q : V) (hne : q 0 - p 0 ≠ 0 ∨ q 1 - p 1 ≠ 0)
    (hbad : SeenAt 5e-7 (bearings around ki h deg 0 azi p q).travCylDeg (q 0 - p 0) (q 1 - p 1)) :
    ∃ m : ℤ, |(Sv.processAziRef h deg azi).gridRad - usedAzi ki h deg 0 azi - m * (2 * π)|
      ≤ 1e-6 := by
  obtain ⟨k, hk⟩ := travCyl_turns around ki h deg 0 azi p q
  obtain ⟨m, hm⟩ := seenAt_unique hbad
    (seenAt_of_atToolface (toolface_used ha ki h deg 0 azi p q) k) hne
  refine ⟨m, ?_⟩
  rw [hk] at hm
  have e : ∀ t g u : ℝ, (t + degrees g + k * 360 - (t + degrees u + k * 360)) * π / 180
      = g - u := by
    intro t g u; unfold degrees; have := pi_pos; field_simp; ring
  rw [e] at hm
  refine hm.trans (by norm_num)

theorem not_near_turn {m : ℤ} (hm : |(1 : ℝ) - m * (2 * π)| ≤ 1e-6) : False := by
  rw [abs_le] at hm
  have h3 := pi_gt_three
  rcases lt_trichotomy m 0 with h | h | h
  · have : (m : ℝ) ≤ -1 := by exact_mod_cast Int.le_sub_one_of_lt h
    nlinarith
  · subst h; norm_num at hm
  · have : (1 : ℝ) ≤ m := by exact_mod_cast h
    nlinarith

/-- C179 is false of the code: azimuths from true north, a vertical hole, a convergence of one
radian.  The travelling cylinder azimuth no longer points to the offset well. -/
theorem C179_true_north_negated {around : ℝ → ℝ} (ha : RoundsTo6 around) {ki : ℕ} (hk : ki ≠ 0) :
    ∃ (h : Sv.Header) (azi : ℝ) (p q : V), h.aziRef = .true_ ∧
      ¬ SeenAt 5e-7 (bearings around ki h false 0 azi p q).travCylDeg (q 0 - p 0) (q 1 - p 1) := by
  refine ⟨⟨.true_, 1, 0, 1, none, .meters⟩, 0, 0, fun _ => 1, rfl, fun hbad => ?_⟩
  obtain ⟨m, hm⟩ := travCyl_wrong ha ki _ _ _ _ _ (by simp) hbad
  refine not_near_turn (m := m) ?_
  simpa [usedAzi, hk, refAzis, Sv.constructedAzis, Sv.processAziRef] using hm

/-- C179 is false of the code even with azimuths from grid north: at a vertical station the azimuth
has been overwritten by that of the vertical section, here 0 instead of one radian. -/
theorem C179_vertical_negated {around : ℝ → ℝ} (ha : RoundsTo6 around) {ki : ℕ} (hk : ki ≠ 0) :
    ∃ (h : Sv.Header) (azi : ℝ) (p q : V), h.aziRef = .grid ∧
      ¬ SeenAt 5e-7 (bearings around ki h false 0 azi p q).travCylDeg (q 0 - p 0) (q 1 - p 1) := by
  refine ⟨⟨.grid, 0, 0, 1, some 0, .meters⟩, 1, 0, fun _ => 1, rfl, fun hbad => ?_⟩
  obtain ⟨m, hm⟩ := travCyl_wrong ha ki _ _ _ _ _ (by simp) hbad
  refine not_near_turn (m := m) ?_
  simpa [usedAzi, hk, refAzis, Sv.constructedAzis, Sv.processAziRef, Sv.overwriteVertical,
    Sv.Azis.setRad] using hm

/-- Exact arithmetic rounds well enough. -/
example : RoundsTo6 id := fun x => by norm_num

/-- So does rounding to the nearest millionth. -/
theorem roundsTo6_round : RoundsTo6 fun x => round (x * 1e6) / 1e6 := by
  intro x
  have h := abs_sub_round (x * 1e6)
  rw [abs_le] at h ⊢
  constructor <;> norm_num at h ⊢ <;> linarith [h.1, h.2]

/-- A station heading east at 30°, the offset 10 m north and 10 m below. -/
example : ∃ b, 0 ≤ b ∧ b < 360 ∧ SeenAt 5e-7 b 10 0 := by
  have := C176_horizontal roundsTo6_round 0 ⟨.grid, 0, 0, 1, some 0, .meters⟩ true
    (π / 6) 90 0 ![10, 0, 10]
  exact ⟨_, this.1, this.2.1, by simpa using this.2.2⟩

example : ∃ b, 0 ≤ b ∧ b < 360 ∧ AtToolface 5e-7 b (π / 6) (π / 2) (vecOf 0 ![10, 0, 10]) := by
  have := C177_toolface roundsTo6_round ⟨.grid, 0, 0, 1, some 0, .meters⟩ false
    (π / 6) (π / 2) 0 ![10, 0, 10]
  exact ⟨_, this⟩

example : ∃ b, 0 ≤ b ∧ b < 360 ∧ SeenAt 5e-7 b 10 0 := by
  have := C178_travelling_cylinder roundsTo6_round ⟨.true_, 0.01, 0, 1, some 0, .meters⟩ false
    0 2 0 ![10, 0, 10]
  exact ⟨_, this.1, this.2.1, by simpa using this.2.2.2 rfl⟩

example : bearings id 4 ⟨.grid, 0.02, 0, 1, some 0, .meters⟩ true 1 45 0 ![10, 0, 10]
    = bearings id 0 ⟨.grid, 0.02, 0, 1, some 0, .meters⟩ true 1 45 0 ![10, 0, 10] :=
  C179_kickoff_harmless_partial id 4 rfl true one_ne_zero 45 _ _

end Welleng.Props
