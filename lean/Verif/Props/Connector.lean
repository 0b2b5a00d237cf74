import Verif.Spec.Path
import Verif.Lemmas.Connector

/-!
C35, C36, C73: the curve-hold and single-curve solutions of the connector.
-/

namespace Welleng.Props

open Real Spec Con

/-- Distances of a target `a` ahead and `b` to the side. -/
theorem dist_components {pos1 vec1 u posT : V3} {a b : ℝ} (hv : vec1.IsUnit) (hu : u.IsUnit)
    (ho : V3.dot vec1 u = 0) (h : posT = pos1 + a • vec1 + b • u) :
    V3.norm (posT - pos1) ^ 2 = a ^ 2 + b ^ 2 ∧ V3.dot (posT - pos1) vec1 = a := by
  have hd : posT - pos1 = a • vec1 + b • u := by rw [h]; abel
  rw [V3.norm_sq, hd]
  simp only [V3.dot_add_left, V3.dot_add_right, V3.dot_smul_left, V3.dot_smul_right, ho,
    V3.dot_comm u vec1]
  rw [hv, hu]
  constructor <;> ring

theorem distBatch_eq {pos1 vec1 u posT : V3} {a b : ℝ} (hv : vec1.IsUnit) (hu : u.IsUnit)
    (ho : V3.dot vec1 u = 0) (hb : 0 ≤ b) (h : posT = pos1 + a • vec1 + b • u) :
    distBatch pos1 vec1 posT = ⟨V3.norm (posT - pos1), a, b⟩ := by
  obtain ⟨h1, h2⟩ := dist_components hv hu ho h
  have h3 := dot_le_norm_unit (delta := posT - pos1) hv
  rw [h2] at h3
  unfold distBatch
  simp only [h2, min_eq_left h3, h1]
  congr 1
  rw [show a ^ 2 + b ^ 2 - a ^ 2 = b ^ 2 by ring, max_eq_left (by positivity), sqrt_sq hb]

theorem getDistances_eq {pos1 vec1 u posT : V3} {a b : ℝ} (hv : vec1.IsUnit) (hu : u.IsUnit)
    (ho : V3.dot vec1 u = 0) (hb : 0 ≤ b) (h : posT = pos1 + a • vec1 + b • u)
    (hne : ¬ allClose pos1 posT) :
    getDistances pos1 vec1 posT = ⟨V3.norm (posT - pos1), a, b⟩ := by
  obtain ⟨h1, h2⟩ := dist_components hv hu ho h
  have h3 := dot_le_norm_unit (delta := posT - pos1) hv
  rw [h2] at h3
  unfold getDistances
  rw [if_neg hne]
  simp only [h2, not_lt.mpr h3, gt_iff_lt, if_false, h1]
  congr 1
  rw [show a ^ 2 + b ^ 2 - a ^ 2 = b ^ 2 by ring, sqrt_sq hb]

/-- "Outside the turning circle" in terms of the offsets. -/
theorem outside_iff {pos1 vec1 u posT : V3} {a b R : ℝ} (hv : vec1.IsUnit) (hu : u.IsUnit)
    (ho : V3.dot vec1 u = 0) (hR : 0 < R) (h : posT = pos1 + a • vec1 + b • u) :
    R ≤ V3.norm (posT - (pos1 + R • u)) ↔ 0 ≤ a ^ 2 + b ^ 2 - 2 * R * b := by
  have hd : posT - (pos1 + R • u) = a • vec1 + (b - R) • u := by
    rw [h]; ext <;> simp <;> ring
  have hs : V3.dot (a • vec1 + (b - R) • u) (a • vec1 + (b - R) • u) = a ^ 2 + (b - R) ^ 2 := by
    simp only [V3.dot_add_left, V3.dot_add_right, V3.dot_smul_left, V3.dot_smul_right, ho,
      V3.dot_comm u vec1]
    rw [hv, hu]; ring
  rw [hd]
  unfold V3.norm
  rw [le_sqrt' hR, hs]
  constructor <;> intro h <;> nlinarith

/-- The solver on a target that is off the start tangent. -/
theorem curveHold_reaches {pos1 vec1 u posT : V3} {a b R : ℝ} (hv : vec1.IsUnit)
    (hu : u.IsUnit) (ho : V3.dot vec1 u = 0) (hR : 0 < R) (hb : 0 < b) (hb2 : b ≠ 2 * R)
    (h : posT = pos1 + a • vec1 + b • u) (hq : 0 ≤ a ^ 2 + b ^ 2 - 2 * R * b) :
    ∃ o, curveHold R ⟨V3.norm (posT - pos1), a, b⟩ pos1 vec1 posT = some o ∧
      ArcTo R o.distCurve pos1 vec1 o.pos2 o.vecTarget ∧
      StraightTo o.tangent o.pos2 o.vecTarget posT ∧
      0 < o.dogleg ∧ o.dogleg < 2 * π ∧ o.distCurve = R * o.dogleg ∧
      o.md = o.distCurve + o.tangent := by
  obtain ⟨h1, h2⟩ := dist_components hv hu ho h
  set T := √(a ^ 2 + b ^ 2 - 2 * R * b) with hTdef
  have hT0 : 0 ≤ T := sqrt_nonneg _
  have hT : T ^ 2 = a ^ 2 + b ^ 2 - 2 * R * b := sq_sqrt hq
  have hx : 2 * R - b ≠ 0 := fun h => hb2 (by linarith)
  set dl := 2 * atan2 (a - T) (2 * R - b) with hdl
  set d := checkDogleg dl with hd
  obtain ⟨e1, e2⟩ := curveHold_plane hT (Or.inl hx)
  rw [← hdl, ← sin_checkDogleg, ← cos_checkDogleg, ← hd] at e1 e2
  have hd0 : 0 ≤ d := checkDogleg_nonneg _ _
  have hd2 : d ≤ 2 * π := checkDogleg_le _ _
  have hcos : cos d ≠ 1 := by
    intro hc
    have hs : sin d = 0 := by
      have := sin_sq_add_cos_sq d
      rw [hc] at this
      exact pow_eq_zero_iff (two_ne_zero) |>.mp (by linarith)
    rw [hc, hs] at e2
    linarith
  have hdne : d ≠ 0 := fun h => hcos (by rw [h, cos_zero])
  have hdne2 : d ≠ 2 * π := fun h => hcos (by rw [h, cos_two_pi])
  have hdpos : 0 < d := lt_of_le_of_ne hd0 (Ne.symm hdne)
  have hdlt : d < 2 * π := lt_of_le_of_ne hd2 hdne2
  have hcneg : cos d ≠ -1 := by
    intro hc
    rw [hd, cos_checkDogleg, hdl, cos_two_atan2 (Or.inl hx)] at hc
    have hp : 0 < (2 * R - b) ^ 2 + (a - T) ^ 2 := by positivity
    rw [div_eq_iff hp.ne'] at hc
    have : (2 * R - b) ^ 2 = 0 := by nlinarith
    exact hx (by simpa using this)
  have hch : cos (d / 2) ≠ 0 := by
    intro hc
    apply hcneg
    have := cos_two_mul (d / 2)
    rw [hc, show 2 * (d / 2) = d by ring] at this
    rw [this]; ring
  -- half + T
  have htan : tan (d / 2) = (a - T) / (2 * R - b) := by
    have hs1 := tan_half_mul_one_add_cos hch
    have hc1 : 1 + cos d ≠ 0 := fun h => hcneg (by linarith)
    rw [eq_div_iff hx, ← mul_left_inj' hc1]
    have hcd : cos d = ((2 * R - b) ^ 2 - (a - T) ^ 2) / ((2 * R - b) ^ 2 + (a - T) ^ 2) := by
      rw [hd, cos_checkDogleg, hdl, cos_two_atan2 (Or.inl hx)]
    have hsd : sin d = 2 * (2 * R - b) * (a - T) / ((2 * R - b) ^ 2 + (a - T) ^ 2) := by
      rw [hd, sin_checkDogleg, hdl, sin_two_atan2 (Or.inl hx)]
    have hp : 0 < (2 * R - b) ^ 2 + (a - T) ^ 2 := by positivity
    calc tan (d / 2) * (2 * R - b) * (1 + cos d)
        = (tan (d / 2) * (1 + cos d)) * (2 * R - b) := by ring
      _ = sin d * (2 * R - b) := by rw [hs1]
      _ = (a - T) * (1 + cos d) := by
        rw [hsd, hcd]; field_simp; ring
  have hden : R * tan (d / 2) + T ≠ 0 := by
    rw [htan]
    intro h0
    have h0' : R * a = (b - R) * T := by
      have h3 : R * ((a - T) / (2 * R - b)) * (2 * R - b) = R * (a - T) := by
        rw [mul_assoc, div_mul_cancel₀ _ hx]
      linear_combination (2 * R - b) * h0 - h3
    have hsq : R ^ 2 * a ^ 2 = (b - R) ^ 2 * (a ^ 2 + b ^ 2 - 2 * R * b) := by
      rw [← hT]
      linear_combination (R * a + (b - R) * T) * h0'
    have hfac : (b * (2 * R - b)) * (a ^ 2 + (b - R) ^ 2) = 0 := by
      linear_combination hsq
    rcases mul_eq_zero.mp hfac with h | h
    · rcases mul_eq_zero.mp h with h | h
      · exact hb.ne' h
      · exact hx h
    · have ha : a = 0 := by nlinarith [sq_nonneg a, sq_nonneg (b - R)]
      have hbR : b = R := by nlinarith [sq_nonneg a, sq_nonneg (b - R)]
      rw [ha, hbR] at hq
      nlinarith
  have hdelta : posT - pos1 = (R * sin d + T * cos d) • vec1 + (R * (1 - cos d) + T * sin d) • u := by
    rw [← e1, ← e2, h]; abel
  have hvec := getVecTarget_eq (pos1 := pos1) (posT := posT) hR hdne hch hv hu ho hden hdelta
  have hmd : minDistToTarget R ⟨V3.norm (posT - pos1), a, b⟩ = some (T, dl) := by
    unfold minDistToTarget
    simp only [h1]
    rw [if_neg (not_lt.mpr hq)]
  refine ⟨⟨posT - T • (cos d • vec1 + sin d • u), cos d • vec1 + sin d • u, T, d, R * d,
    |R * d| + T⟩, ?_, ?_, ?_, hdpos, hdlt, rfl, ?_⟩
  · unfold curveHold
    rw [hmd]
    simp only [getCurveHoldData, ← hd, hvec]
  · have hc := arc_circular (one_div_ne_zero hR.ne') hv hu ho
    obtain ⟨p1, p2⟩ := arc_split hR.ne' vec1 u d
    refine ⟨fun s => pos1 + arcPos (1 / R) vec1 u s, arcTan (1 / R) vec1 u,
      arcNor (1 / R) vec1 u, ⟨fun s => ?_, hc.deriv_tan, hc.deriv_nor, hc.unit_tan, hc.unit_nor,
        hc.ortho⟩, ?_, ?_, ?_, p2⟩
    · have hk : HasDeriv (fun _ : ℝ => pos1) 0 s :=
        ⟨hasDerivAt_const _ _, hasDerivAt_const _ _, hasDerivAt_const _ _⟩
      exact (hk.add (hc.deriv_pos s)).congr (zero_add _)
    · ext <;> simp [arcPos]
    · ext <;> simp [arcTan]
    · show pos1 + arcPos (1 / R) vec1 u (R * d) = _
      rw [p1, eq_sub_iff_add_eq]
      have := congrArg (fun z => pos1 + z) hdelta
      simp only [add_sub_cancel] at this
      rw [this]
      ext <;> simp <;> ring
  · exact ⟨hT0, by ext <;> simp⟩
  · simp only
    rw [abs_of_pos (mul_pos hR hdpos)]

/-- C35: a target `a` ahead and `b > 0` to the side of the start, outside the turning circle
(centre `R` to the side) and not exactly one diameter to the side, is reached exactly by the
returned arc of the design radius followed by the returned straight. -/
theorem C35_curve_hold_reaches_target {pos1 vec1 u posT : V3} {a b R : ℝ} (hv : vec1.IsUnit)
    (hu : u.IsUnit) (ho : V3.dot vec1 u = 0) (hR : 0 < R) (hb : 0 < b) (hb2 : b ≠ 2 * R)
    (h : posT = pos1 + a • vec1 + b • u) (hout : R ≤ V3.norm (posT - (pos1 + R • u))) :
    ∃ o, solveCurveHold pos1 vec1 posT R = some o ∧
      ArcTo R o.distCurve pos1 vec1 o.pos2 o.vecTarget ∧
      StraightTo o.tangent o.pos2 o.vecTarget posT ∧
      0 < o.dogleg ∧ o.dogleg < 2 * π ∧ o.distCurve = R * o.dogleg ∧
      o.md = o.distCurve + o.tangent := by
  unfold solveCurveHold
  rw [distBatch_eq hv hu ho hb.le h]
  exact curveHold_reaches hv hu ho hR hb hb2 h ((outside_iff hv hu ho hR h).mp hout)

/-- C35 hypotheses: a target 3 ahead and 1 to the side of a vertical well, radius 1. -/
example : ∃ o, solveCurveHold 0 ⟨0, 0, 1⟩ ⟨1, 0, 3⟩ 1 = some o ∧
      ArcTo 1 o.distCurve 0 ⟨0, 0, 1⟩ o.pos2 o.vecTarget ∧
      StraightTo o.tangent o.pos2 o.vecTarget ⟨1, 0, 3⟩ := by
  have h : (⟨1, 0, 3⟩ : V3) = 0 + (3 : ℝ) • ⟨0, 0, 1⟩ + (1 : ℝ) • ⟨1, 0, 0⟩ := by
    ext <;> simp
  obtain ⟨o, h1, h2, h3, _⟩ := C35_curve_hold_reaches_target (pos1 := 0) (vec1 := ⟨0, 0, 1⟩)
    (u := ⟨1, 0, 0⟩) (R := 1)
    (by simp [V3.IsUnit, V3.dot]) (by simp [V3.IsUnit, V3.dot]) (by simp [V3.dot]) one_pos
    one_pos (by norm_num) h (by
      rw [outside_iff (by simp [V3.IsUnit, V3.dot]) (by simp [V3.IsUnit, V3.dot])
        (by simp [V3.dot]) one_pos h]
      norm_num)
  exact ⟨o, h1, h2, h3⟩

/-- C35: a target straight ahead is reached by the straight alone. -/
theorem C35_straight_ahead {pos1 vec1 u : V3} {a R : ℝ} (hv : vec1.IsUnit) (hu : u.IsUnit)
    (ho : V3.dot vec1 u = 0) (hR : 0 < R) (ha : 0 < a) :
    solveCurveHold pos1 vec1 (pos1 + a • vec1) R = some ⟨pos1, vec1, a, 0, 0, a⟩ := by
  have h : pos1 + a • vec1 = pos1 + a • vec1 + (0 : ℝ) • u := by simp
  obtain ⟨h1, -⟩ := dist_components hv hu ho h
  unfold solveCurveHold
  rw [distBatch_eq hv hu ho le_rfl h]
  have e : √(a ^ 2 + 0 ^ 2 - 2 * R * 0) = a := by
    rw [show a ^ 2 + 0 ^ 2 - 2 * R * 0 = a ^ 2 by ring, sqrt_sq ha.le]
  have hp : ¬ (a ^ 2 + 0 ^ 2 - 2 * R * 0 < 0) := by nlinarith [sq_nonneg a]
  have hat : atan2 (a - a) (2 * R - 0) = 0 := by
    unfold atan2
    rw [sub_self, sub_zero]
    exact Complex.arg_ofReal_of_nonneg (x := 2 * R) (by linarith)
  have hm : minDistToTarget R ⟨V3.norm (pos1 + a • vec1 - pos1), a, 0⟩ = some (a, 0) := by
    unfold minDistToTarget
    simp only [h1]
    rw [if_neg hp, e, hat, mul_zero]
  unfold curveHold
  rw [hm]
  simp only [mul_zero, checkDogleg, lt_irrefl, if_false, getCurveHoldData,
    getVecTarget, if_true, abs_zero, zero_add, add_sub_cancel_right]

example : solveCurveHold 0 ⟨0, 0, 1⟩ (0 + (5 : ℝ) • ⟨0, 0, 1⟩) 2
    = some ⟨0, ⟨0, 0, 1⟩, 5, 0, 0, 5⟩ :=
  C35_straight_ahead (u := ⟨1, 0, 0⟩) (by simp [V3.IsUnit, V3.dot])
    (by simp [V3.IsUnit, V3.dot]) (by simp [V3.dot]) two_pos (by norm_num)

/-- C73 is false: a target exactly one turning diameter to the side (and any distance ahead,
so outside the turning circle) gets dogleg `0`; the returned path does not turn at all and is
shorter than the straight distance to the target. -/
theorem C73_diameter_not_reached {pos1 vec1 u posT : V3} {a R : ℝ} (hv : vec1.IsUnit)
    (hu : u.IsUnit) (ho : V3.dot vec1 u = 0) (hR : 0 < R) (ha : 0 < a)
    (h : posT = pos1 + a • vec1 + (2 * R) • u) :
    R ≤ V3.norm (posT - (pos1 + R • u)) ∧
    ∃ o, solveCurveHold pos1 vec1 posT R = some o ∧ o.dogleg = 0 ∧ o.vecTarget = vec1 ∧
      o.md = a ∧ o.md < V3.norm (posT - pos1) := by
  obtain ⟨h1, -⟩ := dist_components hv hu ho h
  have hq : 0 ≤ a ^ 2 + (2 * R) ^ 2 - 2 * R * (2 * R) := by nlinarith [sq_nonneg a]
  refine ⟨(outside_iff hv hu ho hR h).mpr hq, ⟨posT - a • vec1, vec1, a, 0, 0, a⟩, ?_, rfl, rfl,
    rfl, ?_⟩
  · unfold solveCurveHold
    rw [distBatch_eq hv hu ho (by positivity) h]
    have e : √(a ^ 2 + (2 * R) ^ 2 - 2 * R * (2 * R)) = a := by
      rw [show a ^ 2 + (2 * R) ^ 2 - 2 * R * (2 * R) = a ^ 2 by ring, sqrt_sq ha.le]
    have hat : atan2 (a - a) (2 * R - 2 * R) = 0 := by
      unfold atan2
      rw [sub_self, sub_self]
      exact Complex.arg_zero
    have hm : minDistToTarget R ⟨V3.norm (posT - pos1), a, 2 * R⟩ = some (a, 0) := by
      unfold minDistToTarget
      simp only [h1]
      rw [if_neg (not_lt.mpr hq), e, hat, mul_zero]
    unfold curveHold
    rw [hm]
    simp only [mul_zero, checkDogleg, lt_irrefl, if_false,
      getCurveHoldData, getVecTarget, if_true, abs_zero, zero_add]
  · apply lt_of_pow_lt_pow_left₀ 2 (V3.norm_nonneg _)
    rw [h1]
    have : 0 < (2 * R) ^ 2 := by positivity
    show a ^ 2 < _
    linarith

/-- The witness of C73: radius 1000, target at `(2000, 0, 1000)` from a vertical well. -/
example : ∃ o, solveCurveHold 0 ⟨0, 0, 1⟩ ⟨2000, 0, 1000⟩ 1000 = some o ∧ o.dogleg = 0 := by
  have h : (⟨2000, 0, 1000⟩ : V3)
      = 0 + (1000 : ℝ) • ⟨0, 0, 1⟩ + ((2 : ℝ) * 1000) • ⟨1, 0, 0⟩ := by
    ext <;> simp <;> norm_num
  obtain ⟨-, o, h1, h2, -⟩ := C73_diameter_not_reached (by simp [V3.IsUnit, V3.dot])
    (by simp [V3.IsUnit, V3.dot]) (by simp [V3.dot]) (by norm_num) (by norm_num) h
  exact ⟨o, h1, h2⟩

end Welleng.Props
