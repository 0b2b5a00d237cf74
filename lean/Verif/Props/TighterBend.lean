import Verif.Props.ConnectorCurve
import Mathlib.Analysis.SpecialFunctions.Trigonometric.Bounds

/-!
C410: of two curve-and-hold paths to the same target the one with the tighter curve is shorter.
-/

namespace Welleng.Props

open Real Spec Con

/-- Two plane curve-and-hold paths from the origin to `(a, b)`. -/
theorem tighter_plane {a b r R d D t T : ℝ} (hr : 0 < r) (hrR : r < R) (hb : 0 < b)
    (d0 : 0 < d) (d1 : d < 2 * π) (D0 : 0 < D) (D1 : D < 2 * π) (t0 : 0 ≤ t) (T0 : 0 ≤ T)
    (e1 : a = r * sin d + t * cos d) (e2 : b = r * (1 - cos d) + t * sin d)
    (E1 : a = R * sin D + T * cos D) (E2 : b = R * (1 - cos D) + T * sin D) :
    T < t ∧ d < D ∧ r * d + t < R * D + T := by
  have ht : t ^ 2 = a ^ 2 + b ^ 2 - 2 * r * b := by
    have := sin_sq_add_cos_sq d
    rw [e1, e2]; linear_combination (-r ^ 2 - t ^ 2) * this
  have hT : T ^ 2 = a ^ 2 + b ^ 2 - 2 * R * b := by
    have := sin_sq_add_cos_sq D
    rw [E1, E2]; linear_combination (-R ^ 2 - T ^ 2) * this
  have hlt : T < t := by
    have h : T ^ 2 < t ^ 2 := by rw [ht, hT]; nlinarith
    exact lt_of_pow_lt_pow_left₀ 2 t0 h
  have half : ∀ {ρ e τ : ℝ}, a = ρ * sin e + τ * cos e → b = ρ * (1 - cos e) + τ * sin e →
      (a + τ) * sin (e / 2) = b * cos (e / 2) := by
    intro ρ e τ h1 h2
    have hs : sin e = 2 * sin (e / 2) * cos (e / 2) := by
      rw [← sin_two_mul]; congr 1; ring
    have hc : cos e = 2 * cos (e / 2) ^ 2 - 1 := by
      rw [← cos_two_mul]; congr 1; ring
    have hp := sin_sq_add_cos_sq (e / 2)
    rw [h1, h2, hs, hc]
    linear_combination (2 * ρ * cos (e / 2)) * hp
  have h1 := half e1 e2
  have h2 := half E1 E2
  have s1 : 0 < sin (d / 2) := sin_pos_of_pos_of_lt_pi (by linarith) (by linarith)
  have s2 : 0 < sin (D / 2) := sin_pos_of_pos_of_lt_pi (by linarith) (by linarith)
  have hsin : 0 < sin (D / 2 - d / 2) := by
    rw [sin_sub]
    have : b * (sin (D / 2) * cos (d / 2) - cos (D / 2) * sin (d / 2))
        = sin (d / 2) * sin (D / 2) * (t - T) := by
      linear_combination (-sin (D / 2)) * h1 + sin (d / 2) * h2
    have hp : 0 < b * (sin (D / 2) * cos (d / 2) - cos (D / 2) * sin (d / 2)) := by
      rw [this]; exact mul_pos (mul_pos s1 s2) (by linarith)
    exact (mul_pos_iff_of_pos_left hb).mp hp
  have hdD : d < D := by
    by_contra hn
    have := sin_nonpos_of_nonpos_of_neg_pi_le (x := D / 2 - d / 2) (by linarith) (by linarith)
    linarith
  refine ⟨hlt, hdD, ?_⟩
  have hid : R * D + T - (r * d + t) = T * (1 - cos (D - d)) + R * ((D - d) - sin (D - d))
      + (R - r) * (d - sin d) := by
    have hp := sin_sq_add_cos_sq d
    rw [cos_sub, sin_sub]
    have q1 : t = a * cos d + b * sin d - r * sin d := by
      rw [e1, e2]; linear_combination (-t) * hp
    have q2 : a * cos d + b * sin d = R * (sin d + (sin D * cos d - cos D * sin d))
        + T * (cos D * cos d + sin D * sin d) := by
      rw [E1, E2]; ring
    linear_combination -q1 - q2
  have k1 : 0 ≤ T * (1 - cos (D - d)) := mul_nonneg T0 (by linarith [cos_le_one (D - d)])
  have k2 : 0 < R * ((D - d) - sin (D - d)) :=
    mul_pos (by linarith) (by linarith [sin_lt (x := D - d) (by linarith)])
  have k3 : 0 < (R - r) * (d - sin d) := mul_pos (by linarith) (by linarith [sin_lt d0])
  linarith

/-- What the curve-and-hold solver returns, in the plane of the path. -/
theorem curveHold_in_plane {pos1 vec1 u posT : V3} {a b R : ℝ} {o : CurveHold} (hv : vec1.IsUnit)
    (hu : u.IsUnit) (ho : V3.dot vec1 u = 0) (hR : 0 < R) (hb : 0 < b) (hb2 : b ≠ 2 * R)
    (h : posT = pos1 + a • vec1 + b • u) (hq : 0 ≤ a ^ 2 + b ^ 2 - 2 * R * b)
    (hs : curveHold R ⟨V3.norm (posT - pos1), a, b⟩ pos1 vec1 posT = some o) :
    0 < o.dogleg ∧ o.dogleg < 2 * π ∧ 0 ≤ o.tangent ∧ o.md = R * o.dogleg + o.tangent ∧
      a = R * sin o.dogleg + o.tangent * cos o.dogleg ∧
      b = R * (1 - cos o.dogleg) + o.tangent * sin o.dogleg := by
  obtain ⟨o', k, -, k3, k4, k5, k6, k7⟩ := curveHold_reaches hv hu ho hR hb hb2 h hq
  obtain rfl : o' = o := Option.some.inj (k.symm.trans hs)
  obtain ⟨h1, -⟩ := dist_components hv hu ho h
  refine ⟨k4, k5, k3.1, by rw [k7, k6], ?_⟩
  have hT : √(a ^ 2 + b ^ 2 - 2 * R * b) ^ 2 = a ^ 2 + b ^ 2 - 2 * R * b := sq_sqrt hq
  obtain ⟨e1, e2⟩ := curveHold_plane hT (Or.inl fun hx => hb2 (by linarith))
  unfold curveHold minDistToTarget at hs
  simp only [h1] at hs
  rw [if_neg (not_lt.mpr hq)] at hs
  simp only [getCurveHoldData, Option.some.injEq] at hs
  rw [← hs]
  simp only [sin_checkDogleg, cos_checkDogleg]
  exact ⟨e1, e2⟩

/-- C410: a target `b > 0` to the side that is outside the larger turning circle (and not one
diameter to the side of either): with the tighter radius the path is shorter, turns less in
total and has the longer straight. -/
theorem C410_tighter_is_shorter {pos1 vec1 u posT : V3} {a b r R : ℝ} (hv : vec1.IsUnit)
    (hu : u.IsUnit) (ho : V3.dot vec1 u = 0) (hr : 0 < r) (hrR : r < R) (hb : 0 < b)
    (hbr : b ≠ 2 * r) (hbR : b ≠ 2 * R) (h : posT = pos1 + a • vec1 + b • u)
    (hout : R ≤ V3.norm (posT - (pos1 + R • u))) :
    ∃ o O, solveCurveHold pos1 vec1 posT r = some o ∧ solveCurveHold pos1 vec1 posT R = some O ∧
      StraightTo o.tangent o.pos2 o.vecTarget posT ∧ StraightTo O.tangent O.pos2 O.vecTarget posT ∧
      o.md < O.md ∧ o.dogleg < O.dogleg ∧ O.tangent < o.tangent := by
  have hR : 0 < R := hr.trans hrR
  have hq := (outside_iff hv hu ho hR h).mp hout
  have hq' : 0 ≤ a ^ 2 + b ^ 2 - 2 * r * b := by nlinarith
  obtain ⟨o, k, -, k3, -⟩ := curveHold_reaches hv hu ho hr hb hbr h hq'
  obtain ⟨O, K, -, K3, -⟩ := curveHold_reaches hv hu ho hR hb hbR h hq
  refine ⟨o, O, ?_, ?_, k3, K3, ?_⟩
  · rw [solveCurveHold, distBatch_eq hv hu ho hb.le h, k]
  · rw [solveCurveHold, distBatch_eq hv hu ho hb.le h, K]
  obtain ⟨i1, i2, i3, i4, i5, i6⟩ := curveHold_in_plane hv hu ho hr hb hbr h hq' k
  obtain ⟨j1, j2, j3, j4, j5, j6⟩ := curveHold_in_plane hv hu ho hR hb hbR h hq K
  obtain ⟨x, y, z⟩ := tighter_plane hr hrR hb i1 i2 j1 j2 i3 j3 i5 i6 j5 j6
  exact ⟨by rw [i4, j4]; exact z, y, x⟩

/-- C410 hypotheses: a target 3 ahead and 1 to the side of a vertical well, radii 1 and 2. -/
example : ∃ o O, solveCurveHold 0 ⟨0, 0, 1⟩ ⟨1, 0, 3⟩ 1 = some o ∧
    solveCurveHold 0 ⟨0, 0, 1⟩ ⟨1, 0, 3⟩ 2 = some O ∧
      StraightTo o.tangent o.pos2 o.vecTarget ⟨1, 0, 3⟩ ∧
      StraightTo O.tangent O.pos2 O.vecTarget ⟨1, 0, 3⟩ ∧
      o.md < O.md ∧ o.dogleg < O.dogleg ∧ O.tangent < o.tangent := by
  have hv : (⟨0, 0, 1⟩ : V3).IsUnit := by norm_num [V3.IsUnit, V3.dot]
  have hu : (⟨1, 0, 0⟩ : V3).IsUnit := by norm_num [V3.IsUnit, V3.dot]
  have ho : V3.dot (⟨0, 0, 1⟩ : V3) ⟨1, 0, 0⟩ = 0 := by norm_num [V3.dot]
  have h : (⟨1, 0, 3⟩ : V3) = 0 + (3 : ℝ) • (⟨0, 0, 1⟩ : V3) + (1 : ℝ) • ⟨1, 0, 0⟩ := by
    ext <;> simp
  refine C410_tighter_is_shorter hv hu ho one_pos (by norm_num) one_pos (by norm_num)
    (by norm_num) h ?_
  rw [outside_iff hv hu ho (by norm_num) h]
  norm_num

/-- C410: the connector to a position.  A design radius that lets a straight be drilled to the
target gives a shorter path than any design radius (finite or not) for which the connector has
to draw a single curve of the critical radius. -/
theorem C410_single_curve_is_longest {pos1 vec1 u posT noise : V3} {a b r e : ℝ} {radius : Ext}
    (hv : vec1.IsUnit) (hu : u.IsUnit) (ho : V3.dot vec1 u = 0) (hr : 0 < r) (hb : 0 < b)
    (hbr : b ≠ 2 * r) (ha : a ≠ 0) (h : posT = pos1 + a • vec1 + b • u)
    (hne : ¬ allClose pos1 posT) (he0 : 0 < e) (he : e < 1)
    (hrc : r ≤ V3.norm (posT - pos1) ^ 2 / (2 * b) * (1 - e))
    (hrad : ∀ R, radius = .val R → V3.norm (posT - pos1) ^ 2 / (2 * b) ≤ R) :
    ∃ o O, connectPos (.val r) e noise pos1 vec1 posT = some (posT, .minDist, o) ∧
      connectPos radius e noise pos1 vec1 posT = some (posT, .minCurve, O) ∧
      o.md < O.md ∧ o.dogleg < O.dogleg := by
  obtain ⟨h1, -⟩ := dist_components hv hu ho h
  obtain ⟨r0, r1, r2, -⟩ := curveOnly_arc hv hu ho hb ha h rfl
  set Rc := V3.norm (posT - pos1) ^ 2 / (2 * b) with hRc
  have hlt : r < Rc := by nlinarith
  have hRcb : 2 * Rc * b = a ^ 2 + b ^ 2 := by
    rw [hRc, h1]; field_simp
  have hq : 0 ≤ a ^ 2 + b ^ 2 - 2 * r * b := by nlinarith
  obtain ⟨o, k, -⟩ := C74_design_radius_partial (noise := noise) hv hu ho hr hb hbr h hne he0.le he hrc
  have k' := k
  unfold connectPos at k'
  simp only [not_ahead hu ho hb h noise, getDistances_eq hv hu ho hb.le h hne, getRadiusCritical,
    hb.ne', if_false] at k'
  rw [if_pos (lt_of_lt_of_le hr hrc)] at k'
  simp only at k'
  rw [if_pos hrc, Option.map_eq_some_iff] at k'
  obtain ⟨o', kk, hoo⟩ := k'
  obtain rfl : o' = o := by simpa using hoo
  obtain ⟨O, K, -, K2, K3, K4⟩ :=
    C74_critical_radius_partial (noise := noise) hv hu ho hb ha h hne he0 he hrad
  have K' := K
  unfold connectPos at K'
  simp only [not_ahead hu ho hb h noise, getDistances_eq hv hu ho hb.le h hne, getRadiusCritical,
    hb.ne', if_false] at K'
  rw [if_pos (lt_of_lt_of_le hr hrc)] at K'
  have hcd : checkDogleg (2 * atan2 b a) = 2 * atan2 b a := by
    unfold checkDogleg; rw [if_neg (not_lt.mpr r1.le)]
  have hmin : Ext.min radius (.val Rc) = .val Rc := by
    cases hr : radius with
    | inf => rfl
    | val R =>
      show Ext.val (min R Rc) = _
      rw [min_eq_right (hrad R hr)]
  have hdl : O.dogleg = 2 * atan2 b a ∧ O.md = Rc * (2 * atan2 b a) := by
    have hco : ∃ w, curveOnly radius ⟨V3.norm (posT - pos1), a, b⟩ pos1 vec1 posT = some w ∧
        w.dogleg = 2 * atan2 b a ∧ w.md = Rc * (2 * atan2 b a) := by
      refine ⟨⟨posT, getVecTarget pos1 vec1 posT 0 (Rc * (2 * atan2 b a))
        (getRf (2 * atan2 b a)), 0, 2 * atan2 b a, Rc * (2 * atan2 b a),
        Rc * (2 * atan2 b a) + 0⟩, ?_, rfl, add_zero _⟩
      unfold curveOnly minCurveToTarget
      simp only [hb.ne', and_false, if_false, ← hRc]
      rw [if_pos r0]
      simp only [hmin, hcd, getCurveHoldData]
    obtain ⟨w, w1, w2, w3⟩ := hco
    have hw : w = O := by
      cases hrd : radius with
      | inf =>
        rw [hrd] at w1 K'
        simp only [w1, Option.map_some, Option.some.injEq, Prod.mk.injEq, true_and] at K'
        exact K'
      | val R =>
        have hn : ¬ R ≤ Rc * (1 - e) := by
          have := hrad R hrd
          rw [not_le]
          nlinarith
        rw [hrd] at w1 K'
        simp only [← hRc, if_neg hn, w1, Option.map_some, Option.some.injEq, Prod.mk.injEq,
          true_and] at K'
        exact K'
    rw [← hw]
    exact ⟨w2, w3⟩
  obtain ⟨i1, i2, i3, i4, i5, i6⟩ := curveHold_in_plane hv hu ho hr hb hbr h hq kk
  have hD : 0 < a ^ 2 + b ^ 2 := by positivity
  have hcd : cos (2 * atan2 b a) = (a ^ 2 - b ^ 2) / (a ^ 2 + b ^ 2) := cos_two_atan2 (Or.inl ha)
  have hsd : sin (2 * atan2 b a) = 2 * a * b / (a ^ 2 + b ^ 2) := sin_two_atan2 (Or.inl ha)
  have E1 : a = Rc * sin (2 * atan2 b a) + 0 * cos (2 * atan2 b a) := by
    rw [hsd, hRc, h1]; field_simp; ring
  have E2 : b = Rc * (1 - cos (2 * atan2 b a)) + 0 * sin (2 * atan2 b a) := by
    rw [hcd, hRc, h1]; field_simp; ring
  obtain ⟨-, y, z⟩ := tighter_plane hr hlt hb i1 i2 r1 r2 i3 le_rfl i5 i6 E1 E2
  exact ⟨_, O, k, K, by rw [i4, hdl.2]; linarith, by rw [hdl.1]; exact y⟩

/-- C410: a target 3 ahead and 1 to the side; the design radius 1 against no limit at all. -/
example (noise : V3) :
    ∃ o O, connectPos (.val 1) (1 / 100) noise 0 ⟨0, 0, 1⟩ ⟨1, 0, 3⟩
        = some (⟨1, 0, 3⟩, .minDist, o) ∧
      connectPos .inf (1 / 100) noise 0 ⟨0, 0, 1⟩ ⟨1, 0, 3⟩ = some (⟨1, 0, 3⟩, .minCurve, O) ∧
      o.md < O.md ∧ o.dogleg < O.dogleg := by
  have hv : (⟨0, 0, 1⟩ : V3).IsUnit := by norm_num [V3.IsUnit, V3.dot]
  have hu : (⟨1, 0, 0⟩ : V3).IsUnit := by norm_num [V3.IsUnit, V3.dot]
  have ho : V3.dot (⟨0, 0, 1⟩ : V3) ⟨1, 0, 0⟩ = 0 := by norm_num [V3.dot]
  have h : (⟨1, 0, 3⟩ : V3) = 0 + (3 : ℝ) • (⟨0, 0, 1⟩ : V3) + (1 : ℝ) • ⟨1, 0, 0⟩ := by
    ext <;> simp
  refine C410_single_curve_is_longest hv hu ho one_pos one_pos (by norm_num) (by norm_num) h ?_
    (by norm_num) (by norm_num) ?_ (by simp)
  · rintro ⟨hx, -⟩
    norm_num [isClose] at hx
  · rw [(dist_components hv hu ho h).1]
    norm_num

end Welleng.Props
