import Verif.Props.TighterBend

/-!
C411: the curve-and-hold solution is the shortest path made of one curve of the given radius
followed by a straight.
-/

namespace Welleng.Props

open Real Spec Con

theorem half_angle_eq {a b R e t : ℝ} (h1 : a = R * sin e + t * cos e)
    (h2 : b = R * (1 - cos e) + t * sin e) : (a + t) * sin (e / 2) = b * cos (e / 2) := by
  have hs : sin e = 2 * sin (e / 2) * cos (e / 2) := by
    rw [← sin_two_mul]; congr 1; ring
  have hc : cos e = 2 * cos (e / 2) ^ 2 - 1 := by
    rw [← cos_two_mul]; congr 1; ring
  have hp := sin_sq_add_cos_sq (e / 2)
  rw [h1, h2, hs, hc]
  linear_combination (2 * R * cos (e / 2)) * hp

theorem straight_sq {a b R e t : ℝ} (h1 : a = R * sin e + t * cos e)
    (h2 : b = R * (1 - cos e) + t * sin e) : t ^ 2 = a ^ 2 + b ^ 2 - 2 * R * b := by
  have := sin_sq_add_cos_sq e
  rw [h1, h2]; linear_combination (-R ^ 2 - t ^ 2) * this

/-- Only one path turns towards the target by less than a full turn. -/
theorem toward_unique {a b R d D t T : ℝ} (hb : 0 < b)
    (d0 : 0 < d) (d1 : d < 2 * π) (D0 : 0 < D) (D1 : D < 2 * π) (t0 : 0 ≤ t) (T0 : 0 ≤ T)
    (e1 : a = R * sin d + t * cos d) (e2 : b = R * (1 - cos d) + t * sin d)
    (E1 : a = R * sin D + T * cos D) (E2 : b = R * (1 - cos D) + T * sin D) :
    t = T ∧ d = D := by
  have ht : t = T := by
    have : t ^ 2 = T ^ 2 := by rw [straight_sq e1 e2, straight_sq E1 E2]
    exact (pow_left_inj₀ t0 T0 two_ne_zero).mp this
  refine ⟨ht, ?_⟩
  have h1 := half_angle_eq e1 e2
  have h2 := half_angle_eq E1 E2
  have hsin : sin (D / 2 - d / 2) = 0 := by
    have : b * sin (D / 2 - d / 2) = 0 := by
      rw [sin_sub]
      rw [ht] at h1
      linear_combination (-sin (D / 2)) * h1 + sin (d / 2) * h2
    exact (mul_eq_zero.mp this).resolve_left hb.ne'
  have := (sin_eq_zero_iff_of_lt_of_lt (by linarith) (by linarith)).mp hsin
  linarith

/-- The case of `away_longer` in which both paths turn by more than half a turn. -/
theorem away_longer_behind {R t T b a p x : ℝ} (hR : 0 < R) (hb : 0 < b) (htT : t < T)
    (p0 : 0 < p) (p1 : p < π) (h0 : 0 < p - x) (h2 : 0 < p + x) (h3 : p + x < π)
    (e1 : a = -R * sin (p - x) + t * cos (p - x))
    (e2 : b = R * (1 - cos (p - x)) - t * sin (p - x))
    (E1 : a = -R * sin (p + x) + T * cos (p + x))
    (E2 : -b = R * (1 - cos (p + x)) - T * sin (p + x)) (h1 : p - x < π) :
    R * (2 * π - (p - x)) + t < R * (2 * π - (p + x)) + T := by
  have sp : 0 < sin p := sin_pos_of_pos_of_lt_pi p0 p1
  have k1 : T * (2 * sin p * cos p) = R * (2 * cos (p - x) - 2 * cos p ^ 2) := by
    have hs := sin_two_mul p
    have hc := cos_two_mul p
    rw [show 2 * p = (p + x) + (p - x) by ring, sin_add (p + x) (p - x)] at hs
    rw [show 2 * p = (p + x) + (p - x) by ring, cos_add (p + x) (p - x)] at hc
    have := sin_sq_add_cos_sq (p - x)
    linear_combination (-T) * hs - R * hc - sin (p - x) * E1 + cos (p - x) * E2
      + sin (p - x) * e1 + cos (p - x) * e2 - R * this
  have k2 : t * (2 * sin p * cos p) = R * (2 * cos (p + x) - 2 * cos p ^ 2) := by
    have hs := sin_two_mul p
    have hc := cos_two_mul p
    rw [show 2 * p = (p + x) + (p - x) by ring, sin_add (p + x) (p - x)] at hs
    rw [show 2 * p = (p + x) + (p - x) by ring, cos_add (p + x) (p - x)] at hc
    have := sin_sq_add_cos_sq (p + x)
    linear_combination (-t) * hs - R * hc - sin (p + x) * e1 + cos (p + x) * e2
      + sin (p + x) * E1 + cos (p + x) * E2 - R * this
  have key : (T - t) * cos p = 2 * R * sin x := by
    have : (2 * sin p) * ((T - t) * cos p) = (2 * sin p) * (2 * R * sin x) := by
      rw [cos_sub] at k1
      rw [cos_add] at k2
      linear_combination k1 - k2
    exact mul_left_cancel₀ (by positivity) this
  have hF : (R * (2 * π - (p + x)) + T - (R * (2 * π - (p - x)) + t)) * cos p
      = 2 * R * (sin x - x * cos p) := by linear_combination key
  have xl : -(π / 2) < x := by linarith
  have xu : x < π / 2 := by linarith
  rcases lt_trichotomy (cos p) 0 with hc | hc | hc
  · have hx : sin x < 0 := by
      have : 2 * R * sin x < 0 := by rw [← key]; exact mul_neg_of_pos_of_neg (by linarith) hc
      nlinarith
    have hx0 : x < 0 := by
      by_contra hn
      have := sin_nonneg_of_nonneg_of_le_pi (not_lt.mp hn) (by linarith)
      linarith
    have : (R * (2 * π - (p + x)) + T - (R * (2 * π - (p - x)) + t)) * cos p < 0 := by
      rw [hF]
      have := mul_pos_of_neg_of_neg hx0 hc
      exact mul_neg_of_pos_of_neg (by linarith) (by linarith)
    have := pos_of_mul_neg_left this hc.le
    linarith
  · have hx : sin x = 0 := by
      rw [hc, mul_zero] at key
      exact (mul_eq_zero.mp key.symm).resolve_left (by positivity)
    have hx0 : x = 0 := (sin_eq_zero_iff_of_lt_of_lt (by linarith) (by linarith)).mp hx
    subst hx0
    linarith
  · have hx : 0 < sin x := by
      have : 0 < 2 * R * sin x := by rw [← key]; exact mul_pos (by linarith) hc
      nlinarith
    have hx0 : 0 < x := by
      by_contra hn
      have := sin_nonpos_of_nonpos_of_neg_pi_le (not_lt.mp hn) (by linarith)
      linarith
    have hcx : 0 < cos x := cos_pos_of_mem_Ioo ⟨xl, xu⟩
    have hle : cos p ≤ cos x := cos_le_cos_of_nonneg_of_le_pi hx0.le p1.le (by linarith)
    have htan := lt_tan hx0 xu
    rw [tan_eq_sin_div_cos, lt_div_iff₀ hcx] at htan
    have : 0 < (R * (2 * π - (p + x)) + T - (R * (2 * π - (p - x)) + t)) * cos p := by
      rw [hF]
      have := mul_le_mul_of_nonneg_left hle hx0.le
      exact mul_pos (by linarith) (by linarith)
    have := (mul_pos_iff_of_pos_right hc).mp this
    linarith

/-- A path that turns away from the target is longer. -/
theorem away_longer {a b R d D t T : ℝ} (hR : 0 < R) (hb : 0 < b)
    (d0 : 0 < d) (d1 : d < 2 * π) (D0 : 0 < D) (D1 : D < 2 * π) (t0 : 0 ≤ t) (T0 : 0 ≤ T)
    (e1 : a = R * sin d + t * cos d) (e2 : b = R * (1 - cos d) + t * sin d)
    (E1 : a = R * sin D + T * cos D) (E2 : -b = R * (1 - cos D) + T * sin D) :
    R * d + t < R * D + T := by
  have hT := straight_sq E1 E2
  have ht := straight_sq e1 e2
  have hbR := mul_pos hR hb
  have htT : t < T := by
    have h : t ^ 2 < T ^ 2 := by rw [ht, hT]; nlinarith
    exact lt_of_pow_lt_pow_left₀ 2 T0 h
  have haT : 0 < a + T := by
    have h : a ^ 2 < T ^ 2 := by rw [hT]; nlinarith
    have := abs_lt_of_sq_lt_sq h T0
    linarith [(abs_lt.mp this).1]
  have hDpi : π < D := by
    by_contra hn
    have s2 : 0 < sin (D / 2) := sin_pos_of_pos_of_lt_pi (by linarith) (by linarith)
    have c2 : 0 ≤ cos (D / 2) := cos_nonneg_of_neg_pi_div_two_le_of_le (by linarith) (by linarith)
    have := half_angle_eq E1 E2
    have := mul_pos haT s2
    nlinarith
  rcases le_or_gt d π with hd | hd
  · have hid : R * D + T - (R * d + t) = T * (1 - cos (D + d))
        + R * ((D - d) + 2 * sin d - sin (D + d)) := by
      have hp := sin_sq_add_cos_sq d
      rw [cos_add, sin_add]
      have q1 : t = a * cos d + b * sin d - R * sin d := by
        rw [e1, e2]; linear_combination (-t) * hp
      linear_combination -q1 - cos d * E1 + sin d * E2
    have k1 : 0 ≤ T * (1 - cos (D + d)) := mul_nonneg T0 (by linarith [cos_le_one (D + d)])
    have k2 : sin (D + d) < D - π - sin d := by
      have h := sin_sub_sin (D + d) (π + d)
      rw [show (D + d - (π + d)) / 2 = (D - π) / 2 by ring, add_comm π d, sin_add_pi] at h
      have s1 : 0 < sin ((D - π) / 2) := sin_pos_of_pos_of_lt_pi (by linarith) (by linarith)
      have s2 : sin ((D - π) / 2) < (D - π) / 2 := sin_lt (by linarith)
      have := mul_le_mul_of_nonneg_left (cos_le_one ((D + d + (d + π)) / 2)) s1.le
      linarith
    have k3 : 0 ≤ sin d := sin_nonneg_of_nonneg_of_le_pi d0.le hd
    have := mul_pos hR (show 0 < (D - d) + 2 * sin d - sin (D + d) by linarith)
    linarith
  · have hp : (2 * π - d + (2 * π - D)) / 2 - ((2 * π - D) - (2 * π - d)) / 2 = 2 * π - d := by ring
    have hm : (2 * π - d + (2 * π - D)) / 2 + ((2 * π - D) - (2 * π - d)) / 2 = 2 * π - D := by ring
    have := away_longer_behind (R := R) (t := t) (T := T) (b := b) (a := a)
      (p := (2 * π - d + (2 * π - D)) / 2) (x := ((2 * π - D) - (2 * π - d)) / 2) hR hb htT
      (by linarith) (by linarith) (by linarith) (by linarith) (by linarith)
      (by rw [hp, sin_two_pi_sub, cos_two_pi_sub]; linarith)
      (by rw [hp, sin_two_pi_sub, cos_two_pi_sub]; linarith)
      (by rw [hm, sin_two_pi_sub, cos_two_pi_sub]; linarith)
      (by rw [hm, sin_two_pi_sub, cos_two_pi_sub]; linarith) (by linarith)
    rw [hp, hm] at this
    linarith

/-- Full turns left out of a curve. -/
theorem reduce_turns {D : ℝ} (hD : 0 ≤ D) :
    ∃ D', 0 ≤ D' ∧ D' < 2 * π ∧ D' ≤ D ∧ sin D' = sin D ∧ cos D' = cos D := by
  have h2 : 0 < 2 * π := two_pi_pos
  refine ⟨D - ⌊D / (2 * π)⌋ * (2 * π), ?_, ?_, ?_, sin_sub_int_mul_two_pi _ _,
    cos_sub_int_mul_two_pi _ _⟩
  · have := (le_div_iff₀ h2).mp (Int.floor_le (D / (2 * π)))
    linarith
  · have := (div_lt_iff₀ h2).mp (Int.lt_floor_add_one (D / (2 * π)))
    linarith
  · have h0 : (0 : ℤ) ≤ ⌊D / (2 * π)⌋ := Int.floor_nonneg.mpr (by positivity)
    have : (0 : ℝ) ≤ (⌊D / (2 * π)⌋ : ℝ) := by exact_mod_cast h0
    nlinarith

/-- C411: the solution for a target `b > 0` to the side, outside the turning circle and not one
diameter to the side, is not longer than any path that leaves the start in its direction, follows
any circle of the given radius there for any length, and then goes straight to the target; and
it is the only one of its length. -/
theorem C411_shortest {pos1 vec1 u posT : V3} {a b R : ℝ} (hv : vec1.IsUnit)
    (hu : u.IsUnit) (ho : V3.dot vec1 u = 0) (hR : 0 < R) (hb : 0 < b) (hbR : b ≠ 2 * R)
    (h : posT = pos1 + a • vec1 + b • u) (hout : R ≤ V3.norm (posT - (pos1 + R • u))) :
    ∃ o, solveCurveHold pos1 vec1 posT R = some o ∧
      ∀ (L T : ℝ) (pos2 vec2 : V3), 0 ≤ L → ArcTo R L pos1 vec1 pos2 vec2 →
        StraightTo T pos2 vec2 posT →
          o.md ≤ L + T ∧ (L + T = o.md → L = o.distCurve ∧ T = o.tangent) := by
  have hq := (outside_iff hv hu ho hR h).mp hout
  obtain ⟨o, k, -, -, -, -, kd, -⟩ := curveHold_reaches hv hu ho hR hb hbR h hq
  refine ⟨o, by rw [solveCurveHold, distBatch_eq hv hu ho hb.le h, k], ?_⟩
  obtain ⟨i1, i2, i3, i4, i5, i6⟩ := curveHold_in_plane hv hu ho hR hb hbR h hq k
  rintro L T pos2 vec2 hL ⟨γ, τ, ν, hc, h0, ht, rfl, rfl⟩ hT
  have hd := circular_disp hR hc L
  have htan := hc.tan_eq L
  have hw : (ν 0).IsUnit := hc.unit_nor 0
  have hvw : V3.dot vec1 (ν 0) = 0 := by rw [← ht]; exact hc.ortho 0
  rw [h0, ht] at hd
  rw [ht, show 1 / R * L = L / R by ring] at htan
  have hpos : a • vec1 + b • u = (R * sin (L / R) + T * cos (L / R)) • vec1
      + (R * (1 - cos (L / R)) + T * sin (L / R)) • ν 0 := by
    have e1 : posT - pos1 = a • vec1 + b • u := by rw [h]; abel
    have e2 : posT - pos1 = (γ L - pos1) + T • τ L := by rw [hT.2]; abel
    rw [← e1, e2, hd, htan]
    ext <;> simp <;> ring
  obtain ⟨E1, E2⟩ := offaxis_eq hu hw ho hvw hv hpos
  obtain ⟨D, D0, D1, D2, hs, hcs⟩ := reduce_turns (show 0 ≤ L / R by positivity)
  rw [← hs, ← hcs] at E1 E2
  have hDpos : 0 < D := by
    refine lt_of_le_of_ne D0 fun h' => ?_
    rw [← h'] at E2
    simp at E2
    exact hb.ne' E2
  have hRD : R * D ≤ L := by
    have := mul_le_mul_of_nonneg_left D2 hR.le
    rwa [mul_div_cancel₀ _ hR.ne'] at this
  rw [i4]
  rcases sq_eq_sq_iff_eq_or_eq_neg.mp E2 with e | e
  · obtain ⟨x, y⟩ := toward_unique hb i1 i2 hDpos D1 i3 hT.1 i5 i6 E1 e
    rw [kd, x, y]
    exact ⟨by linarith, fun hh => ⟨by linarith, rfl⟩⟩
  · have := away_longer hR hb i1 i2 hDpos D1 i3 hT.1 i5 i6 E1 (by linarith)
    exact ⟨by linarith, fun hh => absurd hh (by linarith)⟩

/-- C411 hypotheses: a target 3 behind and 1 to the side of a vertical well, radius 1, which is
reached by more than half a turn either way. -/
example : ∃ o, solveCurveHold 0 ⟨0, 0, 1⟩ ⟨1, 0, -3⟩ 1 = some o ∧
      ∀ (L T : ℝ) (pos2 vec2 : V3), 0 ≤ L → ArcTo 1 L 0 ⟨0, 0, 1⟩ pos2 vec2 →
        StraightTo T pos2 vec2 ⟨1, 0, -3⟩ →
          o.md ≤ L + T ∧ (L + T = o.md → L = o.distCurve ∧ T = o.tangent) := by
  have hv : (⟨0, 0, 1⟩ : V3).IsUnit := by norm_num [V3.IsUnit, V3.dot]
  have hu : (⟨1, 0, 0⟩ : V3).IsUnit := by norm_num [V3.IsUnit, V3.dot]
  have ho : V3.dot (⟨0, 0, 1⟩ : V3) ⟨1, 0, 0⟩ = 0 := by norm_num [V3.dot]
  have h : (⟨1, 0, -3⟩ : V3) = 0 + (-3 : ℝ) • (⟨0, 0, 1⟩ : V3) + (1 : ℝ) • ⟨1, 0, 0⟩ := by
    ext <;> simp
  refine C411_shortest hv hu ho one_pos one_pos (by norm_num) h ?_
  rw [outside_iff hv hu ho (by norm_num) h]
  norm_num

end Welleng.Props
