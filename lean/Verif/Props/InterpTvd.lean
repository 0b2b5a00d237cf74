import Verif.Lemmas.Bisect
import Verif.Model.InterpTvd
import Verif.Props.Interpolate
import Verif.Props.Toolface
import Verif.Lemmas.Connector
import Mathlib.Topology.Order.IntermediateValue

/-!
C113, C114: interpolation at a vertical depth (`/repo/welleng/survey.py` 1949-2066).
-/

namespace Welleng.Props

open Real Welleng Spec Tvd Con

/-! ### The angle equation -/

theorem sin_tidyUp (d : ℝ) : sin (tidyUp d) = sin d := by
  unfold tidyUp; split_ifs
  · exact sin_pmod d
  · rfl

theorem cos_tidyUp (d : ℝ) : cos (tidyUp d) = cos d := by
  unfold tidyUp; split_ifs
  · exact cos_pmod d
  · rfl

/-- Both candidates solve the equation, unless `b + c = 0`. -/
theorem half_angle_solves {a b c e : ℝ} (he : e ^ 2 = a ^ 2 + b ^ 2 - c ^ 2) (hp : b + c ≠ 0) :
    a * sin (2 * atan2 (a + e) (b + c)) + b * cos (2 * atan2 (a + e) (b + c)) = c := by
  have h : b + c ≠ 0 ∨ a + e ≠ 0 := Or.inl hp
  rw [sin_two_atan2 h, cos_two_atan2 h]
  have hq : 0 < (b + c) ^ 2 + (a + e) ^ 2 := by positivity
  have hq' := hq.ne'
  generalize hQ : (b + c) ^ 2 + (a + e) ^ 2 = Q at *
  field_simp
  linear_combination c * hQ - (b + c) * he

theorem solveAngle_solves {a b c d : ℝ} (h : solveAngle a b c = .ok d) (hp : b + c ≠ 0) :
    0 ≤ d ∧ a * sin d + b * cos d = c := by
  unfold solveAngle at h
  simp only at h
  split_ifs at h with h0 h1 h2 h3
  all_goals simp only [Except.ok.injEq] at h
  all_goals
    have hs : √(a ^ 2 + b ^ 2 - c ^ 2) ^ 2 = a ^ 2 + b ^ 2 - c ^ 2 := sq_sqrt (not_lt.mp h0)
    have e1 := half_angle_solves hs hp
    have e2 := half_angle_solves (a := a) (b := b) (c := c) (e := -√(a ^ 2 + b ^ 2 - c ^ 2))
      (by rw [neg_sq]; exact hs) hp
    rw [← sub_eq_add_neg] at e2
    rw [← sin_tidyUp, ← cos_tidyUp] at e1 e2
  · subst h
    exact ⟨h1.resolve_left (not_le.mpr h2), e2⟩
  · subst h
    exact ⟨not_lt.mp h2, e1⟩
  · rw [← h]
    refine ⟨le_min (not_lt.mp h2) (not_lt.mp h3), ?_⟩
    rcases min_choice (tidyUp (2 * atan2 (a + √(a ^ 2 + b ^ 2 - c ^ 2)) (b + c)))
      (tidyUp (2 * atan2 (a - √(a ^ 2 + b ^ 2 - c ^ 2)) (b + c))) with h' | h' <;> rw [h']
    · exact e1
    · exact e2

/-- A multiple of a half-angle direction gives the angle back. -/
theorem tidyUp_half {p s : ℝ} (hp : p ≠ 0) (h0 : 0 ≤ s) (h1 : s < π) :
    tidyUp (2 * atan2 (p * tan (s / 2)) p) = s := by
  have hpi := pi_pos
  have hc : 0 < cos (s / 2) := cos_pos_of_mem_Ioo ⟨by linarith, by linarith⟩
  rcases hp.lt_or_gt with hneg | hpos
  · have hr : 0 < -p / cos (s / 2) := div_pos (by linarith) hc
    have h := atan2_mul_sin_cos hr (s / 2 + π)
    rw [sin_add_pi, cos_add_pi] at h
    have e1 : -p / cos (s / 2) * -sin (s / 2) = p * tan (s / 2) := by
      rw [tan_eq_sin_div_cos]; field_simp
    have e2 : -p / cos (s / 2) * -cos (s / 2) = p := by field_simp
    rw [e1, e2] at h
    rw [h]
    rcases h0.eq_or_lt with h0 | h0
    · subst h0
      have : toIocMod two_pi_pos (-π) (0 / 2 + π) = π := by
        rw [zero_div, zero_add]
        exact (toIocMod_eq_self _).mpr ⟨by linarith, by linarith⟩
      rw [this]
      unfold tidyUp
      rw [if_pos (by rw [abs_of_pos (by linarith)]; linarith)]
      have := pmod_add_int_mul 0 two_pi_pos 1
      rw [Int.cast_one, one_mul, zero_add] at this
      rw [this]
      exact pmod_eq_self two_pi_pos le_rfl two_pi_pos
    · have : toIocMod two_pi_pos (-π) (s / 2 + π) = s / 2 - π := by
        rw [show s / 2 + π = (s / 2 - π) + (1 : ℤ) • (2 * π) by simp; ring, toIocMod_add_zsmul]
        exact (toIocMod_eq_self _).mpr ⟨by linarith, by linarith⟩
      rw [this]
      unfold tidyUp
      rw [if_pos (by rw [abs_of_neg (by linarith)]; linarith)]
      have := pmod_add_int_mul s two_pi_pos (-1)
      rw [show 2 * (s / 2 - π) = s + ((-1 : ℤ) : ℝ) * (2 * π) by push_cast; ring, this]
      exact pmod_eq_self two_pi_pos h0.le (by linarith)
  · have hr : 0 < p / cos (s / 2) := div_pos hpos hc
    have h := atan2_mul_sin_cos hr (s / 2)
    have e1 : p / cos (s / 2) * sin (s / 2) = p * tan (s / 2) := by
      rw [tan_eq_sin_div_cos]; field_simp
    have e2 : p / cos (s / 2) * cos (s / 2) = p := by field_simp
    rw [e1, e2, (toIocMod_eq_self _).mpr ⟨by linarith, by linarith⟩] at h
    rw [h]
    unfold tidyUp
    rw [if_neg (by rw [abs_of_nonneg (by linarith)]; linarith)]
    ring

/-- If the equation has a solution `s` in `[0, π)`, the code finds one not larger. -/
theorem solveAngle_complete {a b c s : ℝ} (h0 : 0 ≤ s) (h1 : s < π)
    (hs : a * sin s + b * cos s = c) : ∃ d, solveAngle a b c = .ok d ∧ 0 ≤ d ∧ d ≤ s := by
  have hpi := pi_pos
  have hc : 0 < cos (s / 2) := cos_pos_of_mem_Ioo ⟨by linarith, by linarith⟩
  -- the radicand is not negative
  have hdisc : a ^ 2 + b ^ 2 - c ^ 2 = (a * cos s - b * sin s) ^ 2 := by
    have := sin_sq_add_cos_sq s
    rw [← hs]
    linear_combination (-(a ^ 2 + b ^ 2)) * this
  have hnn : ¬ (a ^ 2 + b ^ 2 - c ^ 2 < 0) := by rw [hdisc]; exact not_lt.mpr (sq_nonneg _)
  set e := √(a ^ 2 + b ^ 2 - c ^ 2) with he
  have he2 : e ^ 2 = a ^ 2 + b ^ 2 - c ^ 2 := sq_sqrt (not_lt.mp hnn)
  have key : tidyUp (2 * atan2 (a + e) (b + c)) = s ∨ tidyUp (2 * atan2 (a - e) (b + c)) = s ∨
      (tidyUp (2 * atan2 (a + e) (b + c)) = 0 ∨ tidyUp (2 * atan2 (a - e) (b + c)) = 0) := by
    by_cases hp : b + c = 0
    · right; right
      have hcb : c = -b := by linarith
      have : e = |a| := by
        rw [he, hcb, show a ^ 2 + b ^ 2 - (-b) ^ 2 = a ^ 2 by ring, sqrt_sq_eq_abs]
      have hz : tidyUp (2 * atan2 0 0) = 0 := by
        have : atan2 0 0 = 0 := by unfold atan2; exact Complex.arg_zero
        rw [this, mul_zero]
        unfold tidyUp
        rw [if_neg (by rw [abs_zero]; linarith)]
      rcases le_total 0 a with ha | ha
      · right
        rw [this, abs_of_nonneg ha, sub_self, hp]; exact hz
      · left
        rw [this, abs_of_nonpos ha, add_neg_cancel, hp]; exact hz
    · have hu : ((b + c) * tan (s / 2) - a) ^ 2 = e ^ 2 := by
        have k1 := sin_two_mul (s / 2)
        have k2 := cos_two_mul (s / 2)
        have k3 := sin_sq_add_cos_sq (s / 2)
        rw [show 2 * (s / 2) = s by ring] at k1 k2
        rw [he2, tan_eq_sin_div_cos]
        have hc' := hc.ne'
        field_simp
        rw [k1, k2] at hs
        generalize cos (s / 2) = C at *
        generalize sin (s / 2) = S at *
        have hS : S ^ 2 = 1 - C ^ 2 := by linarith
        linear_combination (2 * (b + c) ^ 2 - (b + c) * b) * k3 + (-(b + c)) * hs
          + (-(b + c) * c) * k3
      rcases sq_eq_sq_iff_eq_or_eq_neg.mp hu with h | h
      · left
        have : a + e = (b + c) * tan (s / 2) := by linarith
        rw [this]; exact tidyUp_half hp h0 h1
      · right; left
        have : a - e = (b + c) * tan (s / 2) := by linarith
        rw [this]; exact tidyUp_half hp h0 h1
  unfold solveAngle
  simp only
  rw [if_neg hnn, ← he]
  generalize tidyUp (2 * atan2 (a + e) (b + c)) = d1 at *
  generalize tidyUp (2 * atan2 (a - e) (b + c)) = d2 at *
  have hor : d1 ≥ 0 ∨ d2 ≥ 0 := by
    rcases key with h | h | h | h
    · left; linarith
    · right; linarith
    · left; linarith
    · right; linarith
  rw [if_pos hor]
  refine ⟨_, rfl, ?_⟩
  split_ifs with h2 h3
  · refine ⟨hor.resolve_left (not_le.mpr h2), ?_⟩
    rcases key with h | h | h | h <;> linarith
  · refine ⟨not_lt.mp h2, ?_⟩
    rcases key with h | h | h | h <;> linarith
  · refine ⟨le_min (not_lt.mp h2) (not_lt.mp h3), ?_⟩
    rcases key with h | h | h | h
    · exact (min_le_left _ _).trans h.le
    · exact (min_le_right _ _).trans h.le
    · exact (min_le_left _ _).trans (by linarith)
    · exact (min_le_right _ _).trans (by linarith)

/-! ### The depth along one interval -/

/-- Vertical part of the step to a point inside an interval. -/
theorem interp_step_z {s1 s2 : Station} (hL : s1.md < s2.md) (h0 : dogleg2 s1 s2 ≠ 0)
    (hpi : dogleg2 s1 s2 < π) {x : ℝ} (hx0 : 0 ≤ x) (hx1 : x ≤ s2.md - s1.md) :
    (minCurveStep x s1.inc s1.azi (interpAngles s1 s2 x).1 (interpAngles s1 s2 x).2).z
      = (s2.md - s1.md) / (dogleg2 s1 s2 * sin (dogleg2 s1 s2)) *
        (cos s1.inc * sin (dogleg2 s1 s2) * sin (x * dogleg2 s1 s2 / (s2.md - s1.md))
          + (cos s1.inc * cos (dogleg2 s1 s2) - cos s2.inc)
            * (cos (x * dogleg2 s1 s2 / (s2.md - s1.md)) - 1)) := by
  obtain ⟨γ, τ, ν, hc, g0, t0, tL, ts⟩ := interp_on_arc hL h0 hpi
  have hd0 : 0 < dogleg2 s1 s2 := lt_of_le_of_ne (getDogleg_nonneg ..) (Ne.symm h0)
  have hLp : 0 < s2.md - s1.md := by linarith
  have hκ : 0 < dogleg2 s1 s2 / (s2.md - s1.md) := div_pos hd0 hLp
  have hkL : dogleg2 s1 s2 / (s2.md - s1.md) * (s2.md - s1.md) = dogleg2 s1 s2 := by field_simp
  have hsin := sin_pos_of_pos_of_lt_pi hd0 hpi
  have e1 := arc_end hc g0 hκ.le hx0 (lt_of_le_of_lt
    ((mul_le_mul_of_nonneg_left hx1 hκ.le).trans hkL.le) hpi) t0 (ts x)
  have hν := hc.tan_eq (s2.md - s1.md)
  rw [hkL, tL, t0] at hν
  have hνz := congrArg V3.z hν
  simp only [V3.add_z, V3.smul_z, tangent] at hνz
  rw [← e1, hc.pos_eq hκ.ne' g0, t0]
  simp only [V3.add_z, V3.smul_z, tangent]
  have ex : dogleg2 s1 s2 / (s2.md - s1.md) * x = x * dogleg2 s1 s2 / (s2.md - s1.md) := by ring
  rw [ex]
  have hnz : (ν 0).z = (cos s2.inc - cos (dogleg2 s1 s2) * cos s1.inc) / sin (dogleg2 s1 s2) := by
    field_simp; linarith
  rw [hnz]
  generalize cos (x * dogleg2 s1 s2 / (s2.md - s1.md)) = C
  generalize sin (x * dogleg2 s1 s2 / (s2.md - s1.md)) = S
  have := hsin.ne'
  field_simp
  ring

/-- In a curved interval the code's equation says that the depth is reached. -/
theorem depth_iff {s1 s2 : Station} (hL : s1.md < s2.md) (h0 : dogleg2 s1 s2 ≠ 0)
    (hpi : dogleg2 s1 s2 < π) {d dt e : ℝ} (he : e ≠ 0) (hd0 : 0 ≤ d) (hd1 : d ≤ dogleg2 s1 s2) :
    (let x := d / dogleg2 s1 s2 * (s2.md - s1.md)
     (minCurveStep x s1.inc s1.azi (interpAngles s1 s2 x).1 (interpAngles s1 s2 x).2).z = dt) ↔
    (let k := coeffs e (cos s1.inc) (cos s2.inc) (dogleg2 s1 s2) dt (s2.md - s1.md)
     k.1 * sin d + k.2.1 * cos d = k.2.2) := by
  have hdp : 0 < dogleg2 s1 s2 := lt_of_le_of_ne (getDogleg_nonneg ..) (Ne.symm h0)
  have hLp : 0 < s2.md - s1.md := by linarith
  have hsin := sin_pos_of_pos_of_lt_pi hdp hpi
  simp only [coeffs]
  rw [interp_step_z hL h0 hpi (by positivity) (by
    rw [div_mul_eq_mul_div, div_le_iff₀ hdp, mul_comm]
    exact mul_le_mul_of_nonneg_left hd1 hLp.le)]
  have hu : d / dogleg2 s1 s2 * (s2.md - s1.md) * dogleg2 s1 s2 / (s2.md - s1.md) = d := by
    field_simp
  rw [hu]
  generalize dogleg2 s1 s2 = D at *
  generalize s2.md - s1.md = L at *
  have h1 := hLp.ne'
  have h2 := hsin.ne'
  constructor
  · rintro rfl
    field_simp
    ring
  · intro h
    rw [div_mul_eq_mul_div, div_eq_iff (by positivity)]
    have h3 : e * (cos s1.inc * sin D * sin d + (cos s1.inc * cos D - cos s2.inc) * (cos d - 1))
        = e * (dt * D * sin D / L) := by linear_combination h
    have h4 := mul_left_cancel₀ he h3
    rw [h4]
    field_simp

theorem getVec_z (i a : ℝ) : (getVec i a true).z = cos i := by
  rw [getVec_nev]; rfl

/-- The depth of the point of the interval's circle opposite its upper station, below that
station. -/
noncomputable def oppositeDepth (s1 s2 : Station) : ℝ :=
  2 * ((s2.md - s1.md) / dogleg2 s1 s2)
    * ((cos s2.inc - cos s1.inc * cos (dogleg2 s1 s2)) / sin (dogleg2 s1 s2))

/-- The distance found is where the interval has the requested depth. -/
theorem distance_depth {s1 s2 : Station} (hL : s1.md < s2.md) (hpi : dogleg2 s1 s2 < π)
    {e z1 z2 tvd x : ℝ} (he : e ≠ 0)
    (hz : z2 - z1 = (minCurveStep (s2.md - s1.md) s1.inc s1.azi s2.inc s2.azi).z)
    (hop : dogleg2 s1 s2 ≠ 0 → tvd - z1 ≠ oppositeDepth s1 s2)
    (h : distance e s1 s2 z1 z2 tvd = .ok x) :
    z1 + (minCurveStep x s1.inc s1.azi (interpAngles s1 s2 x).1 (interpAngles s1 s2 x).2).z
      = tvd := by
  have hLp : 0 < s2.md - s1.md := by linarith
  unfold distance at h
  simp only [getVec_z] at h
  by_cases h0 : dogleg2 s1 s2 = 0
  · rw [if_pos h0] at h
    split_ifs at h with hz0
    simp only [Except.ok.injEq] at h
    have ht := tangent_eq_of_dogleg_zero h0
    have hi : interpAngles s1 s2 x = (s1.inc, s1.azi) := by unfold interpAngles; rw [if_pos h0]
    rw [hi]
    simp only
    rw [minCurveStep_same rfl]
    rw [minCurveStep_same ht] at hz
    simp only [V3.smul_z, tangent] at hz ⊢
    rw [← h]
    rw [hz] at hz0 ⊢
    have hc : cos s1.inc ≠ 0 := right_ne_zero_of_mul hz0
    have hLn := hLp.ne'
    field_simp
    ring
  · rw [if_neg h0] at h
    split at h
    · cases h
    · rename_i d hd
      split_ifs at h with hx
      simp only [Except.ok.injEq] at h
      have hdp : 0 < dogleg2 s1 s2 := lt_of_le_of_ne (getDogleg_nonneg ..) (Ne.symm h0)
      have hsin := sin_pos_of_pos_of_lt_pi hdp hpi
      obtain ⟨d0, deq⟩ := solveAngle_solves hd (by
        simp only [coeffs]
        intro hb
        apply hop h0
        unfold oppositeDepth
        have h3 : e * ((tvd - z1) * dogleg2 s1 s2 * sin (dogleg2 s1 s2) / (s2.md - s1.md))
            = e * (2 * (cos s2.inc - cos s1.inc * cos (dogleg2 s1 s2))) := by
          linear_combination hb
        have h4 := mul_left_cancel₀ he h3
        have h1 := hLp.ne'
        have h2 := hsin.ne'
        field_simp at h4 ⊢
        linarith)
      have hd1 : d ≤ dogleg2 s1 s2 := by
        rw [div_mul_eq_mul_div, div_le_iff₀ hdp, mul_comm] at hx
        exact le_of_mul_le_mul_left hx hLp
      have := (depth_iff hL h0 hpi he d0 hd1).mpr deq
      simp only at this
      rw [h] at this
      rw [this]; ring

/-- If the requested depth lies between the depths of the two stations, a distance between them
is found. -/
theorem distance_complete {s1 s2 : Station} (hL : s1.md < s2.md) (hpi : dogleg2 s1 s2 < π)
    {z1 z2 tvd : ℝ}
    (hz : z2 - z1 = (minCurveStep (s2.md - s1.md) s1.inc s1.azi s2.inc s2.azi).z)
    (h1 : z1 ≤ tvd) (h2 : tvd ≤ z2) (h12 : z1 < z2) :
    ∃ x, distance 1 s1 s2 z1 z2 tvd = .ok x ∧ 0 ≤ x ∧ x ≤ s2.md - s1.md := by
  have hLp : 0 < s2.md - s1.md := by linarith
  unfold distance
  simp only [getVec_z]
  by_cases h0 : dogleg2 s1 s2 = 0
  · rw [if_pos h0, if_neg (by linarith)]
    have hq : 0 ≤ (tvd - z1) / (z2 - z1) := div_nonneg (by linarith) (by linarith)
    have hq1 : (tvd - z1) / (z2 - z1) ≤ 1 := by rw [div_le_one (by linarith)]; linarith
    exact ⟨_, rfl, mul_nonneg hq hLp.le, by nlinarith⟩
  · rw [if_neg h0]
    have hdp : 0 < dogleg2 s1 s2 := lt_of_le_of_ne (getDogleg_nonneg ..) (Ne.symm h0)
    -- somewhere in the interval the depth is reached
    set F : ℝ → ℝ := fun d => cos s1.inc * sin (dogleg2 s1 s2) * sin d
      + (cos s1.inc * cos (dogleg2 s1 s2) - cos s2.inc) * (cos d - 1) with hF
    have hcont : ContinuousOn F (Set.Icc 0 (dogleg2 s1 s2)) := by
      apply Continuous.continuousOn; rw [hF]; fun_prop
    have hsin := sin_pos_of_pos_of_lt_pi hdp hpi
    have hF0 : F 0 = 0 := by simp [hF]
    obtain ⟨γ, τ, ν, hc, g0, t0, tL, ts⟩ := interp_on_arc hL h0 hpi
    have hκ : 0 ≤ dogleg2 s1 s2 / (s2.md - s1.md) := (div_pos hdp hLp).le
    have hkL : dogleg2 s1 s2 / (s2.md - s1.md) * (s2.md - s1.md) = dogleg2 s1 s2 := by field_simp
    have hFd : F (dogleg2 s1 s2)
        = (z2 - z1) * (dogleg2 s1 s2 * sin (dogleg2 s1 s2)) / (s2.md - s1.md) := by
      have e3 := arc_end hc g0 hκ hLp.le (by rw [hkL]; exact hpi) t0 tL
      have e4 := arc_end hc g0 hκ hLp.le (by rw [hkL]; exact hpi) t0 (ts (s2.md - s1.md))
      have e5 := interp_step_z hL h0 hpi hLp.le le_rfl
      rw [← e4, e3, ← hz] at e5
      rw [e5, mul_div_cancel_left₀ _ hLp.ne']
      have := hLp.ne'
      have := hsin.ne'
      rw [hF]
      field_simp
    have hmem : (tvd - z1) * (dogleg2 s1 s2 * sin (dogleg2 s1 s2)) / (s2.md - s1.md)
        ∈ Set.Icc (F 0) (F (dogleg2 s1 s2)) := by
      rw [hF0, hFd]
      have hp : 0 ≤ dogleg2 s1 s2 * sin (dogleg2 s1 s2) := (mul_pos hdp hsin).le
      exact ⟨div_nonneg (mul_nonneg (by linarith) hp) hLp.le,
        div_le_div_of_nonneg_right (mul_le_mul_of_nonneg_right (by linarith) hp) hLp.le⟩
    obtain ⟨s, ⟨hs0, hs1⟩, hs⟩ := intermediate_value_Icc hdp.le hcont hmem
    obtain ⟨d, hd, d0, d1⟩ := solveAngle_complete
      (a := (coeffs 1 (cos s1.inc) (cos s2.inc) (dogleg2 s1 s2) (tvd - z1) (s2.md - s1.md)).1)
      (b := (coeffs 1 (cos s1.inc) (cos s2.inc) (dogleg2 s1 s2) (tvd - z1) (s2.md - s1.md)).2.1)
      (c := (coeffs 1 (cos s1.inc) (cos s2.inc) (dogleg2 s1 s2) (tvd - z1) (s2.md - s1.md)).2.2)
      hs0 (lt_of_le_of_lt hs1 hpi) (by
        simp only [coeffs]
        rw [hF] at hs
        simp only at hs
        linear_combination hs)
    rw [hd]
    simp only
    have hx : d / dogleg2 s1 s2 * (s2.md - s1.md) ≤ s2.md - s1.md := by
      have : d / dogleg2 s1 s2 ≤ 1 := by rw [div_le_one hdp]; linarith
      nlinarith
    rw [if_pos hx]
    exact ⟨_, rfl, mul_nonneg (div_nonneg d0 hdp.le) hLp.le, hx⟩

/-! ### Whole surveys -/

variable {st : List Station} {sx sn : V3} {u : LenUnit} {sv : SurveyG} {xyz : List V3}

/-- What a returned node is made of. -/
theorem interpolateTvd_inv {f : ℕ → V3} {tvd : ℝ} {node : NodeOut}
    (hn : interpolateTvd sv f tvd = .ok node) :
    ∃ i e s1 s2 p1 p2 x, interval (sv.nev.map V3.z) tvd = (i, e) ∧ sv.st[i]? = some s1 ∧
      sv.st[i + 1]? = some s2 ∧ sv.nev[i]? = some p1 ∧ sv.nev[i + 1]? = some p2 ∧
      distance e s1 s2 p1.z p2.z tvd = .ok x ∧ node.md = s1.md + x ∧
      node.pos = interpPosNev p1 s1 s2 x ∧
      node.vec = tangent (interpAngles s1 s2 x).1 (interpAngles s1 s2 x).2 := by
  unfold interpolateTvd at hn
  simp only at hn
  split at hn
  · rename_i s1 s2 p1 p2 e1 e2 e3 e4
    split at hn
    · cases hn
    · rename_i x hx
      obtain ⟨nd, hnd, n1, n2, n3, n4⟩ := interpolateSurvey_some (sv := sv)
        (f (interval (sv.nev.map V3.z) tvd).1) x e1 e2 e3
      rw [hnd] at hn
      simp only [Except.ok.injEq] at hn
      subst hn
      exact ⟨_, _, s1, s2, p1, p2, x, rfl, e1, e2, e3, e4, hx, n1, n3, n2⟩
  · cases hn

theorem interval_coeff (tvds : List ℝ) (tvd : ℝ) : (interval tvds tvd).2 ≠ 0 := by
  unfold interval; simp only; split_ifs <;> norm_num

/-- Vertical distance between neighbouring stations. -/
theorem nev_step_z (h : surveyG st sx sn u = .ok (sv, xyz)) {i : ℕ} {s1 s2 : Station}
    {p1 p2 : V3} (e1 : st[i]? = some s1) (e2 : st[i + 1]? = some s2)
    (e3 : sv.nev[i]? = some p1) (e4 : sv.nev[i + 1]? = some p2) :
    p2.z - p1.z = (minCurveStep (s2.md - s1.md) s1.inc s1.azi s2.inc s2.azi).z := by
  obtain ⟨-, hxyz, hnev, -⟩ := surveyG_st h
  rw [hnev, List.getElem?_map, Option.map_eq_some_iff] at e3 e4
  obtain ⟨q1, hq1, rfl⟩ := e3
  obtain ⟨q2, hq2, rfl⟩ := e4
  rw [hxyz] at hq1 hq2
  have := positions_step sx st e1 e2 hq1
  rw [hq2, Option.some.injEq] at this
  subst this
  simp [getNev, deltaXyz_eq, swap]

/-- C113 (partial): a returned node is at the requested vertical depth, unless that depth is the
depth of the point of the interval's circle opposite its upper station. -/
theorem C113_depth_partial (h : surveyG st sx sn u = .ok (sv, xyz)) (f : ℕ → V3)
    (hsort : ∀ i a b, st[i]? = some a → st[i + 1]? = some b → a.md < b.md)
    (hpi : ∀ i a b, st[i]? = some a → st[i + 1]? = some b → dogleg2 a b < π) {tvd : ℝ}
    (hop : ∀ i a b p, st[i]? = some a → st[i + 1]? = some b → sv.nev[i]? = some p →
      dogleg2 a b ≠ 0 → tvd - p.z ≠ oppositeDepth a b)
    {node : NodeOut} (hn : interpolateTvd sv f tvd = .ok node) : node.pos.z = tvd := by
  obtain ⟨i, e, s1, s2, p1, p2, x, hi, e1, e2, e3, e4, hx, -, hp, -⟩ := interpolateTvd_inv hn
  have hst := (surveyG_st h).1
  have he : e ≠ 0 := by have := interval_coeff (sv.nev.map V3.z) tvd; rw [hi] at this; exact this
  rw [hp, interpPosNev]
  rw [hst] at e1 e2
  exact distance_depth (hsort i _ _ e1 e2) (hpi i _ _ e1 e2) he (nev_step_z h e1 e2 e3 e4)
    (hop i _ _ _ e1 e2 e3) hx

/-- Where the search lands on any list for a depth from the first entry to above the last. -/
theorem interval_bracket_any {tvds : List ℝ} {tvd lo hi : ℝ}
    (hlo : tvds[0]? = some lo) (hhi : tvds.getLast? = some hi) (h0 : lo ≤ tvd) (h1 : tvd < hi) :
    ∃ i z1 z2, interval tvds tvd = (i, 1) ∧ tvds[i]? = some z1 ∧ tvds[i + 1]? = some z2 ∧
      z1 ≤ tvd ∧ tvd < z2 := by
  obtain ⟨hle, hb, ha⟩ := searchsortedRight_spec tvds tvd
  unfold interval
  simp only
  rw [List.getLast?_eq_getElem?] at hhi
  have hk : searchsortedRight tvds tvd ≠ tvds.length := by
    intro h
    have hn : 0 < tvds.length := List.length_pos_of_ne_nil (by rintro rfl; simp at hlo)
    have := hb hi (by omega) (by rw [h]; exact hhi)
    linarith
  have hk0 : searchsortedRight tvds tvd ≠ 0 := by
    intro h
    have := ha lo (by rw [h]; exact hlo)
    linarith
  rw [if_neg hk, if_neg hk0]
  have g1 : tvds[searchsortedRight tvds tvd - 1]?
      = some (tvds[searchsortedRight tvds tvd - 1]'(by omega)) := List.getElem?_eq_getElem _
  have e : searchsortedRight tvds tvd - 1 + 1 = searchsortedRight tvds tvd := by omega
  obtain ⟨z, g2⟩ : ∃ z, tvds[searchsortedRight tvds tvd - 1 + 1]? = some z :=
    ⟨_, List.getElem?_eq_getElem (by omega)⟩
  have g3 := g2
  rw [e] at g3
  exact ⟨_, _, _, rfl, g1, g2, hb _ (by omega) g1, ha _ g3⟩

/-- Where the search lands for a depth inside the range of an ascending list. -/
theorem interval_bracket {tvds : List ℝ} {tvd lo hi : ℝ}
    (hsort : ∀ (i : ℕ) (a b : ℝ), tvds[i]? = some a → tvds[i + 1]? = some b → a < b)
    (h2 : 2 ≤ tvds.length) (hlo : tvds[0]? = some lo) (hhi : tvds.getLast? = some hi)
    (h0 : lo ≤ tvd) (h1 : tvd ≤ hi) :
    ∃ i z1 z2, interval tvds tvd = (i, 1) ∧ tvds[i]? = some z1 ∧ tvds[i + 1]? = some z2 ∧
      z1 ≤ tvd ∧ tvd ≤ z2 ∧ z1 < z2 := by
  rcases h1.lt_or_eq with h1 | h1
  · obtain ⟨i, z1, z2, e, g1, g2, b1, b2⟩ := interval_bracket_any hlo hhi h0 h1
    exact ⟨i, z1, z2, e, g1, g2, b1, b2.le, hsort _ _ _ g1 g2⟩
  · subst h1
    obtain ⟨hle, hb, ha⟩ := searchsortedRight_spec tvds tvd
    have g1 : tvds[tvds.length - 2]? = some (tvds[tvds.length - 2]'(by omega)) :=
      List.getElem?_eq_getElem _
    have g2 : tvds[tvds.length - 2 + 1]? = some tvd := by
      rw [List.getLast?_eq_getElem?] at hhi
      rw [show tvds.length - 2 + 1 = tvds.length - 1 by omega]; exact hhi
    have hlt := hsort _ _ _ g1 g2
    have hk : searchsortedRight tvds tvd = tvds.length := by
      by_contra hne
      have hl : searchsortedRight tvds tvd < tvds.length := by omega
      have h3 := ha _ (List.getElem?_eq_getElem hl)
      have hp : tvds.Pairwise (· < ·) := by
        rw [← List.isChain_iff_pairwise, List.isChain_iff_getElem]
        intro i hi
        exact hsort i _ _ (List.getElem?_eq_getElem _) (List.getElem?_eq_getElem _)
      rw [List.getLast?_eq_getElem?] at hhi
      obtain ⟨hq, hq'⟩ := List.getElem?_eq_some_iff.mp hhi
      rcases (show searchsortedRight tvds tvd ≤ tvds.length - 1 by omega).lt_or_eq with h | h
      · have := List.pairwise_iff_getElem.mp hp _ _ hl hq h
        rw [hq'] at this
        linarith
      · simp only [h, hq'] at h3
        exact lt_irrefl _ h3
    refine ⟨tvds.length - 2, _, tvd, ?_, g1, g2, hlt.le, le_refl _, hlt⟩
    unfold interval
    simp only [hk, if_true]

/-- C114: on a survey whose stations get strictly deeper, every vertical depth from the first to
the last station is found, at a measured depth between two neighbouring stations whose vertical
depths enclose the requested one. -/
theorem C114_found (h : surveyG st sx sn u = .ok (sv, xyz)) (f : ℕ → V3)
    (hsort : ∀ i a b, st[i]? = some a → st[i + 1]? = some b → a.md < b.md)
    (hpi : ∀ i a b, st[i]? = some a → st[i + 1]? = some b → dogleg2 a b < π)
    (hasc : ∀ (i : ℕ) (p q : V3), sv.nev[i]? = some p → sv.nev[i + 1]? = some q → p.z < q.z)
    {first last : V3} (hf : sv.nev[0]? = some first) (hl : sv.nev.getLast? = some last)
    {tvd : ℝ} (h0 : first.z ≤ tvd) (h1 : tvd ≤ last.z) :
    ∃ i s1 s2 p1 p2 node, st[i]? = some s1 ∧ st[i + 1]? = some s2 ∧ sv.nev[i]? = some p1 ∧
      sv.nev[i + 1]? = some p2 ∧ p1.z ≤ tvd ∧ tvd ≤ p2.z ∧
      interpolateTvd sv f tvd = .ok node ∧ s1.md ≤ node.md ∧ node.md ≤ s2.md ∧
      node.vec = tangent (interpAngles s1 s2 (node.md - s1.md)).1
        (interpAngles s1 s2 (node.md - s1.md)).2 ∧
      node.pos = interpPosNev p1 s1 s2 (node.md - s1.md) := by
  obtain ⟨hst, hxyz, hnev, hlen⟩ := surveyG_st h
  have hnl : sv.nev.length = st.length := by rw [hnev, hxyz]; simp [positions_length]
  obtain ⟨i, z1, z2, hi, g1, g2, b1, b2, b3⟩ := interval_bracket (tvds := sv.nev.map V3.z)
    (tvd := tvd) (lo := first.z) (hi := last.z)
    (by
      intro i a b ha hb
      rw [List.getElem?_map, Option.map_eq_some_iff] at ha hb
      obtain ⟨p, hp, rfl⟩ := ha
      obtain ⟨q, hq, rfl⟩ := hb
      exact hasc i p q hp hq)
    (by simp; omega) (by rw [List.getElem?_map, hf]; rfl)
    (by rw [List.getLast?_map, hl]; rfl) h0 h1
  rw [List.getElem?_map, Option.map_eq_some_iff] at g1 g2
  obtain ⟨p1, e3, rfl⟩ := g1
  obtain ⟨p2, e4, rfl⟩ := g2
  have hil : i + 1 < st.length := by
    have := (List.getElem?_eq_some_iff.mp e4).1; omega
  have e1 : st[i]? = some st[i] := List.getElem?_eq_getElem (by omega)
  have e2 : st[i + 1]? = some st[i + 1] := List.getElem?_eq_getElem hil
  obtain ⟨x, hx, x0, x1⟩ := distance_complete (hsort i _ _ e1 e2) (hpi i _ _ e1 e2)
    (nev_step_z h e1 e2 e3 e4) b1 b2 b3
  obtain ⟨nd, hnd, n1, n2, n3, n4⟩ := interpolateSurvey_some (sv := sv) (f i) x
    (by rw [hst]; exact e1) (by rw [hst]; exact e2) e3
  refine ⟨i, _, _, p1, p2, { nd with interpolated := decide (x > 0) }, e1, e2, e3, e4, b1, b2,
    ?_, ?_, ?_, ?_, ?_⟩
  · unfold interpolateTvd
    simp only [hi]
    rw [hst, e1, e2, e3, e4]
    simp only [hx, hnd]
  · simp only [n1]; linarith
  · simp only [n1]; linarith
  · simp only [n1, n2, add_sub_cancel_left]
  · simp only [n1, n3, add_sub_cancel_left]

/-- C115 (partial): a node returned from a curved interval lies between two neighbouring
stations. -/
theorem C115_within_partial (h : surveyG st sx sn u = .ok (sv, xyz)) (f : ℕ → V3)
    (hsort : ∀ i a b, st[i]? = some a → st[i + 1]? = some b → a.md < b.md)
    (hcurved : ∀ i a b, st[i]? = some a → st[i + 1]? = some b → dogleg2 a b ≠ 0) {tvd : ℝ}
    {node : NodeOut} (hn : interpolateTvd sv f tvd = .ok node) :
    ∃ i s1 s2, st[i]? = some s1 ∧ st[i + 1]? = some s2 ∧ s1.md ≤ node.md ∧ node.md ≤ s2.md := by
  obtain ⟨i, e, s1, s2, p1, p2, x, hi, e1, e2, e3, e4, hx, hm, -, -⟩ := interpolateTvd_inv hn
  rw [(surveyG_st h).1] at e1 e2
  refine ⟨i, s1, s2, e1, e2, ?_⟩
  have h0 := hcurved i _ _ e1 e2
  have hL := hsort i _ _ e1 e2
  unfold distance at hx
  simp only at hx
  rw [if_neg h0] at hx
  split at hx
  · cases hx
  · rename_i d hd
    split_ifs at hx with hle
    simp only [Except.ok.injEq] at hx
    have hdp : 0 < dogleg2 s1 s2 := lt_of_le_of_ne (getDogleg_nonneg ..) (Ne.symm h0)
    have d0 : 0 ≤ d := by
      unfold solveAngle at hd
      simp only at hd
      split_ifs at hd with k0 k1 k2 k3
      · simp only [Except.ok.injEq] at hd; rw [← hd]; exact k1.resolve_left (not_le.mpr k2)
      · simp only [Except.ok.injEq] at hd; rw [← hd]; exact not_lt.mp k2
      · simp only [Except.ok.injEq] at hd; rw [← hd]
        exact le_min (not_lt.mp k2) (not_lt.mp k3)
    have : 0 ≤ x := by
      rw [← hx]; exact mul_nonneg (div_nonneg d0 hdp.le) (by linarith)
    rw [hm]
    constructor <;> linarith

/-! ### Witnesses -/

/-- The vertical depths of a two-station survey that starts at the origin. -/
theorem two_station_survey (s1 s2 : Station) : ∃ sv xyz,
    surveyG [s1, s2] 0 0 .meters = .ok (sv, xyz) ∧ sv.st = [s1, s2] ∧
      sv.nev = [0, minCurveStep (s2.md - s1.md) s1.inc s1.azi s2.inc s2.azi] := by
  obtain ⟨sv, xyz, h⟩ : ∃ sv xyz, surveyG [s1, s2] 0 0 .meters = .ok (sv, xyz) := ⟨_, _, rfl⟩
  obtain ⟨h1, h2, h3, -⟩ := surveyG_st h
  refine ⟨sv, xyz, h, h1, ?_⟩
  rw [h3, h2]
  simp only [positions, pairwise, cumsumFrom, List.map_cons, List.map_nil, List.cons.injEq,
    and_true, deltaXyz_eq]
  constructor
  · apply V3.ext <;> simp [getNev]
  · apply V3.ext <;> simp [getNev, swap]

theorem dogleg_w : dogleg2 ⟨0, π / 6, 0⟩ ⟨π / 3, π / 6, π⟩ = π / 3 := by
  unfold dogleg2
  rw [getDogleg_eq_arccos]
  simp only [V3.dot, tangent, cos_zero, sin_zero, cos_pi, sin_pi, cos_pi_div_six, sin_pi_div_six]
  rw [show (1 / 2 * 1 : ℝ) * (1 / 2 * -1) + 1 / 2 * 0 * (1 / 2 * 0) + √3 / 2 * (√3 / 2)
    = 1 / 2 by
      have : √3 * √3 = (3 : ℝ) := mul_self_sqrt (by norm_num)
      linarith, ← cos_pi_div_three]
  have := pi_pos
  exact arccos_cos (by linarith) (by linarith)

theorem step_w : (minCurveStep (π / 3 - 0) (π / 6) 0 (π / 6) π).z = 1 := by
  have hpi := pi_pos
  have hL : (⟨0, π / 6, 0⟩ : Station).md < (⟨π / 3, π / 6, π⟩ : Station).md := by
    show 0 < π / 3; positivity
  have h0 : dogleg2 ⟨0, π / 6, 0⟩ ⟨π / 3, π / 6, π⟩ ≠ 0 := by rw [dogleg_w]; positivity
  have hp : dogleg2 ⟨0, π / 6, 0⟩ ⟨π / 3, π / 6, π⟩ < π := by rw [dogleg_w]; linarith
  have e5 := interp_step_z hL h0 hp (x := π / 3 - 0) (by simp; positivity) le_rfl
  obtain ⟨γ, τ, ν, hc, g0, t0, tL, ts⟩ := interp_on_arc hL h0 hp
  rw [dogleg_w] at hc
  have hk : π / 3 / (π / 3 - 0) = 1 := by rw [sub_zero]; field_simp
  simp only [hk] at hc
  have e3 := arc_end (L := π / 3 - 0) hc g0 (by norm_num) (by simp; positivity)
    (by linarith) t0 tL
  have e4 := arc_end (L := π / 3 - 0) hc g0 (by norm_num) (by simp; positivity)
    (by linarith) t0 (ts _)
  simp only at e3 e4 e5
  rw [← e3, e4, e5, dogleg_w]
  rw [show (π / 3 - 0) * (π / 3) / (π / 3 - 0) = π / 3 by rw [sub_zero]; field_simp]
  rw [sub_zero, sin_pi_div_three, cos_pi_div_three, cos_pi_div_six]
  have : √3 * √3 = (3 : ℝ) := mul_self_sqrt (by norm_num)
  have h3 : (√3 : ℝ) ≠ 0 := by positivity
  field_simp
  nlinarith

/-- C113 is false in general: this survey turns over the top of its circle; at the vertical depth
of its last station the code returns the first station, at another depth. -/
theorem C113_wrong_depth : ∃ sv xyz node,
    surveyG [⟨0, π / 6, 0⟩, ⟨π / 3, π / 6, π⟩] 0 0 .meters = .ok (sv, xyz) ∧
      interpolateTvd sv (fun _ => 0) 1 = .ok node ∧ node.md = 0 ∧ node.pos.z = 0 := by
  have hpi := pi_pos
  obtain ⟨sv, xyz, h, h1, h2⟩ := two_station_survey ⟨0, π / 6, 0⟩ ⟨π / 3, π / 6, π⟩
  simp only at h2
  have hz : sv.nev.map V3.z = [0, 1] := by
    rw [h2]; simp only [List.map_cons, List.map_nil, step_w]; rfl
  have hi : interval (sv.nev.map V3.z) 1 = (0, 1) := by
    rw [hz]; norm_num [interval, searchsortedRight, bisectRight]
  have h3 : √3 * √3 = (3 : ℝ) := mul_self_sqrt (by norm_num)
  have hd : distance 1 ⟨0, π / 6, 0⟩ ⟨π / 3, π / 6, π⟩ 0 1 1 = .ok 0 := by
    unfold distance
    simp only [getVec_z, dogleg_w]
    rw [if_neg (by positivity)]
    have hk : coeffs 1 (cos (π / 6)) (cos (π / 6)) (π / 3) (1 - 0) (π / 3 - 0)
        = (3 / 4, -(√3 / 4), √3 / 4) := by
      simp only [coeffs, cos_pi_div_six, sin_pi_div_three, cos_pi_div_three, Prod.mk.injEq]
      refine ⟨by linarith, by ring, ?_⟩
      rw [sub_zero, sub_zero]
      field_simp
      ring
    have hs : solveAngle (3 / 4) (-(√3 / 4)) (√3 / 4) = .ok 0 := by
      unfold solveAngle
      simp only
      rw [show (3 / 4 : ℝ) ^ 2 + (-(√3 / 4)) ^ 2 - (√3 / 4) ^ 2 = (3 / 4) ^ 2 by ring,
        sqrt_sq (by norm_num), sub_self, neg_add_cancel]
      have a0 : atan2 0 0 = 0 := by unfold atan2; exact Complex.arg_zero
      have a1 : atan2 (3 / 4 + 3 / 4) 0 = π / 2 := by
        have := atan2_mul_sin_cos (r := 3 / 2) (by norm_num) (π / 2)
        rw [sin_pi_div_two, cos_pi_div_two, mul_zero, mul_one,
          (toIocMod_eq_self _).mpr ⟨by linarith, by linarith⟩] at this
        rw [← this]; norm_num
      rw [a0, a1]
      have t0 : tidyUp (2 * 0) = 0 := by
        unfold tidyUp; rw [mul_zero, if_neg (by rw [abs_zero]; linarith)]
      have t1 : tidyUp (2 * (π / 2)) = π := by
        unfold tidyUp
        rw [show 2 * (π / 2) = π by ring, if_neg (by rw [abs_of_pos hpi]; simp)]
      rw [t0, t1, if_neg (by norm_num), if_pos (Or.inr le_rfl), if_neg (by linarith),
        if_neg (lt_irrefl _), min_eq_right hpi.le]
    simp only [hk, hs]
    rw [if_pos (by rw [zero_div, zero_mul]; linarith)]
    simp
  have e3 : sv.nev[0]? = some 0 := by rw [h2]; rfl
  have e4 : sv.nev[0 + 1]? = some (minCurveStep (π / 3 - 0) (π / 6) 0 (π / 6) π) := by
    rw [h2]; rfl
  obtain ⟨nd, hnd, n1, n2, n3, n4⟩ := interpolateSurvey_some (sv := sv) 0 0 (i := 0)
    (s1 := ⟨0, π / 6, 0⟩) (s2 := ⟨π / 3, π / 6, π⟩) (by rw [h1]; rfl) (by rw [h1]; rfl) e3
  refine ⟨sv, xyz, { nd with interpolated := decide ((0 : ℝ) > 0) }, h, ?_, by rw [n1]; simp, ?_⟩
  · unfold interpolateTvd
    simp only [hi, e3, e4]
    rw [h1]
    simp only [List.getElem?_cons_zero, List.getElem?_cons_succ]
    rw [step_w, show (0 : V3).z = 0 from rfl, hd]
    simp only [hnd]
  · simp only [n3, interpPosNev]
    simp [minCurveStep, minCurveStepRf]

/-- C115 is false in general: below the deepest station of a straight well, and above its first,
a node off the well is returned without complaint. -/
theorem C115_extrapolates : ∃ sv xyz below above,
    surveyG [⟨0, 0, 0⟩, ⟨100, 0, 0⟩] 0 0 .meters = .ok (sv, xyz) ∧
      interpolateTvd sv (fun _ => 0) 150 = .ok below ∧ below.md = 150 ∧
      interpolateTvd sv (fun _ => 0) (-10) = .ok above ∧ above.md = -10 := by
  obtain ⟨sv, xyz, h, h1, h2⟩ := two_station_survey ⟨0, 0, 0⟩ ⟨100, 0, 0⟩
  simp only at h2
  have hst : minCurveStep (100 - 0) 0 0 0 0 = ⟨0, 0, 100⟩ := by
    rw [minCurveStep_same rfl]; ext <;> simp [tangent]
  rw [hst] at h2
  have hz : sv.nev.map V3.z = [0, 100] := by rw [h2]; rfl
  have hdl : dogleg2 ⟨0, 0, 0⟩ ⟨100, 0, 0⟩ = 0 := by
    unfold dogleg2; rw [getDogleg_eq_arccos, tangent_unit, arccos_one]
  have hd : ∀ e t : ℝ, distance e ⟨0, 0, 0⟩ ⟨100, 0, 0⟩ 0 100 t = .ok t := by
    intro e t
    unfold distance
    simp only [hdl, if_true]
    rw [if_neg (by norm_num)]
    congr 1
    ring
  have e3 : sv.nev[0]? = some 0 := by rw [h2]; rfl
  have e4 : sv.nev[0 + 1]? = some ⟨0, 0, 100⟩ := by rw [h2]; rfl
  have key : ∀ e t : ℝ, interval (sv.nev.map V3.z) t = (0, e) →
      ∃ nd, interpolateTvd sv (fun _ => 0) t = .ok nd ∧ nd.md = t := by
    intro e t hi
    obtain ⟨nd, hnd, n1, n2, n3, n4⟩ := interpolateSurvey_some (sv := sv) 0 t (i := 0)
      (s1 := ⟨0, 0, 0⟩) (s2 := ⟨100, 0, 0⟩) (by rw [h1]; rfl) (by rw [h1]; rfl) e3
    refine ⟨{ nd with interpolated := decide (t > 0) }, ?_, by simp only [n1]; ring⟩
    unfold interpolateTvd
    simp only [hi, e3, e4]
    rw [h1]
    simp only [List.getElem?_cons_zero, List.getElem?_cons_succ]
    rw [show (0 : V3).z = 0 from rfl, hd]
    simp only [hnd]
  obtain ⟨b, hb, hbm⟩ := key 1 150 (by
    rw [hz]; norm_num [interval, searchsortedRight, bisectRight])
  obtain ⟨a, ha, ham⟩ := key (-1) (-10) (by
    rw [hz]; norm_num [interval, searchsortedRight, bisectRight])
  exact ⟨sv, xyz, b, a, h, hb, hbm, ha, ham⟩

/-- Non-vacuity of C113 and C114: a vertical well meets every hypothesis. -/
example : ∃ sv xyz first last, surveyG [⟨0, 0, 0⟩, ⟨100, 0, 0⟩] 0 0 .meters = .ok (sv, xyz) ∧
    sv.nev[0]? = some first ∧ sv.nev.getLast? = some last ∧ first.z ≤ 40 ∧ 40 ≤ last.z ∧
    (∀ (i : ℕ) (p q : V3), sv.nev[i]? = some p → sv.nev[i + 1]? = some q → p.z < q.z) := by
  obtain ⟨sv, xyz, h, h1, h2⟩ := two_station_survey ⟨0, 0, 0⟩ ⟨100, 0, 0⟩
  have hst : minCurveStep (100 - 0) 0 0 0 0 = ⟨0, 0, 100⟩ := by
    rw [minCurveStep_same rfl]; ext <;> simp [tangent]
  simp only [hst] at h2
  refine ⟨sv, xyz, 0, ⟨0, 0, 100⟩, h, by rw [h2]; rfl, by rw [h2]; rfl, by simp, by norm_num, ?_⟩
  intro i p q hp hq
  rw [h2] at hp hq
  match i with
  | 0 => simp at hp hq; subst hp; subst hq; simp
  | i + 1 => simp at hq

/-- Non-vacuity of the curved case: the witness above is curved, and its depth 1/2 is not the
exceptional one. -/
example : (1 / 2 : ℝ) - 0 ≠ oppositeDepth ⟨0, π / 6, 0⟩ ⟨π / 3, π / 6, π⟩ := by
  unfold oppositeDepth
  have hpi := pi_pos
  simp only [dogleg_w]
  rw [sin_pi_div_three, cos_pi_div_three, cos_pi_div_six, sub_zero, sub_zero]
  have h3 : (√3 : ℝ) ≠ 0 := by positivity
  intro h
  field_simp at h
  norm_num at h

end Welleng.Props
