import Verif.Props.ConnectorSolve
import Verif.Props.Connector

/-!
C168-C170: what a converged curve-hold-curve iteration, a retry at a tighter radius and the
placement of the second curve mean for the stored path.
-/

namespace Welleng.Props

open Real Spec Con

/-- Offsets behind `_get_distances` for a point off the start tangent. -/
theorem getDistances_off {pos v q : V3} (hv : v.IsUnit) (hn : 0 < (getDistances pos v q).n) :
    ∃ (u : V3) (a b : ℝ), u.IsUnit ∧ V3.dot v u = 0 ∧ 0 < b ∧ q = pos + a • v + b • u ∧
      getDistances pos v q = ⟨V3.norm (q - pos), a, b⟩ := by
  have hne : ¬ allClose pos q := by
    intro hc
    unfold getDistances at hn
    rw [if_pos hc] at hn
    exact lt_irrefl _ hn
  have h3 := dot_le_norm_unit (delta := q - pos) hv
  have hx : getDistances pos v q = ⟨V3.norm (q - pos), V3.dot (q - pos) v,
      √(V3.norm (q - pos) ^ 2 - V3.dot (q - pos) v ^ 2)⟩ := by
    unfold getDistances
    rw [if_neg hne]
    simp only [not_lt.mpr h3, gt_iff_lt, if_false]
  rw [hx] at hn ⊢
  simp only at hn
  have hpos := Real.sqrt_pos.mp hn
  obtain ⟨u, hu, ho, hd⟩ := offset_split hv hn (by rw [sq_sqrt hpos.le, V3.norm_sq])
  refine ⟨u, _, _, hu, ho, hn, ?_, rfl⟩
  rw [add_assoc, add_comm pos]
  exact sub_eq_iff_eq_add.mp hd

/-- One curve of the iteration, turning by less than half a circle, is an arc followed by a
straight that ends at the point aimed at. -/
theorem leg_reaches {pos v q : V3} {R e r t dl : ℝ} (hv : v.IsUnit) (hR : 0 < R) (he : e < 1)
    (he0 : 0 ≤ e) (hn : 0 < (getDistances pos v q).n)
    (hr : effRadius R e (getDistances pos v q) = some r)
    (hm : minDistToTarget r (getDistances pos v q) = some (t, dl)) (hd0 : 0 < checkDogleg dl)
    (hd1 : checkDogleg dl < π) :
    0 < r ∧ 0 ≤ t ∧ ArcTo r (r * checkDogleg dl) pos v
      (q - t • getVecTarget pos v q t (r * checkDogleg dl) (getRf (checkDogleg dl)))
      (getVecTarget pos v q t (r * checkDogleg dl) (getRf (checkDogleg dl))) := by
  obtain ⟨u, a, b, hu, ho, hb, hq, hx⟩ := getDistances_off hv hn
  rw [hx] at hr hm
  have hnorm := (dist_components hv hu ho hq).1
  unfold effRadius getRadiusCritical at hr
  simp only [hb.ne', if_false] at hr
  have hd2 : 0 < V3.norm (q - pos) ^ 2 / (2 * b) := by
    rw [hnorm]; positivity
  have hrc : 0 < V3.norm (q - pos) ^ 2 / (2 * b) * (1 - e) := mul_pos hd2 (by linarith)
  rw [if_pos hrc] at hr
  simp only [Option.map_some, Option.some.injEq] at hr
  have hr0 : 0 < r := by rw [← hr]; exact lt_min hR hrc
  have hrle : r ≤ V3.norm (q - pos) ^ 2 / (2 * b) := by
    rw [← hr]
    refine (min_le_right _ _).trans ?_
    nlinarith
  have hq0 : 0 ≤ a ^ 2 + b ^ 2 - 2 * r * b := by
    rw [hnorm, le_div_iff₀ (by positivity)] at hrle
    linarith
  have hb2 : b ≠ 2 * r := by
    intro hb2
    unfold minDistToTarget at hm
    simp only [hnorm] at hm
    rw [if_neg (not_lt.mpr hq0)] at hm
    simp only [Option.some.injEq, Prod.mk.injEq] at hm
    have hz : 2 * r - b = 0 := by linarith
    rw [hz] at hm
    have hs := sin_pos_of_pos_of_lt_pi hd0 hd1
    rw [sin_checkDogleg, ← hm.2] at hs
    by_cases hy : a - √(a ^ 2 + b ^ 2 - 2 * r * b) = 0
    · rw [hy] at hs
      have : atan2 0 0 = 0 := by
        unfold atan2
        have : (⟨0, 0⟩ : ℂ) = 0 := rfl
        rw [this, Complex.arg_zero]
      rw [this] at hs
      simp at hs
    · rw [sin_two_atan2 (Or.inr hy)] at hs
      simp at hs
  obtain ⟨o, h1, h2, h3, -, -, h4, -⟩ := curveHold_reaches hv hu ho hr0 hb hb2 hq hq0
  unfold curveHold at h1
  rw [hm] at h1
  simp only [getCurveHoldData, Option.some.injEq] at h1
  subst h1
  exact ⟨hr0, h3.1, h2⟩

/-- C168: if a step of the iteration at the design radii leaves the intermediate point where it
was, with forward turns of less than half a circle and a hold longer than the minimum, then the
stored path uses exactly the radii of that step and ends exactly at the target. -/
theorem C168_converged {p : Plan} {R1 R2 mt : ℝ} {pos3 : V3} {st : Step} (rc rc2 : Ext)
    (hv : p.vec1.IsUnit) (hvT : p.vecT.IsUnit) (hD1 : p.rDesign = .val R1)
    (hD2 : p.rDesign2 = .val R2) (hR1 : 0 < R1) (hR2 : 0 < R2) (he0 : 0 ≤ p.minError)
    (he : p.minError < 1) (hstep : solveStep p R1 R2 mt pos3 = some st) (hfix : st.pos3 = pos3)
    (hn1 : 0 < st.dist1.n) (hn2 : 0 < st.dist2.n) (hd1 : 0 < st.dogleg) (hd1' : st.dogleg < π)
    (hd2 : 0 < st.dogleg2) (hd2' : st.dogleg2 < π) (ht1 : 0 < st.tangent)
    (hm1 : mt ≤ st.tangent) (hm2 : mt ≤ st.tangent2) :
    ∃ (g : Geo) (r1 r2 : ℝ), happyFinish p (st.solved rc rc2) = .ok g ∧
      0 < r1 ∧ r1 ≤ R1 ∧ 0 < r2 ∧ r2 ≤ R2 ∧
      ArcTo r1 g.distCurve p.pos1 p.vec1 g.pos2 g.vec3 ∧
      StraightTo st.tangent g.pos2 g.vec3 g.pos3 ∧
      ArcTo r2 g.distCurve2 g.pos3 g.vec3 p.posT p.vecT ∧
      endpointError p g = 0 ∧
      g.mdT = p.md1 + g.distCurve + st.tangent + g.distCurve2 := by
  unfold solveStep at hstep
  simp only [Option.bind_eq_bind, Option.bind_eq_some_iff, getCurveHoldData, Option.pure_def,
    Option.some.injEq] at hstep
  obtain ⟨r1, hr1, ⟨t1, dl1⟩, hm, r2, hr2, ⟨t2, dl2⟩, hmm, hst⟩ := hstep
  subst hst
  simp only at hfix hn1 hn2 hd1 hd1' hd2 hd2' ht1 hm1 hm2 hr2 hmm
  obtain ⟨r10, t10, arc1⟩ := leg_reaches hv hR1 he he0 hn1 hr1 hm hd1 hd1'
  obtain ⟨r20, t20, arc2⟩ := leg_reaches (neg_unit hvT) hR2 he he0 hn2 hr2 hmm hd2 hd2'
  have hrad : ∀ {R r : ℝ} {x : Dist} (q : Ext), effRadius R p.minError x = some r →
      finalRadius (some x) q (.val R) p.minError = .ok r ∧ r ≤ R := by
    intro R r x q h
    unfold effRadius at h
    obtain ⟨c, hc, hcr⟩ := Option.map_eq_some_iff.mp h
    unfold finalRadius
    simp only [hc]
    refine ⟨?_, hcr ▸ min_le_left _ _⟩
    show Except.ok (min c R) = _
    rw [← hcr, min_comm]
  obtain ⟨f1, l1⟩ := hrad rc hr1
  obtain ⟨f2, l2⟩ := hrad rc2 hr2
  simp only [tangentTemp, max_eq_left hm1, max_eq_left hm2] at *
  generalize hV3 : getVecTarget p.pos1 p.vec1 pos3 t1 (r1 * checkDogleg dl1)
    (getRf (checkDogleg dl1)) = v3 at *
  generalize hP2 : pos3 - t1 • v3 = pos2 at *
  generalize hV2 : getVecTarget p.posT ((-1 : ℝ) • p.vecT) pos2 t2 (r2 * checkDogleg dl2)
    (getRf (checkDogleg dl2)) = v2 at *
  generalize hX2 : getDistances p.posT ((-1 : ℝ) • p.vecT) pos2 = x2 at *
  generalize hX1 : getDistances p.pos1 p.vec1 pos3 = x1 at *
  generalize checkDogleg dl1 = D1 at *
  generalize checkDogleg dl2 = D2 at *
  obtain ⟨a1, e1, -, u3⟩ := arcTo_end arc1 r10 hd1.le hd1'
  obtain ⟨a2, e2, -, u2⟩ := arcTo_end arc2 r20 hd2.le hd2'
  have hpos3 : pos2 - t2 • v2 = pos3 := by
    have := hfix
    have h2 : pos2 - t2 • v2 = (2 : ℝ) • ((1 / 2 : ℝ) • (pos2 - t2 • v2) + (1 / 2 : ℝ) • pos3)
        - pos3 := by ext <;> simp <;> ring
    rw [h2, this]; ext <;> simp <;> ring
  have hopp : t2 • v2 = (-t1) • v3 := by
    have : t2 • v2 = pos2 - pos3 := by rw [← hpos3]; abel
    rw [this, ← hP2]; ext <;> simp
  have htt : t2 = t1 := by
    have := congrArg V3.norm hopp
    rw [V3.norm_smul, V3.norm_smul, norm_of_unit u2, norm_of_unit u3, abs_neg,
      abs_of_nonneg t20, abs_of_nonneg t10, mul_one, mul_one] at this
    exact this
  have hv2 : v2 = (-1 : ℝ) • v3 := by
    rw [htt] at hopp
    have := congrArg (fun w => (1 / t1) • w) hopp
    simp only [smul_smul] at this
    rw [one_div, inv_mul_cancel₀ ht1.ne', one_smul] at this
    rw [this]; congr 1; field_simp
  rw [hpos3, hv2] at e2
  rw [hv2, angle_neg, angle_comm] at a2
  have e3 := getPos_back e2
  have hrf1 := one_le_getRf hd1.le hd1'
  have hrf2 := one_le_getRf hd2.le hd2'
  have hhalf : 0 < r1 * D1 * getRf D1 / 2 := by positivity
  have hp3 : pos3 = pos2 + t1 • v3 := by rw [← hP2]; abel
  have hraw : pos3 - p.pos1 - (r1 * D1 * getRf D1 / 2) • p.vec1
      = (r1 * D1 * getRf D1 / 2 + t1) • v3 := by
    rw [hp3, e1]; unfold getPos; ext <;> simp <;> ring
  have hv30 : v3 ≠ 0 := by
    rintro rfl
    simp [V3.IsUnit, V3.dot] at u3
  have hdir : ¬ dirUndefined p.pos1 p.vec1 pos3 t1 (r1 * D1) (getRf D1) := by
    rintro ⟨-, h | h⟩
    · linarith
    · rw [hraw] at h
      exact (smul_ne_zero (by linarith : r1 * D1 * getRf D1 / 2 + t1 ≠ 0) hv30) h
  have hfirst : firstCurve p r1 ((⟨pos2, v3, t1, D1, x1, x2, t2, D2,
      (1 / 2 : ℝ) • (pos2 - t2 • v2) + (1 / 2 : ℝ) • pos3⟩ : Step).solved rc rc2)
      = some (D1, v3, pos2) := by
    unfold firstCurve Step.solved
    simp only [hfix]
    rw [if_neg (by rw [hfix]; exact hdir)]
    simp only [hV3, a1, sub_self, abs_zero]
    rw [if_neg (by norm_num), ← e1]
  have hplace : placeSecond p pos2 v3 (r2 * D2) (getRf D2) = (t1, r2 * D2) := by
    have hbt : getPos p.posT ((-1 : ℝ) • p.vecT) ((-1 : ℝ) • v3) (r2 * D2) (getRf D2) = pos3 :=
      e2.symm
    have h1 : V3.dot (pos3 - pos2) v3 = t1 := by
      rw [hp3, add_sub_cancel_left, V3.dot_smul_left, show V3.dot v3 v3 = 1 from u3, mul_one]
    have h2 : pos3 - pos2 - t1 • v3 = 0 := by rw [hp3]; abel
    unfold placeSecond
    simp only [hbt, h1, h2, V3.norm_zero]
    rw [if_neg (by rintro ⟨h, -⟩; norm_num at h), max_eq_right t10]
  refine ⟨⟨pos2, pos2 + t1 • v3, v3, r1 * D1, r2 * D2, getRf D1, getRf D2, D1, D2,
    p.md1 + |r1 * D1|, p.md1 + |r1 * D1| + t1, p.md1 + |r1 * D1| + t1 + |r2 * D2|⟩, r1, r2, ?_,
    r10, l1, r20, l2, arc1, ⟨t10, rfl⟩, ?_, ?_, ?_⟩
  · unfold happyFinish
    rw [show (Step.solved _ rc rc2).dist1 = some x1 from rfl,
      show (Step.solved _ rc rc2).rc = rc from rfl, hD1, f1]
    simp only
    rw [hfirst]
    simp only
    rw [show (Step.solved _ rc rc2).dist2 = some x2 from rfl,
      show (Step.solved _ rc rc2).rc2 = rc2 from rfl, hD2, f2]
    simp only [getCurveHoldData, a2, hplace]
  · simp only
    rw [← hp3, e3]
    exact arcTo_getPos pos3 u3 hvT hd2 hd2' (by rw [← a2, cos_angle u3 hvT]) r20
  · unfold endpointError renderedEnd
    simp only [add_sub_cancel_left, V3.dot_smul_left, show V3.dot v3 v3 = 1 from u3, mul_one,
      max_eq_right t10]
    rw [← hp3]
    have : p.posT - (pos3 + (r2 * D2 * getRf D2 / 2) • (v3 + p.vecT)) = 0 := by
      rw [sub_eq_zero]; exact e3
    rw [this, V3.norm_zero]
  · simp only
    rw [abs_of_pos (mul_pos r10 hd1), abs_of_pos (mul_pos r20 hd2)]

/-- A start heading north and a target 4 m to the east and 1 m deeper, along the vertical;
design radius `D` for both curves. -/
noncomputable def turnPlan (D : ℝ) : Plan :=
  ⟨0, ⟨1, 0, 0⟩, 0, ⟨1, 5, 1⟩, ⟨0, 0, 1⟩, .val D, .val D, 1e-5⟩

/-- The fixed point of the iteration at the radius 1: two quarter circles. -/
noncomputable def turnStep : Step :=
  ⟨⟨1, 1, 0⟩, ⟨0, 1, 0⟩, 3, π / 2, ⟨√17, 1, 4⟩, ⟨√17, 1, 4⟩, 3, π / 2, ⟨1, 4, 0⟩⟩

theorem atan2_three_quarter : atan2 (1 - 3) (2 * 1 - 4) = -(3 * π / 4) := by
  have h := atan2_mul_sin_cos (r := 2 * √2) (by positivity) (-(3 * π / 4))
  rw [(toIocMod_eq_self two_pi_pos).mpr
    ⟨by linarith [pi_pos], by linarith [pi_pos]⟩] at h
  have hs : sin (3 * π / 4) = √2 / 2 := by
    rw [show 3 * π / 4 = π - π / 4 by ring, sin_pi_sub, sin_pi_div_four]
  have hc : cos (3 * π / 4) = -(√2 / 2) := by
    rw [show 3 * π / 4 = π - π / 4 by ring, cos_pi_sub, cos_pi_div_four]
  have h2 : √2 * √2 = 2 := mul_self_sqrt (by norm_num)
  rw [sin_neg, cos_neg, hs, hc] at h
  rw [← h]
  congr 1 <;> linarith

theorem turn_leg {pos v q w : V3} {R : ℝ} (hR : 1 ≤ R) (hne : ¬ allClose pos q)
    (hd : V3.dot (q - pos) (q - pos) = 17) (hp : V3.dot (q - pos) v = 1)
    (hw : q - pos - v = (4 : ℝ) • w) (hu : w.IsUnit) :
    getDistances pos v q = ⟨√17, 1, 4⟩ ∧
    getRadiusCritical ⟨√17, 1, 4⟩ 1e-5 = some (17 / 8 * (1 - 1e-5)) ∧
    minDistToTarget 1 ⟨√17, 1, 4⟩ = some (3, -(3 * π / 2)) ∧
    checkDogleg (-(3 * π / 2)) = π / 2 ∧
    getVecTarget pos v q 3 (1 * (π / 2)) (getRf (π / 2)) = w := by
  have h17 : √(17 : ℝ) ^ 2 = 17 := sq_sqrt (by norm_num)
  refine ⟨?_, ?_, ?_, ?_, ?_⟩
  · unfold getDistances
    rw [if_neg hne]
    have hn : V3.norm (q - pos) = √17 := by unfold V3.norm; rw [hd]
    have h1 : ¬ (1 : ℝ) > √17 := by
      rw [gt_iff_lt, not_lt, le_sqrt' (by norm_num)]; norm_num
    simp only [hn, hp, if_neg h1, h17]
    congr 1
    rw [show (17 : ℝ) - 1 ^ 2 = 4 ^ 2 by norm_num, sqrt_sq (by norm_num)]
  · unfold getRadiusCritical
    simp only [h17]
    norm_num
  · unfold minDistToTarget
    simp only [h17]
    have : √((17 : ℝ) - 2 * 1 * 4) = 3 := by
      rw [show (17 : ℝ) - 2 * 1 * 4 = 3 ^ 2 by norm_num, sqrt_sq (by norm_num)]
    rw [this, atan2_three_quarter, if_neg (by norm_num)]
    congr 2; ring
  · unfold checkDogleg
    rw [if_pos (by linarith [pi_pos])]; ring
  · have hpi : π / 2 ≠ 0 := by positivity
    unfold getVecTarget
    simp only
    rw [if_neg (by rw [one_mul]; exact hpi), half_eq 1 hpi,
      show π / 2 / 2 = π / 4 by ring, tan_pi_div_four, one_mul, one_smul, hw, smul_smul]
    norm_num
    exact normalize_of_unit hu

theorem turn_solve {D mt : ℝ} (hmt : mt ≤ 3) :
    solveStep (turnPlan D) 1 1 mt ⟨1, 4, 0⟩ = some turnStep := by
  have hm : min (1 : ℝ) (17 / 8 * (1 - 1e-5)) = 1 := min_eq_left (by norm_num)
  obtain ⟨a1, a2, a3, a4, a5⟩ := turn_leg (pos := 0) (v := ⟨1, 0, 0⟩) (q := ⟨1, 4, 0⟩)
    (w := ⟨0, 1, 0⟩) le_rfl
    (by unfold allClose isClose; norm_num) (by norm_num [V3.dot]) (by norm_num [V3.dot])
    (by ext <;> norm_num) (by norm_num [V3.IsUnit, V3.dot])
  obtain ⟨b1, -, -, -, b5⟩ := turn_leg (pos := ⟨1, 5, 1⟩) (v := (-1 : ℝ) • ⟨0, 0, 1⟩)
    (q := ⟨1, 1, 0⟩) (w := ⟨0, -1, 0⟩) le_rfl
    (by unfold allClose isClose; norm_num) (by norm_num [V3.dot]) (by norm_num [V3.dot])
    (by ext <;> norm_num) (by norm_num [V3.IsUnit, V3.dot])
  have hp2 : (⟨1, 4, 0⟩ : V3) - (3 : ℝ) • ⟨0, 1, 0⟩ = ⟨1, 1, 0⟩ := by ext <;> norm_num
  unfold solveStep turnPlan turnStep
  simp only [a1, effRadius, a2, Option.map_some, hm, Option.bind_eq_bind, Option.bind_some, a3,
    a4, getCurveHoldData, a5, tangentTemp, max_eq_left hmt, hp2, b1, b5, Option.pure_def]
  congr 2
  ext <;> norm_num

/-- The hypotheses of `C168_converged` are met by two quarter circles joined by a straight. -/
example : ∃ g, happyFinish (turnPlan 1) (turnStep.solved .inf .inf) = .ok g ∧
    endpointError (turnPlan 1) g = 0 := by
  obtain ⟨g, r1, r2, h1, -, -, -, -, -, -, -, h2, -⟩ := C168_converged (p := turnPlan 1)
    (R1 := 1) (R2 := 1) (mt := 0) .inf .inf (by norm_num [turnPlan, V3.IsUnit, V3.dot])
    (by norm_num [turnPlan, V3.IsUnit, V3.dot]) rfl rfl one_pos one_pos
    (by norm_num [turnPlan]) (by norm_num [turnPlan]) (turn_solve (by norm_num)) rfl
    (by norm_num [turnStep]) (by norm_num [turnStep])
    (by simp only [turnStep]; positivity) (by simp only [turnStep]; linarith [pi_pos])
    (by simp only [turnStep]; positivity) (by simp only [turnStep]; linarith [pi_pos])
    (by norm_num [turnStep]) (by norm_num [turnStep]) (by norm_num [turnStep])
  exact ⟨g, h1, h2⟩

/-- C169: after a retry at a tighter radius the stored first curve is drawn at the smaller of
the design radius and the critical radius of the geometry, whatever the radius of the retry. -/
theorem C169_retry_radius_ignored {p : Plan} {s : Solved} {g : Geo} {R rc : ℝ} {x : Dist}
    (hD : p.rDesign = .val R) (hx : s.dist1 = some x)
    (hrc : getRadiusCritical x p.minError = some rc) (h : happyFinish p s = .ok g) :
    g.distCurve = min rc R * g.dogleg := by
  unfold happyFinish at h
  have : finalRadius s.dist1 s.rc p.rDesign p.minError = .ok (min rc R) := by
    rw [hD, hx]
    unfold finalRadius
    simp only [hrc]
    rfl
  rw [this] at h
  simp only at h
  split at h
  · cases h
  split at h
  · cases h
  simp only [getCurveHoldData] at h
  cases h
  rfl

/-- C169 is false of the code: a retry at the radius 1 (half the design radius 2) whose
iteration has converged on a path that ends exactly at the target is stored as a path of radius
2 that misses the target by more than 30 cm. -/
theorem C169_retry_spoiled :
    solveStep (turnPlan 2) 1 1 0 ⟨1, 4, 0⟩ = some turnStep ∧ turnStep.pos3 = ⟨1, 4, 0⟩ ∧
    (∃ g, happyFinish (turnPlan 1) (turnStep.solved .inf .inf) = .ok g ∧
      endpointError (turnPlan 1) g = 0) ∧
    ∃ g, happyFinish (turnPlan 2) (turnStep.solved .inf .inf) = .ok g ∧
      g.distCurve = 2 * g.dogleg ∧ 3 / 10 < endpointError (turnPlan 2) g := by
  refine ⟨turn_solve (by norm_num), rfl, ?_, ?_⟩
  · obtain ⟨g, r1, r2, h1, -, -, -, -, -, -, -, h2, -⟩ := C168_converged (p := turnPlan 1)
      (R1 := 1) (R2 := 1) (mt := 0) .inf .inf (by norm_num [turnPlan, V3.IsUnit, V3.dot])
      (by norm_num [turnPlan, V3.IsUnit, V3.dot]) rfl rfl one_pos one_pos
      (by norm_num [turnPlan]) (by norm_num [turnPlan]) (turn_solve (by norm_num)) rfl
      (by norm_num [turnStep]) (by norm_num [turnStep])
      (by simp only [turnStep]; positivity) (by simp only [turnStep]; linarith [pi_pos])
      (by simp only [turnStep]; positivity) (by simp only [turnStep]; linarith [pi_pos])
      (by norm_num [turnStep]) (by norm_num [turnStep]) (by norm_num [turnStep])
    exact ⟨g, h1, h2⟩
  have h17 : √(17 : ℝ) ^ 2 = 17 := sq_sqrt (by norm_num)
  have h17p : 0 < √(17 : ℝ) := sqrt_pos.mpr (by norm_num)
  have h17n := h17p.ne'
  have hrc : getRadiusCritical ⟨√17, 1, 4⟩ 1e-5 = some (17 / 8 * (1 - 1e-5)) := by
    unfold getRadiusCritical
    simp only [h17]
    norm_num
  have hfr : finalRadius (some ⟨√17, 1, 4⟩) .inf (.val 2) 1e-5 = .ok 2 := by
    unfold finalRadius
    simp only [hrc]
    show Except.ok (min (17 / 8 * (1 - 1e-5)) 2) = _
    rw [min_eq_right (by norm_num)]
  have hpi : π / 2 ≠ 0 := by positivity
  have hhalf : 2 * (π / 2) * getRf (π / 2) / 2 = 2 := by
    rw [half_eq 2 hpi, show π / 2 / 2 = π / 4 by ring, tan_pi_div_four, mul_one]
  -- the direction recovered with the design radius
  have hraw : (⟨1, 4, 0⟩ : V3) - 0 - (2 : ℝ) • ⟨1, 0, 0⟩ = ⟨-1, 4, 0⟩ := by ext <;> norm_num
  have hvec : getVecTarget 0 ⟨1, 0, 0⟩ ⟨1, 4, 0⟩ 3 (2 * (π / 2)) (getRf (π / 2))
      = ⟨-1 / √17, 4 / √17, 0⟩ := by
    unfold getVecTarget
    simp only [hhalf, hraw]
    rw [if_neg (by positivity)]
    have hn : V3.norm ((1 / (2 + 3) : ℝ) • ⟨-1, 4, 0⟩) = √17 / 5 := by
      rw [V3.norm_smul, abs_of_pos (by norm_num)]
      have : V3.norm ⟨-1, 4, 0⟩ = √17 := by unfold V3.norm V3.dot; norm_num
      rw [this]; ring
    unfold normalize
    rw [hn]
    ext <;> simp <;> field_simp <;> norm_num
  set v3 : V3 := ⟨-1 / √17, 4 / √17, 0⟩ with hv3
  have hcosθ : V3.dot ⟨1, 0, 0⟩ v3 = -1 / √17 := by simp [V3.dot, hv3]
  have hu3 : v3.IsUnit := by
    simp only [V3.IsUnit, V3.dot, hv3]
    field_simp
    rw [h17]; norm_num
  have hu1 : (⟨1, 0, 0⟩ : V3).IsUnit := by norm_num [V3.IsUnit, V3.dot]
  have hc := cos_angle hu1 hu3
  rw [hcosθ] at hc
  set θ := angle ⟨1, 0, 0⟩ v3 with hθ
  have hθ0 : 0 ≤ θ := angle_nonneg _ _
  have hθ1 : θ ≤ π := angle_le_pi _ _
  have hbig : |θ - π / 2| > 1e-9 := by
    have h1 : 1 / √17 ≤ |θ - π / 2| := by
      have : |sin (θ - π / 2)| ≤ |θ - π / 2| := abs_sin_le_abs
      rw [sin_sub_pi_div_two, hc] at this
      refine le_trans (le_of_eq ?_) this
      rw [abs_of_pos (by rw [neg_div, neg_neg]; positivity)]; ring
    have h2 : (1e-9 : ℝ) < 1 / √17 := by
      rw [lt_div_iff₀ h17p]
      have : √(17 : ℝ) < 5 := by rw [sqrt_lt' (by norm_num)]; norm_num
      linarith
    linarith
  have hdir : ¬ dirUndefined 0 ⟨1, 0, 0⟩ ⟨1, 4, 0⟩ 3 (2 * (π / 2)) (getRf (π / 2)) := by
    rintro ⟨-, h | h⟩
    · rw [hhalf] at h; norm_num at h
    · rw [hhalf, hraw] at h
      have := congrArg V3.x h
      norm_num at this
  have hfirst : firstCurve (turnPlan 2) 2 (turnStep.solved .inf .inf)
      = some (θ, v3, getPos 0 ⟨1, 0, 0⟩ v3 (2 * θ) (getRf θ)) := by
    unfold firstCurve Step.solved turnStep turnPlan
    simp only
    rw [if_neg hdir]
    simp only [hvec, ← hθ]
    rw [if_pos hbig]
  obtain ⟨g, hg⟩ : ∃ g, happyFinish (turnPlan 2) (turnStep.solved .inf .inf) = .ok g := by
    unfold happyFinish
    have e1 : finalRadius (turnStep.solved .inf .inf).dist1 (turnStep.solved .inf .inf).rc
        (turnPlan 2).rDesign (turnPlan 2).minError = .ok 2 := hfr
    have e2 : finalRadius (turnStep.solved .inf .inf).dist2 (turnStep.solved .inf .inf).rc2
        (turnPlan 2).rDesign2 (turnPlan 2).minError = .ok 2 := hfr
    rw [e1]
    simp only
    rw [hfirst]
    simp only
    rw [e2]
    exact ⟨_, rfl⟩
  refine ⟨g, hg, ?_, ?_⟩
  · have := C169_retry_radius_ignored (R := 2) rfl rfl hrc hg
    rw [this, min_eq_right (by norm_num)]
  · have hgv : g.vec3 = v3 ∧ g.pos2 = getPos 0 ⟨1, 0, 0⟩ v3 (2 * θ) (getRf θ) := by
      unfold happyFinish at hg
      have e1 : finalRadius (turnStep.solved .inf .inf).dist1 (turnStep.solved .inf .inf).rc
          (turnPlan 2).rDesign (turnPlan 2).minError = .ok 2 := hfr
      rw [e1] at hg
      simp only at hg
      rw [hfirst] at hg
      simp only at hg
      split at hg
      · cases hg
      · cases hg; exact ⟨rfl, rfl⟩
    -- the component perpendicular to both directions
    let w : V3 := ⟨4 / √17, 1 / √17, 0⟩
    have hwu : w.IsUnit := by
      simp only [V3.IsUnit, V3.dot, w]
      field_simp
      rw [h17]; norm_num
    have hw3 : V3.dot v3 w = 0 := by simp only [V3.dot, w, hv3]; ring
    have hwT : V3.dot ⟨0, 0, 1⟩ w = 0 := by simp [V3.dot, w]
    have hlt17 : 1 < √(17 : ℝ) := by rw [lt_sqrt (by norm_num)]; norm_num
    have hθ0' : θ ≠ 0 := by
      intro h0
      rw [h0, cos_zero] at hc
      have : (-1 : ℝ) / √17 < 0 := div_neg_of_neg_of_pos (by norm_num) h17p
      linarith
    have hθπ : θ < π := by
      refine lt_of_le_of_ne hθ1 fun h0 => ?_
      rw [h0, cos_pi] at hc
      have : -1 * √17 = -1 := by field_simp at hc; linarith
      linarith
    have htan : 2 * tan (θ / 2) = (√17 + 1) / 2 := by
      have h1 := tan_half_mul_one_add_cos (cos_half_ne_zero hθ0 hθπ)
      have hs : sin θ = 4 / √17 := by
        have hs0 := sin_nonneg_of_nonneg_of_le_pi hθ0 hθ1
        have hs1 := sin_sq_add_cos_sq θ
        rw [hc] at hs1
        have hs2 : sin θ ^ 2 = (4 / √17) ^ 2 := by
          have : (-1 / √17) ^ 2 = 1 / 17 := by rw [div_pow, h17]; norm_num
          rw [this] at hs1
          rw [div_pow, h17]; linarith
        exact (pow_left_inj₀ hs0 (by positivity) two_ne_zero).mp hs2
      rw [hs, hc] at h1
      have h2 : tan (θ / 2) * (√17 - 1) = 4 := by
        field_simp at h1
        linarith
      have h3 : (√17 + 1) / 2 * (√17 - 1) = 8 := by nlinarith
      have h4 : √17 - 1 ≠ 0 := by linarith
      apply mul_right_cancel₀ h4
      rw [h3]; linarith
    have hdot : V3.dot ((turnPlan 2).posT - renderedEnd (turnPlan 2) g) w
        = (7 - 2 * √17) / √17 := by
      unfold renderedEnd
      simp only [hgv.1, hgv.2]
      rw [show (turnPlan 2).vecT = ⟨0, 0, 1⟩ from rfl, show (turnPlan 2).posT = ⟨1, 5, 1⟩ from rfl]
      simp only [V3.dot_sub_left, V3.dot_add_left, V3.dot_smul_left, hw3, hwT, getPos]
      rw [half_eq 2 hθ0', htan]
      simp only [V3.dot, w, V3.zero_x, V3.zero_y, V3.zero_z]
      field_simp
      ring
    have hle : |(7 - 2 * √17) / √17| ≤ endpointError (turnPlan 2) g := by
      rw [← hdot]
      unfold endpointError
      have := V3.dot_sq_le ((turnPlan 2).posT - renderedEnd (turnPlan 2) g) w
      rw [show V3.dot w w = 1 from hwu, mul_one, ← V3.norm_sq] at this
      exact abs_le_of_sq_le_sq this (V3.norm_nonneg _)
    refine lt_of_lt_of_le ?_ hle
    have h35 : (7 : ℝ) / 2 < √17 := by rw [lt_sqrt (by norm_num)]; norm_num
    have h412 : (70 : ℝ) / 17 < √17 := by rw [lt_sqrt (by norm_num)]; norm_num
    rw [abs_of_neg (div_neg_of_neg_of_pos (by linarith) h17p), ← neg_div, lt_div_iff₀ h17p]
    linarith

end Welleng.Props
