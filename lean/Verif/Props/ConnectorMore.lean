import Verif.Props.ConnectorFixed
import Verif.Props.ConnectorCurve
import Verif.Props.ConnectorTable
import Mathlib.Analysis.SpecialFunctions.Trigonometric.Bounds
import Mathlib.Analysis.Real.Pi.Bounds

/-!
C170: severity of the second curve.  C171: unit of the reported severity.  C172, C173: curve to
a direction and hold.  C174: closest approach.
-/

namespace Welleng.Props

open Real Con Spec

/-! ### C170 -/

/-- A start northwards and a target three units north and half a unit east, heading east. -/
noncomputable def tightPlan : Plan :=
  ⟨0, ⟨1, 0, 0⟩, 0, ⟨3, 1 / 2, 0⟩, ⟨0, 1, 0⟩, .val 1, .val 1, 1e-5⟩

/-- A state of the solver in which the first curve is still straight. -/
noncomputable def tightSolved : Solved :=
  ⟨⟨2, 0, 0⟩, 0, 2, some ⟨2, 2, 0⟩, some ⟨√(37 / 4), 1 / 2, 3⟩, .inf, .inf⟩

theorem tight_happy : ∃ g, happyFinish tightPlan tightSolved = .ok g ∧ g.dogleg2 = π / 2 ∧
    g.distCurve2 = π / 4 ∧ endpointError tightPlan g = 0 ∧ g.pos2 = 0 ∧ g.vec3 = ⟨1, 0, 0⟩ := by
  have hu : (⟨1, 0, 0⟩ : V3).IsUnit := by norm_num [V3.IsUnit, V3.dot]
  have e1 : finalRadius tightSolved.dist1 tightSolved.rc tightPlan.rDesign tightPlan.minError
      = .ok 0 := by
    unfold finalRadius tightSolved tightPlan getRadiusCritical
    simp [Ext.min, finiteRadius]
  have e2 : finalRadius tightSolved.dist2 tightSolved.rc2 tightPlan.rDesign2 tightPlan.minError
      = .ok 1 := by
    unfold finalRadius tightSolved tightPlan getRadiusCritical
    simp only
    rw [if_neg (by norm_num), sq_sqrt (by norm_num), if_pos (by norm_num)]
    simp only [Ext.min, finiteRadius]
    rw [min_eq_right (by norm_num)]
  have hang : angle ⟨1, 0, 0⟩ ⟨0, 1, 0⟩ = π / 2 := by
    unfold angle V3.dot; norm_num
  have hf : firstCurve tightPlan 0 tightSolved = some (0, ⟨1, 0, 0⟩, 0) := by
    unfold firstCurve
    rw [if_neg (by rintro ⟨h, -⟩; exact h (by simp))]
    have hv : getVecTarget tightPlan.pos1 tightPlan.vec1 tightSolved.pos3 tightSolved.tangent
        (0 * tightSolved.dogleg) (getRf tightSolved.dogleg) = ⟨1, 0, 0⟩ := by
      unfold getVecTarget
      simp only [zero_mul, if_true]
      rfl
    simp only [hv]
    have ha : angle tightPlan.vec1 ⟨1, 0, 0⟩ = 0 := angle_self hu
    rw [ha, if_neg (by simp [tightSolved]; norm_num)]
    congr 3
    unfold getPos
    simp [tightPlan]
  have hrf : getRf (π / 2) = 4 / π := by
    unfold getRf
    rw [if_neg (by positivity), show π / 2 / 2 = π / 4 by ring, tan_pi_div_four]
    field_simp; norm_num
  have hpi := pi_ne_zero
  have hp : placeSecond tightPlan 0 ⟨1, 0, 0⟩ (1 * (π / 2)) (4 / π) = (5 / 2, π / 4) := by
    have hb : getPos tightPlan.posT ((-1 : ℝ) • tightPlan.vecT) ((-1 : ℝ) • ⟨1, 0, 0⟩)
        (1 * (π / 2)) (4 / π) = ⟨2, -1 / 2, 0⟩ := by
      unfold getPos
      rw [show 1 * (π / 2) * (4 / π) / 2 = 1 by field_simp; norm_num]
      ext <;> simp [tightPlan] <;> norm_num
    unfold placeSecond
    simp only [hb]
    rw [if_pos]
    · simp [tightPlan, V3.dot]
      constructor
      · norm_num
      · positivity
    · refine ⟨?_, ⟨?_, ?_⟩, ?_⟩
      · have : (⟨2, -1 / 2, 0⟩ : V3) - 0 - V3.dot ((⟨2, -1 / 2, 0⟩ : V3) - 0) ⟨1, 0, 0⟩ •
            (⟨1, 0, 0⟩ : V3) = ⟨0, -1 / 2, 0⟩ := by
          ext <;> simp [V3.dot]
        rw [this]
        have h : V3.norm ⟨0, -1 / 2, 0⟩ = 1 / 2 := by
          unfold V3.norm V3.dot
          rw [show (0 : ℝ) * 0 + -1 / 2 * (-1 / 2) + 0 * 0 = (1 / 2) ^ 2 by norm_num]
          exact sqrt_sq (by norm_num)
        rw [h]; norm_num
      · simp [tightPlan, V3.dot]; norm_num
      · rw [abs_of_pos (by positivity), gt_iff_lt, lt_div_iff₀ pi_pos]
        linarith [pi_lt_four]
      · simp [tightPlan, V3.dot]
  refine ⟨⟨0, 0 + (5 / 2 : ℝ) • ⟨1, 0, 0⟩, ⟨1, 0, 0⟩, 0, π / 4, getRf 0, 4 / π, 0, π / 2, 0, 5 / 2,
    5 / 2 + π / 4⟩, ?_, rfl, rfl, ?_, rfl, rfl⟩
  · unfold happyFinish
    rw [e1]
    simp only
    rw [hf]
    simp only
    rw [e2]
    have hT : tightPlan.vecT = ⟨0, 1, 0⟩ := rfl
    simp only [getCurveHoldData, hT, hang, hrf, hp]
    rw [abs_of_pos (show 0 < π / 4 by positivity)]
    simp [tightPlan]
  · unfold endpointError renderedEnd
    simp only
    have : V3.dot (0 + (5 / 2 : ℝ) • (⟨1, 0, 0⟩ : V3) - 0) ⟨1, 0, 0⟩ = 5 / 2 := by simp [V3.dot]
    rw [this, max_eq_right (by norm_num), show π / 4 * (4 / π) / 2 = 1 / 2 by field_simp]
    have : tightPlan.posT - (0 + (5 / 2 : ℝ) • (⟨1, 0, 0⟩ : V3) + (1 / 2 : ℝ) •
        ((⟨1, 0, 0⟩ : V3) + tightPlan.vecT)) = 0 := by
      ext <;> simp [tightPlan] <;> norm_num
    rw [this, V3.norm_zero]

/-- C170 is false of the code: a state of the solver is turned into a path whose second curve has
radius 1/2 although the design radius is 1, and the path is returned without complaint. -/
theorem C170_second_curve_sharper : ∃ g,
    finish tightPlan ⟨.ok tightSolved, [], [], none, none, .inf⟩ = .ok g ∧
    ArcTo (1 / 2) g.distCurve2 g.pos3 g.vec3 tightPlan.posT tightPlan.vecT ∧
    0 < g.distCurve2 ∧ tightPlan.rDesign2 = .val 1 := by
  obtain ⟨g, h1, h2, h3, h4, -⟩ := tight_happy
  have hv : tightPlan.vec1.IsUnit := by norm_num [tightPlan, V3.IsUnit, V3.dot]
  have hvT : tightPlan.vecT.IsUnit := by norm_num [tightPlan, V3.IsUnit, V3.dot]
  have he : 0 ≤ tightPlan.minError := by norm_num [tightPlan]
  obtain ⟨R, T, hg⟩ := happyFinish_good hv h1
  have hpt : projectTangent g = g := projectTangent_idle hg
  have hfin : finish tightPlan ⟨.ok tightSolved, [], [], none, none, .inf⟩ = .ok g := by
    unfold finish attempt
    simp only [h1]
    show (deltaRescue tightPlan [] g >>= _) = _
    rw [deltaRescue_idle hg he]
    show (endpointRescue tightPlan [] (projectTangent g) >>= _) = _
    rw [hpt]
    unfold endpointRescue
    rw [if_pos (by rw [h4]; norm_num)]
    show (Except.ok g >>= fun g => enforcePlanarity tightPlan none none .inf g) = _
    show enforcePlanarity tightPlan none none .inf g = _
    unfold enforcePlanarity
    rw [if_pos (by rw [h4]; norm_num)]
  obtain ⟨R, T, -, -, -, -, -, -, h5, -⟩ := C165_continuous_path hv hvT he hfin
  have hd2 : 0 < g.distCurve2 := by rw [h3]; positivity
  have := h5 hd2 (by rw [h2]; positivity) (by rw [h2]; linarith [pi_pos])
  have hend : renderedEnd tightPlan g = tightPlan.posT := by
    unfold endpointError at h4
    have h := V3.norm_sq (tightPlan.posT - renderedEnd tightPlan g)
    rw [h4] at h
    generalize tightPlan.posT = a at *
    generalize renderedEnd tightPlan g = b at *
    simp only [V3.dot, V3.sub_x, V3.sub_y, V3.sub_z] at h
    ext <;> nlinarith [sq_nonneg (a.x - b.x), sq_nonneg (a.y - b.y), sq_nonneg (a.z - b.z)]
  rw [hend, show g.distCurve2 / g.dogleg2 = 1 / 2 by rw [h2, h3]; field_simp; norm_num] at this
  exact ⟨g, hfin, this, hd2, rfl⟩

/-- C170, the part that holds: the first curve is never sharper than the smaller of the design
radius and the critical radius of the state the solver left. -/
theorem C170_first_curve_partial {p : Plan} {s : Solved} {g : Geo} {R rc : ℝ} {x : Dist}
    (hv : p.vec1.IsUnit) (hD : p.rDesign = .val R) (hx : s.dist1 = some x)
    (hrc : getRadiusCritical x p.minError = some rc) (h : happyFinish p s = .ok g)
    (hdl : 0 < g.dogleg) (hdl1 : g.dogleg < π) (hdl2 : g.dogleg = angle p.vec1 g.vec3)
    (hrc0 : 0 < rc) (hR : 0 < R) :
    ArcTo (min rc R) g.distCurve p.pos1 p.vec1 g.pos2 g.vec3 := by
  obtain ⟨R', T, hg⟩ := happyFinish_good hv h
  have hlen := C169_retry_radius_ignored hD hx hrc h
  rw [hg.pos2, hlen, hg.rf]
  exact arcTo_getPos _ hv hg.unit3 hdl hdl1 (by rw [hdl2, cos_angle hv hg.unit3])
    (lt_min hrc0 hR)

/-! ### Cases for C165, C166 and C167 -/

/-- C165, C167: the hypotheses are met by a path with a turn. -/
example : ∃ g, finish tightPlan ⟨.ok tightSolved, [], [], none, none, .inf⟩ = .ok g ∧
    0 < g.distCurve2 := by
  obtain ⟨g, h, -, h2, -⟩ := C170_second_curve_sharper
  exact ⟨g, h, h2⟩

/-- C166: after the first curve of `tightPlan` the target can be reached (hold of 2.5, quarter
circle of radius 1/2). -/
example : ∃ g q, happyFinish tightPlan tightSolved = .ok g ∧ StraightTo (5 / 2) g.pos2 g.vec3 q ∧
    ArcTo (1 / 2) (1 / 2 * (π / 2)) q g.vec3 tightPlan.posT tightPlan.vecT ∧
    1e-6 < sin (π / 2) ^ 2 ∧ 1e-3 * (1 + cos (π / 2)) ≤ 5 / 2 * sin (π / 2) := by
  obtain ⟨g, h, h2, h3, h4, h5, h6⟩ := tight_happy
  have hu : (⟨1, 0, 0⟩ : V3).IsUnit := by norm_num [V3.IsUnit, V3.dot]
  have hvT : tightPlan.vecT.IsUnit := by norm_num [tightPlan, V3.IsUnit, V3.dot]
  refine ⟨g, ⟨5 / 2, 0, 0⟩, h, ⟨by norm_num, ?_⟩, ?_, by rw [sin_pi_div_two]; norm_num,
    by rw [sin_pi_div_two, cos_pi_div_two]; norm_num⟩
  · rw [h5, h6]; ext <;> simp
  · have := arcTo_getPos (R := 1 / 2) (d := π / 2) ⟨5 / 2, 0, 0⟩ hu hvT (by positivity)
      (by linarith [pi_pos]) (by rw [cos_pi_div_two]; simp [tightPlan, V3.dot]) (by norm_num)
    rw [h6]
    convert this using 1
    unfold getPos
    rw [half_eq _ (by positivity), show π / 2 / 2 = π / 4 by ring, tan_pi_div_four]
    ext <;> simp [tightPlan] <;> norm_num

/-! ### C171 -/

/-- C171, the part that holds: in metres, a curve of the design radius is reported with the
design severity in degrees per 30 m. -/
theorem C171_metres_partial {d dl : ℝ} (hd : 0 < d) (hdl : 0 < dl) :
    reportedDlsCurve dl (designRadius 30 d * dl) = d := by
  unfold reportedDlsCurve designRadius radians degrees
  have hpi := pi_pos
  rw [abs_of_pos (by positivity)]
  field_simp

example : reportedDlsCurve 1 (designRadius 30 3 * 1) = 3 :=
  C171_metres_partial (by norm_num) one_pos

/-- C171 is false of the code in feet: a curve of the design radius is reported with three tenths
of the design severity. -/
theorem C171_feet {d dl : ℝ} (hd : 0 < d) (hdl : 0 < dl) :
    reportedDlsCurve dl (designRadius 100 d * dl) = 3 / 10 * d := by
  unfold reportedDlsCurve designRadius radians degrees
  have hpi := pi_pos
  rw [abs_of_pos (by positivity)]
  field_simp
  norm_num

/-- C171 is false of the code for curve-hold-curve: the number is in radians per 30 m, while the
other methods report degrees. -/
theorem C171_radians {d : ℝ} (hd : 0 < d) :
    reportedDlsChc (designRadius 30 d) .inf = radians d ∧
    (∀ r, designRadius 30 d ≤ r → reportedDlsChc (designRadius 30 d) (.val r) = radians d) ∧
    reportedDlsChc (designRadius 30 d) .inf < d := by
  have hpi := pi_pos
  have h1 : radians (Con.dlsFromRadius (designRadius 30 d)) = radians d := by
    unfold Con.dlsFromRadius designRadius radians
    field_simp
    norm_num
  have h0 : 0 < radians d := by unfold radians; positivity
  have h2 : reportedDlsChc (designRadius 30 d) .inf = radians d := by
    unfold reportedDlsChc
    simp only
    rw [h1, max_eq_left h0.le]
  have hr0 : 0 < designRadius 30 d := by unfold designRadius; positivity
  refine ⟨h2, fun r hr => ?_, ?_⟩
  · unfold reportedDlsChc
    simp only
    rw [max_eq_left, h1]
    unfold Con.dlsFromRadius radians
    have : 0 < r := lt_of_lt_of_le hr0 hr
    gcongr
  · rw [h2]; unfold radians
    have := pi_lt_four
    rw [div_lt_iff₀ (by norm_num)]
    nlinarith

/-! ### C172, C173 -/

/-- C172: a curve to a direction without a depth is an arc of the design radius that ends in the
wanted direction, and the depth of the target is the start plus its length. -/
theorem C172_no_depth {p : Plan} {r : ℝ} {nearPi : Prop} (hv : p.vec1.IsUnit) (hvT : p.vecT.IsUnit)
    (hr : 0 < r) (h0 : 0 < angle p.vec1 p.vecT) (h1 : angle p.vec1 p.vecT < π) :
    ∃ d c q, minCurveGeo p none (.val r) nearPi (angle p.vec1 p.vecT) = some (d, c, none, q) ∧
      ArcTo r c p.pos1 p.vec1 q p.vecT ∧ d.mdTarget = p.md1 + c ∧ d.md2 = none := by
  refine ⟨_, _, _, rfl, arcTo_getPos _ hv hvT h0 h1 (cos_angle hv hvT) hr, ?_, rfl⟩
  simp only
  rw [abs_of_pos (mul_pos hr h0)]

/-- C172: with a depth that leaves room for the curve, an arc of the design radius followed by a
straight that ends at the given depth. -/
theorem C172_with_depth {p : Plan} {r md : ℝ} {nearPi : Prop} (hv : p.vec1.IsUnit)
    (hvT : p.vecT.IsUnit) (hr : 0 < r) (h0 : 0 < angle p.vec1 p.vecT)
    (h1 : angle p.vec1 p.vecT < π) (hmd : p.md1 + r * angle p.vec1 p.vecT < md) :
    ∃ d c q2 q, minCurveGeo p (some md) (.val r) nearPi (angle p.vec1 p.vecT)
        = some (d, c, some q2, q) ∧
      ArcTo r c p.pos1 p.vec1 q2 p.vecT ∧ d.md2 = some (p.md1 + c) ∧
      StraightTo (md - (p.md1 + c)) q2 p.vecT q ∧ d.mdTarget = md ∧
      c = r * angle p.vec1 p.vecT := by
  set dl := angle p.vec1 p.vecT with hdl
  have hrc : radiusOfMd p.md1 md dl = .val ((md - p.md1) / dl) := by
    unfold radiusOfMd
    have : 0 < r * dl := mul_pos hr h0
    rw [if_neg h0.ne', abs_of_pos (div_pos (by linarith) h0)]
  have hlt : r < (md - p.md1) / dl := by rw [lt_div_iff₀ h0]; linarith
  have hmin : minCurveMd p.md1 (some md) (.val r) dl nearPi
      = some (⟨p.md1, some (p.md1 + r * dl), none, md⟩, r * dl) := by
    unfold minCurveMd
    have hgt : Ext.gt (radiusOfMd p.md1 md dl) (.val r) := by rw [hrc]; exact hlt
    simp only
    rw [if_pos (Or.inl hgt), hrc]
    simp only [Ext.min, min_eq_left hlt.le]
  refine ⟨⟨p.md1, some (p.md1 + r * dl), none, md⟩, r * dl, _, _, ?_,
    arcTo_getPos _ hv hvT h0 h1 (cos_angle hv hvT) hr, rfl, ⟨by linarith, rfl⟩, rfl, rfl⟩
  unfold minCurveGeo
  simp only [hmin]

/-- C172: with a depth too close for the design radius (and a turn that does not round to a half
turn) the depth and the direction are still met, by a single arc. -/
theorem C172_close_depth {p : Plan} {r md : ℝ} (hv : p.vec1.IsUnit) (hvT : p.vecT.IsUnit)
    (h0 : 0 < angle p.vec1 p.vecT) (h1 : angle p.vec1 p.vecT < π) (hmd0 : p.md1 < md)
    (hmd : md ≤ p.md1 + r * angle p.vec1 p.vecT) :
    ∃ d c q, minCurveGeo p (some md) (.val r) False (angle p.vec1 p.vecT)
        = some (d, c, none, q) ∧
      ArcTo ((md - p.md1) / angle p.vec1 p.vecT) (md - p.md1) p.pos1 p.vec1 q p.vecT ∧
      d.mdTarget = md ∧ c = md - p.md1 := by
  set dl := angle p.vec1 p.vecT with hdl
  have hrc : radiusOfMd p.md1 md dl = .val ((md - p.md1) / dl) := by
    unfold radiusOfMd
    rw [if_neg h0.ne', abs_of_pos (div_pos (by linarith) h0)]
  have hle : (md - p.md1) / dl ≤ r := by rw [div_le_iff₀ h0]; linarith
  have hmul : (md - p.md1) / dl * dl = md - p.md1 := div_mul_cancel₀ _ h0.ne'
  have hmin : minCurveMd p.md1 (some md) (.val r) dl False
      = some (⟨p.md1, none, none, md⟩, md - p.md1) := by
    unfold minCurveMd
    have hgt : ¬ (Ext.gt (radiusOfMd p.md1 md dl) (.val r) ∨ False) := by
      rw [or_false, hrc]; exact not_lt.mpr hle
    simp only
    rw [if_neg hgt, hrc]
    simp only [hmul]
  refine ⟨⟨p.md1, none, none, md⟩, md - p.md1,
    getPos p.pos1 p.vec1 p.vecT (md - p.md1) (getRf dl), ?_, ?_, rfl, rfl⟩
  · unfold minCurveGeo
    simp only [hmin]
  · have := arcTo_getPos (R := (md - p.md1) / dl) p.pos1 hv hvT h0 h1 (cos_angle hv hvT)
      (div_pos (by linarith) h0)
    rwa [hmul] at this

/-- C172: a hold to a depth is a straight along the start direction. -/
theorem C172_hold {pos1 vec1 : V3} {md1 md : ℝ} (h : md1 ≤ md) :
    ∃ q, holdGeo pos1 vec1 md1 none (some md) = some (q, md) ∧
      StraightTo (md - md1) pos1 vec1 q :=
  ⟨_, rfl, by linarith, rfl⟩

/-- A quarter turn at the design radius 1. -/
noncomputable def quarterPlan : Plan :=
  ⟨0, ⟨1, 0, 0⟩, 100, 0, ⟨0, 1, 0⟩, .val 1, .val 1, 1e-5⟩

theorem quarter_angle : angle quarterPlan.vec1 quarterPlan.vecT = π / 2 := by
  unfold angle V3.dot quarterPlan; norm_num

example : quarterPlan.vec1.IsUnit ∧ quarterPlan.vecT.IsUnit ∧
    0 < angle quarterPlan.vec1 quarterPlan.vecT ∧ angle quarterPlan.vec1 quarterPlan.vecT < π ∧
    quarterPlan.md1 + 1 * angle quarterPlan.vec1 quarterPlan.vecT < 110 := by
  rw [quarter_angle]
  refine ⟨by norm_num [quarterPlan, V3.IsUnit, V3.dot], by norm_num [quarterPlan, V3.IsUnit, V3.dot],
    by positivity, by linarith [pi_pos], ?_⟩
  simp only [quarterPlan]; linarith [pi_lt_four]

/-- C173 is false of the code: a depth one unit below the start makes the quarter turn with the
radius `2/π`, sharper than the design radius 1, without complaint. -/
theorem C173_sharper_than_design : ∃ d c q,
    minCurveGeo quarterPlan (some 101) (.val 1) False (angle quarterPlan.vec1 quarterPlan.vecT)
      = some (d, c, none, q) ∧
    ArcTo (2 / π) 1 quarterPlan.pos1 quarterPlan.vec1 q quarterPlan.vecT ∧ 2 / π < 1 ∧
    d.mdTarget = 101 := by
  have hq := quarter_angle
  obtain ⟨d, c, q, h1, h2, h3, -⟩ := C172_close_depth (p := quarterPlan) (r := 1) (md := 101)
    (by norm_num [quarterPlan, V3.IsUnit, V3.dot]) (by norm_num [quarterPlan, V3.IsUnit, V3.dot])
    (by rw [hq]; positivity) (by rw [hq]; linarith [pi_pos]) (by norm_num [quarterPlan])
    (by rw [hq]; simp only [quarterPlan]; linarith [pi_gt_three])
  refine ⟨d, c, q, h1, ?_, ?_, h3⟩
  · have e : (101 : ℝ) - quarterPlan.md1 = 1 := by norm_num [quarterPlan]
    rw [e, hq] at h2
    convert h2 using 1
    field_simp
  · rw [div_lt_one pi_pos]; linarith [pi_gt_three]

/-- C173, the part that holds: without a depth, or with a depth that leaves room, the curve has
exactly the design radius. -/
theorem C173_room_partial {p : Plan} {r : ℝ} {nearPi : Prop} {mdGiven : Option ℝ}
    (hv : p.vec1.IsUnit) (hvT : p.vecT.IsUnit) (hr : 0 < r) (h0 : 0 < angle p.vec1 p.vecT)
    (h1 : angle p.vec1 p.vecT < π)
    (hmd : ∀ m, mdGiven = some m → p.md1 + r * angle p.vec1 p.vecT < m) :
    ∃ d c q2 q, minCurveGeo p mdGiven (.val r) nearPi (angle p.vec1 p.vecT) = some (d, c, q2, q) ∧
      ArcTo r c p.pos1 p.vec1 (q2.getD q) p.vecT := by
  cases mdGiven with
  | none =>
    obtain ⟨d, c, q, h, h', -⟩ := C172_no_depth (nearPi := nearPi) hv hvT hr h0 h1
    exact ⟨d, c, none, q, h, h'⟩
  | some m =>
    obtain ⟨d, c, q2, q, h, h', -⟩ := C172_with_depth (nearPi := nearPi) hv hvT hr h0 h1
      (hmd m rfl)
    exact ⟨d, c, some q2, q, h, h'⟩

/-! ### C174 -/

/-- A sign factor is one or minus one. -/
theorem signFactor_sq {n u a : ℝ} (h : signFactor n u = some a) : a * a = 1 ∧ n ≠ 0 := by
  unfold signFactor at h
  split at h
  · simp at h
  · rename_i hn
    push Not at hn
    simp only [Option.some.injEq] at h
    subst h
    have : n / u ≠ 0 := div_ne_zero hn.1 hn.2
    refine ⟨?_, hn.1⟩
    rw [div_mul_div_comm, abs_mul_abs_self]
    exact div_self (mul_ne_zero this this)

/-- The centre of the closest approach is a radius away from the start. -/
theorem approachCentre_dist {pos1 vec1 posT cc : V3} {r : ℝ} (hr : 0 ≤ r)
    (h : approachCentre pos1 vec1 posT r = some cc) : V3.norm (cc - pos1) = r := by
  unfold approachCentre at h
  simp only at h
  set n := normalize (V3.cross (normalize (posT - pos1)) vec1) with hn
  cases ha : signFactor n.x (normalize (posT - pos1)).x with
  | none => rw [ha] at h; simp at h
  | some a =>
    cases hb : signFactor n.y (normalize (posT - pos1)).y with
    | none => rw [ha, hb] at h; simp at h
    | some b =>
      cases hc : signFactor n.z (normalize (posT - pos1)).z with
      | none => rw [ha, hb, hc] at h; simp at h
      | some c =>
        rw [ha, hb, hc] at h
        simp only [Option.some.injEq] at h
        subst h
        have hne : V3.cross (normalize (posT - pos1)) vec1 ≠ 0 := by
          intro h0
          apply (signFactor_sq ha).2
          rw [hn, h0]; simp [normalize]
        have hu := normalize_unit hne
        rw [← hn] at hu
        unfold V3.IsUnit V3.dot at hu
        have e : pos1 + r • (⟨n.x * a, n.y * b, n.z * c⟩ : V3) - pos1
            = r • ⟨n.x * a, n.y * b, n.z * c⟩ := by ext <;> simp
        rw [e, V3.norm_smul, abs_of_nonneg hr]
        have hw : (⟨n.x * a, n.y * b, n.z * c⟩ : V3).IsUnit := by
          unfold V3.IsUnit V3.dot
          linear_combination hu + n.x ^ 2 * (signFactor_sq ha).1 + n.y ^ 2 * (signFactor_sq hb).1
            + n.z ^ 2 * (signFactor_sq hc).1
        rw [norm_of_unit hw, mul_one]

/-- C174 (partial): when a curve is delivered, it ends no further than twice the design radius from
the start, and no point of the sphere about the centre used is closer to the target. -/
theorem C174_near_partial {pos1 vec1 posT q : V3} {r : ℝ} {o : CurveHold} (hr : 0 ≤ r)
    (h : closestApproach pos1 vec1 posT r = some (q, o)) :
    V3.norm (q - pos1) ≤ 2 * r ∧
    ∃ cc, V3.norm (cc - pos1) = r ∧ ∀ p, V3.norm (p - cc) = r → posT ≠ cc →
      V3.norm (q - cc) = r ∧ V3.norm (posT - q) ≤ V3.norm (posT - p) := by
  unfold closestApproach approachTarget at h
  cases hc : approachCentre pos1 vec1 posT r with
  | none => rw [hc] at h; simp at h
  | some cc =>
    rw [hc] at h
    simp only [Option.map_some] at h
    have hq : q = cc + r • normalize (posT - cc) := by
      cases hg : curveOnly (.val r) (getDistances pos1 vec1 (cc + r • normalize (posT - cc))) pos1 vec1
          (cc + r • normalize (posT - cc)) with
      | none => rw [hg] at h; simp at h
      | some o' => rw [hg] at h; simp at h; exact h.1.symm
    have hd := approachCentre_dist hr hc
    have hle : V3.norm (normalize (posT - cc)) ≤ 1 := by
      by_cases h0 : posT - cc = 0
      · rw [h0]; simp [normalize, V3.norm, V3.dot]
      · rw [norm_of_unit (normalize_unit h0)]
    have hq1 : V3.norm (q - cc) ≤ r := by
      have : q - cc = r • normalize (posT - cc) := by rw [hq]; ext <;> simp
      rw [this, V3.norm_smul, abs_of_nonneg hr]
      nlinarith
    constructor
    · have e : q - pos1 = (q - cc) + (cc - pos1) := by ext <;> simp
      rw [e]
      have := V3.norm_add_le (q - cc) (cc - pos1)
      linarith
    · refine ⟨cc, hd, fun p hp hne => ?_⟩
      have h0 : posT - cc ≠ 0 := fun h => hne (by
        have hx := congrArg V3.x h; have hy := congrArg V3.y h; have hz := congrArg V3.z h
        simp at hx hy hz
        ext <;> linarith)
      have hu := norm_of_unit (normalize_unit h0)
      set D := V3.norm (posT - cc) with hD
      have hDp : 0 < D := by
        rcases (show 0 ≤ D from sqrt_nonneg _).lt_or_eq with h | h
        · exact h
        · exfalso
          have : normalize (posT - cc) = 0 := by unfold normalize; rw [← hD, ← h]; ext <;> simp
          rw [this] at hu; simp [V3.norm, V3.dot] at hu
      have e1 : q - cc = r • normalize (posT - cc) := by rw [hq]; ext <;> simp
      have e2 : posT - q = (1 - r / D) • (posT - cc) := by
        rw [hq]; unfold normalize; rw [← hD]; ext <;> simp <;> field_simp <;> ring
      have e3 : V3.norm (posT - q) = |D - r| := by
        rw [e2, V3.norm_smul, ← hD]
        rw [← abs_of_pos hDp, ← abs_mul, abs_of_pos hDp]
        congr 1
        field_simp
      refine ⟨by rw [e1, V3.norm_smul, hu, abs_of_nonneg hr, mul_one], ?_⟩
      rw [e3, abs_le]
      have t1 := V3.norm_add_le (posT - p) (p - cc)
      have t2 := V3.norm_add_le (p - posT) (posT - cc)
      have e4 : posT - p + (p - cc) = posT - cc := by ext <;> simp
      have e5 : p - posT + (posT - cc) = p - cc := by ext <;> simp
      have e6 : V3.norm (p - posT) = V3.norm (posT - p) := by
        unfold V3.norm V3.dot; congr 1; simp; ring
      rw [e4, hp, ← hD] at t1
      rw [e5, hp, ← hD, e6] at t2
      constructor <;> linarith

/-- C174 is false of the code: from a vertical start the closest approach is undefined for every
target. -/
theorem C174_vertical_nan (pos1 posT : V3) (r : ℝ) :
    closestApproach pos1 ⟨0, 0, 1⟩ posT r = none := by
  have hn : (normalize (V3.cross (normalize (posT - pos1)) ⟨0, 0, 1⟩)).z = 0 := by
    simp [normalize, V3.cross]
  have hc : approachCentre pos1 ⟨0, 0, 1⟩ posT r = none := by
    unfold approachCentre
    simp only [hn]
    have : ∀ u, signFactor 0 u = none := fun u => by unfold signFactor; simp
    rw [this]
    split
    · next h => cases h
    · rfl
  unfold closestApproach approachTarget
  rw [hc]
  rfl

/-- The same for a start along north or along east. -/
theorem C174_axis_nan (pos1 posT : V3) (r : ℝ) :
    closestApproach pos1 ⟨1, 0, 0⟩ posT r = none ∧ closestApproach pos1 ⟨0, 1, 0⟩ posT r = none := by
  have h0 : ∀ u, signFactor 0 u = none := fun u => by unfold signFactor; simp
  constructor
  · have hn : (normalize (V3.cross (normalize (posT - pos1)) ⟨1, 0, 0⟩)).x = 0 := by
      simp [normalize, V3.cross]
    have hc : approachCentre pos1 ⟨1, 0, 0⟩ posT r = none := by
      unfold approachCentre
      simp only [hn]
      rw [h0]
    unfold closestApproach approachTarget
    rw [hc]
    rfl
  · have hn : (normalize (V3.cross (normalize (posT - pos1)) ⟨0, 1, 0⟩)).y = 0 := by
      simp [normalize, V3.cross]
    have hc : approachCentre pos1 ⟨0, 1, 0⟩ posT r = none := by
      unfold approachCentre
      simp only [hn]
      rw [h0]
      cases signFactor (normalize (V3.cross (normalize (posT - pos1)) ⟨0, 1, 0⟩)).x
        (normalize (posT - pos1)).x <;> rfl
    unfold closestApproach approachTarget
    rw [hc]
    rfl

/-- C174 is false of the code for an inclined start too: for a target inside the turning circle of
the design radius 1 the delivered curve is shorter than the straight distance to its end. -/
theorem C174_shorter_than_straight :
    (∃ rc, getRadiusCritical (getDistances 0 ⟨1 / 3, 2 / 3, 2 / 3⟩ ⟨176 / 243, 160 / 243, -32 / 243⟩)
      1e-5 = some rc ∧ rc < 1) ∧
    ∃ q o, closestApproach 0 ⟨1 / 3, 2 / 3, 2 / 3⟩ ⟨176 / 243, 160 / 243, -32 / 243⟩ 1
        = some (q, o) ∧ o.md < V3.norm (q - 0) := by
  have hvu : (⟨1 / 3, 2 / 3, 2 / 3⟩ : V3).IsUnit := by norm_num [V3.IsUnit, V3.dot]
  constructor
  · have hd := getDistances_eq (pos1 := 0) (vec1 := ⟨1 / 3, 2 / 3, 2 / 3⟩)
      (u := ⟨2 / 3, 1 / 3, -2 / 3⟩) (posT := ⟨176 / 243, 160 / 243, -32 / 243⟩) (a := 48 / 81)
      (b := 64 / 81) hvu (by norm_num [V3.IsUnit, V3.dot]) (by norm_num [V3.dot]) (by norm_num)
      (by ext <;> simp <;> norm_num) (by
        rintro ⟨h, -⟩
        unfold isClose at h
        simp only [V3.zero_x] at h
        norm_num [abs_of_pos, abs_of_neg] at h)
    have hn : V3.norm ((⟨176 / 243, 160 / 243, -32 / 243⟩ : V3) - 0) = 80 / 81 := by
      unfold V3.norm V3.dot
      rw [← sqrt_sq (show (0 : ℝ) ≤ 80 / 81 by norm_num)]
      congr 1; norm_num
    rw [hd, hn]
    unfold getRadiusCritical
    simp only
    rw [if_neg (by norm_num), if_pos (by norm_num)]
    exact ⟨_, rfl, by norm_num⟩
  · have hu : normalize ((⟨176 / 243, 160 / 243, -32 / 243⟩ : V3) - 0) = ⟨11 / 15, 10 / 15, -2 / 15⟩ := by
      have hn : V3.norm ((⟨176 / 243, 160 / 243, -32 / 243⟩ : V3) - 0) = 80 / 81 := by
        unfold V3.norm V3.dot
        rw [← sqrt_sq (show (0 : ℝ) ≤ 80 / 81 by norm_num)]
        congr 1; norm_num
      unfold normalize
      rw [hn]; ext <;> simp <;> norm_num
    have hcr : normalize (V3.cross ⟨11 / 15, 10 / 15, -2 / 15⟩ ⟨1 / 3, 2 / 3, 2 / 3⟩)
        = ⟨2 / 3, -2 / 3, 1 / 3⟩ := by
      have h : V3.cross ⟨11 / 15, 10 / 15, -2 / 15⟩ ⟨1 / 3, 2 / 3, 2 / 3⟩
          = ⟨8 / 15, -8 / 15, 4 / 15⟩ := by ext <;> simp [V3.cross] <;> norm_num
      have hn : V3.norm ⟨8 / 15, -8 / 15, 4 / 15⟩ = 4 / 5 := by
        unfold V3.norm V3.dot
        rw [← sqrt_sq (show (0 : ℝ) ≤ 4 / 5 by norm_num)]
        congr 1; norm_num
      rw [h]; unfold normalize
      rw [hn]; ext <;> simp <;> norm_num
    have hs : ∀ n u s : ℝ, n ≠ 0 → u ≠ 0 → n / u / |n / u| = s → signFactor n u = some s := by
      intro n u s hn hu h
      unfold signFactor
      rw [if_neg (by simp [hn, hu]), h]
    have hc : approachCentre 0 ⟨1 / 3, 2 / 3, 2 / 3⟩ ⟨176 / 243, 160 / 243, -32 / 243⟩ 1
        = some ⟨2 / 3, 2 / 3, -1 / 3⟩ := by
      unfold approachCentre
      simp only [hu, hcr]
      rw [hs (2 / 3) (11 / 15) 1 (by norm_num) (by norm_num) (by
          rw [abs_of_pos (by norm_num)]; norm_num),
        hs (-2 / 3) (10 / 15) (-1) (by norm_num) (by norm_num) (by
          rw [abs_of_neg (by norm_num)]; norm_num),
        hs (1 / 3) (-2 / 15) (-1) (by norm_num) (by norm_num) (by
          rw [abs_of_neg (by norm_num)]; norm_num)]
      simp only [Option.some.injEq]
      ext <;> simp <;> norm_num
    have hq : approachTarget 0 ⟨1 / 3, 2 / 3, 2 / 3⟩ ⟨176 / 243, 160 / 243, -32 / 243⟩ 1
        = some ⟨48 / 51, 32 / 51, 32 / 51⟩ := by
      unfold approachTarget
      rw [hc]
      simp only [Option.map_some, Option.some.injEq]
      have hn : V3.norm ((⟨176 / 243, 160 / 243, -32 / 243⟩ : V3) - ⟨2 / 3, 2 / 3, -1 / 3⟩)
          = 17 / 81 := by
        unfold V3.norm V3.dot
        rw [← sqrt_sq (show (0 : ℝ) ≤ 17 / 81 by norm_num)]
        congr 1; norm_num
      unfold normalize
      rw [hn]; ext <;> simp <;> norm_num
    have h2 : √(2 : ℝ) ^ 2 = 2 := sq_sqrt (by norm_num)
    have h2p : 0 < √(2 : ℝ) := by positivity
    have hw : (⟨4 / (3 * √2), -1 / (3 * √2), -1 / (3 * √2)⟩ : V3).IsUnit := by
      simp only [V3.IsUnit, V3.dot]
      field_simp
      rw [h2]; norm_num
    have hd := getDistances_eq (pos1 := 0) (vec1 := ⟨1 / 3, 2 / 3, 2 / 3⟩)
      (u := ⟨4 / (3 * √2), -1 / (3 * √2), -1 / (3 * √2)⟩) (posT := ⟨48 / 51, 32 / 51, 32 / 51⟩)
      (a := 176 / 153) (b := 64 * √2 / 153) hvu hw (by simp only [V3.dot]; field_simp; norm_num)
      (by positivity) (by ext <;> simp <;> field_simp <;> norm_num) (by
        rintro ⟨h, -⟩
        unfold isClose at h
        simp only [V3.zero_x] at h
        norm_num [abs_of_pos, abs_of_neg] at h)
    set D := V3.norm ((⟨48 / 51, 32 / 51, 32 / 51⟩ : V3) - 0) with hD
    have hD2 : D ^ 2 = 4352 / 2601 := by
      rw [hD, V3.norm_sq]; simp only [V3.dot]; norm_num
    have hD0 : 0 ≤ D := V3.norm_nonneg _
    have hDgt : 11 / 10 < D := by nlinarith
    have hrc : D ^ 2 / (2 * (64 * √2 / 153)) = √2 := by
      rw [hD2]; field_simp
      rw [h2]; norm_num
    have h21 : 1 < √(2 : ℝ) := by rw [lt_sqrt (by norm_num)]; norm_num
    have h215 : √(2 : ℝ) < 3 / 2 := by rw [sqrt_lt' (by norm_num)]; norm_num
    have hmin : minCurveToTarget ⟨D, 176 / 153, 64 * √2 / 153⟩
        = some (0, .val √2, 2 * atan2 (64 * √2 / 153) (176 / 153)) := by
      unfold minCurveToTarget
      simp only
      rw [if_neg (by norm_num), if_neg (by positivity), hrc, if_pos h2p]
    set θ := atan2 (64 * √2 / 153) (176 / 153) with hθ
    have hsq : 0 < √((176 / 153) ^ 2 + (64 * √2 / 153) ^ 2) := sqrt_pos.mpr (by positivity)
    have hsin : sin θ = 64 * √2 / 153 / √((176 / 153) ^ 2 + (64 * √2 / 153) ^ 2) := sin_atan2 _ _
    have hcos : cos θ = 176 / 153 / √((176 / 153) ^ 2 + (64 * √2 / 153) ^ 2) :=
      cos_atan2 (Or.inl (by norm_num))
    have hmem := atan2_mem (64 * √2 / 153) (176 / 153)
    rw [← hθ] at hmem
    have hs0 : 0 < sin θ := by rw [hsin]; positivity
    have hc0 : 0 < cos θ := by rw [hcos]; positivity
    have hθ0 : 0 < θ := by
      by_contra hn
      have := sin_nonpos_of_nonpos_of_neg_pi_le (not_lt.mp hn) hmem.1.le
      linarith
    have hθh : θ < π / 2 := by
      by_contra hn
      have := cos_nonpos_of_pi_div_two_le_of_le (not_lt.mp hn) (by linarith [hmem.2, pi_pos])
      linarith
    have hθ1 : θ < 55 / 100 := by
      have h := lt_tan hθ0 hθh
      rw [tan_eq_sin_div_cos, hsin, hcos, div_div_div_cancel_right₀ hsq.ne'] at h
      linarith
    refine ⟨⟨48 / 51, 32 / 51, 32 / 51⟩, ?_⟩
    unfold closestApproach
    rw [hq]
    simp only [hd]
    unfold curveOnly
    rw [hmin]
    simp only [Ext.min, min_eq_left h21.le, getCurveHoldData, Option.map_some, Option.some.injEq,
      Prod.mk.injEq, true_and]
    refine ⟨_, rfl, ?_⟩
    simp only
    unfold checkDogleg
    rw [if_neg (by linarith)]
    linarith

end Welleng.Props
