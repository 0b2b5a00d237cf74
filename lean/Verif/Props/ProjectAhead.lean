import Verif.Lemmas.Toolface
import Verif.Props.Toolface
import Mathlib.Analysis.SpecialFunctions.Integrals.Basic

/-!
C105-C112: projections ahead, arcs built from a toolface, toolface to a point, circle centres,
annular volumes (`/repo/welleng/survey.py` 1185-1221, 2150-2189, 2920-2985,
`/repo/welleng/utils.py` 529-700, 887-1009).
-/

namespace Welleng.Props

open Real Welleng Spec Tf

/-! ### C105: project_ahead -/

/-- The turn per unit length of a dogleg severity in degrees per 30. -/
noncomputable def turnPer (dls : ℝ) : ℝ := dls * (π / 180) / 30

theorem projectAhead_arc {pos v : V3} (hv : v.IsUnit) (dm : ℝ) {dls : ℝ} (hd : 0 < dls)
    (tf md : ℝ) :
    projectAhead pos v dm dls tf md =
      ⟨pos + arcPos (turnPer dls) v
          (toolDir (getAngles v true).1 (getAngles v true).2 tf) dm,
        arcTan (turnPer dls) v (toolDir (getAngles v true).1 (getAngles v true).2 tf) dm,
        md + dm⟩ := by
  have hk : radians (dm / 30 * dls) = turnPer dls * dm := by
    simp only [radians, turnPer]; ring
  have hr : 30 / dls * 360 / (2 * π) = 1 / turnPer dls := by
    have := pi_ne_zero
    simp only [turnPer]; field_simp; norm_num
  have hz : (0 : ℝ) * (1 / turnPer dls) = 0 := zero_mul _
  unfold projectAhead
  rw [if_pos hd]
  simp only [arcPosVec, hk, hr, hz, eulerZyz_angles hv]
  congr 1
  · generalize toolDir _ _ tf = N
    ext <;> simp [arcPos] <;> ring
  · generalize toolDir _ _ tf = N
    ext <;> simp [arcTan] <;> ring

/-- **C105** Projecting ahead from a position along a unit direction with a positive severity
ends on the circular arc that leaves along that direction, turns with that severity, and turns
towards the given toolface; the depth grows by the projected length.  (For a direction with
inclination strictly between 0 and 180 degrees the high side is that of any inclination and
azimuth describing it.) -/
theorem C105_projection_is_arc {pos : V3} {inc azi : ℝ} (hs : 0 < sin inc) (dm : ℝ) {dls : ℝ}
    (hd : 0 < dls) (tf md : ℝ) {γ τ ν : ℝ → V3}
    (hc : CircularCurve γ τ ν (dls * (π / 180) / 30)) (h0 : γ 0 = 0)
    (ht : τ 0 = tangent inc azi) (hn : ν 0 = toolDir inc azi tf) :
    projectAhead pos (tangent inc azi) dm dls tf md = ⟨pos + γ dm, τ dm, md + dm⟩ := by
  have hk : turnPer dls ≠ 0 := by unfold turnPer; positivity
  rw [projectAhead_arc (tangent_unit _ _) dm hd]
  have e := toolDir_congr (tangent_getAngles_nev (tangent_unit inc azi)).symm hs
    (sin_getAngles_nonneg _ _) tf
  rw [← e, hc.tan_eq dm, hc.pos_eq hk h0 dm, ht, hn]
  rfl

/-- **C105** For a vertical direction the toolface is measured from north. -/
theorem C105_vertical_from_north {pos : V3} (dm : ℝ) {dls : ℝ} (hd : 0 < dls) (tf md : ℝ)
    {γ τ ν : ℝ → V3} (hc : CircularCurve γ τ ν (dls * (π / 180) / 30)) (h0 : γ 0 = 0)
    (ht : τ 0 = ⟨0, 0, 1⟩) (hn : ν 0 = ⟨cos tf, sin tf, 0⟩) :
    projectAhead pos ⟨0, 0, 1⟩ dm dls tf md = ⟨pos + γ dm, τ dm, md + dm⟩ := by
  have hk : turnPer dls ≠ 0 := by unfold turnPer; positivity
  have hu : V3.IsUnit ⟨0, 0, 1⟩ := by simp [V3.IsUnit, V3.dot]
  have ha : getAngles ⟨0, 0, 1⟩ true = (0, 0) := by
    rw [getAngles_nev_of_unit hu]
    have h1 : atan2 0 1 = 0 := by
      have := atan2_sin_cos (θ := 0) (by linarith [pi_pos]) (by linarith [pi_pos])
      simpa using this
    have h2 : atan2 0 0 = 0 := by
      unfold atan2
      exact Complex.arg_zero
    have h3 := pmod_add_int_mul 0 two_pi_pos 1
    have h4 := pmod_eq_self two_pi_pos le_rfl two_pi_pos
    simp only [Int.cast_one, one_mul, zero_add] at h3
    simp [getAnglesXyz, h1, h2, h3, h4]
  rw [projectAhead_arc hu dm hd, ha, hc.tan_eq dm, hc.pos_eq hk h0 dm, ht, hn]
  have e : toolDir 0 0 tf = ⟨cos tf, sin tf, 0⟩ := by
    ext <;> simp [toolDir, highSide, rightSide]
  rw [e]
  rfl

/-- **C105** With a severity of zero the projection is straight (as it is, silently, for a
negative one). -/
theorem C105_hold (pos v : V3) (dm : ℝ) {dls : ℝ} (hd : dls ≤ 0) (tf md : ℝ) :
    projectAhead pos v dm dls tf md = ⟨pos + dm • v, v, md + dm⟩ := by
  unfold projectAhead
  rw [if_neg (not_lt.mpr hd)]

/-- **C105** Round trip: a survey through the start and the projected station has the projected
position as its minimum-curvature position, the requested length, severity and (up to full
turns) toolface. -/
theorem C105_round_trip {pos : V3} {inc azi : ℝ} (hs : 0 < sin inc) {dm dls : ℝ} (hm : 0 < dm)
    (hd : 0 < dls) (hpi : dls * (π / 180) / 30 * dm < π) (tf md : ℝ) {i2 a2 : ℝ}
    (h2 : tangent i2 a2 = (projectAhead pos (tangent inc azi) dm dls tf md).vec) :
    pos + minCurveStep dm inc azi i2 a2 = (projectAhead pos (tangent inc azi) dm dls tf md).pos ∧
    (∃ d, dlsOf 30 (dogleg2 ⟨md, inc, azi⟩ ⟨md + dm, i2, a2⟩) dm = .val d ∧ d = dls) ∧
    sin (t1 ⟨md, inc, azi⟩ ⟨md + dm, i2, a2⟩) = sin tf ∧
    cos (t1 ⟨md, inc, azi⟩ ⟨md + dm, i2, a2⟩) = cos tf := by
  have hk : 0 < turnPer dls := by unfold turnPer; positivity
  have hc := arc_circular hk.ne' (tangent_unit inc azi) (toolDir_unit inc azi tf)
    (toolDir_ortho inc azi tf)
  have g0 : arcPos (turnPer dls) (tangent inc azi) (toolDir inc azi tf) 0 = 0 := by
    ext <;> simp [arcPos]
  have t0 : arcTan (turnPer dls) (tangent inc azi) (toolDir inc azi tf) 0 = tangent inc azi := by
    ext <;> simp [arcTan]
  have n0 : arcNor (turnPer dls) (tangent inc azi) (toolDir inc azi tf) 0 = toolDir inc azi tf := by
    ext <;> simp [arcNor]
  have hp := C105_projection_is_arc (pos := pos) hs dm hd tf md hc g0 t0 n0
  rw [hp] at h2 ⊢
  simp only at h2 ⊢
  have hL : md + dm - md = dm := by ring
  obtain ⟨e1, e2, -⟩ := normal_upper (a := ⟨md, inc, azi⟩) (b := ⟨md + dm, i2, a2⟩) hc hk hm hpi
    t0 h2.symm
  refine ⟨by rw [arc_end hc g0 hk.le hm.le hpi t0 h2.symm], ?_, ?_⟩
  · refine ⟨_, by unfold dlsOf; rw [if_neg hm.ne', e1], ?_⟩
    have := pi_ne_zero
    simp only [degrees, turnPer]
    field_simp
  · rw [n0] at e2
    simp only at e2
    -- components along high side and right
    have hdot : ∀ t, V3.dot (toolDir inc azi t) (highSide inc azi) = cos t ∧
        V3.dot (toolDir inc azi t) (rightSide azi) = sin t := by
      intro t
      have h1 := sin_sq_add_cos_sq inc
      have h2 := sin_sq_add_cos_sq azi
      simp only [V3.dot, toolDir, highSide, rightSide, V3.add_x, V3.add_y, V3.add_z, V3.smul_x,
        V3.smul_y, V3.smul_z]
      constructor
      · linear_combination cos t * h1 + cos t * cos inc ^ 2 * h2
      · linear_combination sin t * h2
    have hA := hdot tf
    rw [e2] at hA
    have hB := hdot (t1 ⟨md, inc, azi⟩ ⟨md + dm, i2, a2⟩)
    exact ⟨hB.2.symm.trans hA.2, hB.1.symm.trans hA.1⟩

/-- A 10 m projection at 3 degrees per 30 m meets the hypotheses. -/
example : ∃ i2 a2, tangent i2 a2 =
    (projectAhead 0 (tangent (π / 3) 1) 10 3 (π / 4) 1000).vec ∧
    (3 : ℝ) * (π / 180) / 30 * 10 < π := by
  refine ⟨_, _, tangent_getAngles_nev ?_, by linarith [pi_pos]⟩
  rw [projectAhead_arc (tangent_unit _ _) _ (by norm_num)]
  have hk : turnPer 3 ≠ 0 := by unfold turnPer; positivity
  have e := toolDir_ortho (getAngles (tangent (π / 3) 1) true).1
    (getAngles (tangent (π / 3) 1) true).2 (π / 4)
  rw [tangent_getAngles_nev (tangent_unit _ _)] at e
  exact (arc_circular hk (tangent_unit (π / 3) 1) (toolDir_unit _ _ _) e).unit_tan 10

/-! ### C106: project_to_bit -/

/-- **C106** (the part that holds) In metres, if the last station is not vertical, projecting to
the bit without further arguments continues the last minimum-curvature arc of the survey. -/
theorem C106_continues_arc_partial {a b : Station} {pos : V3} (dm : ℝ) (hmd : a.md < b.md)
    (hs : 0 < sin b.inc) {γ τ ν : ℝ → V3} {κ : ℝ} (hc : CircularCurve γ τ ν κ) (hκ : 0 < κ)
    (hpi : κ * (b.md - a.md) < π) (h1 : τ 0 = tangent a.inc a.azi)
    (h2 : τ (b.md - a.md) = tangent b.inc b.azi) :
    projectToBit .meters a b pos dm =
      some ⟨pos + (γ (b.md - a.md + dm) - γ (b.md - a.md)), τ (b.md - a.md + dm), b.md + dm⟩ := by
  obtain ⟨e1, -, e3⟩ := normal_upper hc hκ (by linarith) hpi h1 h2
  have hne : b.md - a.md ≠ 0 := by linarith
  unfold projectToBit dlsOf
  rw [if_neg hne, e1, getVec_nev]
  simp only [if_true]
  have hp := pi_pos
  have hdl : degrees (κ * (b.md - a.md)) / (b.md - a.md) * 30 * (π / 180) / 30 = κ := by
    simp only [degrees]; field_simp
  have hpos : 0 < degrees (κ * (b.md - a.md)) / (b.md - a.md) * 30 := by
    have : degrees (κ * (b.md - a.md)) / (b.md - a.md) = κ * 180 / π := by
      simp only [degrees]; field_simp
    rw [this]; positivity
  have hsft := hc.shift (b.md - a.md)
  rw [← hdl] at hsft
  rw [C105_projection_is_arc hs dm hpos (t2 a b) b.md hsft (by simp) (by simp [h2]) (by simp [e3])]

/-- **C106** (the part that holds) After a hold the projection is straight, in either unit. -/
theorem C106_continues_hold_partial (u : LenUnit) {a b : Station} {pos : V3} (dm : ℝ)
    (hd : dogleg2 a b = 0) :
    projectToBit u a b pos dm
      = some ⟨pos + dm • tangent b.inc b.azi, tangent b.inc b.azi, b.md + dm⟩ := by
  unfold projectToBit dlsOf
  rw [hd, getVec_nev]
  by_cases h : b.md - a.md = 0 <;> simp [h, degrees, C105_hold]

/-- **C106** is false in feet: the severity, in degrees per 100 ft, is used as degrees per 30,
and the projection runs 10/3 times too far round the last arc. -/
theorem C106_feet_turns_too_fast {a b : Station} {pos : V3} (dm : ℝ) (hmd : a.md < b.md)
    (hs : 0 < sin b.inc) {γ τ ν : ℝ → V3} {κ : ℝ} (hc : CircularCurve γ τ ν κ) (hκ : 0 < κ)
    (hpi : κ * (b.md - a.md) < π) (h1 : τ 0 = tangent a.inc a.azi)
    (h2 : τ (b.md - a.md) = tangent b.inc b.azi) :
    ∃ o, projectToBit .feet a b pos dm = some o ∧ o.vec = τ (b.md - a.md + 10 / 3 * dm) := by
  obtain ⟨e1, -, e3⟩ := normal_upper hc hκ (by linarith) hpi h1 h2
  have hne : b.md - a.md ≠ 0 := by linarith
  refine ⟨_, by unfold projectToBit dlsOf; rw [if_neg hne], ?_⟩
  rw [e1, getVec_nev]
  simp only [reduceCtorEq, if_false]
  have hp := pi_pos
  have hdl : turnPer (degrees (κ * (b.md - a.md)) / (b.md - a.md) * 100) = 10 / 3 * κ := by
    simp only [degrees, turnPer]; field_simp; norm_num
  have hpos : 0 < degrees (κ * (b.md - a.md)) / (b.md - a.md) * 100 := by
    have : degrees (κ * (b.md - a.md)) / (b.md - a.md) = κ * 180 / π := by
      simp only [degrees]; field_simp
    rw [this]; positivity
  rw [projectAhead_arc (tangent_unit _ _) _ hpos, hdl]
  have e := toolDir_congr (tangent_getAngles_nev (tangent_unit b.inc b.azi)).symm hs
    (sin_getAngles_nonneg _ _) (t2 a b)
  have := (hc.shift (b.md - a.md)).tan_eq (10 / 3 * dm)
  simp only [add_zero] at this
  rw [← e, this, h2, e3]
  simp only [arcTan]
  rw [show 10 / 3 * κ * dm = κ * (10 / 3 * dm) by ring]

/-- **C106** witness in feet: a well that built from 30 to 60 degrees over 100 ft and is projected
90 ft ahead points upwards (150 degrees); on its last arc it would have 87 degrees. -/
theorem C106_feet_witness : ∃ (a b : Station) (γ τ ν : ℝ → V3) (κ dm : ℝ) (o : Ahead),
    a.md < b.md ∧ 0 < sin b.inc ∧ CircularCurve γ τ ν κ ∧ 0 < κ ∧ κ * (b.md - a.md) < π ∧
    τ 0 = tangent a.inc a.azi ∧ τ (b.md - a.md) = tangent b.inc b.azi ∧
    projectToBit .feet a b 0 dm = some o ∧ o.vec.z < 0 ∧ 0 < (τ (b.md - a.md + dm)).z := by
  obtain ⟨γ, ν, hc⟩ := build_arc (κ := π / 600) (by positivity) (π / 6)
  have hp := pi_pos
  have h2 : tangent (π / 6 + π / 600 * (100 - 0)) 0 = tangent (π / 3) 0 := by
    congr 1; ring
  have hs : 0 < sin (π / 3) := sin_pos_of_pos_of_lt_pi (by positivity) (by linarith)
  obtain ⟨o, ho, hv⟩ := C106_feet_turns_too_fast (a := ⟨0, π / 6, 0⟩) (b := ⟨100, π / 3, 0⟩)
    (pos := 0) 90 (by norm_num) hs hc (by positivity) (by simp only; linarith) (by simp) h2
  refine ⟨⟨0, π / 6, 0⟩, ⟨100, π / 3, 0⟩, γ, _, ν, π / 600, 90, o, by norm_num, hs, hc,
    by positivity, by simp only; linarith, by simp, h2, ho, ?_, ?_⟩
  · rw [hv]
    simp only [tangent]
    exact cos_neg_of_pi_div_two_lt_of_lt (by linarith) (by linarith)
  · simp only [tangent]
    exact cos_pos_of_mem_Ioo ⟨by linarith, by linarith⟩

/-- **C106** is false at a vertical last station: the listed toolface is measured from the
surveyed azimuth, the projection measures it from north.  A well that dropped to vertical from
30 degrees due east continues its arc towards west; the projection goes south. -/
theorem C106_vertical_witness : ∃ (a b : Station) (γ τ ν : ℝ → V3) (κ dm : ℝ) (o : Ahead),
    a.md < b.md ∧ CircularCurve γ τ ν κ ∧ 0 < κ ∧ κ * (b.md - a.md) < π ∧
    τ 0 = tangent a.inc a.azi ∧ τ (b.md - a.md) = tangent b.inc b.azi ∧
    projectToBit .meters a b 0 dm = some o ∧ o.vec = ⟨-1 / 2, 0, √3 / 2⟩ ∧
    τ (b.md - a.md + dm) = ⟨0, -1 / 2, √3 / 2⟩ := by
  have hp := pi_pos
  have hk : π / 180 ≠ 0 := by positivity
  have hc := arc_circular hk (tangent_unit (π / 6) (π / 2)) (toolDir_unit (π / 6) (π / 2) π)
    (toolDir_ortho (π / 6) (π / 2) π)
  have hτ : ∀ s, arcTan (π / 180) (tangent (π / 6) (π / 2)) (toolDir (π / 6) (π / 2) π) s
      = tangent (π / 6 - π / 180 * s) (π / 2) := by
    intro s
    ext <;> simp [arcTan, tangent, toolDir, highSide, rightSide, sin_sub, cos_sub] <;> ring
  have e0 : π / 6 - π / 180 * (30 - 0) = 0 := by ring
  have hd : dogleg2 ⟨0, π / 6, π / 2⟩ ⟨30, 0, π / 2⟩ = π / 6 := by
    unfold dogleg2
    rw [getDogleg_eq_arccos, tangent_dot]
    simp only [sub_self, cos_zero, sin_zero, mul_zero, mul_one, zero_add]
    exact arccos_cos (by positivity) (by linarith)
  have ht2 : t2 ⟨0, π / 6, π / 2⟩ ⟨30, 0, π / 2⟩ = π := by
    have h := atan2_mul_sin_cos (r := 1 / 2) (by norm_num) π
    rw [(toIocMod_eq_self _).mpr ⟨by linarith, by linarith⟩] at h
    simp only [sin_pi, cos_pi] at h
    unfold t2
    simp only [sub_self, sin_zero, cos_zero, sin_pi_div_six, mul_one, mul_zero, zero_mul, zero_sub]
    have h' : atan2 0 (-(1 / 2)) = π := by
      rw [← h]; congr 1 <;> ring
    rw [h', if_neg (by linarith)]
  have hb : getVec (0 : ℝ) (π / 2) true = ⟨0, 0, 1⟩ := by
    rw [getVec_nev]; ext <;> simp [tangent]
  have hdls : dlsOf 30 (π / 6) 30 = .val 30 := by
    unfold dlsOf
    rw [if_neg (by norm_num)]
    congr 1
    simp only [degrees]
    field_simp
    norm_num
  have hk' : (30 : ℝ) * (π / 180) / 30 = π / 180 := by ring
  have hc2 := arc_circular hk (t1 := ⟨0, 0, 1⟩) (n1 := ⟨cos π, sin π, 0⟩)
    (by simp [V3.IsUnit, V3.dot]) (by simp [V3.IsUnit, V3.dot]) (by simp [V3.dot])
  rw [← hk'] at hc2
  have hv := C105_vertical_from_north (pos := 0) 30 (dls := 30) (by norm_num) π 30 hc2
    (by ext <;> simp [arcPos]) (by ext <;> simp [arcTan]) (by ext <;> simp [arcNor])
  refine ⟨⟨0, π / 6, π / 2⟩, ⟨30, 0, π / 2⟩, _, _, _, π / 180, 30,
    projectAhead 0 ⟨0, 0, 1⟩ 30 30 π 30, by norm_num, hc,
    by positivity, by simp only; linarith, by rw [hτ]; simp, by rw [hτ, e0], ?_, ?_, ?_⟩
  · unfold projectToBit
    simp only [if_true, hd, ht2, hb, sub_zero, hdls]
  · rw [hv]
    have e : (30 : ℝ) * (π / 180) / 30 * 30 = π / 6 := by ring
    simp only [arcTan, e]
    ext <;> simp <;> norm_num
  · rw [hτ]
    have e : π / 6 - π / 180 * (30 - 0 + 30) = -(π / 6) := by ring
    rw [e]
    ext <;> simp [tangent] <;> norm_num

end Welleng.Props
