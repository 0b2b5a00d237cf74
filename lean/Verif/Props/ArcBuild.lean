import Verif.Props.ProjectAhead
import Mathlib.Analysis.SpecialFunctions.Integrals.Basic

/-!
C107-C112: toolface to a point, arcs built from a toolface, curve-hold-curve paths, circle
centres, annular volumes (`/repo/welleng/utils.py` 529-700, 887-1009, `/repo/welleng/survey.py`
2150-2189).
-/

namespace Welleng.Props

open Real Welleng Spec Tf

/-! ### C107: toolface to a point -/

/-- Angles of a non-zero row. -/
theorem getAngles_smul {v : V3} {r : ℝ} (hr : 0 < r) (hv : v.IsUnit) :
    getAngles (r • v) true = getAngles v true := by
  have : normalize (r • v) = v := by
    unfold normalize
    rw [V3.norm_smul, norm_of_unit hv, abs_of_pos hr]
    have := hr.ne'
    ext <;> simp <;> field_simp
  unfold getAngles
  rw [this, normalize_of_unit hv]

theorem getToolface_unit {v : V3} (hv : v.IsUnit) (p1 p2 : V3) :
    getToolface p1 v p2 = pmod (atan2
      (V3.dot (p2 - p1) (rightSide (getAngles v true).2))
      (V3.dot (p2 - p1) (highSide (getAngles v true).1 (getAngles v true).2))) (2 * π) := by
  unfold getToolface
  simp only
  congr 2
  · simp [roty, rotz, V3.dot, rightSide]; ring
  · simp [roty, rotz, V3.dot, highSide]; ring

theorem getToolface_smul {v : V3} {r : ℝ} (hr : 0 < r) (hv : v.IsUnit) (p1 p2 : V3) :
    getToolface p1 (r • v) p2 = getToolface p1 v p2 := by
  unfold getToolface
  rw [getAngles_smul hr hv]

theorem exists_unit {v : V3} (hv : v ≠ 0) : ∃ (r : ℝ) (u : V3), 0 < r ∧ V3.IsUnit u ∧ v = r • u := by
  have h0 : 0 < V3.norm v := by
    rcases (V3.norm_nonneg v).lt_or_eq with h | h
    · exact h
    · exfalso
      have := V3.norm_sq v
      rw [← h] at this
      exact hv (V3.dot_self_eq_zero.mp (by rw [← this]; ring))
  refine ⟨V3.norm v, normalize v, h0, normalize_unit hv, ?_⟩
  unfold normalize
  have := h0.ne'
  generalize V3.norm v = n at *
  ext <;> simp <;> field_simp

theorem getToolfaceFast_smul {v : V3} {r : ℝ} (hr : 0 < r) (hv : v.IsUnit) (p1 p2 : V3) :
    getToolfaceFast p1 (r • v) p2 = getToolfaceFast p1 v p2 := by
  have hazi : atan2 (r * v.y) (r * v.x) = atan2 v.y v.x := by
    unfold atan2
    have : (⟨r * v.x, r * v.y⟩ : ℂ) = (r : ℂ) * ⟨v.x, v.y⟩ := by
      apply Complex.ext <;> simp
    rw [this, Complex.arg_real_mul _ hr]
  have h1 : √((r * v.y) ^ 2 + (r * v.x) ^ 2) = r * √(v.y ^ 2 + v.x ^ 2) := by
    rw [show (r * v.y) ^ 2 + (r * v.x) ^ 2 = r ^ 2 * (v.y ^ 2 + v.x ^ 2) by ring,
      sqrt_mul (sq_nonneg r), sqrt_sq hr.le]
  have h2 : √((r * v.y) ^ 2 + (r * v.x) ^ 2 + (r * v.z) ^ 2)
      = r * √(v.y ^ 2 + v.x ^ 2 + v.z ^ 2) := by
    rw [show (r * v.y) ^ 2 + (r * v.x) ^ 2 + (r * v.z) ^ 2
      = r ^ 2 * (v.y ^ 2 + v.x ^ 2 + v.z ^ 2) by ring, sqrt_mul (sq_nonneg r), sqrt_sq hr.le]
  have hone : √(v.y ^ 2 + v.x ^ 2 + v.z ^ 2) = 1 := by
    have h := hv
    simp only [V3.IsUnit, V3.dot] at h
    rw [show v.y ^ 2 + v.x ^ 2 + v.z ^ 2 = 1 by linarith, sqrt_one]
  have hr' := hr.ne'
  unfold getToolfaceFast
  simp only [V3.smul_x, V3.smul_y, V3.smul_z, hazi, h1, h2, hone]
  congr 2
  field_simp

/-- **C107** The vectorised and the fast toolface functions agree for every pair of points and
every non-zero reference direction. -/
theorem C107_fast_agrees (p1 p2 : V3) {v : V3} (hv : v ≠ 0) :
    getToolfaceFast p1 v p2 = getToolface p1 v p2 := by
  obtain ⟨r, w, hr, hw, rfl⟩ := exists_unit hv
  rw [getToolface_smul hr hw, getToolface_unit hw, getToolfaceFast_smul hr hw]
  have hwu := hw
  simp only [V3.IsUnit, V3.dot] at hwu
  have hn : √(w.y ^ 2 + w.x ^ 2 + w.z ^ 2) = 1 := by
    rw [show w.y ^ 2 + w.x ^ 2 + w.z ^ 2 = 1 by linarith, sqrt_one]
  have hT := tangent_getAngles_nev hw
  have hsn := sin_getAngles_nonneg w true
  have hx := congrArg V3.x hT
  have hy := congrArg V3.y hT
  have hz := congrArg V3.z hT
  simp only [tangent] at hx hy hz
  have hazi : pmod (atan2 w.y w.x) (2 * π) = (getAngles w true).2 := by
    rw [getAngles_nev_of_unit hw]
    simp only [getAnglesXyz]
    have := pmod_add_int_mul (atan2 w.y w.x) two_pi_pos 1
    simpa using this.symm
  have hh : √(w.y ^ 2 + w.x ^ 2) = sin (getAngles w true).1 := by
    rw [← hx, ← hy, show (sin (getAngles w true).1 * sin (getAngles w true).2) ^ 2
      + (sin (getAngles w true).1 * cos (getAngles w true).2) ^ 2
      = sin (getAngles w true).1 ^ 2 * (sin (getAngles w true).2 ^ 2
        + cos (getAngles w true).2 ^ 2) by ring, sin_sq_add_cos_sq, mul_one, sqrt_sq hsn]
  unfold getToolfaceFast
  simp only
  rw [hazi, hh, hn, ← hz]
  congr 2
  · simp only [V3.dot, rightSide, V3.sub_x, V3.sub_y, V3.sub_z]; ring
  · simp only [V3.dot, highSide, V3.sub_x, V3.sub_y, V3.sub_z]; ring

/-- **C107** The toolface to a point lies in `[0, 2π)` and is the angle from the high side of the
direction in which the point lies off the axis of the hole. -/
theorem C107_toolface_points_at_target (p1 p2 : V3) {inc azi r : ℝ} (hs : 0 < sin inc)
    (hr : 0 < r) {c ρ t : ℝ} (hρ : 0 < ρ)
    (hp : p2 = p1 + c • tangent inc azi + ρ • toolDir inc azi t) :
    0 ≤ getToolface p1 (r • tangent inc azi) p2 ∧
    getToolface p1 (r • tangent inc azi) p2 < 2 * π ∧
    getToolface p1 (r • tangent inc azi) p2 = pmod t (2 * π) := by
  rw [getToolface_smul hr (tangent_unit _ _)]
  refine ⟨pmod_nonneg _ two_pi_pos, pmod_lt _ two_pi_pos, ?_⟩
  rw [getToolface_unit (tangent_unit _ _)]
  have hT := tangent_getAngles_nev (tangent_unit inc azi)
  have hsn := sin_getAngles_nonneg (tangent inc azi) true
  set i' := (getAngles (tangent inc azi) true).1
  set a' := (getAngles (tangent inc azi) true).2
  have e := toolDir_congr hT.symm hs hsn t
  have hd : p2 - p1 = c • tangent i' a' + ρ • toolDir i' a' t := by
    rw [hp, hT, ← e]; abel
  have h1 := sin_sq_add_cos_sq i'
  have h2 := sin_sq_add_cos_sq a'
  have hR : V3.dot (p2 - p1) (rightSide a') = ρ * sin t := by
    rw [hd]
    simp only [V3.dot, toolDir, highSide, rightSide, tangent, V3.add_x, V3.add_y, V3.add_z,
      V3.smul_x, V3.smul_y, V3.smul_z]
    linear_combination ρ * sin t * h2
  have hH : V3.dot (p2 - p1) (highSide i' a') = ρ * cos t := by
    rw [hd]
    simp only [V3.dot, toolDir, highSide, rightSide, tangent, V3.add_x, V3.add_y, V3.add_z,
      V3.smul_x, V3.smul_y, V3.smul_z]
    linear_combination (ρ * cos t) * h1 + (ρ * cos t * cos i' ^ 2 + c * sin i' * cos i') * h2
  rw [hR, hH, ← pmod_atan2 hρ t]
  have := pmod_add_int_mul (atan2 (ρ * sin t) (ρ * cos t)) two_pi_pos 1
  rw [Int.cast_one, one_mul] at this
  exact this.symm

/-- Every point off the axis is of the form used above. -/
theorem C107_every_point_off_axis (p1 p2 : V3) (inc azi : ℝ)
    (h : ∀ c : ℝ, p2 ≠ p1 + c • tangent inc azi) :
    ∃ c ρ t : ℝ, 0 < ρ ∧ p2 = p1 + c • tangent inc azi + ρ • toolDir inc azi t := by
  set q := p2 - p1 with hq
  have hp : p2 = p1 + q := by rw [hq]; abel
  have hne : V3.dot q (highSide inc azi) ^ 2 + V3.dot q (rightSide azi) ^ 2 ≠ 0 := by
    intro h0
    have a1 : V3.dot q (highSide inc azi) = 0 := by
      have h1 := sq_nonneg (V3.dot q (highSide inc azi))
      have h2 := sq_nonneg (V3.dot q (rightSide azi))
      exact pow_eq_zero_iff (two_ne_zero) |>.mp (by linarith)
    have a2 : V3.dot q (rightSide azi) = 0 := by
      have h1 := sq_nonneg (V3.dot q (highSide inc azi))
      have h2 := sq_nonneg (V3.dot q (rightSide azi))
      exact pow_eq_zero_iff (two_ne_zero) |>.mp (by linarith)
    have := frame_expand inc azi q
    rw [a1, a2, zero_smul, zero_smul, add_zero, add_zero] at this
    exact h _ (by rw [hp]; exact congrArg (p1 + ·) this)
  have hpos : 0 < √(V3.dot q (highSide inc azi) ^ 2 + V3.dot q (rightSide azi) ^ 2) :=
    sqrt_pos.mpr (lt_of_le_of_ne (by positivity) (Ne.symm hne))
  refine ⟨V3.dot q (tangent inc azi), _,
    atan2 (V3.dot q (rightSide azi)) (V3.dot q (highSide inc azi)), hpos, ?_⟩
  have := toolDir_atan2 inc azi (p := q) hpos (by rw [sq_sqrt (by positivity)]) rfl rfl
  rw [add_assoc, ← this, hp]

/-! ### C108, C109: get_arc -/

theorem getArc_eq {v : V3} (hv : v.IsUnit) (d tf : ℝ) (pos : V3) {r : ℝ} (hr : r ≠ 0) :
    getArc d r tf pos v false =
      ⟨pos + arcPos (1 / r) v (toolDir (getAngles v true).1 (getAngles v true).2 tf) (d * r),
        arcTan (1 / r) v (toolDir (getAngles v true).1 (getAngles v true).2 tf) (d * r),
        d * r, v⟩ := by
  have e := toolDir_ortho (getAngles v true).1 (getAngles v true).2 tf
  rw [tangent_getAngles_nev hv] at e
  have hk : (1 / r) ≠ 0 := by positivity
  have hu := (arc_circular hk hv (toolDir_unit (getAngles v true).1 (getAngles v true).2 tf)
    e).unit_tan (d * r)
  have hkd : 1 / r * (d * r) = d := by field_simp
  unfold getArc
  simp only [Bool.false_eq_true, if_false, arcPosVec, zero_mul, eulerZyz_angles hv]
  generalize toolDir _ _ tf = N at *
  have e2 : sin d • N + cos d • v = arcTan (1 / r) v N (d * r) := by
    rw [arcTan, hkd]; abel
  rw [e2, normalize_of_unit hu]
  congr 1
  rw [arcPos, hkd]
  ext <;> simp <;> ring

/-- **C108** `get_arc` ends on the circular arc of the given radius that leaves `pos` along `vec`
and turns towards the toolface; the length is angle times radius. -/
theorem C108_arc {inc azi : ℝ} (hs : 0 < sin inc) (d tf : ℝ) (pos : V3) {r : ℝ} (hr : 0 < r)
    {γ τ ν : ℝ → V3} (hc : CircularCurve γ τ ν (1 / r)) (h0 : γ 0 = 0)
    (ht : τ 0 = tangent inc azi) (hn : ν 0 = toolDir inc azi tf) :
    let o := getArc d r tf pos (tangent inc azi) false
    o.deltaMd = d * r ∧ o.pos = pos + γ o.deltaMd ∧ o.vec = τ o.deltaMd := by
  have hk : 1 / r ≠ 0 := by positivity
  have e := toolDir_congr (tangent_getAngles_nev (tangent_unit inc azi)).symm hs
    (sin_getAngles_nonneg _ _) tf
  simp only
  rw [getArc_eq (tangent_unit _ _) d tf pos hr.ne', ← e]
  simp only
  rw [hc.tan_eq, hc.pos_eq hk h0, ht, hn]
  exact ⟨trivial, rfl, rfl⟩

/-- **C108** With `target=True` the result is the start of an arc that arrives at `pos` along
`vec`: following a circle of the given radius from the returned position and direction for the
returned length leads to `pos` and `vec`. -/
theorem C108_arc_to_target {v : V3} (hv : v.IsUnit) (d tf : ℝ) (pos : V3) {r : ℝ} (hr : 0 < r) :
    let o := getArc d r tf pos v true
    ∃ γ τ ν, CircularCurve γ τ ν (1 / r) ∧ γ 0 = 0 ∧ τ 0 = o.vec ∧
      o.pos + γ o.deltaMd = pos ∧ τ o.deltaMd = v := by
  have hk : (1 / r) ≠ 0 := by positivity
  have hv' : (-v).IsUnit := by
    simp only [V3.IsUnit, V3.dot, V3.neg_x, V3.neg_y, V3.neg_z] at *; linarith
  have hT : getArc d r tf pos v true =
      { getArc d r tf pos (-v) false with vec := -(getArc d r tf pos (-v) false).vec } := by
    simp [getArc]
  simp only
  rw [hT, getArc_eq hv' d tf pos hr.ne']
  have e := toolDir_ortho (getAngles (-v) true).1 (getAngles (-v) true).2 tf
  rw [tangent_getAngles_nev hv'] at e
  have hc := arc_circular hk hv' (toolDir_unit (getAngles (-v) true).1 (getAngles (-v) true).2 tf) e
  generalize toolDir _ _ tf = N at *
  refine ⟨_, _, _, hc.reverse (d * r), by simp, by simp, ?_, ?_⟩
  · simp only [sub_self]
    have : arcPos (1 / r) (-v) N 0 = 0 := by ext <;> simp [arcPos]
    rw [this]
    abel
  · simp only [sub_self]
    ext <;> simp [arcTan]

/-- **C108** Round trip: the toolface from the start to the end of an arc is the toolface it was
built with, for any sweep short of a full turn. -/
theorem C108_toolface_round_trip {inc azi : ℝ} (hs : 0 < sin inc) {d : ℝ} (h0 : 0 < d)
    (h1 : d < 2 * π) (tf : ℝ) (pos : V3) {r : ℝ} (hr : 0 < r) :
    getToolface pos (tangent inc azi) (getArc d r tf pos (tangent inc azi) false).pos
      = pmod tf (2 * π) := by
  have e := toolDir_congr (tangent_getAngles_nev (tangent_unit inc azi)).symm hs
    (sin_getAngles_nonneg _ _) tf
  rw [getArc_eq (tangent_unit _ _) d tf pos hr.ne', ← e]
  have hkd : 1 / r * (d * r) = d := by field_simp
  have hlt : cos d < 1 := by
    rcases lt_or_eq_of_le (cos_le_one d) with h | h
    · exact h
    · exfalso
      rw [cos_eq_one_iff_of_lt_of_lt (by linarith [pi_pos]) h1] at h
      linarith
  have := (C107_toolface_points_at_target pos
    (pos + arcPos (1 / r) (tangent inc azi) (toolDir inc azi tf) (d * r)) hs one_pos
    (c := sin d * r) (ρ := (1 - cos d) * r) (t := tf)
    (mul_pos (by linarith) hr) (by
      rw [arcPos, hkd]
      simp only [div_div_eq_mul_div, div_one]
      rw [add_assoc])).2.2
  rw [one_smul] at this
  exact this

/-- **C109** (the part that holds) Without `target`, `get_arc` leaves the caller's `vec` as it
was. -/
theorem C109_inputs_kept_partial (d r tf : ℝ) (pos v : V3) :
    (getArc d r tf pos v false).callerVec = v := by simp [getArc]

/-- **C109** is false: with `target=True` every call reverses the caller's direction array in
place. -/
theorem C109_target_reverses_input (d r tf : ℝ) (pos v : V3) (hv : v ≠ 0) :
    (getArc d r tf pos v true).callerVec = -v ∧ (getArc d r tf pos v true).callerVec ≠ v := by
  have e : (getArc d r tf pos v true).callerVec = -v := by simp [getArc]
  refine ⟨e, fun h => hv ?_⟩
  rw [e] at h
  have hx := congrArg V3.x h
  have hy := congrArg V3.y h
  have hz := congrArg V3.z h
  simp only [V3.neg_x, V3.neg_y, V3.neg_z] at hx hy hz
  ext <;> simp <;> linarith

/-- **C109** Consequence: the same call made twice with the same array gives different arcs. -/
theorem C109_second_call_differs : ∃ (v : V3) (d r tf : ℝ),
    (getArc d r tf 0 v true).vec
      ≠ (getArc d r tf 0 (getArc d r tf 0 v true).callerVec true).vec := by
  refine ⟨⟨0, 0, 1⟩, 0, 1, 0, fun h => ?_⟩
  have hu : V3.IsUnit ⟨0, 0, 1⟩ := by simp [V3.IsUnit, V3.dot]
  have key : ∀ v : V3, v.IsUnit → (getArc 0 1 0 0 v true).vec = v := by
    intro v hv
    obtain ⟨γ, τ, ν, -, -, h2, -, h4⟩ := C108_arc_to_target hv 0 0 0 one_pos
    have : (getArc 0 1 0 0 v true).deltaMd = 0 := by simp [getArc]
    rw [this] at h4
    exact h2.symm.trans h4
  have hn : (getArc 0 1 0 0 ⟨0, 0, 1⟩ true).callerVec = -⟨0, 0, 1⟩ := by simp [getArc]
  rw [hn, key _ hu, key _ (by simp [V3.IsUnit, V3.dot])] at h
  have := congrArg V3.z h
  simp at this
  linarith

/-! ### C110: curve-hold-curve paths -/

/-- **C110** A generated curve-hold-curve path consists of an arc from the start along the start
direction, a straight piece of the given length along the end direction of that arc, and a second
arc leaving along the same direction; both arcs have the given radius, turn towards their
toolfaces and have length sweep times radius. -/
theorem C110_clc_path {inc azi : ℝ} (hs : 0 < sin inc) (tf1 d1 dist tf2 d2 : ℝ) (pos : V3)
    {r : ℝ} (hr : 0 < r) {inc2 azi2 : ℝ} (hs2 : 0 < sin inc2)
    (h2 : (makeClcPath tf1 d1 dist tf2 d2 pos (tangent inc azi) r).vec1 = tangent inc2 azi2) :
    let o := makeClcPath tf1 d1 dist tf2 d2 pos (tangent inc azi) r
    ∃ γ τ ν γ' τ' ν', CircularCurve γ τ ν (1 / r) ∧ CircularCurve γ' τ' ν' (1 / r) ∧
      γ 0 = 0 ∧ γ' 0 = 0 ∧ τ 0 = tangent inc azi ∧ ν 0 = toolDir inc azi tf1 ∧
      τ' 0 = o.vec1 ∧ ν' 0 = toolDir inc2 azi2 tf2 ∧
      o.dist1 = d1 * r ∧ o.dist2 = d2 * r ∧
      o.pos1 = pos + γ o.dist1 ∧ o.vec1 = τ o.dist1 ∧
      o.pos2 = o.pos1 + dist • o.vec1 ∧ o.vec2 = o.vec1 ∧
      o.pos3 = o.pos2 + γ' o.dist2 ∧ o.vec3 = τ' o.dist2 := by
  have hk : (1 / r) ≠ 0 := by positivity
  have arc := fun i a t => arc_circular hk (tangent_unit i a) (toolDir_unit i a t)
    (toolDir_ortho i a t)
  have g0 : ∀ i a t, arcPos (1 / r) (tangent i a) (toolDir i a t) 0 = 0 := by
    intro i a t; ext <;> simp [arcPos]
  have t0 : ∀ i a t, arcTan (1 / r) (tangent i a) (toolDir i a t) 0 = tangent i a := by
    intro i a t; ext <;> simp [arcTan]
  have n0 : ∀ i a t, arcNor (1 / r) (tangent i a) (toolDir i a t) 0 = toolDir i a t := by
    intro i a t; ext <;> simp [arcNor]
  obtain ⟨a1, a2, a3⟩ := C108_arc hs d1 tf1 pos hr (arc inc azi tf1) (g0 ..) (t0 ..) (n0 ..)
  have h2' : (getArc d1 r tf1 pos (tangent inc azi) false).vec = tangent inc2 azi2 := h2
  obtain ⟨b1, b2, b3⟩ := C108_arc hs2 d2 tf2
    ((getArc d1 r tf1 pos (tangent inc azi) false).pos + dist • tangent inc2 azi2) hr
    (arc inc2 azi2 tf2) (g0 ..) (t0 ..) (n0 ..)
  refine ⟨_, _, _, _, _, _, arc inc azi tf1, arc inc2 azi2 tf2, g0 .., g0 .., t0 .., n0 ..,
    by rw [t0, h2], n0 .., a1, ?_, a2, a3, rfl, rfl, ?_, ?_⟩
  · simp only [makeClcPath, h2']; exact b1
  · simp only [makeClcPath, h2']; exact b2
  · simp only [makeClcPath, h2']; exact b3

/-- A path from 30 degrees that builds by another 30 before its hold. -/
example : (makeClcPath 0 (π / 6) 100 1 (π / 4) 0 (tangent (π / 6) 0) 500).vec1
    = tangent (π / 3) 0 ∧ 0 < sin (π / 3) := by
  have hp := pi_pos
  have hs : 0 < sin (π / 6) := sin_pos_of_pos_of_lt_pi (by positivity) (by linarith)
  refine ⟨?_, sin_pos_of_pos_of_lt_pi (by positivity) (by linarith)⟩
  have e := toolDir_congr (tangent_getAngles_nev (tangent_unit (π / 6) 0)).symm hs
    (sin_getAngles_nonneg _ _) 0
  have h3 : tangent (π / 3) 0 = tangent (π / 6 + π / 6) 0 := by congr 1; ring
  unfold makeClcPath
  simp only
  rw [getArc_eq (tangent_unit _ _) _ _ _ (by norm_num), ← e, h3]
  have hk : (1 : ℝ) / 500 * (π / 6 * 500) = π / 6 := by ring
  simp only [arcTan, hk]
  ext <;> simp [tangent, toolDir, highSide, rightSide, sin_add, cos_add] <;> ring

/-! ### C111: centres of curvature -/

theorem cross_cross (a b : V3) :
    V3.cross a (V3.cross a b) = V3.dot a b • a - V3.dot a a • b ∧
    V3.cross b (V3.cross a b) = V3.dot b b • a - V3.dot a b • b := by
  constructor <;> ext <;> simp [V3.cross, V3.dot] <;> ring

theorem norm_cross {t u : V3} {d : ℝ} (ht : t.IsUnit) (hu : u.IsUnit) (hd : 0 ≤ sin d)
    (hc : cos d = V3.dot t u) : V3.norm (V3.cross t u) = sin d := by
  have h : V3.dot (V3.cross t u) (V3.cross t u)
      = V3.dot t t * V3.dot u u - V3.dot t u ^ 2 := by
    simp only [V3.dot, V3.cross]; ring
  unfold V3.norm
  rw [h, ht, hu, ← hc, show 1 * 1 - cos d ^ 2 = sin d ^ 2 by rw [sin_sq]; ring, sqrt_sq hd]

theorem circleCentres_eq {a b : Station} {posA posB : V3} {rA rB : ℝ} (h0 : 0 < dogleg2 a b)
    (hpi : dogleg2 a b < π) :
    circleCentres a b posA posB rA rB =
      (posA + rA • toolDir a.inc a.azi (t1 a b), posB + rB • toolDir b.inc b.azi (t2 a b)) := by
  have hs := sin_pos_of_pos_of_lt_pi h0 hpi
  have hc : cos (dogleg2 a b) = V3.dot (tangent a.inc a.azi) (tangent b.inc b.azi) :=
    cos_getDogleg ..
  have hn := norm_cross (tangent_unit a.inc a.azi) (tangent_unit b.inc b.azi) hs.le hc
  have e1 := t1_dir h0 hpi
  have e2 := t2_dir h0 hpi
  have hA := tangent_unit a.inc a.azi
  have hB := tangent_unit b.inc b.azi
  have u1 := toolDir_unit a.inc a.azi (t1 a b)
  have u2 := toolDir_unit b.inc b.azi (t2 a b)
  unfold circleCentres circleCentre intervalNormal
  rw [getVec_nev, getVec_nev]
  obtain ⟨c1, c2⟩ := cross_cross (tangent a.inc a.azi) (tangent b.inc b.azi)
  have hsm : ∀ (x y : V3) (k : ℝ), V3.cross x (k • y) = k • V3.cross x y := by
    intro x y k; ext <;> simp [V3.cross] <;> ring
  have n1 : V3.cross (tangent a.inc a.azi)
      (normalize (V3.cross (tangent a.inc a.azi) (tangent b.inc b.azi)))
      = -toolDir a.inc a.azi (t1 a b) := by
    unfold normalize
    rw [hn, hsm, c1, hA, ← hc]
    have hs' := hs.ne'
    generalize toolDir a.inc a.azi (t1 a b) = N at *
    rw [e1]
    generalize tangent a.inc a.azi = T
    ext <;> simp <;> field_simp <;> ring
  have n2 : V3.cross (tangent b.inc b.azi)
      (normalize (V3.cross (tangent a.inc a.azi) (tangent b.inc b.azi)))
      = -toolDir b.inc b.azi (t2 a b) := by
    unfold normalize
    rw [hn, hsm, c2, hB, ← hc]
    have hs' := hs.ne'
    generalize toolDir b.inc b.azi (t2 a b) = N at *
    rw [e2]
    generalize tangent b.inc b.azi = T
    ext <;> simp <;> field_simp <;> ring
  rw [n1, n2]
  have hneg : ∀ x : V3, x.IsUnit → (-x).IsUnit := by
    intro x hx
    simp only [V3.IsUnit, V3.dot, V3.neg_x, V3.neg_y, V3.neg_z] at *; linarith
  rw [normalize_of_unit (hneg _ u1), normalize_of_unit (hneg _ u2)]
  congr 1 <;> (ext <;> simp)

/-- **C111** (the part that holds) For a curved interval, the second centre reported (the one
that belongs to the lower station) is the centre of the interval's minimum-curvature arc: every
point of the arc lies at the distance of the radius of curvature from it. -/
theorem C111_lower_centre_partial {a b : Station} {posA : V3} {rA : ℝ} (hmd : a.md < b.md)
    {γ τ ν : ℝ → V3} {κ : ℝ} (hc : CircularCurve γ τ ν κ) (h0 : γ 0 = 0) (hκ : 0 < κ)
    (hpi : κ * (b.md - a.md) < π) (h1 : τ 0 = tangent a.inc a.azi)
    (h2 : τ (b.md - a.md) = tangent b.inc b.azi) (s : ℝ) :
    V3.norm ((posA + γ s)
      - (circleCentres a b posA (posA + γ (b.md - a.md)) rA (1 / κ)).2) = 1 / κ := by
  obtain ⟨e1, e2, e3⟩ := normal_upper hc hκ (by linarith) hpi h1 h2
  rw [circleCentres_eq (by rw [e1]; exact mul_pos hκ (by linarith)) (by rw [e1]; exact hpi)]
  simp only
  rw [← e3]
  -- the centre is the same from every point of the arc
  have hcen : ∀ u, HasDeriv (fun u => γ u + (1 / κ) • ν u) 0 u := by
    intro u
    have hp := (hc.deriv_pos u).add ((HasDeriv.smul (hasDerivAt_const u (1 / κ)) (hc.deriv_nor u)))
    refine hp.congr ?_
    have := hκ.ne'
    ext <;> simp
    all_goals field_simp
    all_goals ring
  have hconst := fun u => const_of_hasDeriv_zero hcen u
  have hcs : γ (b.md - a.md) + (1 / κ) • ν (b.md - a.md) = γ s + (1 / κ) • ν s :=
    (hconst _).trans (hconst s).symm
  have : posA + γ s - (posA + γ (b.md - a.md) + (1 / κ) • ν (b.md - a.md)) = -((1 / κ) • ν s) := by
    rw [add_assoc, hcs]; abel
  rw [this, ← neg_smul, V3.norm_smul, norm_of_unit (hc.unit_nor s), mul_one, abs_neg,
    abs_of_pos (by positivity)]

/-- **C111** (the part that holds) The first centre reported is at the given radius on the inside
of the curve at the upper station; it is the centre of the same arc exactly when the severity of
the interval above is that of this interval. -/
theorem C111_upper_centre_partial {a b : Station} {posA : V3} {rA : ℝ} (hmd : a.md < b.md)
    {γ τ ν : ℝ → V3} {κ : ℝ} (hc : CircularCurve γ τ ν κ) (h0 : γ 0 = 0) (hκ : 0 < κ)
    (hpi : κ * (b.md - a.md) < π) (h1 : τ 0 = tangent a.inc a.azi)
    (h2 : τ (b.md - a.md) = tangent b.inc b.azi) :
    (circleCentres a b posA (posA + γ (b.md - a.md)) rA (1 / κ)).1
      = (circleCentres a b posA (posA + γ (b.md - a.md)) rA (1 / κ)).2 ↔ rA = 1 / κ := by
  obtain ⟨e1, e2, e3⟩ := normal_upper hc hκ (by linarith) hpi h1 h2
  rw [circleCentres_eq (by rw [e1]; exact mul_pos hκ (by linarith)) (by rw [e1]; exact hpi)]
  simp only
  rw [← e2, ← e3]
  have hcen : ∀ u, HasDeriv (fun u => γ u + (1 / κ) • ν u) 0 u := by
    intro u
    have hp := (hc.deriv_pos u).add ((HasDeriv.smul (hasDerivAt_const u (1 / κ)) (hc.deriv_nor u)))
    refine hp.congr ?_
    have := hκ.ne'
    ext <;> simp
    all_goals field_simp
    all_goals ring
  have hcs : γ (b.md - a.md) + (1 / κ) • ν (b.md - a.md) = γ 0 + (1 / κ) • ν 0 :=
    const_of_hasDeriv_zero hcen _
  rw [add_assoc, hcs, h0, zero_add]
  constructor
  · intro h
    have h' : rA • ν 0 = (1 / κ) • ν 0 := add_left_cancel h
    have hd := congrArg (fun z => V3.dot z (ν 0)) h'
    simp only [V3.dot_smul_left] at hd
    rw [hc.unit_nor 0, mul_one, mul_one] at hd
    exact hd
  · intro h; rw [h]

/-- **C111** is false: the upper centre uses the radius of curvature of the interval above.  Where
a well turns with 1 degree per 30 m and then with 2 degrees per 30 m, the two centres reported for
the second interval are different points. -/
theorem C111_centres_differ : ∃ (p a b : Station) (out : MinCurveOut) (posA posB : V3) (rA rB : ℝ),
    p.md < a.md ∧ a.md < b.md ∧ minCurve [p, a, b] 0 .meters = .ok out ∧
    (∃ dA dB, out.dls[1]? = some (.val dA) ∧ out.dls[2]? = some (.val dB) ∧
      curveRadius .meters dA = .val rA ∧ curveRadius .meters dB = .val rB) ∧
    (circleCentres a b posA posB rA rB).1 ≠ (circleCentres a b posA posB rA rB).2 := by
  have hp := pi_pos
  have hk : π / 2700 ≠ 0 := by positivity
  obtain ⟨γ0, ν, hc0⟩ := build_arc hk (π / 180)
  have hc : CircularCurve (fun s => γ0 s - γ0 0) (fun s => tangent (π / 180 + π / 2700 * s) 0) ν
      (π / 2700) := by
    have := hc0.shift 0
    simpa using this
  have d1 : dogleg2 ⟨0, 0, 0⟩ ⟨30, π / 180, 0⟩ = π / 180 := by
    rw [dogleg2_same_azi (by positivity) (by linarith)]; ring
  have d2 : dogleg2 ⟨30, π / 180, 0⟩ ⟨60, π / 180 + π / 90, 0⟩ = π / 90 := by
    rw [dogleg2_same_azi (by linarith) (by linarith)]; ring
  refine ⟨⟨0, 0, 0⟩, ⟨30, π / 180, 0⟩, ⟨60, π / 180 + π / 90, 0⟩, _, 0,
    0 + (γ0 30 - γ0 0), 5400 / π, 1 / (π / 2700), by norm_num, by norm_num, rfl, ⟨1, 2, ?_, ?_, ?_, ?_⟩, ?_⟩
  · simp [pairwise, dlsOf, degrees, d1]
  · simp [pairwise, dlsOf, degrees, d2]; norm_num; field_simp; norm_num
  · simp [curveRadius, rateLength]; field_simp; norm_num
  · simp [curveRadius, rateLength]; field_simp; norm_num
  · have := (C111_upper_centre_partial (a := ⟨30, π / 180, 0⟩) (b := ⟨60, π / 180 + π / 90, 0⟩)
      (posA := 0) (rA := 5400 / π) (by norm_num) hc (by simp) (by positivity)
      (by simp only; linarith) (by simp) (by simp only; congr 1; ring))
    have e30 : (60 : ℝ) - 30 = 30 := by norm_num
    simp only [e30] at this
    rw [Ne, this]
    field_simp
    norm_num

/-! ### C112: annular volume -/

/-- **C112** The volume of an annulus is the area between its circles, `∫ 2πr dr` from the inner
to the outer radius, times its length. -/
theorem C112_volume_is_integral (od id l : ℝ) :
    annularVolume od (some id) (some l) = (∫ r in (id / 2)..(od / 2), 2 * π * r) * l := by
  rw [intervalIntegral.integral_const_mul, integral_id]
  simp only [annularVolume, Option.getD_some]
  ring

/-- **C112** Nested annuli and stacked lengths add up; leaving out the inner diameter or the
length means a full circle and a unit length. -/
theorem C112_additive (a b c l m : ℝ) :
    annularVolume a (some b) (some l) + annularVolume b (some c) (some l)
      = annularVolume a (some c) (some l) ∧
    annularVolume a (some b) (some l) + annularVolume a (some b) (some m)
      = annularVolume a (some b) (some (l + m)) ∧
    annularVolume a none (some l) = annularVolume a (some 0) (some l) ∧
    annularVolume a (some b) none = annularVolume a (some b) (some 1) := by
  simp only [annularVolume, Option.getD_some, Option.getD_none]
  refine ⟨by ring, by ring, ?_, ?_⟩ <;> trivial

/-- **C112** The volume is positive exactly if the inner diameter is the smaller one; with the
diameters exchanged the result is silently negative. -/
theorem C112_sign {od id l : ℝ} (ho : 0 ≤ od) (hi : 0 ≤ id) (hl : 0 < l) :
    (0 < annularVolume od (some id) (some l) ↔ id < od) ∧
    (annularVolume od (some id) (some l) < 0 ↔ od < id) := by
  have e : annularVolume od (some id) (some l) = π / 4 * l * (od ^ 2 - id ^ 2) := by
    simp [annularVolume]; ring
  have hp : 0 < π / 4 * l := by positivity
  rw [e]
  constructor
  · rw [mul_pos_iff_of_pos_left hp, sub_pos, sq_lt_sq₀ hi ho]
  · rw [mul_neg_iff]
    constructor
    · rintro (⟨-, h⟩ | ⟨h, -⟩)
      · exact (sq_lt_sq₀ ho hi).mp (by linarith)
      · linarith
    · intro h
      exact Or.inl ⟨hp, by have := (sq_lt_sq₀ ho hi).mpr h; linarith⟩

end Welleng.Props
