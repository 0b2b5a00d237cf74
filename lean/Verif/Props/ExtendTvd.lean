import Verif.Props.Extend

/-!
C200-C204: `extend_to_tvd` (`/repo/welleng/connector.py` 2634-2745).
-/

namespace Welleng.Props

open Real Welleng Spec Con Tf Proj Xt

theorem allClose_refl (v : V3) : allClose v v := by
  refine ⟨?_, ?_, ?_⟩ <;> (unfold isClose; rw [sub_self, abs_zero]; positivity)

theorem unit_ne_neg {v : V3} (hv : v.IsUnit) : v ≠ (-1 : ℝ) • v := by
  intro h
  have e : V3.dot v v = V3.dot v ((-1 : ℝ) • v) := by rw [← h]
  rw [V3.dot_smul_right, show V3.dot v v = 1 from hv] at e
  norm_num at e

theorem norm_smul_unit {v : V3} (hv : v.IsUnit) {L : ℝ} (hL : 0 ≤ L) : V3.norm (L • v) = L := by
  rw [V3.norm_smul, norm_of_unit hv, mul_one, abs_of_nonneg hL]

theorem forcedVec_none (modVec : V3 → V3) {s : At} (hv : s.vec.IsUnit) :
    forcedVec modVec s none = s.vec := by
  unfold forcedVec
  rw [Option.getD_none, if_neg (unit_ne_neg hv)]

theorem forcedVec_some (modVec : V3 → V3) {s : At} {w : V3} (h : w ≠ (-1 : ℝ) • s.vec) :
    forcedVec modVec s (some w) = w := by
  unfold forcedVec
  rw [Option.getD_some, if_neg h]

/-- A forced connection to a point straight ahead is a hold. -/
theorem forcedConn_ahead (nearPi : ℝ → Prop) (modVec : V3 → V3) (radius : Ext) {s : At}
    (hv : s.vec.IsUnit) {L : ℝ} (hL : 0 < L) :
    forcedConn nearPi modVec radius s (s.pos + L • s.vec) none
      = some ⟨s, ⟨s.pos + L • s.vec, s.vec, s.md + L⟩⟩ := by
  have hsub : s.pos + L • s.vec - s.pos = L • s.vec := by abel
  have hn : normalize (L • s.vec) = s.vec := by
    unfold normalize
    rw [norm_smul_unit hv hL.le, smul_smul, one_div, inv_mul_cancel₀ hL.ne', one_smul]
  have hne : s.pos + L • s.vec ≠ s.pos := by
    intro h
    have e : L • s.vec = 0 := by rw [← hsub, h, sub_self]
    have := norm_smul_unit hv hL.le
    rw [e] at this
    simp [V3.norm, V3.dot] at this
    linarith
  unfold forcedConn
  rw [forcedVec_none modVec hv]
  simp only
  rw [if_pos ⟨rfl, hne, by rw [hsub, hn]; exact allClose_refl _⟩]
  simp only [holdGeo, Option.map_some, hsub, norm_smul_unit hv hL.le, normalize_of_unit hv]
  rw [add_comm L]

/-! ### C200 -/

/-- **C200** If the straight continuation of the hole reaches the depth `t`, the result (for a length
that minimises the miss) is one connection: the straight along the start direction, with the depths
of that straight, ending at `t`. -/
theorem C200_straight_to_depth (nearPi : ℝ → Prop) (modVec : V3 → V3) (dls : Option ℝ)
    {p v : V3} (md : Option ℝ) {t len : ℝ} (hv : v.IsUnit) (hreach : 0 < (t - p.z) / v.z)
    (dm : Option ℝ) (hlen : StraightBounds dm len)
    (hmin : ∀ y, StraightBounds dm y → straightMiss p v t len ≤ straightMiss p v t y) :
    ∃ leg, extendStraight nearPi modVec dls (some ⟨some p, some v, md⟩) len = .ok [leg] ∧
      leg.start = ⟨p, v, md.getD 0⟩ ∧ leg.stop.pos.z = t ∧ leg.stop.vec = v ∧
      0 < leg.stop.md - md.getD 0 ∧ StraightTo (leg.stop.md - md.getD 0) p v leg.stop.pos := by
  have hz : v.z ≠ 0 := by rintro h; rw [h, div_zero] at hreach; exact lt_irrefl _ hreach
  have h0 := hmin ((t - p.z) / v.z) hreach.le
  have e0 : straightMiss p v t ((t - p.z) / v.z) = 0 := by
    unfold straightMiss
    rw [abs_eq_zero]
    simp only [V3.add_z, V3.smul_z]
    field_simp; ring
  rw [e0] at h0
  have h1 : straightMiss p v t len = 0 := le_antisymm h0 (abs_nonneg _)
  unfold straightMiss at h1
  rw [abs_eq_zero, V3.add_z, V3.smul_z] at h1
  have hl : len = (t - p.z) / v.z := by field_simp; linarith
  rw [← hl] at hreach
  refine ⟨⟨⟨p, v, md.getD 0⟩, ⟨p + len • v, v, md.getD 0 + len⟩⟩, ?_, rfl, ?_, rfl, ?_, ?_, ?_⟩
  · unfold extendStraight located
    simp only
    rw [forcedConn_ahead nearPi modVec (designExt dls) (s := ⟨p, v, md.getD 0⟩) hv hreach]
  · simp only [V3.add_z, V3.smul_z]; linarith
  · simpa using hreach
  · simpa using hreach.le
  · simp only [add_sub_cancel_left]

/-- C200 hypotheses: a vertical well at 3000, target 3200, found length 200. -/
example : (⟨0, 0, 1⟩ : V3).IsUnit ∧ (0 : ℝ) < (3200 - 3000) / 1 ∧ StraightBounds none 200 ∧
    ∀ y, StraightBounds none y →
      straightMiss ⟨0, 0, 3000⟩ ⟨0, 0, 1⟩ 3200 200 ≤ straightMiss ⟨0, 0, 3000⟩ ⟨0, 0, 1⟩ 3200 y := by
  refine ⟨by norm_num [V3.IsUnit, V3.dot], by norm_num, by norm_num [StraightBounds], fun y _ => ?_⟩
  have : straightMiss ⟨0, 0, 3000⟩ ⟨0, 0, 1⟩ 3200 200 = 0 := by norm_num [straightMiss]
  rw [this]; exact abs_nonneg _

/-! ### C201 -/

/-- **C201** is false of the code: a horizontal well never reaches another depth, no length is better
than another, and whatever length is found the connection is returned. -/
theorem C201_horizontal_not_reported (nearPi : ℝ → Prop) (modVec : V3 → V3) (dls : Option ℝ)
    {p v : V3} (md : Option ℝ) {t len : ℝ} (hv : v.IsUnit) (hz : v.z = 0) (ht : t ≠ p.z)
    (hlen : 0 < len) :
    (∀ y, straightMiss p v t len ≤ straightMiss p v t y) ∧
    ∃ leg, extendStraight nearPi modVec dls (some ⟨some p, some v, md⟩) len = .ok [leg] ∧
      leg.stop.pos.z ≠ t := by
  refine ⟨fun y => ?_, _, by
    unfold extendStraight located
    simp only
    rw [forcedConn_ahead nearPi modVec (designExt dls) (s := ⟨p, v, md.getD 0⟩) hv hlen], ?_⟩
  · unfold straightMiss
    simp [hz]
  · simp only [V3.add_z, V3.smul_z, hz, mul_zero, add_zero]
    exact fun h => ht h.symm

example : (⟨1, 0, 0⟩ : V3).IsUnit ∧ (⟨1, 0, 0⟩ : V3).z = 0 ∧ (3200 : ℝ) ≠ (⟨0, 0, 3000⟩ : V3).z := by
  refine ⟨by norm_num [V3.IsUnit, V3.dot], rfl, by norm_num⟩

/-- A forced connection to the start itself, without a direction. -/
theorem forcedConn_self (nearPi : ℝ → Prop) (modVec : V3 → V3) {s : At} (hv : s.vec.IsUnit) :
    forcedConn nearPi modVec .inf s s.pos none = none ∧
    ∀ r, forcedConn nearPi modVec (.val r) s s.pos none = some ⟨s, s⟩ := by
  have ha := angle_self hv
  constructor
  · unfold forcedConn
    rw [forcedVec_none modVec hv]
    simp only
    rw [if_neg (by simp)]
    simp [minCurveGeo, minCurveMd]
  · intro r
    unfold forcedConn
    rw [forcedVec_none modVec hv]
    simp only
    rw [if_neg (by simp)]
    simp only [ha, minCurveGeo, minCurveMd, Option.map_some, mul_zero, abs_zero, add_zero,
      normalize_of_unit hv]
    simp [getPos]

/-- **C201** (partial) A depth behind the bit: the best length is zero.  Without a design severity this is
an error; with one, a connection without length is returned. -/
theorem C201_behind_partial (nearPi : ℝ → Prop) (modVec : V3 → V3) {p v : V3} (md : Option ℝ)
    {t len : ℝ} (hv : v.IsUnit) (hback : (t - p.z) / v.z < 0) (dm : Option ℝ)
    (hlen : StraightBounds dm len)
    (hmin : ∀ y, StraightBounds dm y → straightMiss p v t len ≤ straightMiss p v t y) :
    extendStraight nearPi modVec none (some ⟨some p, some v, md⟩) len = .error .valueError ∧
    ∀ d, extendStraight nearPi modVec (some d) (some ⟨some p, some v, md⟩) len
      = .ok [⟨⟨p, v, md.getD 0⟩, ⟨p, v, md.getD 0⟩⟩] := by
  have hz : v.z ≠ 0 := by rintro h; rw [h, div_zero] at hback; exact lt_irrefl _ hback
  have h0 := hmin 0 le_rfl
  have hl0 : (0 : ℝ) ≤ len := hlen
  have hl : len = 0 := by
    by_contra hne
    have hpos : 0 < len := lt_of_le_of_ne hl0 (Ne.symm hne)
    unfold straightMiss at h0
    simp only [V3.add_z, V3.smul_z, zero_mul, add_zero] at h0
    rw [← sq_le_sq] at h0
    rcases lt_or_gt_of_ne hz with hn | hp
    · have : 0 < t - p.z := by
        rcases div_neg_iff.mp hback with h | h
        · exact h.1
        · exact absurd h.2 (not_lt.mpr hn.le)
      nlinarith [mul_pos hpos (neg_pos.mpr hn)]
    · have : t - p.z < 0 := by
        rcases div_neg_iff.mp hback with h | h
        · exact absurd h.2 (not_lt.mpr hp.le)
        · exact h.1
      nlinarith [mul_pos hpos hp]
  subst hl
  obtain ⟨f1, f2⟩ := forcedConn_self nearPi modVec (s := ⟨p, v, md.getD 0⟩) hv
  constructor
  · unfold extendStraight located designExt
    simp only [zero_smul, add_zero]
    rw [f1]
  · intro d
    unfold extendStraight located designExt
    simp only [zero_smul, add_zero]
    rw [f2]

/-- C201 partial, hypotheses: a vertical well at 3000, target 2900. -/
example : ((2900 : ℝ) - 3000) / 1 < 0 ∧ ∀ y, StraightBounds none y →
    straightMiss ⟨0, 0, 3000⟩ ⟨0, 0, 1⟩ 2900 0 ≤ straightMiss ⟨0, 0, 3000⟩ ⟨0, 0, 1⟩ 2900 y := by
  refine ⟨by norm_num, fun y hy => ?_⟩
  have hy : (0 : ℝ) ≤ y := hy
  have e : straightMiss ⟨0, 0, 3000⟩ ⟨0, 0, 1⟩ 2900 0 = 100 := by norm_num [straightMiss]
  rw [e]; unfold straightMiss
  rw [le_abs]; left; simp; linarith

/-! ### C202 -/

/-- **C202** is false of the code: a vertical well at 3000 with at most 100 to drill and the target 3200
is extended by 200. -/
theorem C202_limit_exceeded (nearPi : ℝ → Prop) (modVec : V3 → V3) (dls : Option ℝ) (len : ℝ)
    (hlen : StraightBounds (some 100) len)
    (hmin : ∀ y, StraightBounds (some 100) y →
      straightMiss ⟨0, 0, 3000⟩ ⟨0, 0, 1⟩ 3200 len ≤ straightMiss ⟨0, 0, 3000⟩ ⟨0, 0, 1⟩ 3200 y) :
    ∃ leg, extendStraight nearPi modVec dls (some ⟨some ⟨0, 0, 3000⟩, some ⟨0, 0, 1⟩, none⟩) len
      = .ok [leg] ∧ leg.stop.md - leg.start.md = 200 := by
  obtain ⟨leg, h1, h2, h3, -, h5, h6, h7⟩ := C200_straight_to_depth nearPi modVec dls
    (p := ⟨0, 0, 3000⟩) (v := ⟨0, 0, 1⟩) none (t := 3200) (by norm_num [V3.IsUnit, V3.dot])
    (by norm_num) (some 100) hlen hmin
  refine ⟨leg, h1, ?_⟩
  rw [h7] at h3
  simp at h3
  rw [h2]
  simp only [Option.getD_none]
  linarith

/-- **C202** With a target inclination the limit is even a lower limit of the search. -/
theorem C202_limit_is_lower {t z d len : ℝ} (hd : d ≤ t - z) (h : CurveBounds t z (some d) len) :
    d ≤ len := by
  unfold CurveBounds at h
  rwa [Option.getD_some, min_eq_right hd] at h

example : (100 : ℝ) ≤ 3200 - 3000 ∧ CurveBounds 3200 3000 (some 100) 150 := by
  refine ⟨by norm_num, ?_⟩
  unfold CurveBounds
  rw [Option.getD_some, min_le_iff]; right; norm_num

/-- **C202** (partial) If the depth can be reached within the limit, the connection is no longer than
it. -/
theorem C202_within_partial (nearPi : ℝ → Prop) (modVec : V3 → V3) (dls : Option ℝ)
    {p v : V3} (md : Option ℝ) {t len d : ℝ} (hv : v.IsUnit) (hreach : 0 < (t - p.z) / v.z)
    (hd : (t - p.z) / v.z ≤ d) (hlen : StraightBounds (some d) len)
    (hmin : ∀ y, StraightBounds (some d) y → straightMiss p v t len ≤ straightMiss p v t y) :
    ∃ leg, extendStraight nearPi modVec dls (some ⟨some p, some v, md⟩) len = .ok [leg] ∧
      leg.stop.md - leg.start.md ≤ d := by
  obtain ⟨leg, h1, h2, h3, -, h5, h6, h7⟩ :=
    C200_straight_to_depth nearPi modVec dls md hv hreach (some d) hlen hmin
  refine ⟨leg, h1, ?_⟩
  have hz : v.z ≠ 0 := by rintro h; rw [h, div_zero] at hreach; exact lt_irrefl _ hreach
  rw [h7] at h3
  simp only [V3.add_z, V3.smul_z] at h3
  rw [h2]
  simp only
  have : leg.stop.md - md.getD 0 = (t - p.z) / v.z := by field_simp; linarith
  linarith

example : (0 : ℝ) < (3200 - 3000) / 1 ∧ ((3200 : ℝ) - 3000) / 1 ≤ 250 := by norm_num

/-! ### C203 -/

/-- **C203** is false of the code: without a start node there is no default start at the surface, every
call fails. -/
theorem C203_no_default (nearPi : ℝ → Prop) (modVec : V3 → V3) (dls : Option ℝ) (len : ℝ)
    (x : Choice) :
    extendStraight nearPi modVec dls none len = .error .typeError ∧
    extendCurve nearPi modVec dls none len x = .error .typeError := ⟨rfl, rfl⟩

/-- **C203** (partial) With the surface given as the start node, a target depth `t` is reached by a
vertical straight of length `t`. -/
theorem C203_surface_partial (nearPi : ℝ → Prop) (modVec : V3 → V3) (dls : Option ℝ) {t len : ℝ}
    (ht : 0 < t) (dm : Option ℝ) (hlen : StraightBounds dm len)
    (hmin : ∀ y, StraightBounds dm y → straightMiss 0 ⟨0, 0, 1⟩ t len ≤ straightMiss 0 ⟨0, 0, 1⟩ t y) :
    extendStraight nearPi modVec dls (some ⟨some 0, some ⟨0, 0, 1⟩, none⟩) len
      = .ok [⟨⟨0, ⟨0, 0, 1⟩, 0⟩, ⟨⟨0, 0, t⟩, ⟨0, 0, 1⟩, t⟩⟩] := by
  obtain ⟨⟨st, ⟨q, w, m⟩⟩, h1, h2, h3, h4, h5, h6, h7⟩ := C200_straight_to_depth nearPi modVec dls
    (p := 0) (v := ⟨0, 0, 1⟩) none (t := t) (by norm_num [V3.IsUnit, V3.dot])
    (by simpa using ht) dm hlen hmin
  simp only [Option.getD_none, sub_zero] at h2 h3 h4 h5 h6 h7
  rw [h7] at h3
  simp at h3
  rw [h1]
  subst h2 h4 h3
  have hq : (0 : V3) + m • (⟨0, 0, 1⟩ : V3) = ⟨0, 0, m⟩ := by ext <;> simp
  rw [h7, hq]

example : ∀ y, StraightBounds none y →
    straightMiss 0 ⟨0, 0, 1⟩ 500 500 ≤ straightMiss 0 ⟨0, 0, 1⟩ 500 y := by
  intro y _
  have : straightMiss 0 ⟨0, 0, 1⟩ 500 500 = 0 := by norm_num [straightMiss]
  rw [this]; exact abs_nonneg _

/-! ### C204 -/

/-- A forced connection to the end of an arc of less than half a circle and the design radius. -/
theorem forcedConn_arc (nearPi : ℝ → Prop) (modVec : V3 → V3) {s : At} {R d : ℝ} {q w : V3}
    (hR : 0 < R) (hd0 : 0 ≤ d) (hd1 : d < π) (h : ArcTo R (R * d) s.pos s.vec q w) :
    forcedConn nearPi modVec (.val R) s q (some w) = some ⟨s, ⟨q, w, s.md + R * d⟩⟩ := by
  obtain ⟨e1, e2, u1, u2⟩ := arcTo_end h hR hd0 hd1
  have hne : w ≠ (-1 : ℝ) • s.vec := by
    intro hw
    have := e1
    unfold angle at this
    rw [hw, V3.dot_smul_right, show V3.dot s.vec s.vec = 1 from u1, mul_one, arccos_neg_one] at this
    linarith
  unfold forcedConn
  rw [forcedVec_some modVec hne]
  simp only
  rw [if_neg]
  · simp only [e1, minCurveGeo, minCurveMd, Option.map_some, normalize_of_unit u2, ← e2,
      abs_of_nonneg (mul_nonneg hR.le hd0)]
  · rintro ⟨hw, hq, -⟩
    rw [hw, angle_self u1] at e1
    apply hq
    rw [e2, ← e1]
    simp [getPos]

/-- The starts belonging to consecutive connections that end at the nodes `l`. -/
def startsOf (s : At) : List At → List At
  | [] => []
  | n :: l => s :: startsOf n l

/-- **C204** (partial) If the turn is less than half a circle, the connections end at the nodes of the
drop-off, each starting where the one before ended. -/
theorem C204_through_nodes_partial (nearPi : ℝ → Prop) (modVec : V3 → V3) {dls i a : ℝ}
    (hd : 0 < dls) (hs : 0 < sin i) (p : V3) (md : Option ℝ) {len : ℝ} (x : Choice)
    (h0 : 0 ≤ x.dogleg) (h1 : x.dogleg < π) :
    ∃ legs, extendCurve nearPi modVec (some dls) (some ⟨some p, some (tangent i a), md⟩) len x
        = .ok legs ∧
      legs.map (·.stop)
        = dropOff dls (some len) (some ⟨some p, some (tangent i a), md⟩) 1e-5 x ∧
      legs.map (·.start) = startsOf ⟨p, tangent i a, md.getD 0⟩ (legs.map (·.stop)) := by
  have hr := dropRadius_pos hd
  obtain ⟨v1, v2, v3⟩ := dropArc_eq (a := a) hs hr ⟨some p, some (tangent i a), some (md.getD 0)⟩ rfl x
  have w3 := v3
  rw [mul_comm] at w3
  have hc := forcedConn_arc nearPi modVec (s := ⟨p, tangent i a, md.getD 0⟩) hr h0 h1 w3
  have hu : (dropArc (dropRadius dls) ⟨some p, some (tangent i a), some (md.getD 0)⟩ x).vec.IsUnit := by
    rw [v1]; exact tangent_unit _ _
  have hsame : dropOff dls (some len) (some ⟨some p, some (tangent i a), md⟩) 1e-5 x
      = dropOff dls (some len) (some ⟨some p, some (tangent i a), some (md.getD 0)⟩) 1e-5 x := by
    unfold dropOff dropArc; simp
  rw [hsame]
  unfold extendCurve located
  simp only [Option.getD_some, ← dropRadius_eq hd]
  generalize hA : dropArc (dropRadius dls) ⟨some p, some (tangent i a), some (md.getD 0)⟩ x = A at *
  unfold dropOff
  simp only [Option.getD_some, hA, normalize_of_unit hu, v2]
  split_ifs with ht
  · simp only [hc]
    have hT : 0 < len - x.dogleg * dropRadius dls := lt_trans (by norm_num) ht
    have hf := forcedConn_ahead nearPi modVec (.val (dropRadius dls))
      (s := ⟨A.pos, A.vec, md.getD 0 + dropRadius dls * x.dogleg⟩) hu hT
    simp only at hf
    simp only [hf]
    refine ⟨_, rfl, ?_, rfl⟩
    simp [mul_comm]
  · simp only [hc]
    refine ⟨_, rfl, ?_, rfl⟩
    simp [mul_comm]

/-- **C204** (partial) ... so that with a miss of zero the last connection ends at the target depth. -/
theorem C204_target_depth_partial (nearPi : ℝ → Prop) (modVec : V3 → V3) {dls i a : ℝ}
    (hd : 0 < dls) (hs : 0 < sin i) (p : V3) (md : Option ℝ) {len t : ℝ} (solve : ℝ → Choice)
    (h0 : 0 ≤ (solve len).dogleg) (h1 : (solve len).dogleg < π)
    (hmiss : curveMiss dls ⟨some p, some (tangent i a), md⟩ solve t len = 0) :
    ∃ legs leg, extendCurve nearPi modVec (some dls) (some ⟨some p, some (tangent i a), md⟩) len
        (solve len) = .ok legs ∧ legs.getLast? = some leg ∧ leg.stop.pos.z = t := by
  obtain ⟨legs, e1, e2, -⟩ :=
    C204_through_nodes_partial nearPi modVec hd hs p md (len := len) (a := a) (solve len) h0 h1
  unfold curveMiss at hmiss
  rw [← e2, List.getLast?_map] at hmiss
  cases hl : legs.getLast? with
  | none =>
    rw [List.getLast?_eq_none_iff] at hl
    subst hl
    rw [List.map_nil] at e2
    unfold dropOff at e2
    simp only at e2
    split_ifs at e2
  | some leg =>
    rw [hl] at hmiss
    simp only [Option.map_some] at hmiss
    exact ⟨legs, leg, e1, hl, by rw [abs_eq_zero] at hmiss; linarith⟩

/-- **C204** Without a severity the connections are those of 2.5 degrees per 30. -/
theorem C204_default_severity (nearPi : ℝ → Prop) (modVec : V3 → V3) (node : Option Nd) (len : ℝ)
    (x : Choice) :
    extendCurve nearPi modVec none node len x = extendCurve nearPi modVec (some 2.5) node len x := rfl

/-- C204 hypotheses: from 30 degrees, the turn by 30 degrees to the low side is less than half a
circle; there is a depth for which the miss of 400 is zero. -/
example : (0 : ℝ) < sin (π / 6) ∧ (0 : ℝ) ≤ π / 6 ∧ π / 6 < π ∧
    ∃ t, curveMiss 3 ⟨some 0, some (tangent (π / 6) 0), none⟩ (fun _ => ⟨π / 6, π⟩) t 400 = 0 := by
  have := pi_pos
  refine ⟨by rw [sin_pi_div_six]; norm_num, by positivity, by linarith, ?_⟩
  unfold curveMiss
  cases h : (dropOff 3 (some 400) (some ⟨some 0, some (tangent (π / 6) 0), none⟩) 1e-5
      ⟨π / 6, π⟩).getLast? with
  | none => exact ⟨0, rfl⟩
  | some n => exact ⟨n.pos.z, by simp⟩

/-- **C204** is false of the code: a turn `d` of more than half a circle is connected the short way
round, so that the connection does not end at the node of the drop-off: not at its depth. -/
theorem C204_short_way (nearPi : ℝ → Prop) (modVec : V3 → V3) {dls i a : ℝ}
    (hd : 0 < dls) (hs : 0 < sin i) (p : V3) (md : Option ℝ) (x : Choice)
    (h0 : π < x.dogleg) (h1 : x.dogleg < 2 * π) (n : At)
    (hn : dropOff dls (some (x.dogleg * dropRadius dls))
      (some ⟨some p, some (tangent i a), md⟩) 1e-5 x = [n]) :
    ∃ leg, extendCurve nearPi modVec (some dls) (some ⟨some p, some (tangent i a), md⟩)
        (x.dogleg * dropRadius dls) x = .ok [leg] ∧
      leg.stop.vec = n.vec ∧ n.md = md.getD 0 + dropRadius dls * x.dogleg ∧
      leg.stop.md = md.getD 0 + dropRadius dls * (2 * π - x.dogleg) ∧ leg.stop.md < n.md := by
  have hp := pi_pos
  have hr := dropRadius_pos hd
  obtain ⟨v1, v2, v3⟩ := dropArc_eq (a := a) hs hr ⟨some p, some (tangent i a), some (md.getD 0)⟩ rfl x
  have hsame : dropOff dls (some (x.dogleg * dropRadius dls)) (some ⟨some p, some (tangent i a), md⟩)
        1e-5 x
      = dropOff dls (some (x.dogleg * dropRadius dls))
        (some ⟨some p, some (tangent i a), some (md.getD 0)⟩) 1e-5 x := by
    unfold dropOff dropArc; simp
  have hnm : n.md = md.getD 0 + dropRadius dls * x.dogleg ∧
      n.vec = tangent (i + sideSign x.toolface * x.dogleg) a := by
    rw [hsame] at hn
    unfold dropOff at hn
    simp only [Option.getD_some, v2, sub_self] at hn
    rw [if_neg (by norm_num)] at hn
    obtain ⟨rfl⟩ := List.cons_eq_cons.mp hn |>.1
    exact ⟨by rw [mul_comm], by rw [v1, normalize_of_unit (tangent_unit _ _)]⟩
  -- the angle between the directions
  have hcos : V3.dot (tangent i a) n.vec = cos x.dogleg := by
    rw [hnm.2]
    have e : V3.dot (tangent i a) (tangent (i + sideSign x.toolface * x.dogleg) a)
        = cos (i + sideSign x.toolface * x.dogleg - i) := by
      have h2 := sin_sq_add_cos_sq a
      rw [cos_sub]
      simp only [V3.dot, tangent]
      linear_combination (sin i * sin (i + sideSign x.toolface * x.dogleg)) * h2
    rw [e, add_sub_cancel_left]
    rcases sideSign_cases x.toolface with h | h <;> rw [h] <;> simp
  have hang : angle (tangent i a) n.vec = 2 * π - x.dogleg := by
    unfold angle
    rw [hcos, ← cos_two_pi_sub, arccos_cos (by linarith) (by linarith)]
  have hne : n.vec ≠ (-1 : ℝ) • tangent i a := by
    intro hw
    rw [hw] at hang
    unfold angle at hang
    rw [V3.dot_smul_right, show V3.dot (tangent i a) (tangent i a) = 1 from tangent_unit i a, mul_one,
      arccos_neg_one] at hang
    linarith
  have hne' : n.vec ≠ tangent i a := by
    intro hw
    rw [hw, angle_self (tangent_unit i a)] at hang
    linarith
  have hun : n.vec.IsUnit := hnm.2 ▸ tangent_unit _ _
  have hL : 0 < dropRadius dls * (2 * π - x.dogleg) := mul_pos hr (by linarith)
  have hconn : ∃ q, forcedConn nearPi modVec (.val (dropRadius dls)) ⟨p, tangent i a, md.getD 0⟩ n.pos
      (some n.vec) = some ⟨⟨p, tangent i a, md.getD 0⟩,
        ⟨q, n.vec, md.getD 0 + dropRadius dls * (2 * π - x.dogleg)⟩⟩ := by
    unfold forcedConn
    rw [forcedVec_some modVec (s := ⟨p, tangent i a, md.getD 0⟩) hne]
    simp only
    rw [if_neg (fun h => hne' h.1)]
    simp only [minCurveGeo, minCurveMd, Option.map_some, hang, normalize_of_unit hun, abs_of_pos hL]
    exact ⟨_, rfl⟩
  obtain ⟨q, hq⟩ := hconn
  refine ⟨⟨⟨p, tangent i a, md.getD 0⟩,
    ⟨q, n.vec, md.getD 0 + dropRadius dls * (2 * π - x.dogleg)⟩⟩, ?_, rfl, hnm.1, rfl, ?_⟩
  · unfold extendCurve located
    simp only [Option.getD_some, ← dropRadius_eq hd]
    rw [← hsame, hn]
    simp only [hq]
  · simp only
    rw [hnm.1]
    have := mul_lt_mul_of_pos_left (show 2 * π - x.dogleg < x.dogleg by linarith) hr
    linarith

/-- C204 negation, hypotheses: building from 30 to 60 degrees on the side of the first guess by a turn
of 330 degrees (C199). -/
example : ∃ n, dropOff 3 (some (11 * π / 6 * dropRadius 3))
    (some ⟨some 0, some (tangent (π / 6) 0), none⟩) 1e-5 ⟨11 * π / 6, π⟩ = [n] := by
  have hr := dropRadius_pos (dls := 3) (by norm_num)
  obtain ⟨-, v2, -⟩ := dropArc_eq (a := 0) (i := π / 6) (by rw [sin_pi_div_six]; norm_num) hr
    ⟨some 0, some (tangent (π / 6) 0), none⟩ rfl ⟨11 * π / 6, π⟩
  unfold dropOff
  simp only [Option.getD_some, v2, sub_self]
  rw [if_neg (by norm_num)]
  exact ⟨_, rfl⟩

end Welleng.Props
