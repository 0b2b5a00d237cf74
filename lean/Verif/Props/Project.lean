import Verif.Model.Project
import Verif.Lemmas.ConnectorSolve
import Verif.Props.ConnectorMore
import Verif.Props.ConnectorCurve
import Verif.Props.ProjectAhead
import Mathlib.Analysis.Real.Pi.Bounds

/-!
C180: design severity of a projection to a target.  C181: position of the bit.  C182: direction of
the projected path.
-/

namespace Welleng.Props

open Real Welleng Spec Con Tf Proj

/-! ### C180 -/

/-- C180 is false of the code: without a distance to the bit, the path to the target does not
depend on the design severity, whatever solves the connection. -/
theorem C180_severity_ignored (nearPi : ℝ → Prop) {L : Type} (conn : Bound → Option L) (s : Last)
    (target : Nd) (d d' : ℝ) (dls toolface : Option ℝ) :
    projectToTarget nearPi conn s target d none dls toolface
      = projectToTarget nearPi conn s target d' none dls toolface := rfl

theorem designRadius_pos {D d : ℝ} (hD : 0 < D) (hd : 0 < d) : 0 < designRadius D d := by
  unfold designRadius radians; have := pi_pos; positivity

/-- A target ahead and to the side, out of the turning circle of a curve of 3 degrees per 30 m. -/
structure Reachable (s : Last) (q : V3) : Prop where
  unit : s.node.vec.IsUnit
  far : ¬ allClose s.node.pos q
  split : ∃ (u : V3) (a b : ℝ), u.IsUnit ∧ V3.dot s.node.vec u = 0 ∧ 0 < b ∧
    b ≠ 2 * designRadius 30 3 ∧ q = s.node.pos + a • s.node.vec + b • u ∧
    designRadius 30 3 ≤ V3.norm (q - s.node.pos) ^ 2 / (2 * b) * (1 - 1e-5)

/-- For a target position that can be reached by a curve of 3 degrees per 30 m and a straight, the
path is that curve and that straight, whatever the design severity. -/
theorem project_point (nearPi : ℝ → Prop) {s : Last} {q : V3} (noise : V3) (hq : Reachable s q)
    (d : ℝ) (dls toolface : Option ℝ) :
    ∃ o, projectToTarget nearPi (connectPoint noise) s ⟨some q, none, none⟩ d none dls toolface
        = some (none, s.node, q, .minDist, o) ∧
      ArcTo (designRadius 30 3) o.distCurve s.node.pos s.node.vec o.pos2 o.vecTarget ∧
      StraightTo o.tangent o.pos2 o.vecTarget q ∧
      0 < o.distCurve ∧ o.distCurve < designRadius 30 3 * (2 * π) := by
  have hR := designRadius_pos (D := 30) (d := 3) (by norm_num) (by norm_num)
  obtain ⟨u, a, b, hu, ho, hb, hb2, h, hrc⟩ := hq.split
  obtain ⟨o, h1, h2, h3, -, h4, h5⟩ := C74_design_radius_partial (noise := noise) hq.unit hu ho hR
    hb hb2 h hq.far (by norm_num) (by norm_num) hrc
  refine ⟨o, ?_, h2, h3, h4, h5⟩
  simp only [projectToTarget, connectPoint, bindConnector, h1, Option.map_some]

/-- C180 (partial): with the design severity 3 degrees per 30 m, in metres, the path to a target
position that it can reach is a curve of that severity and a straight. -/
theorem C180_three_degrees_partial (nearPi : ℝ → Prop) {s : Last} {q : V3} (noise : V3)
    (hq : Reachable s q) (dls toolface : Option ℝ) :
    ∃ o, projectToTarget nearPi (connectPoint noise) s ⟨some q, none, none⟩ 3 none dls toolface
        = some (none, s.node, q, .minDist, o) ∧
      ArcTo (designRadius 30 3) o.distCurve s.node.pos s.node.vec o.pos2 o.vecTarget ∧
      StraightTo o.tangent o.pos2 o.vecTarget q := by
  obtain ⟨o, h1, h2, h3, -⟩ := project_point nearPi noise hq 3 dls toolface
  exact ⟨o, h1, h2, h3⟩

/-- How far an arc advances along its first direction. -/
theorem arcTo_along {R L : ℝ} {p v q w : V3} (hR : 0 < R) (h : ArcTo R L p v q w) :
    V3.dot (q - p) v = R * sin (L / R) := by
  obtain ⟨γ, τ, ν, hc, g0, t0, gL, -⟩ := h
  have hm := CircularCurve.move hc (-p)
  have h0 : (fun s => -p + γ s) 0 = 0 := by simp [g0]
  have hp := hm.pos_eq (one_div_ne_zero hR.ne') h0 L
  simp only [gL, t0] at hp
  have hu : V3.dot v v = 1 := t0 ▸ hc.unit_tan 0
  have ho : V3.dot (ν 0) v = 0 := by
    have := hc.ortho 0
    rw [t0] at this
    rw [V3.dot_comm]; exact this
  have e : q - p = -p + q := by abel
  rw [e, hp, V3.dot_add_left, V3.dot_smul_left, V3.dot_smul_left, hu, ho,
    show 1 / R * L = L / R by ring]
  field_simp
  ring

/-- C180 is false of the code: asked for 1 degree per 30 m, the curve is not of that severity, for
no reachable target. -/
theorem C180_not_design (nearPi : ℝ → Prop) {s : Last} {q : V3} (noise : V3)
    (hq : Reachable s q) (dls toolface : Option ℝ) :
    ∃ o, projectToTarget nearPi (connectPoint noise) s ⟨some q, none, none⟩ 1 none dls toolface
        = some (none, s.node, q, .minDist, o) ∧
      ¬ ArcTo (designRadius 30 1) o.distCurve s.node.pos s.node.vec o.pos2 o.vecTarget := by
  obtain ⟨o, h1, h2, -, h4, h5⟩ := project_point nearPi noise hq 1 dls toolface
  refine ⟨o, h1, fun hbad => ?_⟩
  have hR := designRadius_pos (D := 30) (d := 3) (by norm_num) (by norm_num)
  have e : designRadius 30 1 = 3 * designRadius 30 3 := by
    unfold designRadius radians; have := pi_pos; field_simp
  have e1 := arcTo_along hR h2
  have e2 := arcTo_along (by rw [e]; positivity) hbad
  rw [e1, e] at e2
  set R := designRadius 30 3
  set x := o.distCurve / (3 * R) with hx
  have h3 : o.distCurve / R = 3 * x := by rw [hx]; field_simp
  rw [h3, sin_three_mul] at e2
  have hs : sin x = 0 := by
    have : R * (sin x ^ 3) = 0 := by linarith
    rcases mul_eq_zero.mp this with h | h
    · exact absurd h hR.ne'
    · exact pow_eq_zero_iff (by norm_num) |>.mp h
  have hx0 : 0 < x := by rw [hx]; positivity
  have hx1 : x < π := by
    rw [hx, div_lt_iff₀ (by positivity)]
    have := pi_pos
    nlinarith
  exact absurd hs (sin_pos_of_pos_of_lt_pi hx0 hx1).ne'

/-- A vertical well at the origin; a target 3000 m down and 1000 m north. -/
theorem reachable_example : Reachable ⟨⟨0, ⟨0, 0, 1⟩, 0⟩, 0, 0⟩ ⟨1000, 0, 3000⟩ := by
  have hp := pi_pos
  have h3 := pi_gt_three
  have h4 := pi_lt_d2
  have hR : designRadius 30 3 = 1800 / π := by
    unfold designRadius radians; field_simp; norm_num
  refine ⟨by norm_num [V3.IsUnit, V3.dot], ?_, ⟨1, 0, 0⟩, 3000, 1000, ?_, ?_, by norm_num, ?_, ?_, ?_⟩
  · intro h
    have := h.1
    norm_num [isClose] at this
  · norm_num [V3.IsUnit, V3.dot]
  · norm_num [V3.dot]
  · rw [hR]
    intro h
    have : (1000 : ℝ) * π = 3600 := by
      rw [h]; field_simp; norm_num
    linarith
  · ext <;> simp
  · rw [hR, V3.norm_sq, div_le_iff₀ hp]
    norm_num [V3.dot]
    linarith

example : ∃ o, projectToTarget (fun _ => False) (connectPoint 0) ⟨⟨0, ⟨0, 0, 1⟩, 0⟩, 0, 0⟩
    ⟨some ⟨1000, 0, 3000⟩, none, none⟩ 1 none none none
      = some (none, ⟨0, ⟨0, 0, 1⟩, 0⟩, ⟨1000, 0, 3000⟩, .minDist, o) ∧
    ¬ ArcTo (designRadius 30 1) o.distCurve 0 ⟨0, 0, 1⟩ o.pos2 o.vecTarget :=
  C180_not_design _ 0 reachable_example none none

/-! ### C181 -/

theorem ahead_arcTo {pos v : V3} (hv : v.IsUnit) (dm : ℝ) {dls : ℝ} (hd : 0 < dls) (tf md : ℝ) :
    ArcTo (1 / turnPer dls) dm pos v (projectAhead pos v dm dls tf md).pos
      (projectAhead pos v dm dls tf md).vec := by
  have hk : 0 < turnPer dls := by unfold turnPer; have := pi_pos; positivity
  rw [projectAhead_arc hv dm hd]
  set N := toolDir (getAngles v true).1 (getAngles v true).2 tf with hN
  have ho : V3.dot v N = 0 := by
    have := toolDir_ortho (getAngles v true).1 (getAngles v true).2 tf
    rwa [tangent_getAngles_nev hv] at this
  have hc := CircularCurve.move (arc_circular hk.ne' hv (toolDir_unit _ _ tf) ho) pos
  rw [← one_div_one_div (turnPer dls)] at hc
  refine ⟨_, _, _, hc, ?_, ?_, ?_, ?_⟩
  · rw [one_div_one_div]; ext <;> simp [arcPos]
  · rw [one_div_one_div]; ext <;> simp [arcTan]
  · rw [one_div_one_div]
  · rw [one_div_one_div]

/-- What the projection to the bit does with a turn of less than half a circle. -/
theorem bit_facts {s : Last} (hv : s.node.vec.IsUnit) {dm d : ℝ} (hd : 0 < d) (hm : 0 < dm)
    (hpi : turnPer d * dm < π) (toolface : Option ℝ) :
    let b := bitNode s dm (some d) toolface
    b.vec.IsUnit ∧ angle s.node.vec b.vec = turnPer d * dm ∧ b.md = s.node.md + dm ∧
      b.pos = getPos s.node.pos s.node.vec b.vec dm (getRf (turnPer d * dm)) := by
  have hk : 0 < turnPer d := by unfold turnPer; have := pi_pos; positivity
  have h := ahead_arcTo (pos := s.node.pos) hv dm hd (toolface.getD s.toolface) s.node.md
  have e : 1 / turnPer d * (turnPer d * dm) = dm := by field_simp
  have h' := arcTo_end (R := 1 / turnPer d) (d := turnPer d * dm) (by rw [e]; exact h)
    (by positivity) (by positivity) hpi
  rw [e] at h'
  obtain ⟨h1, h2, -, h4⟩ := h'
  have hn := normalize_of_unit h4
  refine ⟨?_, ?_, ?_, ?_⟩
  · show (normalize _).IsUnit
    rw [Option.getD_some, hn]; exact h4
  · show angle _ (normalize _) = _
    rw [Option.getD_some, hn]; exact h1
  · show (projectAhead ..).md = _
    rw [projectAhead_arc hv _ (by simpa using hd)]
  · show (projectAhead ..).pos = getPos _ _ (normalize _) _ _
    rw [Option.getD_some, hn]; exact h2

theorem designRadius_turn {d : ℝ} (hd : 0 < d) : designRadius 30 d = 1 / turnPer d := by
  unfold designRadius radians turnPer; have := pi_pos; field_simp

/-- C181 (partial): if the hole turns towards the bit at least as sharply as the design severity,
the connection ends exactly at the projected bit. -/
theorem C181_bit_partial {nearPi : ℝ → Prop} {s : Last} (hv : s.node.vec.IsUnit) {dm d dd : ℝ}
    (hd : 0 < d) (hdd : 0 < dd) (hle : dd ≤ d) (hm : 0 < dm) (hpi : turnPer d * dm < π)
    (hn : ¬ nearPi (turnPer d * dm)) (toolface : Option ℝ) :
    legToBit nearPi s dd dm (some d) toolface
      = some ⟨s.node, bitNode s dm (some d) toolface⟩ := by
  obtain ⟨b1, b2, b3, b4⟩ := bit_facts hv hd hm hpi toolface
  have hk : 0 < turnPer d := by unfold turnPer; have := pi_pos; positivity
  have hkk : 0 < turnPer dd := by unfold turnPer; have := pi_pos; positivity
  have hkle : turnPer dd ≤ turnPer d := by unfold turnPer; have := pi_pos; gcongr
  set b := bitNode s dm (some d) toolface with hb
  have hne : b.vec ≠ s.node.vec := by
    intro h
    rw [h, angle_self hv] at b2
    have : 0 < turnPer d * dm := by positivity
    linarith
  have hapos : 0 < angle s.node.vec b.vec := by rw [b2]; positivity
  obtain ⟨D, c, q, e1, e2, e3, e4⟩ := C172_close_depth
    (p := ⟨s.node.pos, s.node.vec, s.node.md, 0, b.vec, .val (designRadius 30 dd),
      .val (designRadius 30 dd), 1e-5⟩) (r := designRadius 30 dd) (md := b.md) hv b1 hapos
    (by rw [b2]; exact hpi) (by rw [b3]; linarith)
    (by
      simp only
      rw [b2, b3, designRadius_turn hdd]
      have : dm ≤ 1 / turnPer dd * (turnPer d * dm) := by
        rw [one_div, ← div_eq_inv_mul, le_div_iff₀ hkk]; nlinarith
      linarith)
  simp only at e1 e2 e3 e4
  have hdm : b.md - s.node.md = dm := by rw [b3]; ring
  rw [hdm] at e2 e4
  have hq : q = b.pos := by
    have e : dm / angle s.node.vec b.vec * angle s.node.vec b.vec = dm :=
      div_mul_cancel₀ _ hapos.ne'
    obtain ⟨-, h2, -⟩ := arcTo_end (R := dm / angle s.node.vec b.vec)
      (d := angle s.node.vec b.vec) (by rw [e]; exact e2) (by positivity) hapos.le
      (by rw [b2]; exact hpi)
    rw [e] at h2
    rw [h2, b4, b2]
  unfold legToBit connectDir bindConnector
  simp only
  rw [← hb, if_neg (by rw [b3]; linarith), if_neg hne, b2, eq_false hn, ← b2, e1]
  simp only [Option.map_some, hq, e3]

/-- C181 (partial): a straight projection is kept. -/
theorem C181_straight_partial (nearPi : ℝ → Prop) {s : Last} (hv : s.node.vec.IsUnit) {dm d : ℝ}
    (hd : d ≤ 0) (hm : 0 ≤ dm) (dd : ℝ) (toolface : Option ℝ) :
    legToBit nearPi s dd dm (some d) toolface
      = some ⟨s.node, bitNode s dm (some d) toolface⟩ := by
  have hb : bitNode s dm (some d) toolface
      = ⟨s.node.pos + dm • s.node.vec, s.node.vec, s.node.md + dm⟩ := by
    unfold bitNode
    simp only [Option.getD_some, C105_hold _ _ _ hd, normalize_of_unit hv]
  unfold legToBit connectDir bindConnector
  rw [hb]
  simp only
  rw [if_neg (by linarith), if_pos trivial]
  simp only [holdGeo, Option.map_some, add_sub_cancel_left]

/-- C181 is false of the code: whenever the hole turns less sharply than the design severity, the
path to the target does not start from the projected bit, although it has its depth and
direction. -/
theorem C181_bit_moved {nearPi : ℝ → Prop} {s : Last} (hv : s.node.vec.IsUnit) {dm d dd : ℝ}
    (hd : 0 < d) (hlt : d < dd) (hm : 0 < dm) (hpi : turnPer d * dm < π) (toolface : Option ℝ) :
    ∃ leg, legToBit nearPi s dd dm (some d) toolface = some leg ∧
      leg.stop.md = (bitNode s dm (some d) toolface).md ∧
      leg.stop.vec = (bitNode s dm (some d) toolface).vec ∧
      leg.stop.pos ≠ (bitNode s dm (some d) toolface).pos := by
  obtain ⟨b1, b2, b3, b4⟩ := bit_facts hv hd hm hpi toolface
  have hdd : 0 < dd := hd.trans hlt
  have hk : 0 < turnPer d := by unfold turnPer; have := pi_pos; positivity
  have hkk : 0 < turnPer dd := by unfold turnPer; have := pi_pos; positivity
  have hklt : turnPer d < turnPer dd := by unfold turnPer; have := pi_pos; gcongr
  set b := bitNode s dm (some d) toolface with hb
  have hne : b.vec ≠ s.node.vec := by
    intro h
    rw [h, angle_self hv] at b2
    have : 0 < turnPer d * dm := by positivity
    linarith
  have hapos : 0 < angle s.node.vec b.vec := by rw [b2]; positivity
  have hR := designRadius_pos (D := 30) (d := dd) (by norm_num) hdd
  have hshort : designRadius 30 dd * angle s.node.vec b.vec < dm := by
    rw [b2, designRadius_turn hdd, one_div, ← div_eq_inv_mul, div_lt_iff₀ hkk]; nlinarith
  obtain ⟨D, c, q2, q, e1, e2, e3, e4, e5, e6⟩ := C172_with_depth
    (p := ⟨s.node.pos, s.node.vec, s.node.md, 0, b.vec, .val (designRadius 30 dd),
      .val (designRadius 30 dd), 1e-5⟩) (r := designRadius 30 dd) (md := b.md)
    (nearPi := nearPi (angle s.node.vec b.vec)) hv b1 hR hapos
    (by rw [b2]; exact hpi) (by simp only; rw [b3]; linarith)
  simp only at e1 e2 e3 e4 e5 e6
  refine ⟨⟨s.node, ⟨q, b.vec, b.md⟩⟩, ?_, rfl, rfl, ?_⟩
  · unfold legToBit connectDir bindConnector
    simp only
    rw [← hb, if_neg (by rw [b3]; linarith), if_neg hne, e1]
    simp only [Option.map_some, e5]
  · simp only
    intro hbad
    rw [e6] at e2 e4
    obtain ⟨-, h2, -⟩ := arcTo_end e2 hR hapos.le (by rw [b2]; exact hpi)
    have hq := e4.2
    rw [h2, hbad, b4, ← b2, b3] at hq
    set a := angle s.node.vec b.vec
    set x := designRadius 30 dd * a
    have hc : cos a = V3.dot s.node.vec b.vec := cos_angle hv b1
    unfold getPos at hq
    have h1 := congrArg (fun z => V3.dot (z - s.node.pos) s.node.vec) hq
    have h3 := congrArg (fun z => V3.dot (z - s.node.pos) b.vec) hq
    have ev : V3.dot s.node.vec s.node.vec = 1 := hv
    have ew : V3.dot b.vec b.vec = 1 := b1
    simp only [V3.dot_sub_left, V3.dot_add_left, V3.dot_smul_left, ev, ew,
      V3.dot_comm b.vec s.node.vec, ← hc] at h1 h3
    have hcos : cos a < 1 := by
      have := cos_lt_cos_of_nonneg_of_le_pi le_rfl (by rw [b2]; exact hpi.le) hapos
      rwa [cos_zero] at this
    have : (dm - x) * (1 - cos a) = 0 := by linarith
    rcases mul_eq_zero.mp this with h | h <;> linarith

/-- A well at 30 degrees of inclination heading north, 20 m from the sensor to the bit. -/
noncomputable def exampleLast : Last :=
  ⟨⟨⟨100, 0, 2000⟩, ⟨1 / 2, 0, √3 / 2⟩, 2100⟩, 2, 0⟩

theorem exampleLast_unit : exampleLast.node.vec.IsUnit := by
  have := sq_sqrt (show (0 : ℝ) ≤ 3 by norm_num)
  simp only [exampleLast, V3.IsUnit, V3.dot]
  linarith

theorem example_turn : turnPer 2 * 20 < 1 := by
  unfold turnPer
  have := pi_lt_four
  linarith

/-- With the default design severity of 3 degrees and a hole that turns by 2 the bit is moved. -/
example : ∃ leg, legToBit (fun x => |x - π| ≤ 1e-5) exampleLast 3 20 (some 2) none = some leg ∧
    leg.stop.pos ≠ (bitNode exampleLast 20 (some 2) none).pos := by
  obtain ⟨l, h1, -, -, h4⟩ := C181_bit_moved (nearPi := fun x => |x - π| ≤ 1e-5) exampleLast_unit
    (dm := 20) (d := 2) (dd := 3) (by norm_num) (by norm_num) (by norm_num)
    (by linarith [example_turn, pi_gt_three]) none
  exact ⟨l, h1, h4⟩

example : legToBit (fun x => |x - π| ≤ 1e-5) exampleLast 1 20 (some 2) none
    = some ⟨exampleLast.node, bitNode exampleLast 20 (some 2) none⟩ :=
  C181_bit_partial exampleLast_unit (by norm_num) (by norm_num) (by norm_num) (by norm_num)
    (by linarith [example_turn, pi_gt_three])
    (by
      intro h
      have := (abs_le.mp h).1
      norm_num at this
      linarith [example_turn, pi_gt_three]) none

example : legToBit (fun _ => False) exampleLast 3 20 (some 0) none
    = some ⟨exampleLast.node, bitNode exampleLast 20 (some 0) none⟩ :=
  C181_straight_partial _ exampleLast_unit le_rfl (by norm_num) 3 none

/-- C181: with a distance to the bit, the first connection starts at the last station and the one to
the target starts where the first ended. -/
theorem C181_target_from_bit {nearPi : ℝ → Prop} {s : Last} {q : V3} (noise : V3) (dd dm : ℝ)
    (dls toolface : Option ℝ) (leg : Option Leg) (st : At) (t : V3) (m : Used) (o : CurveHold)
    (h : projectToTarget nearPi (connectPoint noise) s ⟨some q, none, none⟩ dd (some dm) dls toolface
      = some (leg, st, t, m, o)) :
    ∃ l, leg = some l ∧ l.start = s.node ∧ st = l.stop := by
  unfold projectToTarget at h
  simp only at h
  cases hl : legToBit nearPi s dd dm dls toolface with
  | none => rw [hl] at h; simp at h
  | some l =>
    rw [hl] at h
    simp only [connectPoint, bindConnector, Option.map_map, Option.map_eq_some_iff, Function.comp,
      Prod.mk.injEq] at h
    obtain ⟨r, -, h1, h2, -⟩ := h
    refine ⟨l, h1.symm, ?_, h2.symm⟩
    unfold legToBit connectDir bindConnector at hl
    simp only at hl
    split_ifs at hl
    · simp only [Option.map_eq_some_iff] at hl
      obtain ⟨_, -, rfl⟩ := hl
      rfl
    · simp only [Option.map_eq_some_iff] at hl
      obtain ⟨_, -, rfl⟩ := hl
      rfl

/-- C181: a vertical well 20 m above the origin of `reachable_example`, projected straight on. -/
example : ∃ leg st t m o, projectToTarget (fun x => |x - π| ≤ 1e-5) (connectPoint 0)
    ⟨⟨⟨0, 0, -20⟩, ⟨0, 0, 1⟩, 0⟩, 0, 0⟩ ⟨some ⟨1000, 0, 3000⟩, none, none⟩ 3 (some 20) (some 0) none
      = some (leg, st, t, m, o) := by
  have hu : (⟨0, 0, 1⟩ : V3).IsUnit := by norm_num [V3.IsUnit, V3.dot]
  obtain ⟨o, h, -⟩ := project_point (fun _ => False) 0 reachable_example 3 none none
  have hl := C181_straight_partial (fun x => |x - π| ≤ 1e-5) (s := ⟨⟨⟨0, 0, -20⟩, ⟨0, 0, 1⟩, 0⟩, 0, 0⟩)
    hu (dm := 20) (d := 0) le_rfl (by norm_num) 3 none
  have hb : bitNode ⟨⟨⟨0, 0, -20⟩, ⟨0, 0, 1⟩, 0⟩, 0, 0⟩ 20 (some 0) none
      = ⟨0, ⟨0, 0, 1⟩, 0 + 20⟩ := by
    unfold bitNode
    simp only [Option.getD_some, C105_hold _ _ _ le_rfl, normalize_of_unit hu]
    congr 1
    ext <;> norm_num
  rw [hb] at hl
  simp only [projectToTarget, connectPoint, bindConnector, Option.map_map, Option.map_eq_some_iff,
    Function.comp, Prod.mk.injEq] at h
  obtain ⟨r, hr, -⟩ := h
  refine ⟨some ⟨⟨⟨0, 0, -20⟩, ⟨0, 0, 1⟩, 0⟩, ⟨0, ⟨0, 0, 1⟩, 0 + 20⟩⟩, ⟨0, ⟨0, 0, 1⟩, 0 + 20⟩, r.1, r.2.1,
    r.2.2, ?_⟩
  unfold projectToTarget
  simp only
  rw [hl]
  simp only [connectPoint, bindConnector, hr, Option.map_some]

/-! ### C182 -/

/-- C182 (partial): with azimuths from grid north the stations of the projected survey have the
directions of the projected path. -/
theorem C182_grid_partial {h : Sv.Header} (hg : h.aziRef = .grid) {v : V3} (hv : v.IsUnit) :
    projectedDirection h v = v := by
  unfold projectedDirection
  simp only [Sv.processAziRef, hg, getVec_nev]
  exact tangent_getAngles_nev hv

/-- A direction turned about the vertical. -/
theorem tangent_turn (i a c : ℝ) : tangent i (a - c)
    = ⟨(tangent i a).x * cos c + (tangent i a).y * sin c,
      (tangent i a).y * cos c - (tangent i a).x * sin c, (tangent i a).z⟩ := by
  ext <;> simp only [tangent, cos_sub, sin_sub] <;> ring

/-- C182 is false of the code: with azimuths from true north the projected survey is turned about
the vertical by the convergence, from its first station on. -/
theorem C182_true_turned {h : Sv.Header} (ht : h.aziRef = .true_) (inc azi : ℝ) :
    projectedDirection h (tangent inc azi) = tangent inc (azi - h.convergence) := by
  unfold projectedDirection
  simp only [Sv.processAziRef, ht, getVec_nev]
  have e := tangent_getAngles_nev (tangent_unit inc azi)
  simp only [Bool.false_eq_true, if_false]
  rw [tangent_turn, e, ← tangent_turn]

/-- C182 is false of the code: with azimuths from magnetic north the projected survey is turned by the
declination less the convergence. -/
theorem C182_magnetic_turned {h : Sv.Header} (ht : h.aziRef = .magnetic) (inc azi : ℝ) :
    projectedDirection h (tangent inc azi) = tangent inc (azi + h.declination - h.convergence) := by
  unfold projectedDirection
  simp only [Sv.processAziRef, ht, getVec_nev]
  have e := tangent_getAngles_nev (tangent_unit inc azi)
  simp only [Bool.false_eq_true, if_false]
  have key : ∀ i a, tangent i (a + h.declination - h.convergence)
      = tangent i (a - (h.convergence - h.declination)) := fun i a => by congr 1; ring
  rw [key, key, tangent_turn, e, ← tangent_turn]

/-- C182 is false of the code: a horizontal well to the north, a convergence of one degree. -/
theorem C182_negated : ∃ (h : Sv.Header) (v : V3), v.IsUnit ∧ projectedDirection h v ≠ v := by
  refine ⟨⟨.true_, π / 180, 0, 1, some 0, .meters⟩, tangent (π / 2) 0, tangent_unit _ _, ?_⟩
  rw [C182_true_turned rfl]
  intro h
  have h2 := congrArg V3.y h
  simp [tangent] at h2
  have := sin_pos_of_pos_of_lt_pi (x := π / 180) (by positivity) (by linarith [pi_pos])
  linarith

example : projectedDirection ⟨.grid, 0.02, 0, 1, some 0, .meters⟩ (tangent 1 2) = tangent 1 2 :=
  C182_grid_partial rfl (tangent_unit _ _)

end Welleng.Props
