import Verif.Props.ConnectorCurve

/-!
C382: a connection to a position and the unit of length.
-/

namespace Welleng.Props

open Real Welleng.Con Welleng.Spec

/-- A radius in another unit. -/
def extUnit (c : ℝ) : Ext → Ext
  | .inf => .inf
  | .val r => .val (c * r)

/-- A curve and hold in another unit: positions and lengths are multiplied, directions and angles kept. -/
def holdUnit (c : ℝ) (o : CurveHold) : CurveHold :=
  ⟨c • o.pos2, o.vecTarget, c * o.tangent, o.dogleg, c * o.distCurve, c * o.md⟩

/-- The result of a connection in another unit. -/
def resultUnit (c : ℝ) (r : V3 × Used × CurveHold) : V3 × Used × CurveHold := (c • r.1, r.2.1, holdUnit c r.2.2)

section
variable {c : ℝ} (hc : 0 < c)
include hc

theorem atan2_unit (y x : ℝ) : atan2 (c * y) (c * x) = atan2 y x := by
  unfold atan2
  rw [← Complex.arg_real_mul ⟨x, y⟩ hc]
  congr 1
  apply Complex.ext <;> simp

theorem normalize_scaled (v : V3) : normalize (c • v) = normalize v := by
  unfold normalize
  rw [V3.norm_smul, abs_of_pos hc]
  ext <;> simp <;> field_simp

theorem smul_inj_unit {a b : V3} : c • a = c • b ↔ a = b := by
  refine ⟨fun h => ?_, fun h => by rw [h]⟩
  have hx := congrArg V3.x h
  have hy := congrArg V3.y h
  have hz := congrArg V3.z h
  simp [hc.ne'] at hx hy hz
  exact V3.ext hx hy hz

theorem smul_sub_unit (a b : V3) : c • a - c • b = c • (a - b) := by
  ext <;> simp <;> ring

theorem modTarget_unit (z pos vec q : V3) :
    modTarget (c • z) (c • pos) vec (c • q) = c • modTarget z pos vec q := by
  unfold modTarget
  rw [smul_sub_unit hc, normalize_scaled hc]
  by_cases h : q ≠ pos ∧ vec = normalize (q - pos)
  · rw [if_pos h, if_pos ⟨fun h' => h.1 ((smul_inj_unit hc).1 h'), h.2⟩]
    ext <;> simp <;> ring
  · rw [if_neg h, if_neg fun h' => h ⟨fun h'' => h'.1 (by rw [h'']), h'.2⟩]

theorem getDistances_unit {pos q : V3} (vec : V3) (h : allClose pos q ↔ allClose (c • pos) (c • q)) :
    getDistances (c • pos) vec (c • q)
      = ⟨c * (getDistances pos vec q).d, c * (getDistances pos vec q).p, c * (getDistances pos vec q).n⟩ := by
  unfold getDistances
  by_cases hcl : allClose pos q
  · rw [if_pos hcl, if_pos (h.1 hcl)]; simp
  · rw [if_neg hcl, if_neg fun h' => hcl (h.2 h')]
    simp only [smul_sub_unit hc, V3.norm_smul, abs_of_pos hc, V3.dot_smul_left, gt_iff_lt, mul_lt_mul_iff_right₀ hc]
    have hp : (if V3.norm (q - pos) < V3.dot (q - pos) vec then c * V3.norm (q - pos)
        else c * V3.dot (q - pos) vec)
        = c * if V3.norm (q - pos) < V3.dot (q - pos) vec then V3.norm (q - pos)
          else V3.dot (q - pos) vec := by split_ifs <;> rfl
    rw [hp]
    congr 1
    rw [mul_pow, mul_pow, ← mul_sub, sqrt_mul (sq_nonneg c), sqrt_sq hc.le]

theorem getVecTarget_scaled (pos vec q : V3) (t dc f : ℝ) :
    getVecTarget (c • pos) vec (c • q) (c * t) (c * dc) f = getVecTarget pos vec q t dc f := by
  unfold getVecTarget
  simp only [mul_eq_zero, hc.ne', false_or]
  split_ifs
  · rfl
  · congr 1
    rw [show c * dc * f / 2 + c * t = c * (dc * f / 2 + t) by ring]
    rw [show c • q - c • pos - (c * dc * f / 2) • vec = c • (q - pos - (dc * f / 2) • vec) by
      ext <;> simp <;> ring]
    ext <;> simp <;> field_simp

theorem curveHold_unit (r : ℝ) (x : Dist) (pos vec q : V3) :
    curveHold (c * r) ⟨c * x.d, c * x.p, c * x.n⟩ (c • pos) vec (c • q)
      = (curveHold r x pos vec q).map (holdUnit c) := by
  have hq : (c * x.d) ^ 2 - 2 * (c * r) * (c * x.n) = c ^ 2 * (x.d ^ 2 - 2 * r * x.n) := by ring
  have hs : √(c ^ 2 * (x.d ^ 2 - 2 * r * x.n)) = c * √(x.d ^ 2 - 2 * r * x.n) := by
    rw [sqrt_mul (sq_nonneg c), sqrt_sq hc.le]
  have hm : minDistToTarget (c * r) ⟨c * x.d, c * x.p, c * x.n⟩
      = (minDistToTarget r x).map fun y => (c * y.1, y.2) := by
    unfold minDistToTarget
    simp only [hq, hs, mul_neg_iff, pow_pos hc 2, true_and, not_lt.2 (sq_nonneg c), false_and, or_false]
    split_ifs
    · rfl
    · rw [Option.map_some, ← mul_sub, show 2 * (c * r) - c * x.n = c * (2 * r - x.n) by ring, atan2_unit hc]
  unfold curveHold
  rw [hm]
  cases minDistToTarget r x with
  | none => rfl
  | some y =>
    obtain ⟨t, dl⟩ := y
    simp only [Option.map_some, getCurveHoldData, mul_assoc, getVecTarget_scaled hc, Option.some.injEq, holdUnit]
    congr 1
    · ext <;> simp <;> ring
    · rw [abs_mul, abs_of_pos hc]; ring

theorem curveOnly_unit (r : Ext) (x : Dist) (pos vec q : V3) :
    curveOnly (extUnit c r) ⟨c * x.d, c * x.p, c * x.n⟩ (c • pos) vec (c • q)
      = (curveOnly r x pos vec q).map (holdUnit c) := by
  have hrc : (c * x.d) ^ 2 / (2 * (c * x.n)) = c * (x.d ^ 2 / (2 * x.n)) := by
    by_cases h0 : x.n = 0
    · simp [h0]
    · field_simp
  have hm : minCurveToTarget ⟨c * x.d, c * x.p, c * x.n⟩
      = (minCurveToTarget x).map fun y => (c * y.1, extUnit c y.2.1, y.2.2) := by
    unfold minCurveToTarget
    simp only [mul_eq_zero, hc.ne', false_or, hrc, mul_pos_iff_of_pos_left hc, atan2_unit hc]
    split_ifs
    · simp [extUnit]
    · simp [extUnit]
    · simp [extUnit]
    · rfl
  have hmin : ∀ a b : Ext, Ext.min (extUnit c a) (extUnit c b) = extUnit c (Ext.min a b) := by
    intro a b
    cases a <;> cases b <;> simp only [Ext.min, extUnit]
    rw [← mul_min_of_nonneg _ _ hc.le]
  unfold curveOnly
  rw [hm]
  cases minCurveToTarget x with
  | none => rfl
  | some y =>
    obtain ⟨t, rc, dl⟩ := y
    simp only [Option.map_some, hmin]
    cases Ext.min r rc with
    | inf => rfl
    | val r' =>
      simp only [extUnit, getCurveHoldData, mul_assoc, getVecTarget_scaled hc, Option.map_some, holdUnit, mul_add]

/-- **C382**, the part that holds: in another unit of length the connection to a position is the same
connection, as long as `np.allclose` says the same of start and target in both units and the random offset of a
target straight ahead is converted too. -/
theorem C382_converted_partial (radius : Ext) (e : ℝ) (z pos1 vec1 posT : V3)
    (h : allClose pos1 (modTarget z pos1 vec1 posT) ↔
      allClose (c • pos1) (c • modTarget z pos1 vec1 posT)) :
    connectPos (extUnit c radius) e (c • z) (c • pos1) vec1 (c • posT)
      = (connectPos radius e z pos1 vec1 posT).map (resultUnit c) := by
  unfold connectPos
  simp only [modTarget_unit hc, getDistances_unit hc vec1 h]
  generalize getDistances pos1 vec1 (modTarget z pos1 vec1 posT) = x
  generalize modTarget z pos1 vec1 posT = q
  have hrc : getRadiusCritical ⟨c * x.d, c * x.p, c * x.n⟩ e = (getRadiusCritical x e).map (c * ·) := by
    have : (c * x.d) ^ 2 / (2 * (c * x.n)) * (1 - e) = c * (x.d ^ 2 / (2 * x.n) * (1 - e)) := by
      by_cases h0 : x.n = 0
      · simp [h0]
      · field_simp
    unfold getRadiusCritical
    simp only [mul_eq_zero, hc.ne', false_or, this, mul_pos_iff_of_pos_left hc]
    split_ifs <;> simp
  rw [hrc]
  cases getRadiusCritical x e with
  | none => rfl
  | some rc =>
    simp only [Option.map_some]
    cases radius with
    | inf =>
      have := curveOnly_unit hc .inf x pos1 vec1 q
      simp only [extUnit] at this ⊢
      rw [this, Option.map_map, Option.map_map]; rfl
    | val r =>
      have h1 := curveOnly_unit hc (.val r) x pos1 vec1 q
      have h2 := curveHold_unit hc r x pos1 vec1 q
      simp only [extUnit, mul_le_mul_iff_right₀ hc] at h1 ⊢
      split_ifs
      · rw [h2, Option.map_map, Option.map_map]; rfl
      · rw [h1, Option.map_map, Option.map_map]; rfl

/-- C382 is false of targets straight ahead, which are moved by a random offset of up to one unit, whatever the
unit: with the same draw the connections in the two units end at different points. -/
theorem C382_straight_ahead {radius radius' : Ext} {e : ℝ} {z pos1 vec1 posT : V3}
    (ha : posT ≠ pos1 ∧ vec1 = normalize (posT - pos1)) (hz : z ≠ 0) (h1 : c ≠ 1)
    {r r' : V3 × Used × CurveHold} (hr : connectPos radius e z pos1 vec1 posT = some r)
    (hr' : connectPos radius' e z (c • pos1) vec1 (c • posT) = some r') : r'.1 ≠ c • r.1 := by
  have fst : ∀ {R : Ext} {p t : V3} {s : V3 × Used × CurveHold}, connectPos R e z p vec1 t = some s →
      s.1 = modTarget z p vec1 t := by
    intro R p t s hs
    unfold connectPos at hs
    simp only at hs
    generalize modTarget z p vec1 t = q at hs ⊢
    split at hs
    · simp at hs
    · split at hs
      · split_ifs at hs <;>
        · obtain ⟨o, -, rfl⟩ := Option.map_eq_some_iff.1 hs
          rfl
      · obtain ⟨o, -, rfl⟩ := Option.map_eq_some_iff.1 hs
        rfl
  rw [fst hr, fst hr', modTarget, modTarget, if_pos ha, if_pos
    ⟨fun h => ha.1 ((smul_inj_unit hc).1 h), by rw [smul_sub_unit hc, normalize_scaled hc]; exact ha.2⟩]
  intro h
  apply hz
  have key : ∀ a b : ℝ, c * a + b = c * (a + b) → b = 0 := by
    intro a b hab
    have : (c - 1) * b = 0 := by linarith
    rcases mul_eq_zero.1 this with h' | h'
    · exact absurd (sub_eq_zero.1 h') h1
    · exact h'
  have hx := congrArg V3.x h
  have hy := congrArg V3.y h
  have hz := congrArg V3.z h
  simp only [V3.add_x, V3.add_y, V3.add_z, V3.smul_x, V3.smul_y, V3.smul_z] at hx hy hz
  exact V3.ext (key _ _ hx) (key _ _ hy) (key _ _ hz)

end

/-- A target straight ahead counts as the one it is moved to. -/
theorem connectPos_ahead {radius : Ext} {e : ℝ} {z pos1 vec1 posT : V3}
    (ha : posT ≠ pos1 ∧ vec1 = normalize (posT - pos1))
    (hn : ¬ (posT + z ≠ pos1 ∧ vec1 = normalize (posT + z - pos1))) :
    connectPos radius e z pos1 vec1 posT = connectPos radius e z pos1 vec1 (posT + z) := by
  have h : modTarget z pos1 vec1 posT = modTarget z pos1 vec1 (posT + z) := by
    rw [modTarget, modTarget, if_pos ha, if_neg hn]
  unfold connectPos
  rw [h]

/-- Non-vacuity: a target 100 m straight ahead, moved by half a unit, in two units. -/
example : ∃ r r', connectPos (.val 10) 1e-5 ⟨0.5, 0, 0⟩ 0 ⟨0, 0, 1⟩ ⟨0, 0, 100⟩ = some r ∧
    connectPos (.val 20) 1e-5 ⟨0.5, 0, 0⟩ ((2 : ℝ) • 0) ⟨0, 0, 1⟩ ((2 : ℝ) • ⟨0, 0, 100⟩) = some r' ∧
    r'.1 ≠ (2 : ℝ) • r.1 := by
  have run : ∀ L R : ℝ, 100 ≤ L → 1 ≤ R → R ≤ 20 → ∃ r,
      connectPos (.val R) 1e-5 ⟨0.5, 0, 0⟩ 0 ⟨0, 0, 1⟩ ⟨0, 0, L⟩ = some r ∧
      ((⟨0, 0, L⟩ : V3) ≠ 0 ∧ (⟨0, 0, 1⟩ : V3) = normalize (⟨0, 0, L⟩ - 0)) := by
    intro L R hL hR hR'
    have hn : V3.norm (⟨0, 0, L⟩ : V3) = L := by
      simp [V3.norm, V3.dot, sqrt_mul_self (show (0 : ℝ) ≤ L by linarith)]
    have ha : (⟨0, 0, L⟩ : V3) ≠ 0 ∧ (⟨0, 0, 1⟩ : V3) = normalize (⟨0, 0, L⟩ - 0) := by
      refine ⟨fun h => ?_, ?_⟩
      · have := congrArg V3.z h
        simp at this; linarith
      · rw [sub_zero, normalize, hn]
        ext <;> simp
        rw [inv_mul_cancel₀ (by linarith)]
    have hd : V3.norm ((⟨0.5, 0, L⟩ : V3) - 0) ^ 2 = 0.25 + L ^ 2 := by
      rw [V3.norm_sq]; simp [V3.dot]; norm_num; ring
    have hs : (⟨0, 0, L⟩ : V3) + ⟨0.5, 0, 0⟩ = ⟨0.5, 0, L⟩ := by ext <;> simp
    obtain ⟨o, h1, -⟩ := C74_design_radius_partial (pos1 := 0) (vec1 := ⟨0, 0, 1⟩) (u := ⟨1, 0, 0⟩)
      (posT := ⟨0.5, 0, L⟩) (noise := ⟨0.5, 0, 0⟩) (a := L) (b := 0.5) (R := R) (e := 1e-5)
      (by simp [V3.IsUnit, V3.dot]) (by simp [V3.IsUnit, V3.dot]) (by simp [V3.dot]) (by linarith) (by norm_num) (by intro h; linarith)
      (by ext <;> simp) (by
        rintro ⟨h, -, -⟩
        unfold isClose at h
        norm_num at h) (by norm_num) (by norm_num) (by rw [hd]; nlinarith)
    refine ⟨(⟨0.5, 0, L⟩, .minDist, o), ?_, ha⟩
    rw [connectPos_ahead ha, hs]
    · exact h1
    · rintro ⟨-, h⟩
      have := congrArg V3.x h
      rw [hs, normalize, sub_zero] at this
      simp only [V3.smul_x] at this
      have hp : 0 < V3.norm (⟨0.5, 0, L⟩ : V3) := by
        have h0 : V3.norm ((⟨0.5, 0, L⟩ : V3) - 0) ^ 2 ≠ 0 := by rw [hd]; positivity
        rw [sub_zero] at h0
        exact lt_of_le_of_ne (V3.norm_nonneg _) fun h' => h0 (by rw [← h']; norm_num)
      have : 0 < 1 / V3.norm (⟨0.5, 0, L⟩ : V3) * 0.5 := by positivity
      linarith
  obtain ⟨r, h1, h2⟩ := run 100 10 (by norm_num) (by norm_num) (by norm_num)
  obtain ⟨r', h3, -⟩ := run 200 20 (by norm_num) (by norm_num) (by norm_num)
  have e0 : (2 : ℝ) • (0 : V3) = 0 := by ext <;> simp
  have e1 : (2 : ℝ) • (⟨0, 0, 100⟩ : V3) = ⟨0, 0, 200⟩ := by ext <;> simp <;> norm_num
  have h3' : connectPos (.val 20) 1e-5 ⟨0.5, 0, 0⟩ ((2 : ℝ) • 0) ⟨0, 0, 1⟩ ((2 : ℝ) • ⟨0, 0, 100⟩) = some r' := by
    rw [e0, e1]; exact h3
  refine ⟨r, r', h1, h3', C382_straight_ahead (c := 2) (by norm_num) h2 (fun h => ?_) (by norm_num) h1 h3'⟩
  have := congrArg V3.x h
  norm_num at this

end Welleng.Props
