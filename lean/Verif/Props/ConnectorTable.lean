import Verif.Props.ConnectorCurve

/-!
C37, C38, C77: the choice of the construction method and the depth bookkeeping.
-/

namespace Welleng.Props

open Real Spec Con

/-! ### C37 -/

/-- What may be asked for, in words: something is given; a vector is not combined with angles;
a depth is not combined with a position, and a given depth is not above the start. -/
def TargetOk (md inc azi pos vec mdOk : Bool) : Prop :=
  (md ∨ inc ∨ azi ∨ pos ∨ vec) ∧ ¬ (vec ∧ (inc ∨ azi)) ∧ ¬ (md ∧ pos) ∧ (md → mdOk)

instance (md inc azi pos vec mdOk : Bool) : Decidable (TargetOk md inc azi pos vec mdOk) := by
  unfold TargetOk; infer_instance

/-- C37: of all combinations of inputs exactly the permitted ones get a method; all others are
rejected. -/
theorem C37_accepted_iff : ∀ md inc azi pos vec incNz aziNz mdOk force same towards : Bool,
    (chooseMethod ⟨md, inc, azi, pos, vec⟩ incNz aziNz mdOk force ⟨same, towards⟩).isSome
      ↔ TargetOk md inc azi pos vec mdOk := by
  decide +kernel

/-- C37: over-specified targets are rejected. -/
theorem C37_overspecified_rejected {g : Given} {incNz aziNz mdOk force : Bool} {a : Alignment}
    (h : (g.vec ∧ (g.inc ∨ g.azi)) ∨ (g.md ∧ g.pos)) :
    chooseMethod g incNz aziNz mdOk force a = none := by
  obtain ⟨md, inc, azi, pos, vec⟩ := g
  obtain ⟨same, towards⟩ := a
  have := (C37_accepted_iff md inc azi pos vec incNz aziNz mdOk force same towards).not
  unfold TargetOk at this
  rw [← Option.not_isSome_iff_eq_none, this]
  simp only at h
  tauto

/-- When a hold is expected: only a depth is given, or the target direction is the start
direction and the target position (if any) lies that way.  An azimuth with a position but no
inclination never gives a hold. -/
def holdExpected (md inc azi pos vec same towards : Bool) : Bool :=
  (md && !inc && !azi && !vec) || (same && (!pos || towards) && !(azi && pos && !inc))

/-- A full target direction is given. -/
def fullDirection (inc azi vec : Bool) : Bool := vec || (inc && azi)

/-- C37: the method chosen for a permitted target.  Without a position: a hold or a single
curve.  With a position and a full direction: a hold or curve-hold-curve.  With a position and
no full direction: a hold or curve-hold. -/
theorem C37_method : ∀ md inc azi pos vec incNz aziNz mdOk same towards : Bool,
    TargetOk md inc azi pos vec mdOk →
    chooseMethod ⟨md, inc, azi, pos, vec⟩ incNz aziNz mdOk false ⟨same, towards⟩ = some
      (if holdExpected md inc azi pos vec same towards then .hold
       else if !pos then .minCurve
       else if fullDirection inc azi vec then .curveHoldCurve
       else .curveHold) := by
  decide +kernel

example : chooseMethod ⟨false, false, false, true, true⟩ false false true false ⟨false, false⟩
    = some .curveHoldCurve := by decide

example : chooseMethod ⟨true, false, false, true, false⟩ false false true false ⟨false, false⟩
    = none := by decide

/-! ### C77 -/

/-- A position together with an azimuth (and no inclination) always is the curve-hold
construction, whose result does not depend on the azimuth. -/
theorem C77_azimuth_and_position : ∀ aziNz mdOk same towards : Bool,
    chooseMethod ⟨false, false, true, true, false⟩ false aziNz mdOk false ⟨same, towards⟩
      = some .curveHold := by
  decide

/-- C77 is false: from a vertical start with a large design radius to the target `(4, 0, 3)`
the connector ends in the north-vertical plane and running north, whatever azimuth (say 90°)
was requested. -/
theorem C77_azimuth_not_honoured : ∃ o,
    connectPos (.val 10) 1e-5 0 0 ⟨0, 0, 1⟩ ⟨4, 0, 3⟩ = some (⟨4, 0, 3⟩, .minCurve, o) ∧
    o.vecTarget = ⟨24 / 25, 0, -7 / 25⟩ ∧
    ∀ inc, o.vecTarget ≠ tangent inc (π / 2) := by
  have hv : V3.IsUnit ⟨0, 0, 1⟩ := by simp [V3.IsUnit, V3.dot]
  have hu : V3.IsUnit ⟨1, 0, 0⟩ := by simp [V3.IsUnit, V3.dot]
  have ho : V3.dot ⟨0, 0, 1⟩ ⟨1, 0, 0⟩ = 0 := by simp [V3.dot]
  obtain ⟨h, hne, hn⟩ := witness_geometry
  obtain ⟨h1, -⟩ := dist_components hv hu ho h
  have h34 : (3 : ℝ) ≠ 0 ∨ (4 : ℝ) ≠ 0 := Or.inl (by norm_num)
  have hcd : cos (2 * atan2 4 3) = -7 / 25 := by rw [cos_two_atan2 h34]; norm_num
  have hsd : sin (2 * atan2 4 3) = 24 / 25 := by rw [sin_two_atan2 h34]; norm_num
  obtain ⟨r0, r1, r2, -⟩ := curveOnly_arc hv hu ho (by norm_num) (by norm_num) h rfl
  rw [hn] at r0
  have hch : checkDogleg (2 * atan2 4 3) = 2 * atan2 4 3 := by
    unfold checkDogleg; rw [if_neg (not_lt.mpr r1.le)]
  have hhalf : 2 * atan2 4 3 / 2 = atan2 4 3 := by ring
  have h5 : √((3 : ℝ) ^ 2 + 4 ^ 2) = 5 := by
    rw [show (3 : ℝ) ^ 2 + 4 ^ 2 = 5 ^ 2 by norm_num]; exact sqrt_sq (by norm_num)
  have hc2 : cos (atan2 4 3) = 3 / 5 := by rw [cos_atan2 h34, h5]
  have hs2 : sin (atan2 4 3) = 4 / 5 := by rw [sin_atan2, h5]
  have hvec := getVecTarget_eq (R := 25 / 8) (d := 2 * atan2 4 3) (T := 0) (pos1 := 0)
    (v := ⟨0, 0, 1⟩) (u := ⟨1, 0, 0⟩) (posT := ⟨4, 0, 3⟩) (by norm_num) r1.ne'
    (by rw [hhalf, hc2]; norm_num) hv hu ho
    (by rw [hhalf, tan_eq_sin_div_cos, hc2, hs2]; norm_num)
    (by rw [hcd, hsd]; ext <;> simp <;> norm_num)
  have hvv : cos (2 * atan2 4 3) • (⟨0, 0, 1⟩ : V3) + sin (2 * atan2 4 3) • ⟨1, 0, 0⟩
      = ⟨24 / 25, 0, -7 / 25⟩ := by
    rw [hcd, hsd]; ext <;> simp
  refine ⟨⟨⟨4, 0, 3⟩, ⟨24 / 25, 0, -7 / 25⟩, 0, 2 * atan2 4 3, 25 / 8 * (2 * atan2 4 3),
    25 / 8 * (2 * atan2 4 3) + 0⟩, ?_, rfl, ?_⟩
  · unfold connectPos
    simp only [not_ahead hu ho (by norm_num) h 0,
      getDistances_eq hv hu ho (by norm_num) h hne, getRadiusCritical]
    rw [if_neg (by norm_num), hn, if_pos (by norm_num)]
    simp only
    rw [if_neg (by norm_num)]
    unfold curveOnly minCurveToTarget
    simp only
    rw [if_neg (by norm_num), if_neg (by norm_num), hn, if_pos (by norm_num)]
    have hmin : Ext.min (.val 10) (.val (25 / 8)) = .val (25 / 8) := by
      show Ext.val (min 10 (25 / 8)) = _
      rw [min_eq_right (by norm_num)]
    simp only [hmin, hch, getCurveHoldData, hvec, hvv, Option.map_some]
  · intro inc hc
    have := congrArg V3.x hc
    simp [tangent] at this

/-- C77, what holds: with a position and a full direction the method is one that uses both (or a
hold along the common direction). -/
theorem C77_full_direction_partial : ∀ inc azi vec incNz aziNz mdOk same towards : Bool, ∀ m,
    (vec = true ∨ (inc = true ∧ azi = true)) →
    chooseMethod ⟨false, inc, azi, true, vec⟩ incNz aziNz mdOk false ⟨same, towards⟩ = some m →
    m = .curveHoldCurve ∨ (m = .hold ∧ same = true ∧ towards = true) := by
  intro inc azi vec incNz aziNz mdOk same towards m
  revert inc azi vec incNz aziNz mdOk same towards
  cases m <;> decide +kernel

/-! ### C38 -/

/-- The reported depths, in order. -/
def Depths.list (d : Depths) : List ℝ := d.md1 :: (d.md2.toList ++ (d.md3.toList ++ [d.mdTarget]))

/-- C38: hold. -/
theorem C38_hold {md1 dist : ℝ} {mdGiven : Option ℝ} (hd : 0 ≤ dist)
    (hm : ∀ m, mdGiven = some m → md1 ≤ m) :
    (Depths.list (holdMd md1 mdGiven dist)).IsChain (· ≤ ·) ∧
    (mdGiven = none → (holdMd md1 mdGiven dist).mdTarget = md1 + dist) := by
  cases mdGiven with
  | none => constructor <;> simp [holdMd, Depths.list, hd, add_comm]
  | some m => constructor <;> simp [holdMd, Depths.list, hm m rfl]

/-- C38: curve and hold to a position. -/
theorem C38_curve_hold {md1 distCurve tangent : ℝ} (hd : 0 ≤ distCurve) (ht : 0 ≤ tangent) :
    (Depths.list (minDistMd md1 distCurve tangent)).IsChain (· ≤ ·) ∧
    (minDistMd md1 distCurve tangent).md2 = some (md1 + distCurve) ∧
    (minDistMd md1 distCurve tangent).mdTarget = md1 + distCurve + tangent := by
  simp [minDistMd, Depths.list, ht, abs_of_nonneg hd, hd]

/-- C38: single curve to a position. -/
theorem C38_curve_to_position {md1 distCurve : ℝ} (hd : 0 ≤ distCurve) :
    (Depths.list (minCurveToTargetMd md1 distCurve 0)).IsChain (· ≤ ·) ∧
    (minCurveToTargetMd md1 distCurve 0).mdTarget = md1 + distCurve := by
  simp [minCurveToTargetMd, Depths.list, hd, add_comm]

/-- C38: curve to a direction, without a depth or with a depth at or below the start: the
depths are ordered, the curve has the length `c` and ends at the reported end of the curve. -/
theorem C38_curve_to_direction {md1 dogleg c : ℝ} {mdGiven : Option ℝ} {radius : Ext}
    {nearPi : Prop} {d : Depths} (hdl : 0 < dogleg)
    (hm : ∀ m, mdGiven = some m → md1 ≤ m) (hr : ∀ r, radius = .val r → 0 < r)
    (h : minCurveMd md1 mdGiven radius dogleg nearPi = some (d, c)) :
    (Depths.list d).IsChain (· ≤ ·) ∧ d.md1 = md1 ∧ 0 ≤ c ∧
    d.md2.getD d.mdTarget = md1 + c ∧ (∀ m, mdGiven = some m → d.mdTarget = m) := by
  unfold minCurveMd at h
  cases mdGiven with
  | none =>
    cases radius with
    | inf => simp at h
    | val r =>
      simp only [Option.some.injEq, Prod.mk.injEq] at h
      obtain ⟨rfl, rfl⟩ := h
      have hp : 0 < r * dogleg := mul_pos (hr r rfl) hdl
      simp [Depths.list, abs_of_pos hp, hp.le]
  | some mdT =>
    have hge := hm mdT rfl
    have hrc : radiusOfMd md1 mdT dogleg = .val ((mdT - md1) / dogleg) := by
      unfold radiusOfMd
      rw [if_neg hdl.ne', abs_of_nonneg (div_nonneg (by linarith) hdl.le)]
    have hmul : (mdT - md1) / dogleg * dogleg = mdT - md1 := div_mul_cancel₀ _ hdl.ne'
    have hnn : 0 ≤ (mdT - md1) / dogleg := div_nonneg (by linarith) hdl.le
    simp only [hrc] at h
    split_ifs at h with hcond
    · cases radius with
      | inf =>
        simp only [Ext.min, Option.some.injEq, Prod.mk.injEq] at h
        obtain ⟨rfl, rfl⟩ := h
        simp [Depths.list, hmul, hge]
      | val r =>
        simp only [Ext.min, Option.some.injEq, Prod.mk.injEq] at h
        obtain ⟨rfl, rfl⟩ := h
        have h1 : min r ((mdT - md1) / dogleg) * dogleg ≤ mdT - md1 := by
          calc _ ≤ (mdT - md1) / dogleg * dogleg :=
                mul_le_mul_of_nonneg_right (min_le_right _ _) hdl.le
            _ = _ := hmul
        have h2 : 0 ≤ min r ((mdT - md1) / dogleg) * dogleg :=
          mul_nonneg (le_min (hr r rfl).le hnn) hdl.le
        simp [Depths.list, h2]
        linarith
    · simp only [Option.some.injEq, Prod.mk.injEq] at h
      obtain ⟨rfl, rfl⟩ := h
      simp [Depths.list, hmul, hge]

/-- C38: curve to a direction without a depth: the depths are ordered whatever the sign of the
radius and of the turn. -/
theorem C38_curve_to_direction_any_sign {md1 r dogleg c : ℝ} {nearPi : Prop} {d : Depths}
    (h : minCurveMd md1 none (.val r) dogleg nearPi = some (d, c)) :
    (Depths.list d).IsChain (· ≤ ·) ∧ d.mdTarget = md1 + |r| * |dogleg| := by
  simp only [minCurveMd, Option.some.injEq, Prod.mk.injEq] at h
  obtain ⟨rfl, rfl⟩ := h
  simp [Depths.list, abs_mul, mul_nonneg]

example : ∃ d c, minCurveMd 1000 none (.val (-573)) 0.5 False = some (d, c) := ⟨_, _, rfl⟩

/-- C38: curve-hold-curve, whatever the solver found. -/
theorem C38_curve_hold_curve (md1 distCurve t distCurve2 : ℝ) :
    (Depths.list (happyFinishMd md1 distCurve t distCurve2)).IsChain (· ≤ ·) ∧
    (happyFinishMd md1 distCurve t distCurve2).mdTarget
      = md1 + |distCurve| + max 0 t + |distCurve2| := by
  simp [happyFinishMd, Depths.list]

/-- C38 applied to the geometry: the curve-hold solution of the connector reports the start
depth plus arc length plus straight length. -/
theorem C38_curve_hold_geometry {pos1 vec1 u posT : V3} {a b R md1 : ℝ}
    (hv : vec1.IsUnit) (hu : u.IsUnit) (ho : V3.dot vec1 u = 0) (hR : 0 < R) (hb : 0 < b)
    (hb2 : b ≠ 2 * R) (h : posT = pos1 + a • vec1 + b • u)
    (hq : 0 ≤ a ^ 2 + b ^ 2 - 2 * R * b) :
    ∃ o, curveHold R ⟨V3.norm (posT - pos1), a, b⟩ pos1 vec1 posT = some o ∧
      (minDistMd md1 o.distCurve o.tangent).mdTarget = md1 + o.md ∧
      (Depths.list (minDistMd md1 o.distCurve o.tangent)).IsChain (· ≤ ·) := by
  obtain ⟨o, h1, -, h3, h4, -, h5, h6⟩ := curveHold_reaches hv hu ho hR hb hb2 h hq
  have hd : 0 ≤ o.distCurve := by rw [h5]; positivity
  obtain ⟨c1, -, c3⟩ := C38_curve_hold (md1 := md1) hd h3.1
  exact ⟨o, h1, by rw [c3, h6]; ring, c1⟩

example : ∃ d c, minCurveMd 1000 (some 1500) (.val 573) 0.5 False = some (d, c) ∧
    d.md2 = some (1000 + 573 * 0.5) := by
  refine ⟨⟨1000, some (1000 + 573 * 0.5), none, 1500⟩, 573 * 0.5, ?_, rfl⟩
  unfold minCurveMd radiusOfMd
  simp only
  rw [if_neg (by norm_num : (0.5 : ℝ) ≠ 0), show |((1500 : ℝ) - 1000) / 0.5| = 1000 by norm_num]
  rw [if_pos (Or.inl (show Ext.gt (.val 1000) (.val 573) from (by norm_num : (1000 : ℝ) > 573)))]
  show some (_, _) = _
  rw [show min (573 : ℝ) 1000 = 573 by norm_num]

end Welleng.Props
