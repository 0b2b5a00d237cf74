import Verif.Props.Connector

/-!
C36, C74: the single-curve solution, and the connector to a target position.
-/

namespace Welleng.Props

open Real Spec Con

/-- A circular curve leaving `pos1`: displacement after the length `L`. -/
theorem circular_disp {γ τ ν : ℝ → V3} {R : ℝ} (hR : 0 < R)
    (h : CircularCurve γ τ ν (1 / R)) (L : ℝ) :
    γ L - γ 0 = (R * sin (L / R)) • τ 0 + (R * (1 - cos (L / R))) • ν 0 := by
  have hs := h.shift 0
  have := hs.pos_eq (one_div_ne_zero hR.ne') (by simp) L
  simp only [zero_add] at this
  rw [this, show 1 / R * L = L / R by ring]
  ext <;> simp <;> field_simp

theorem offaxis_eq {v u w : V3} {a b x y : ℝ} (hu : u.IsUnit) (hw : w.IsUnit)
    (hvu : V3.dot v u = 0) (hvw : V3.dot v w = 0) (hv : v.IsUnit)
    (h : a • v + b • u = x • v + y • w) : a = x ∧ b ^ 2 = y ^ 2 := by
  have h1 := congrArg (fun z => V3.dot v z) h
  simp only [V3.dot_add_right, V3.dot_smul_right, hvu, hvw] at h1
  rw [hv] at h1
  have ha : a = x := by linarith
  subst ha
  refine ⟨rfl, ?_⟩
  have h2 : b • u = y • w := by simpa using h
  have h3 := congrArg (fun z => V3.dot z z) h2
  simp only [V3.dot_smul_left, V3.dot_smul_right] at h3
  rw [hu, hw] at h3
  linarith

/-- The radius of any single arc from `pos1` along `vec1` to the target is `D² / 2b`. -/
theorem arc_radius_unique {pos1 vec1 u posT v : V3} {a b R L : ℝ} (hv : vec1.IsUnit)
    (hu : u.IsUnit) (ho : V3.dot vec1 u = 0) (hR : 0 < R) (hb : 0 < b)
    (h : posT = pos1 + a • vec1 + b • u) (harc : ArcTo R L pos1 vec1 posT v) :
    R = V3.norm (posT - pos1) ^ 2 / (2 * b) := by
  obtain ⟨h1, -⟩ := dist_components hv hu ho h
  obtain ⟨γ, τ, ν, hc, g0, t0, gL, -⟩ := harc
  have hd := circular_disp hR hc L
  have hvn : V3.dot vec1 (ν 0) = 0 := by rw [← t0]; exact hc.ortho 0
  rw [gL, g0, t0] at hd
  have hdel : posT - pos1 = a • vec1 + b • u := by rw [h]; abel
  rw [hdel] at hd
  obtain ⟨e1, e2⟩ := offaxis_eq hu (hc.unit_nor 0) ho hvn hv hd
  have hcos := cos_le_one (L / R)
  have e3 : b = R * (1 - cos (L / R)) := by
    have := abs_eq_abs.mpr ((sq_eq_sq_iff_eq_or_eq_neg).mp e2)
    rwa [abs_of_pos hb, abs_of_nonneg (mul_nonneg hR.le (by linarith))] at this
  rw [h1, eq_div_iff (by positivity)]
  have := sin_sq_add_cos_sq (L / R)
  calc R * (2 * b) = 2 * R ^ 2 * (1 - cos (L / R)) := by rw [e3]; ring
    _ = a ^ 2 + b ^ 2 := by rw [e1, e3]; linear_combination (-(R ^ 2)) * this

/-- The single curve on a target off the start tangent: an arc of radius `D² / 2b` and length
`(D² / 2b) · dogleg` ends at the target. -/
theorem curveOnly_arc {pos1 vec1 u posT : V3} {a b R : ℝ} (hv : vec1.IsUnit)
    (hu : u.IsUnit) (ho : V3.dot vec1 u = 0) (hb : 0 < b) (ha : a ≠ 0)
    (h : posT = pos1 + a • vec1 + b • u) (hR : R = V3.norm (posT - pos1) ^ 2 / (2 * b)) :
    0 < R ∧ 0 < 2 * atan2 b a ∧ 2 * atan2 b a < 2 * π ∧
    ArcTo R (R * (2 * atan2 b a)) pos1 vec1 posT
      (getVecTarget pos1 vec1 posT 0 (R * (2 * atan2 b a)) (getRf (2 * atan2 b a))) := by
  obtain ⟨h1, -⟩ := dist_components hv hu ho h
  have hD : 0 < a ^ 2 + b ^ 2 := by positivity
  have hRp : 0 < R := by rw [hR, h1]; positivity
  set d := 2 * atan2 b a with hd
  have hcd : cos d = (a ^ 2 - b ^ 2) / (a ^ 2 + b ^ 2) := cos_two_atan2 (Or.inl ha)
  have hsd : sin d = 2 * a * b / (a ^ 2 + b ^ 2) := sin_two_atan2 (Or.inl ha)
  have hsin : 0 < sin (atan2 b a) := by
    rw [sin_atan2]; exact div_pos hb (sqrt_pos.mpr hD)
  have hmem := atan2_mem b a
  have hpos : 0 < atan2 b a := by
    by_contra hn
    have := sin_nonpos_of_nonpos_of_neg_pi_le (not_lt.mp hn) hmem.1.le
    linarith
  have hlt : atan2 b a < π := by
    refine lt_of_le_of_ne hmem.2 fun hc => ?_
    rw [hc, sin_pi] at hsin
    exact lt_irrefl _ hsin
  have hhalf : d / 2 = atan2 b a := by rw [hd]; ring
  have hch : cos (d / 2) ≠ 0 := by
    rw [hhalf, cos_atan2 (Or.inl ha)]
    exact div_ne_zero ha (sqrt_pos.mpr hD).ne'
  have e1 : a = R * sin d := by
    rw [hsd, hR, h1]; field_simp
  have e2 : b = R * (1 - cos d) := by
    rw [hcd, hR, h1]; field_simp; ring
  have hden : R * tan (d / 2) + 0 ≠ 0 := by
    rw [add_zero, tan_eq_sin_div_cos, hhalf]
    rw [hhalf] at hch
    exact mul_ne_zero hRp.ne' (div_ne_zero hsin.ne' hch)
  have hdelta : posT - pos1 = (R * sin d + 0 * cos d) • vec1
      + (R * (1 - cos d) + 0 * sin d) • u := by
    rw [zero_mul, zero_mul, add_zero, add_zero, ← e1, ← e2, h]; abel
  have hvec := getVecTarget_eq (pos1 := pos1) (posT := posT) hRp
    (by rw [hd]; positivity) hch hv hu ho hden hdelta
  refine ⟨hRp, by rw [hd]; positivity, by rw [hd]; linarith, ?_⟩
  rw [hvec]
  have hc := arc_circular (one_div_ne_zero hRp.ne') hv hu ho
  obtain ⟨p1, p2⟩ := arc_split hRp.ne' vec1 u d
  refine ⟨fun s => pos1 + arcPos (1 / R) vec1 u s, arcTan (1 / R) vec1 u,
    arcNor (1 / R) vec1 u, ⟨fun s => ?_, hc.deriv_tan, hc.deriv_nor, hc.unit_tan, hc.unit_nor,
      hc.ortho⟩, ?_, ?_, ?_, p2⟩
  · have hk : HasDeriv (fun _ : ℝ => pos1) 0 s :=
      ⟨hasDerivAt_const _ _, hasDerivAt_const _ _, hasDerivAt_const _ _⟩
    exact (hk.add (hc.deriv_pos s)).congr (zero_add _)
  · ext <;> simp [arcPos]
  · ext <;> simp [arcTan]
  · show pos1 + arcPos (1 / R) vec1 u (R * d) = _
    rw [p1, ← e1, ← e2, h, add_assoc]

/-- C36: for a target off the start tangent (`b > 0` to the side, not level with the start)
`min_curve_to_target` returns the radius and dogleg of a single arc that ends exactly at the
target. -/
theorem C36_single_curve_reaches_target {pos1 vec1 u posT : V3} {a b : ℝ} (hv : vec1.IsUnit)
    (hu : u.IsUnit) (ho : V3.dot vec1 u = 0) (hb : 0 < b) (ha : a ≠ 0)
    (h : posT = pos1 + a • vec1 + b • u) :
    ∃ R dogleg v, minCurveToTarget (distBatch pos1 vec1 posT) = some (0, .val R, dogleg) ∧
      0 < R ∧ 0 < dogleg ∧ dogleg < 2 * π ∧ ArcTo R (R * dogleg) pos1 vec1 posT v := by
  obtain ⟨h1, -⟩ := dist_components hv hu ho h
  obtain ⟨r0, r1, r2, r3⟩ := curveOnly_arc hv hu ho hb ha h rfl
  refine ⟨_, _, _, ?_, r0, r1, r2, r3⟩
  rw [distBatch_eq hv hu ho hb.le h]
  unfold minCurveToTarget
  simp only [hb.ne', and_false, if_false]
  rw [if_pos r0]

/-- C36: the returned radius is the only one with which a single arc reaches the target. -/
theorem C36_radius_unique {pos1 vec1 u posT v : V3} {a b R L : ℝ} (hv : vec1.IsUnit)
    (hu : u.IsUnit) (ho : V3.dot vec1 u = 0) (hR : 0 < R) (hb : 0 < b)
    (h : posT = pos1 + a • vec1 + b • u) (harc : ArcTo R L pos1 vec1 posT v) :
    ∃ dogleg, minCurveToTarget (distBatch pos1 vec1 posT) = some (0, .val R, dogleg) := by
  have e := arc_radius_unique hv hu ho hR hb h harc
  refine ⟨2 * atan2 b a, ?_⟩
  rw [distBatch_eq hv hu ho hb.le h]
  unfold minCurveToTarget
  simp only [hb.ne', and_false, if_false, ← e]
  rw [if_pos hR]

/-- C36: no larger radius can reach the target with a curve that turns towards it, even when a
straight may follow the curve. -/
theorem C36_radius_largest {γ τ ν : ℝ → V3} {pos1 vec1 u posT : V3} {a b R L T : ℝ}
    (hv : vec1.IsUnit) (hu : u.IsUnit) (ho : V3.dot vec1 u = 0) (hR : 0 < R) (hb : 0 < b)
    (h : posT = pos1 + a • vec1 + b • u) (hc : CircularCurve γ τ ν (1 / R)) (h0 : γ 0 = pos1)
    (ht : τ 0 = vec1) (hn : ν 0 = u) (hT : StraightTo T (γ L) (τ L) posT) :
    ∃ Rc dogleg, minCurveToTarget (distBatch pos1 vec1 posT) = some (0, .val Rc, dogleg) ∧
      R ≤ Rc := by
  obtain ⟨h1, -⟩ := dist_components hv hu ho h
  have hRc : 0 < V3.norm (posT - pos1) ^ 2 / (2 * b) := by rw [h1]; positivity
  refine ⟨V3.norm (posT - pos1) ^ 2 / (2 * b), 2 * atan2 b a, ?_, ?_⟩
  · rw [distBatch_eq hv hu ho hb.le h]
    unfold minCurveToTarget
    simp only [hb.ne', and_false, if_false]
    rw [if_pos hRc]
  · have hd := circular_disp hR hc L
    have htan := hc.tan_eq L
    rw [h0, ht, hn] at hd
    rw [ht, hn, show 1 / R * L = L / R by ring] at htan
    have hpos : a • vec1 + b • u = (R * sin (L / R) + T * cos (L / R)) • vec1
        + (R * (1 - cos (L / R)) + T * sin (L / R)) • u := by
      have e1 : posT - pos1 = a • vec1 + b • u := by rw [h]; abel
      have e2 : posT - pos1 = (γ L - pos1) + T • τ L := by rw [hT.2]; abel
      rw [← e1, e2, hd, htan]
      ext <;> simp <;> ring
    have e1 := congrArg (fun z => V3.dot vec1 z) hpos
    have e2 := congrArg (fun z => V3.dot u z) hpos
    simp only [V3.dot_add_right, V3.dot_smul_right, ho, V3.dot_comm u vec1] at e1 e2
    rw [hv] at e1
    rw [hu] at e2
    have hsc := sin_sq_add_cos_sq (L / R)
    rw [h1, le_div_iff₀ (by positivity)]
    have : a ^ 2 + b ^ 2 - R * (2 * b) = T ^ 2 := by
      have ea : a = R * sin (L / R) + T * cos (L / R) := by linarith
      have eb : b = R * (1 - cos (L / R)) + T * sin (L / R) := by linarith
      rw [ea, eb]
      linear_combination (R ^ 2 + T ^ 2) * hsc
    nlinarith [sq_nonneg T]

example : ∃ R dogleg v, minCurveToTarget (distBatch 0 ⟨0, 0, 1⟩ ⟨4, 0, 3⟩)
      = some (0, .val R, dogleg) ∧
      0 < R ∧ 0 < dogleg ∧ dogleg < 2 * π ∧
      ArcTo R (R * dogleg) 0 ⟨0, 0, 1⟩ ⟨4, 0, 3⟩ v :=
  C36_single_curve_reaches_target (a := 3) (b := 4) (u := ⟨1, 0, 0⟩)
    (by simp [V3.IsUnit, V3.dot]) (by simp [V3.IsUnit, V3.dot]) (by simp [V3.dot])
    (by norm_num) (by norm_num) (by ext <;> simp)

/-! ### The connector -/

theorem not_ahead {pos1 vec1 u posT : V3} {a b : ℝ} (hu : u.IsUnit) (ho : V3.dot vec1 u = 0)
    (hb : 0 < b) (h : posT = pos1 + a • vec1 + b • u) (noise : V3) :
    modTarget noise pos1 vec1 posT = posT := by
  unfold modTarget
  rw [if_neg]
  rintro ⟨-, hv⟩
  have hd : posT - pos1 = a • vec1 + b • u := by rw [h]; abel
  have e : V3.dot vec1 u = 0 := ho
  rw [hv, normalize, V3.dot_smul_left, hd, V3.dot_add_left, V3.dot_smul_left, V3.dot_smul_left,
    ho, hu] at e
  have hn : 0 < V3.norm (posT - pos1) := by
    unfold V3.norm
    apply sqrt_pos.mpr
    refine lt_of_le_of_ne (V3.dot_self_nonneg _) fun hz => ?_
    have := V3.dot_self_eq_zero.mp hz.symm
    rw [hd] at this
    have h2 := congrArg (fun z => V3.dot z u) this
    simp only [V3.dot_add_left, V3.dot_smul_left, ho] at h2
    rw [hu] at h2
    simp [V3.dot] at h2
    exact hb.ne' h2
  rw [hd] at hn
  have : 0 < 1 / V3.norm (a • vec1 + b • u) := by positivity
  simp only [mul_zero, zero_add, mul_one] at e
  rcases mul_eq_zero.mp e with e | e
  · exact this.ne' e
  · exact hb.ne' e

/-- C74, reachable with the design radius: if the design radius is at most `1 - min_error`
times the critical one, the connector to a position off the start tangent is the arc of the
design radius followed by the straight, ending at the requested target. -/
theorem C74_design_radius_partial {pos1 vec1 u posT noise : V3} {a b R e : ℝ}
    (hv : vec1.IsUnit) (hu : u.IsUnit) (ho : V3.dot vec1 u = 0) (hR : 0 < R) (hb : 0 < b)
    (hb2 : b ≠ 2 * R) (h : posT = pos1 + a • vec1 + b • u) (hne : ¬ allClose pos1 posT)
    (he0 : 0 ≤ e) (he : e < 1)
    (hrc : R ≤ V3.norm (posT - pos1) ^ 2 / (2 * b) * (1 - e)) :
    ∃ o, connectPos (.val R) e noise pos1 vec1 posT = some (posT, .minDist, o) ∧
      ArcTo R o.distCurve pos1 vec1 o.pos2 o.vecTarget ∧
      StraightTo o.tangent o.pos2 o.vecTarget posT ∧
      o.md = o.distCurve + o.tangent ∧
      0 < o.distCurve ∧ o.distCurve < R * (2 * π) := by
  obtain ⟨h1, -⟩ := dist_components hv hu ho h
  have hq : 0 ≤ a ^ 2 + b ^ 2 - 2 * R * b := by
    have : R ≤ V3.norm (posT - pos1) ^ 2 / (2 * b) := by
      refine hrc.trans ?_
      have : 0 ≤ V3.norm (posT - pos1) ^ 2 / (2 * b) := by positivity
      nlinarith
    rw [h1, le_div_iff₀ (by positivity)] at this
    linarith
  obtain ⟨o, o1, o2, o3, d0, d1, dc, o4⟩ := curveHold_reaches hv hu ho hR hb hb2 h hq
  refine ⟨o, ?_, o2, o3, o4, by rw [dc]; exact mul_pos hR d0,
    by rw [dc]; exact mul_lt_mul_of_pos_left d1 hR⟩
  unfold connectPos
  simp only [not_ahead hu ho hb h noise, getDistances_eq hv hu ho hb.le h hne, getRadiusCritical,
    hb.ne', if_false]
  have hpos : 0 < V3.norm (posT - pos1) ^ 2 / (2 * b) * (1 - e) := lt_of_lt_of_le hR hrc
  rw [if_pos hpos]
  simp only
  rw [if_pos hrc, o1]
  rfl

/-- C74, not reachable with the design radius: if the design radius is at least the critical
one (or infinite), the connector is a single arc of the critical radius ending at the requested
target. -/
theorem C74_critical_radius_partial {pos1 vec1 u posT noise : V3} {a b e : ℝ} {radius : Ext}
    (hv : vec1.IsUnit) (hu : u.IsUnit) (ho : V3.dot vec1 u = 0) (hb : 0 < b) (ha : a ≠ 0)
    (h : posT = pos1 + a • vec1 + b • u) (hne : ¬ allClose pos1 posT) (he0 : 0 < e) (he : e < 1)
    (hrad : ∀ R, radius = .val R → V3.norm (posT - pos1) ^ 2 / (2 * b) ≤ R) :
    ∃ o, connectPos radius e noise pos1 vec1 posT = some (posT, .minCurve, o) ∧
      ArcTo (V3.norm (posT - pos1) ^ 2 / (2 * b)) o.distCurve pos1 vec1 posT o.vecTarget ∧
      o.tangent = 0 ∧ o.md = o.distCurve ∧ 0 < o.distCurve := by
  obtain ⟨h1, -⟩ := dist_components hv hu ho h
  obtain ⟨r0, r1, r2, r3⟩ := curveOnly_arc hv hu ho hb ha h rfl
  set Rc := V3.norm (posT - pos1) ^ 2 / (2 * b) with hRc
  have hcd : checkDogleg (2 * atan2 b a) = 2 * atan2 b a := by
    unfold checkDogleg; rw [if_neg (not_lt.mpr r1.le)]
  let w : CurveHold := ⟨posT, getVecTarget pos1 vec1 posT 0 (Rc * (2 * atan2 b a))
    (getRf (2 * atan2 b a)), 0, 2 * atan2 b a, Rc * (2 * atan2 b a), Rc * (2 * atan2 b a) + 0⟩
  have hco : curveOnly radius ⟨V3.norm (posT - pos1), a, b⟩ pos1 vec1 posT = some w := by
    unfold curveOnly minCurveToTarget
    simp only [hb.ne', and_false, if_false, ← hRc]
    rw [if_pos r0]
    have hmin : Ext.min radius (.val Rc) = .val Rc := by
      cases hr : radius with
      | inf => rfl
      | val R =>
        show Ext.val (min R Rc) = _
        rw [min_eq_right (hrad R hr)]
    simp only [hmin, hcd, getCurveHoldData]
    rfl
  refine ⟨w, ?_, r3, rfl, add_zero _, mul_pos r0 r1⟩
  unfold connectPos
  simp only [not_ahead hu ho hb h noise, getDistances_eq hv hu ho hb.le h hne, getRadiusCritical,
    hb.ne', if_false, ← hRc]
  have hpos : 0 < Rc * (1 - e) := mul_pos r0 (by linarith)
  rw [if_pos hpos]
  cases hr : radius with
  | inf =>
    rw [hr] at hco
    simp only [hco, Option.map_some]
  | val R =>
    have hlt : ¬ R ≤ Rc * (1 - e) := by
      have := hrad R hr
      rw [not_le]
      nlinarith
    rw [hr] at hco
    simp only [if_neg hlt, hco, Option.map_some]

/-- C74 is false in the tolerance gap: if the design radius is a little smaller than the
critical one, the connector uses the design radius with the dogleg of the critical radius, and
no arc of that radius reaches the target. -/
theorem C74_gap_not_reached {pos1 vec1 u posT noise : V3} {a b R e : ℝ}
    (hv : vec1.IsUnit) (hu : u.IsUnit) (ho : V3.dot vec1 u = 0) (hR : 0 < R) (hb : 0 < b)
    (ha : a ≠ 0) (h : posT = pos1 + a • vec1 + b • u) (hne : ¬ allClose pos1 posT) (he : e < 1)
    (h1 : V3.norm (posT - pos1) ^ 2 / (2 * b) * (1 - e) < R)
    (h2 : R < V3.norm (posT - pos1) ^ 2 / (2 * b)) :
    ∃ o, connectPos (.val R) e noise pos1 vec1 posT = some (posT, .minCurve, o) ∧
      o.distCurve = R * o.dogleg ∧ o.tangent = 0 ∧
      ∀ L v, ¬ ArcTo R L pos1 vec1 posT v := by
  obtain ⟨r0, r1, r2, r3⟩ := curveOnly_arc hv hu ho hb ha h rfl
  set Rc := V3.norm (posT - pos1) ^ 2 / (2 * b) with hRc
  have hcd : checkDogleg (2 * atan2 b a) = 2 * atan2 b a := by
    unfold checkDogleg; rw [if_neg (not_lt.mpr r1.le)]
  have hpos : 0 < Rc * (1 - e) := mul_pos r0 (by linarith)
  let w : CurveHold := ⟨posT, getVecTarget pos1 vec1 posT 0 (R * (2 * atan2 b a))
    (getRf (2 * atan2 b a)), 0, 2 * atan2 b a, R * (2 * atan2 b a), R * (2 * atan2 b a) + 0⟩
  have hco : curveOnly (.val R) ⟨V3.norm (posT - pos1), a, b⟩ pos1 vec1 posT = some w := by
    unfold curveOnly minCurveToTarget
    simp only [hb.ne', and_false, if_false, ← hRc]
    rw [if_pos r0]
    have hmin : Ext.min (.val R) (.val Rc) = .val R := by
      show Ext.val (min R Rc) = _
      rw [min_eq_left h2.le]
    simp only [hmin, hcd, getCurveHoldData]
    rfl
  refine ⟨w, ?_, rfl, rfl, ?_⟩
  · unfold connectPos
    simp only [not_ahead hu ho hb h noise, getDistances_eq hv hu ho hb.le h hne,
      getRadiusCritical, hb.ne', if_false, ← hRc]
    rw [if_pos hpos]
    simp only [if_neg (not_le.mpr h1), hco, Option.map_some]
  · intro L v hL
    have := arc_radius_unique hv hu ho hR hb h hL
    rw [← hRc] at this
    exact h2.ne this

theorem witness_geometry : (⟨4, 0, 3⟩ : V3) = 0 + (3 : ℝ) • ⟨0, 0, 1⟩ + (4 : ℝ) • ⟨1, 0, 0⟩ ∧
    ¬ allClose 0 ⟨4, 0, 3⟩ ∧ V3.norm ((⟨4, 0, 3⟩ : V3) - 0) ^ 2 / (2 * 4) = 25 / 8 := by
  refine ⟨by ext <;> simp, ?_, ?_⟩
  · rintro ⟨h, -, -⟩
    unfold isClose at h
    norm_num at h
  · rw [V3.norm_sq]; simp [V3.dot]; norm_num

/-- Witness for the gap: target `(4, 0, 3)` from a vertical start, `min_error = 1e-5` and a
radius half way into the gap below the critical radius 25/8. -/
example : ∃ o, connectPos (.val (25 / 8 * (1 - 5e-6))) 1e-5 0 0 ⟨0, 0, 1⟩ ⟨4, 0, 3⟩
      = some (⟨4, 0, 3⟩, .minCurve, o) ∧ o.tangent = 0 ∧
      ∀ L v, ¬ ArcTo (25 / 8 * (1 - 5e-6)) L 0 ⟨0, 0, 1⟩ ⟨4, 0, 3⟩ v := by
  obtain ⟨h, hne, hn⟩ := witness_geometry
  obtain ⟨o, h1, -, h3, h4⟩ := C74_gap_not_reached (noise := 0) (R := 25 / 8 * (1 - 5e-6))
    (e := 1e-5)
    (by simp [V3.IsUnit, V3.dot]) (by simp [V3.IsUnit, V3.dot]) (by simp [V3.dot])
    (by norm_num) (by norm_num) (by norm_num) h hne (by norm_num) (by rw [hn]; norm_num)
    (by rw [hn]; norm_num)
  exact ⟨o, h1, h3, h4⟩

/-! The partial theorems apply to the same target with radii 1 and 10. -/

example : ∃ o, connectPos (.val 1) 1e-5 0 0 ⟨0, 0, 1⟩ ⟨4, 0, 3⟩
      = some (⟨4, 0, 3⟩, .minDist, o) ∧
      StraightTo o.tangent o.pos2 o.vecTarget ⟨4, 0, 3⟩ := by
  obtain ⟨h, hne, hn⟩ := witness_geometry
  obtain ⟨o, h1, -, h3, -⟩ := C74_design_radius_partial (noise := 0) (R := 1) (e := 1e-5)
    (by simp [V3.IsUnit, V3.dot]) (by simp [V3.IsUnit, V3.dot]) (by simp [V3.dot])
    (by norm_num) (by norm_num) (by norm_num) h hne (by norm_num) (by norm_num)
    (by rw [hn]; norm_num)
  exact ⟨o, h1, h3⟩

example : ∃ o, connectPos (.val 10) 1e-5 0 0 ⟨0, 0, 1⟩ ⟨4, 0, 3⟩
      = some (⟨4, 0, 3⟩, .minCurve, o) ∧
      ArcTo (25 / 8) o.distCurve 0 ⟨0, 0, 1⟩ ⟨4, 0, 3⟩ o.vecTarget := by
  obtain ⟨h, hne, hn⟩ := witness_geometry
  obtain ⟨o, h1, h2, -⟩ := C74_critical_radius_partial (noise := 0) (radius := .val 10)
    (e := 1e-5)
    (by simp [V3.IsUnit, V3.dot]) (by simp [V3.IsUnit, V3.dot]) (by simp [V3.dot])
    (by norm_num) (by norm_num) h hne (by norm_num) (by norm_num)
    (by rintro R ⟨⟩; rw [hn]; norm_num)
  rw [hn] at h2
  exact ⟨o, h1, h2⟩

/-- C74 is false for a target exactly ahead: the target is moved by the random offset, so
whatever is returned refers to another point. -/
theorem C74_ahead_moved {pos1 vec1 noise : V3} {a e : ℝ} {radius : Ext} (hv : vec1.IsUnit)
    (ha : 0 < a) (hn : noise ≠ 0) {p : V3} {m : Used} {o : CurveHold}
    (h : connectPos radius e noise pos1 vec1 (pos1 + a • vec1) = some (p, m, o)) :
    p ≠ pos1 + a • vec1 := by
  have hmod : modTarget noise pos1 vec1 (pos1 + a • vec1) = pos1 + a • vec1 + noise := by
    unfold modTarget
    rw [if_pos]
    constructor
    · intro hc
      have h2 : a • vec1 = 0 := by simpa using hc
      have h3 := congrArg (fun z => V3.dot z vec1) h2
      simp only [V3.dot_smul_left] at h3
      rw [hv] at h3
      simp [V3.dot] at h3
      exact ha.ne' h3
    · rw [add_sub_cancel_left, normalize, V3.norm_smul, abs_of_pos ha, norm_of_unit hv, mul_one,
        smul_smul, one_div, inv_mul_cancel₀ ha.ne', one_smul]
  have hp : p = pos1 + a • vec1 + noise := by
    unfold connectPos at h
    simp only [hmod] at h
    split at h
    · simp at h
    · split at h
      · split_ifs at h
        · obtain ⟨x, -, hx⟩ := Option.map_eq_some_iff.mp h
          exact (Prod.mk.inj hx).1.symm
        · obtain ⟨x, -, hx⟩ := Option.map_eq_some_iff.mp h
          exact (Prod.mk.inj hx).1.symm
      · obtain ⟨x, -, hx⟩ := Option.map_eq_some_iff.mp h
        exact (Prod.mk.inj hx).1.symm
  rw [hp]
  intro hc
  exact hn (by simpa using hc)

end Welleng.Props
