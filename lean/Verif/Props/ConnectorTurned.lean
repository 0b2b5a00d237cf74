import Verif.Props.ConnectorOrigin
import Verif.Props.ConnectorSeed
import Verif.Props.MovedWells

/-! C332-C334: connections in turned and mirrored coordinates. -/

namespace Welleng.Props

open Real Welleng.Con Welleng.Spec

/-! ### One curve and hold -/

section linear

variable (m : Motion)

theorem motion_neg (a : V3) : m.lin (-a) = -m.lin a := by
  ext <;> simp [Motion.lin] <;> ring

theorem motion_zero : m.lin 0 = 0 := by
  ext <;> simp [Motion.lin]

theorem motion_inj {a b : V3} : m.lin a = m.lin b ↔ a = b := by
  refine ⟨fun h => ?_, fun h => by rw [h]⟩
  have h1 : m.lin (a - b) = 0 := by rw [motion_sub, h, sub_self]
  have h2 : V3.dot (a - b) (a - b) = 0 := by rw [← motion_dot m, h1]; simp [V3.dot]
  exact sub_eq_zero.mp (V3.dot_self_eq_zero.mp h2)

theorem motion_normalize (a : V3) : normalize (m.lin a) = m.lin (normalize a) := by
  unfold normalize
  rw [motion_norm, motion_smul]

theorem modTarget_lin (z pos vec q : V3) :
    modTarget (m.lin z) (m.lin pos) (m.lin vec) (m.lin q) = m.lin (modTarget z pos vec q) := by
  unfold modTarget
  rw [← motion_sub, motion_normalize, motion_inj m (a := vec)]
  by_cases hc : q ≠ pos ∧ vec = normalize (q - pos)
  · rw [if_pos hc, if_pos ⟨fun h => hc.1 ((motion_inj m).mp h), hc.2⟩, motion_add]
  · rw [if_neg hc, if_neg (fun h => hc ⟨fun h' => h.1 (by rw [h']), h.2⟩)]

theorem getDistances_lin {pos vec q : V3}
    (h : allClose pos q ↔ allClose (m.lin pos) (m.lin q)) :
    getDistances (m.lin pos) (m.lin vec) (m.lin q) = getDistances pos vec q := by
  unfold getDistances
  by_cases hc : allClose pos q
  · rw [if_pos hc, if_pos (h.mp hc)]
  · rw [if_neg hc, if_neg (fun hh => hc (h.mpr hh))]
    simp only [← motion_sub, motion_norm, motion_dot]

theorem getVecTarget_lin (pos vec q : V3) (t dc f : ℝ) :
    getVecTarget (m.lin pos) (m.lin vec) (m.lin q) t dc f = m.lin (getVecTarget pos vec q t dc f) := by
  unfold getVecTarget
  split_ifs
  · rfl
  · rw [← motion_normalize, motion_smul, motion_sub, motion_sub, motion_smul]

/-- A turned or mirrored curve and hold. -/
def linHold (o : CurveHold) : CurveHold := { o with pos2 := m.lin o.pos2, vecTarget := m.lin o.vecTarget }

theorem curveHold_lin (r : ℝ) (x : Dist) (pos vec q : V3) :
    curveHold r x (m.lin pos) (m.lin vec) (m.lin q) = (curveHold r x pos vec q).map (linHold m) := by
  unfold curveHold
  split
  · rfl
  · simp only [getVecTarget_lin, Option.map_some, linHold, motion_sub, motion_smul]

theorem curveOnly_lin (r : Ext) (x : Dist) (pos vec q : V3) :
    curveOnly r x (m.lin pos) (m.lin vec) (m.lin q) = (curveOnly r x pos vec q).map (linHold m) := by
  unfold curveOnly
  split
  · rfl
  · split
    · rfl
    · simp only [getVecTarget_lin, Option.map_some, linHold]

/-- The turned or mirrored result of a connection to a position. -/
def linResult (r : V3 × Used × CurveHold) : V3 × Used × CurveHold := (m.lin r.1, r.2.1, linHold m r.2.2)

/-- C332, partial: turning or mirroring start, direction and target turns or mirrors the connection, as
long as `np.allclose` says the same of start and target in both coordinates.  The random offset of a
target straight ahead is turned too. -/
theorem C332_turned_partial (radius : Ext) (e : ℝ) (z pos1 vec1 posT : V3)
    (h : allClose pos1 (modTarget z pos1 vec1 posT) ↔
      allClose (m.lin pos1) (m.lin (modTarget z pos1 vec1 posT))) :
    connectPos radius e (m.lin z) (m.lin pos1) (m.lin vec1) (m.lin posT) =
      (connectPos radius e z pos1 vec1 posT).map (linResult m) := by
  unfold connectPos
  simp only [modTarget_lin, getDistances_lin m h, curveHold_lin, curveOnly_lin]
  split
  · rfl
  · split
    · split_ifs
      · simp only [Option.map_map]; rfl
      · simp only [Option.map_map]; rfl
    · simp only [Option.map_map]; rfl

end linear

/-! ### Motions that only exchange or reverse axes -/

/-- Comparing two points axis by axis, with any tolerances, gives the same after the motion. -/
def KeepsAxes (m : Motion) : Prop :=
  ∀ r a p q, closeTo r a (m.lin p) (m.lin q) ↔ closeTo r a p q

theorem mirror_keepsAxes (w : V3) : KeepsAxes (Motion.mirroring w) := by
  intro r a p q
  simp only [closeTo, Motion.lin, Motion.mirroring]
  simp
  rw [show -p.y + q.y = -(p.y - q.y) by ring, abs_neg]
  tauto

theorem quarter_keepsAxes (w : V3) : KeepsAxes (Motion.turning (π / 2) w) := by
  intro r a p q
  simp only [closeTo, Motion.lin, Motion.turning]
  simp
  rw [show -p.y + q.y = -(p.y - q.y) by ring, abs_neg]
  tauto

theorem allClose_eq (p q : V3) : allClose p q ↔ closeTo 1e-5 1e-8 p q := Iff.rfl

theorem KeepsAxes.allClose {m : Motion} (h : KeepsAxes m) (p q : V3) :
    allClose p q ↔ Con.allClose (m.lin p) (m.lin q) := by
  rw [allClose_eq, allClose_eq, h]

/-- C333: turning start, direction and target by a quarter turn about the vertical turns the connection to
a position. -/
theorem C333_position (radius : Ext) (e : ℝ) (z pos1 vec1 posT : V3) :
    let m := Motion.turning (π / 2) 0
    connectPos radius e (m.lin z) (m.lin pos1) (m.lin vec1) (m.lin posT) =
      (connectPos radius e z pos1 vec1 posT).map (linResult m) :=
  C332_turned_partial _ _ _ _ _ _ _ ((quarter_keepsAxes 0).allClose _ _)

/-- C334: the connection of a mirrored start and direction to the mirrored position is the mirrored
connection. -/
theorem C334_position (radius : Ext) (e : ℝ) (z pos1 vec1 posT : V3) :
    let m := Motion.mirroring 0
    connectPos radius e (m.lin z) (m.lin pos1) (m.lin vec1) (m.lin posT) =
      (connectPos radius e z pos1 vec1 posT).map (linResult m) :=
  C332_turned_partial _ _ _ _ _ _ _ ((mirror_keepsAxes 0).allClose _ _)

/-- Points which count as the same are connected by a path without length. -/
theorem connectPos_same (R e : ℝ) (hR : 0 < R) {z p v q : V3} (hm : modTarget z p v q = q)
    (h : allClose p q) : ∃ o, connectPos (.val R) e z p v q = some (q, .minCurve, o) ∧ o.md = 0 := by
  have hd : getDistances p v q = ⟨0, 0, 0⟩ := by
    unfold getDistances
    rw [if_pos h]
  have h0 : checkDogleg 0 = 0 := by simp [checkDogleg]
  refine ⟨⟨q, v, 0, 0, 0, 0⟩, ?_, rfl⟩
  unfold connectPos
  simp only [hm, hd, getRadiusCritical, if_true]
  rw [if_neg (not_le.mpr hR)]
  simp [curveOnly, minCurveToTarget, Ext.min, h0, getCurveHoldData, getVecTarget]

/-- C332 is false: a vertical well 6000 km north of the origin, and a target 40 m to the east at the same
depth.  The connection has a length; in coordinates turned by 45° it has none. -/
theorem C332_turn_matters : ∃ (pos1 vec1 posT : V3) (o o' : CurveHold),
    let m := Motion.turning (π / 4) 0
    connectPos (.val 10) 1e-5 0 pos1 vec1 posT = some (posT, .minDist, o) ∧ 0 < o.md ∧
    connectPos (.val 10) 1e-5 (m.lin 0) (m.lin pos1) (m.lin vec1) (m.lin posT) =
      some (m.lin posT, .minCurve, o') ∧ o'.md = 0 := by
  have hn : V3.norm ((⟨6000000, 40, 0⟩ : V3) - ⟨6000000, 0, 0⟩) ^ 2 = 1600 := by
    rw [V3.norm_sq]; simp [V3.dot]; norm_num
  obtain ⟨o, h1, -, h3, h4, h5, -⟩ := C74_design_radius_partial (pos1 := ⟨6000000, 0, 0⟩) (vec1 := ⟨0, 0, 1⟩)
    (u := ⟨0, 1, 0⟩) (posT := ⟨6000000, 40, 0⟩) (noise := 0) (a := 0) (b := 40) (R := 10) (e := 1e-5)
    (by simp [V3.IsUnit, V3.dot]) (by simp [V3.IsUnit, V3.dot]) (by simp [V3.dot])
    (by norm_num) (by norm_num) (by norm_num) (by ext <;> simp)
    (by rintro ⟨-, h, -⟩; unfold isClose at h; norm_num at h) (by norm_num) (by norm_num)
    (by rw [hn]; norm_num)
  have hm : modTarget 0 (⟨6000000, 0, 0⟩ : V3) ⟨0, 0, 1⟩ ⟨6000000, 40, 0⟩ = ⟨6000000, 40, 0⟩ := by
    refine modTarget_idle ?_
    rintro ⟨t, ht, h⟩
    have := congrArg V3.y h
    norm_num at this
  obtain ⟨o', k1, k2⟩ := connectPos_same 10 1e-5 (by norm_num)
    (z := (Motion.turning (π / 4) 0).lin 0) (p := (Motion.turning (π / 4) 0).lin ⟨6000000, 0, 0⟩)
    (v := (Motion.turning (π / 4) 0).lin ⟨0, 0, 1⟩) (q := (Motion.turning (π / 4) 0).lin ⟨6000000, 40, 0⟩)
    (by rw [modTarget_lin, hm]) (by
      have hs : (0 : ℝ) < √2 / 2 := by positivity
      simp only [allClose, isClose, Motion.lin, Motion.turning]
      simp
      rw [show √2 / 2 * 6000000 + -(√2 / 2 * 40) = √2 / 2 * 5999960 by ring,
        show √2 / 2 * 6000000 + √2 / 2 * 40 = √2 / 2 * 6000040 by ring, abs_mul, abs_mul, abs_of_pos hs]
      norm_num
      constructor <;> nlinarith)
  exact ⟨⟨6000000, 0, 0⟩, ⟨0, 0, 1⟩, ⟨6000000, 40, 0⟩, o, o', h1, by rw [h4]; linarith [h3.1], k1, k2⟩

/-! ### The search for a path with two curves -/

section search

variable (m : Motion)

/-- A turned leg of the search. -/
def linLeg (l : Leg) : Leg := { l with dir := m.lin l.dir, joint := m.lin l.joint }

/-- The turned inputs of the search. -/
def linJob (j : Job) : Job :=
  { j with vec1 := m.lin j.vec1, vecT := m.lin j.vecT, noise := fun k => m.lin (j.noise k) }

/-- The turned state of the search. -/
def linSt (s : St) : St :=
  { s with
    pos1 := m.lin s.pos1, posT := m.lin s.posT, pos2 := m.lin s.pos2, pos3 := m.lin s.pos3
    leg1 := s.leg1.map (linLeg m), leg2 := s.leg2.map (linLeg m), dir23 := m.lin s.dir23
    pos3List := s.pos3List.map m.lin, pos2List := s.pos2List.map m.lin }

/-- The motion keeps the sense of rotation. -/
def Proper : Prop := ∀ a b, V3.cross (m.lin a) (m.lin b) = m.lin (V3.cross a b)

theorem turning_proper (θ : ℝ) (w : V3) : Proper (Motion.turning θ w) := by
  intro a b
  have h := sin_sq_add_cos_sq θ
  ext
  · simp [Motion.lin, Motion.turning, V3.cross]; ring
  · simp [Motion.lin, Motion.turning, V3.cross]; ring
  · simp [Motion.lin, Motion.turning, V3.cross]; linear_combination (a.x * b.y - a.y * b.x) * h

variable {m} (hk : KeepsAxes m)
include hk

theorem leg_lin (e mt r : ℝ) (pos vec q : V3) :
    leg e mt r (m.lin pos) (m.lin vec) (m.lin q) = (leg e mt r pos vec q).map (linLeg m) := by
  unfold leg
  simp only [getDistances_lin m (hk.allClose pos q), getVecTarget_lin]
  split
  · rfl
  · split
    · rfl
    · simp only [Except.map, linLeg, motion_sub, motion_smul]

theorem getPos2_lin (j : Job) (rc : Ext) (r : ℝ) (pos vec q : V3) :
    getPos2 (linJob m j) rc r (m.lin pos) (m.lin vec) (m.lin q) =
      (getPos2 j rc r pos vec q).map m.lin := by
  unfold getPos2
  have h : leg (linJob m j).minError (linJob m j).minTangent r (m.lin pos) (m.lin vec) (m.lin q) =
    (leg j.minError j.minTangent r pos vec q).map (linLeg m) := leg_lin hk ..
  rw [h]
  rcases leg j.minError j.minTangent r pos vec q with f | l
  · rfl
  · simp only [Except.map, linLeg]
    split_ifs <;> rfl

theorem stepOnce_lin (j : Job) (r1 r2 : ℝ) (s : St) (old : V3) :
    stepOnce (linJob m j) r1 r2 (linSt m s) (m.lin old) =
      (stepOnce j r1 r2 s old).map fun x => (linSt m x.1, x.2) := by
  unfold stepOnce
  have e1 : modTarget ((linJob m j).noise (linSt m s).drawn) (linSt m s).pos1 (linJob m j).vec1 (linSt m s).pos3
      = m.lin (modTarget (j.noise s.drawn) s.pos1 j.vec1 s.pos3) := modTarget_lin ..
  have e2 : ∀ q, leg (linJob m j).minError (linJob m j).minTangent r1 (linSt m s).pos1 (linJob m j).vec1
      (m.lin q) = (leg j.minError j.minTangent r1 s.pos1 j.vec1 q).map (linLeg m) := fun q => leg_lin hk ..
  have eb : (-1 : ℝ) • (linJob m j).vecT = m.lin ((-1 : ℝ) • j.vecT) := (motion_smul m _ _).symm
  have e3 : ∀ q, leg (linJob m j).minError (linJob m j).minTangent r2 (linSt m s).posT
      (m.lin ((-1 : ℝ) • j.vecT)) (m.lin q)
      = (leg j.minError j.minTangent r2 s.posT ((-1 : ℝ) • j.vecT) q).map (linLeg m) := fun q => leg_lin hk ..
  have e4 : ∀ q, modTarget ((linJob m j).noise ((linSt m s).drawn + 1)) (linSt m s).posT
      (m.lin ((-1 : ℝ) • j.vecT)) (m.lin q)
      = m.lin (modTarget (j.noise (s.drawn + 1)) s.posT ((-1 : ℝ) • j.vecT) q) := fun q => modTarget_lin ..
  simp only [e1, e2, eb]
  rcases leg j.minError j.minTangent r1 s.pos1 j.vec1 (modTarget (j.noise s.drawn) s.pos1 j.vec1 s.pos3)
    with f | l1
  · rfl
  simp only [Except.map]
  have e5 : (linLeg m l1).joint = m.lin l1.joint := rfl
  simp only [e5, e4, e3]
  set p2 := modTarget (j.noise (s.drawn + 1)) s.posT ((-1 : ℝ) • j.vecT) l1.joint
  rcases leg j.minError j.minTangent r2 s.posT ((-1 : ℝ) • j.vecT) p2 with f | l2
  · rfl
  simp only [Except.map]
  have e6 : (1 / 2 : ℝ) • (linLeg m l2).joint + (1 / 2 : ℝ) • (linSt m s).pos3
      = m.lin ((1 / 2 : ℝ) • l2.joint + (1 / 2 : ℝ) • s.pos3) := by
    rw [motion_add, motion_smul, motion_smul]; rfl
  rw [e6]
  set p3 := (1 / 2 : ℝ) • l2.joint + (1 / 2 : ℝ) • s.pos3
  have e7 : (if V3.norm (m.lin p3 - m.lin p2) = 0 then 0 else
      (1 / V3.norm (m.lin p3 - m.lin p2)) • (m.lin p3 - m.lin p2))
      = m.lin (if V3.norm (p3 - p2) = 0 then 0 else (1 / V3.norm (p3 - p2)) • (p3 - p2)) := by
    rw [← motion_sub, motion_norm]
    split_ifs
    · exact (motion_zero m).symm
    · rw [motion_smul]
  simp only [e7]
  set d := (if V3.norm (p3 - p2) = 0 then 0 else (1 / V3.norm (p3 - p2)) • (p3 - p2))
  have e8 : ∀ x, x = m.lin d → (@decide (closeTo ((linJob m j).minError * 10)
      ((linJob m j).minError * 0.1) x (m.lin old)) (Classical.propDecidable _))
      = @decide (closeTo (j.minError * 10) (j.minError * 0.1) d old) (Classical.propDecidable _) := by
    rintro x rfl
    rw [decide_eq_decide]; exact hk ..
  rw [e8]
  · rfl
  · rw [e5, eb, e4]
    exact e7

theorem iterate_lin (j : Job) (r1 r2 : ℝ) : ∀ (n : ℕ) (s : St) (old : V3),
    iterate (linJob m j) r1 r2 n (linSt m s) (m.lin old) = (iterate j r1 r2 n s old).map (linSt m)
  | 0, s, old => rfl
  | n + 1, s, old => by
    unfold iterate
    rw [stepOnce_lin hk]
    rcases stepOnce j r1 r2 s old with f | ⟨s', b⟩
    · rfl
    · cases b
      · exact iterate_lin j r1 r2 n { s' with iterations := s'.iterations + 1 } s'.dir23
      · rfl

theorem middle_lin (j : Job) (r1 r2 : ℝ) (s : St) :
    middle (linJob m j) r1 r2 (linSt m s) =
      (middle j r1 r2 s).map fun x => (m.lin x.1, m.lin x.2.1, m.lin x.2.2) := by
  unfold middle
  have eb : (-1 : ℝ) • (linJob m j).vecT = m.lin ((-1 : ℝ) • j.vecT) := (motion_smul m _ _).symm
  have e1 : modTarget ((linJob m j).noise (linSt m s).drawn) (linSt m s).pos1 (linJob m j).vec1 (linSt m s).posT
      = m.lin (modTarget (j.noise s.drawn) s.pos1 j.vec1 s.posT) := modTarget_lin ..
  have e2 : ∀ q, getPos2 (linJob m j) (linSt m s).rc r1 (linSt m s).pos1 (linJob m j).vec1 (m.lin q)
      = (getPos2 j s.rc r1 s.pos1 j.vec1 q).map m.lin := fun q => getPos2_lin hk ..
  have e3 : ∀ p, modTarget ((linJob m j).noise ((linSt m s).drawn + 1)) (m.lin p)
      (m.lin ((-1 : ℝ) • j.vecT)) (linSt m s).pos1
      = m.lin (modTarget (j.noise (s.drawn + 1)) p ((-1 : ℝ) • j.vecT) s.pos1) := fun q => modTarget_lin ..
  have e4 : ∀ p q, getPos2 (linJob m j) (linSt m s).rc r2 (m.lin p) (m.lin ((-1 : ℝ) • j.vecT)) (m.lin q)
      = (getPos2 j s.rc r2 p ((-1 : ℝ) • j.vecT) q).map m.lin := fun p q => getPos2_lin hk ..
  simp only [e1, e2, eb, e3, e4]
  set pT := modTarget (j.noise s.drawn) s.pos1 j.vec1 s.posT
  rcases getPos2 j s.rc r1 s.pos1 j.vec1 pT with f | a
  · rfl
  simp only [Except.map]
  set p1 := modTarget (j.noise (s.drawn + 1)) pT ((-1 : ℝ) • j.vecT) s.pos1
  rcases getPos2 j s.rc r2 pT ((-1 : ℝ) • j.vecT) p1 with f | b
  · rfl
  simp only [Except.map, motion_add, motion_sub, motion_smul]

theorem pick_lin (j : Job) (pos1 posT : V3) (r1 r2 : ℝ) : ∀ (l : List V3) (k : ℕ) (best : V3) (b : Option ℝ),
    pick (linJob m j) (m.lin pos1) (m.lin posT) r1 r2 (l.map m.lin) k (m.lin best) b =
      (pick j pos1 posT r1 r2 l k best b).map m.lin
  | [], k, best, b => rfl
  | perp :: rest, k, best, b => by
    have eb : (-1 : ℝ) • (linJob m j).vecT = m.lin ((-1 : ℝ) • j.vecT) := (motion_smul m _ _).symm
    have e1 : modTarget ((linJob m j).noise k) (m.lin posT) (m.lin ((-1 : ℝ) • j.vecT))
        (candidate (m.lin pos1) (linJob m j).vec1 r1 (m.lin perp))
        = m.lin (modTarget (j.noise k) posT ((-1 : ℝ) • j.vecT) (candidate pos1 j.vec1 r1 perp)) := by
      rw [← modTarget_lin]
      congr 1
      simp only [candidate, motion_add, motion_smul]
      rfl
    rw [List.map_cons]
    unfold pick
    simp only [eb, e1]
    set c := modTarget (j.noise k) posT ((-1 : ℝ) • j.vecT) (candidate pos1 j.vec1 r1 perp)
    rw [getDistances_lin m (hk.allClose _ _), show (linJob m j).minError = j.minError from rfl]
    rcases getRadiusCritical (getDistances posT ((-1 : ℝ) • j.vecT) c) j.minError with _ | rc
    · rfl
    simp only
    split_ifs
    · rfl
    · cases b with
      | none => exact pick_lin j pos1 posT r1 r2 rest (k + 1) c (some rc)
      | some b =>
        simp only
        split_ifs
        · exact pick_lin j pos1 posT r1 r2 rest (k + 1) c (some rc)
        · exact pick_lin j pos1 posT r1 r2 rest (k + 1) best (some b)

/-- The target is more than `1e-10` off the line of the start. -/
def OffLine (v chord : V3) : Prop := (1e-10 : ℝ) < V3.norm (chord - V3.dot chord v • v)

omit hk in
theorem perps_lin (hp : Proper m) {v chord : V3} (h : OffLine v chord) :
    perps (m.lin v) (m.lin chord) = (perps v chord).map m.lin ∧
      acrossHat (m.lin v) (m.lin chord) = m.lin (acrossHat v chord) := by
  have e1 : acrossHat (m.lin v) (m.lin chord) = m.lin (acrossHat v chord) := by
    unfold acrossHat
    simp only [motion_dot, ← motion_smul, ← motion_sub, motion_norm]
    have h' : V3.norm (chord - V3.dot chord v • v) > 1e-10 := h
    rw [if_pos h', if_pos h', motion_normalize]
  have e2 : ∀ x, acrossCross (m.lin v) (m.lin x) = m.lin (acrossCross v x) := by
    intro x
    unfold acrossCross
    simp only [hp v x, motion_norm]
    split_ifs
    · rw [motion_normalize]
    · rfl
  refine ⟨?_, e1⟩
  unfold perps
  simp only [e1, e2, List.map_cons, List.map_nil, motion_neg]

theorem fallback_lin (hp : Proper m) (j : Job) {pos1 posT : V3} (h : OffLine j.vec1 (posT - pos1))
    (r1 r2 : ℝ) (k : ℕ) : fallback (linJob m j) (m.lin pos1) (m.lin posT) r1 r2 k =
      (fallback j pos1 posT r1 r2 k).map m.lin := by
  unfold fallback
  obtain ⟨h1, h2⟩ := perps_lin hp h
  simp only [← motion_sub]
  have e : candidate (m.lin pos1) (linJob m j).vec1 r1 (acrossHat (linJob m j).vec1 (m.lin (posT - pos1)))
      = m.lin (candidate pos1 j.vec1 r1 (acrossHat j.vec1 (posT - pos1))) := by
    rw [show acrossHat (linJob m j).vec1 (m.lin (posT - pos1)) = _ from h2]
    simp only [candidate, motion_add, motion_smul]
    rfl
  rw [e, show perps (linJob m j).vec1 (m.lin (posT - pos1)) = _ from h1]
  exact pick_lin hk ..

theorem start_lin (hp : Proper m) (j : Job) (r1 r2 : ℝ) (s : St)
    (h : ∀ a b c, middle j r1 r2 s = .ok (a, b, c) → OffLine j.vec1 (b - a)) :
    start (linJob m j) r1 r2 (linSt m s) = (start j r1 r2 s).map (linSt m) := by
  unfold start
  rw [middle_lin hk]
  rcases hm : middle j r1 r2 s with f | ⟨a, b, c⟩
  · rfl
  have hoff := h a b c hm
  have eb : (-1 : ℝ) • (linJob m j).vecT = m.lin ((-1 : ℝ) • j.vecT) := (motion_smul m _ _).symm
  have e1 : modTarget ((linJob m j).noise ((linSt m s).drawn + 2)) (m.lin a) (linJob m j).vec1 (m.lin c)
      = m.lin (modTarget (j.noise (s.drawn + 2)) a j.vec1 c) := modTarget_lin ..
  have e2 : ∀ q, modTarget ((linJob m j).noise ((linSt m s).drawn + 3)) (m.lin b)
      (m.lin ((-1 : ℝ) • j.vecT)) (m.lin q)
      = m.lin (modTarget (j.noise (s.drawn + 3)) b ((-1 : ℝ) • j.vecT) q) := fun q => modTarget_lin ..
  have e3 : ∀ q, getDistances (m.lin a) (linJob m j).vec1 (m.lin q) = getDistances a j.vec1 q :=
    fun q => getDistances_lin m (hk.allClose _ _)
  have e4 : ∀ q, getDistances (m.lin b) (m.lin ((-1 : ℝ) • j.vecT)) (m.lin q)
      = getDistances b ((-1 : ℝ) • j.vecT) q := fun q => getDistances_lin m (hk.allClose _ _)
  simp only [Except.map, eb, e1, e2, e3, e4, show (linJob m j).minError = j.minError from rfl]
  rcases getRadiusCritical (getDistances a j.vec1 (modTarget (j.noise (s.drawn + 2)) a j.vec1 c)) j.minError
    with _ | rc1
  · rfl
  rcases getRadiusCritical (getDistances b ((-1 : ℝ) • j.vecT) (modTarget (j.noise (s.drawn + 3)) b
    ((-1 : ℝ) • j.vecT) (modTarget (j.noise (s.drawn + 2)) a j.vec1 c))) j.minError with _ | rc2
  · rfl
  simp only
  split_ifs
  · rfl
  · rw [show (linSt m s).drawn + 4 = s.drawn + 4 from rfl, fallback_lin hk hp j hoff]
    rcases fallback j a b r1 r2 (s.drawn + 4) with f | q <;> rfl

theorem solveFresh_lin (hp : Proper m) (j : Job) (r1 r2 : ℝ) (s : St)
    (h : ∀ a b c, middle j r1 r2 s = .ok (a, b, c) → OffLine j.vec1 (b - a)) :
    solveFresh (linJob m j) r1 r2 (linSt m s) = (solveFresh j r1 r2 s).map (linSt m) := by
  unfold solveFresh
  rw [start_lin hk hp j r1 r2 s h]
  rcases start j r1 r2 s with f | s'
  · rfl
  · have := iterate_lin hk j r1 r2 j.maxIter s' 0
    rw [motion_zero] at this
    exact this

theorem solveFrom_lin (j : Job) (r1 r2 : ℝ) (s : St) (p old : V3) :
    solveFrom (linJob m j) r1 r2 (linSt m s) (m.lin p) (m.lin old) =
      (solveFrom j r1 r2 s p old).map (linSt m) :=
  iterate_lin hk j r1 r2 j.maxIter { s with pos3 := p } old

omit hk in
theorem outerNeeded_lin (j : Job) (s : St) : outerNeeded (linJob m j) (linSt m s) = outerNeeded j s := by
  unfold outerNeeded linSt
  rcases s.leg1 with _ | l1
  · rfl
  rcases s.leg2 with _ | l2
  · rfl
  rfl

theorem stable_lin (q : V3) (l : List V3) (n : ℕ) : stable (m.lin q) (l.map m.lin) n ↔ stable q l n := by
  unfold stable
  rw [← List.map_take]
  simp only [List.forall_mem_map, ← hk.allClose]

theorem balancedEnough_lin (j : Job) (s : St) :
    balancedEnough (linJob m j) (linSt m s) ↔ balancedEnough j s := by
  unfold balancedEnough
  simp only [linSt, linJob, List.length_map, stable_lin hk, ← hk.allClose]

open Classical in
theorem balance_lin (j : Job) : ∀ (n : ℕ) (s : St),
    balance (linJob m j) n (linSt m s) = (balance j n s).map (linSt m)
  | 0, s => rfl
  | n + 1, s => by
    unfold balance
    rcases h1 : s.leg1 with _ | l1
    · simp only [linSt, h1, Option.map_none]; rfl
    rcases h2 : s.leg2 with _ | l2
    · simp only [linSt, h1, h2, Option.map_none, Option.map_some]; rfl
    have k1 : (linSt m s).leg1 = some (linLeg m l1) := by simp [linSt, h1]
    have k2 : (linSt m s).leg2 = some (linLeg m l2) := by simp [linSt, h2]
    simp only [k1, k2]
    rw [show balanced (linJob m j) (linSt m s) (linLeg m l1) (linLeg m l2) = balanced j s l1 l2 from rfl]
    rcases balanced j s l1 l2 with _ | r
    · rfl
    simp only
    by_cases hn : Ext.negative r
    · rw [if_pos hn, if_pos hn]
      rfl
    · rw [if_neg hn, if_neg hn]
      set t : St := { s with rc := r, rc2 := r, leg1 := some l1, leg2 := some l2 } with ht
      have e := solveFrom_lin hk j j.r1 j.r2 t s.pos3 s.dir23
      change (match solveFrom (linJob m j) j.r1 j.r2 (linSt m t) (m.lin s.pos3) (m.lin s.dir23) with
        | .error f => .error f
        | .ok s' => if balancedEnough (linJob m j) s' then .ok s' else balance (linJob m j) n s') =
        Except.map (linSt m) (match solveFrom j j.r1 j.r2 t s.pos3 s.dir23 with
        | .error f => .error f
        | .ok s' => if balancedEnough j s' then .ok s' else balance j n s')
      rw [e]
      rcases solveFrom j j.r1 j.r2 t s.pos3 s.dir23 with f | s'
      · rfl
      simp only [Except.map]
      by_cases hb : balancedEnough j s'
      · rw [if_pos hb, if_pos ((balancedEnough_lin hk j s').mpr hb)]
      · rw [if_neg hb, if_neg (fun x => hb ((balancedEnough_lin hk j s').mp x))]
        exact balance_lin j n s'

omit hk in
theorem middle_ends {j : Job} {r1 r2 : ℝ} {s : St} {a b c : V3} (h : middle j r1 r2 s = .ok (a, b, c))
    (h1 : ¬ StraightAhead s.pos1 j.vec1 s.posT)
    (h2 : ¬ StraightAhead s.posT ((-1 : ℝ) • j.vecT) s.pos1) : a = s.pos1 ∧ b = s.posT := by
  unfold middle at h
  simp only [modTarget_idle h1, modTarget_idle h2] at h
  split at h
  · cases h
  · split at h
    · cases h
    · injection h with h
      obtain ⟨k1, k2⟩ := Prod.mk.inj h
      exact ⟨k1.symm, (Prod.mk.inj k2).1.symm⟩

omit hk in
theorem OffLine.not_ahead {v p q : V3} (hv : v.IsUnit) (h : OffLine v (q - p)) : ¬ StraightAhead p v q := by
  rintro ⟨t, -, rfl⟩
  unfold OffLine at h
  have e : p + t • v - p - V3.dot (p + t • v - p) v • v = 0 := by
    rw [add_sub_cancel_left, V3.dot_smul_left, show V3.dot v v = 1 from hv, mul_one, sub_self]
  rw [e, V3.norm_zero] at h
  norm_num at h

theorem search_lin (hp : Proper m) (j : Job) {pos1 posT : V3} (hv : j.vec1.IsUnit)
    (he0 : 0 ≤ j.minError) (he : j.minError < 1) (h1 : OffLine j.vec1 (posT - pos1))
    (h2 : ¬ StraightAhead posT ((-1 : ℝ) • j.vecT) pos1) :
    search (linJob m j) (m.lin pos1) (m.lin posT) = (search j pos1 posT).map (linSt m) := by
  have h3 := OffLine.not_ahead hv h1
  have fresh : ∀ (r1 r2 : ℝ) (s : St), s.pos1 = pos1 → s.posT = posT →
      solveFresh (linJob m j) r1 r2 (linSt m s) = (solveFresh j r1 r2 s).map (linSt m) := by
    intro r1 r2 s e1 e2
    refine solveFresh_lin hk hp j r1 r2 s fun a b c h => ?_
    obtain ⟨rfl, rfl⟩ := middle_ends h (by rw [e1, e2]; exact h3) (by rw [e1, e2]; exact h2)
    rw [e1, e2]
    exact h1
  unfold search
  have e0 : begin (m.lin pos1) (m.lin posT) = linSt m (begin pos1 posT) := by
    simp [begin, linSt, motion_zero]
  rw [e0, show solveFresh (linJob m j) (linJob m j).r1 (linJob m j).r2 (linSt m (begin pos1 posT)) = _ from
    fresh j.r1 j.r2 _ rfl rfl]
  rcases hs : solveFresh j j.r1 j.r2 (begin pos1 posT) with f | s
  · rfl
  obtain ⟨k1, k2, -⟩ := solveFresh_ends he0 he hs
  have k1 : s.posT = posT := by rw [k1]; exact modTarget_idle h3
  have k2 : s.pos1 = pos1 := by rw [k2, k1]; exact modTarget_idle h2
  simp only [Except.map, outerNeeded_lin]
  have er : reseed (linJob m j) (linSt m s) = (reseed j s).map (linSt m) := by
    unfold reseed
    have en : V3.norm ((linSt m s).posT - (linSt m s).pos1) = V3.norm (s.posT - s.pos1) := by
      simp only [linSt]
      rw [← motion_sub, motion_norm]
    simp only [en, show (linJob m j).r1 = j.r1 from rfl, show (linJob m j).r2 = j.r2 from rfl]
    by_cases hc : 0 < V3.norm (s.posT - s.pos1) / 4 ∧ V3.norm (s.posT - s.pos1) / 4 < min j.r1 j.r2
    · rw [if_pos hc, if_pos hc, fresh _ _ s k2 k1]
      rcases solveFresh j (V3.norm (s.posT - s.pos1) / 4) (V3.norm (s.posT - s.pos1) / 4) s with f | s1
      · rfl
      · exact solveFrom_lin hk j j.r1 j.r2 { s1 with rc := .inf, rc2 := .inf } s1.pos3 s1.dir23
    · rw [if_neg hc, if_neg hc]
      rfl
  cases outerNeeded j s with
  | false => rfl
  | true =>
    simp only [if_true, er]
    rcases reseed j s with f | s2
    · rfl
    simp only [Except.map, outerNeeded_lin]
    cases outerNeeded j s2 with
    | false => rfl
    | true => exact balance_lin hk j j.maxIter s2

end search

/-! ### Finishing the path -/

section finishing

variable (m : Motion)

/-- The turned inputs of the construction. -/
def linPlan (p : Plan) : Plan :=
  { p with pos1 := m.lin p.pos1, vec1 := m.lin p.vec1, posT := m.lin p.posT, vecT := m.lin p.vecT }

/-- The turned path. -/
def linGeo (g : Geo) : Geo :=
  { g with pos2 := m.lin g.pos2, pos3 := m.lin g.pos3, vec3 := m.lin g.vec3 }

/-- The turned result of a search. -/
def linSolved (s : Solved) : Solved := { s with pos3 := m.lin s.pos3 }

/-- The turned results of all searches. -/
def linRuns (r : Runs) : Runs :=
  { r with
    main := r.main.map (linSolved m), delta := r.delta.map (Except.map (linSolved m))
    retries := r.retries.map (Except.map (linSolved m)) }

theorem getPos_lin (a b c : V3) (x y : ℝ) : getPos (m.lin a) (m.lin b) (m.lin c) x y = m.lin (getPos a b c x y) := by
  simp only [getPos, motion_add, motion_smul]

theorem angle_lin (a b : V3) : angle (m.lin a) (m.lin b) = angle a b := by
  unfold angle; rw [motion_dot]

theorem dirUndefined_lin (a b c : V3) (x y z : ℝ) :
    dirUndefined (m.lin a) (m.lin b) (m.lin c) x y z ↔ dirUndefined a b c x y z := by
  unfold dirUndefined
  rw [← motion_smul, ← motion_sub, ← motion_sub, ← motion_zero m, motion_inj, motion_zero]

open Classical in
theorem firstCurve_lin (p : Plan) (r1 : ℝ) (s : Solved) :
    firstCurve (linPlan m p) r1 (linSolved m s) =
      (firstCurve p r1 s).map fun x => (x.1, m.lin x.2.1, m.lin x.2.2) := by
  unfold firstCurve
  have e : dirUndefined (linPlan m p).pos1 (linPlan m p).vec1 (linSolved m s).pos3 (linSolved m s).tangent
      (r1 * (linSolved m s).dogleg) (getRf (linSolved m s).dogleg) ↔
      dirUndefined p.pos1 p.vec1 s.pos3 s.tangent (r1 * s.dogleg) (getRf s.dogleg) := dirUndefined_lin m ..
  by_cases h : dirUndefined p.pos1 p.vec1 s.pos3 s.tangent (r1 * s.dogleg) (getRf s.dogleg)
  · rw [if_pos h, if_pos (e.mpr h)]
    rfl
  · rw [if_neg h, if_neg (fun x => h (e.mp x))]
    simp only [linPlan, linSolved, getVecTarget_lin, angle_lin, getPos_lin, Option.map_some]

theorem placeSecond_lin (p : Plan) (a b : V3) (x y : ℝ) :
    placeSecond (linPlan m p) (m.lin a) (m.lin b) x y = placeSecond p a b x y := by
  unfold placeSecond
  simp only [linPlan, ← motion_smul, getPos_lin, ← motion_sub, motion_dot, motion_norm]

theorem happyFinish_lin (p : Plan) (s : Solved) :
    happyFinish (linPlan m p) (linSolved m s) = (happyFinish p s).map (linGeo m) := by
  unfold happyFinish
  rw [show finalRadius (linSolved m s).dist1 (linSolved m s).rc (linPlan m p).rDesign (linPlan m p).minError
    = finalRadius s.dist1 s.rc p.rDesign p.minError from rfl]
  rcases finalRadius s.dist1 s.rc p.rDesign p.minError with f | r1
  · rfl
  simp only [firstCurve_lin]
  rcases firstCurve p r1 s with _ | ⟨dl, v3, p2⟩
  · rfl
  simp only [Option.map_some]
  rw [show finalRadius (linSolved m s).dist2 (linSolved m s).rc2 (linPlan m p).rDesign2 (linPlan m p).minError
    = finalRadius s.dist2 s.rc2 p.rDesign2 p.minError from rfl]
  rcases finalRadius s.dist2 s.rc2 p.rDesign2 p.minError with f | r2
  · rfl
  simp only [placeSecond_lin, show (linPlan m p).vecT = m.lin p.vecT from rfl, angle_lin, Except.map, linGeo,
    motion_add, motion_smul]
  rfl

theorem attempt_lin (p : Plan) (t : Except Fail Solved) :
    attempt (linPlan m p) (t.map (linSolved m)) = (attempt p t).map (linGeo m) := by
  rcases t with f | s
  · rfl
  · exact happyFinish_lin m p s

theorem renderedEnd_lin (p : Plan) (g : Geo) :
    renderedEnd (linPlan m p) (linGeo m g) = m.lin (renderedEnd p g) := by
  simp only [renderedEnd, linGeo, linPlan, ← motion_sub, motion_dot, motion_add, motion_smul]

theorem endpointError_lin (p : Plan) (g : Geo) :
    endpointError (linPlan m p) (linGeo m g) = endpointError p g := by
  unfold endpointError
  rw [renderedEnd_lin, show (linPlan m p).posT = m.lin p.posT from rfl, ← motion_sub, motion_norm]

theorem holdDot_lin (g : Geo) :
    V3.dot ((linGeo m g).pos3 - (linGeo m g).pos2) (linGeo m g).vec3 = V3.dot (g.pos3 - g.pos2) g.vec3 := by
  simp only [linGeo, ← motion_sub, motion_dot]

theorem deltaRescue_go_lin (p : Plan) (g : Geo) (before : Ext) : ∀ l : List (Except Fail Solved),
    deltaRescue.go (linPlan m p) (linGeo m g) before (l.map (Except.map (linSolved m))) =
      (deltaRescue.go p g before l).map (linGeo m)
  | [] => rfl
  | t :: ts => by
    rw [List.map_cons]
    unfold deltaRescue.go
    rw [attempt_lin]
    rcases attempt p t with f | g'
    · cases f
      · rfl
      · exact deltaRescue_go_lin p g before ts
    · simp only [Except.map, holdDot_lin]
      rw [show (linPlan m p).minError = p.minError from rfl]
      have e : (V3.dot ((linGeo m g').pos3 - (linGeo m g').pos2) (linGeo m g').vec3 ≥ -p.minError ∧
          Ext.geLess (Ext.min (usedRadius (linPlan m p) (linGeo m g').distCurve (linGeo m g').dogleg)
            (usedRadius (linPlan m p) (linGeo m g').distCurve2 (linGeo m g').dogleg2)) before p.minError) ↔
          V3.dot (g'.pos3 - g'.pos2) g'.vec3 ≥ -p.minError ∧
          Ext.geLess (Ext.min (usedRadius p g'.distCurve g'.dogleg)
            (usedRadius p g'.distCurve2 g'.dogleg2)) before p.minError := by
        rw [holdDot_lin]; exact Iff.rfl
      by_cases hc : V3.dot (g'.pos3 - g'.pos2) g'.vec3 ≥ -p.minError ∧
          Ext.geLess (Ext.min (usedRadius p g'.distCurve g'.dogleg)
            (usedRadius p g'.distCurve2 g'.dogleg2)) before p.minError
      · rw [if_pos hc, if_pos (e.mpr hc)]
      · rw [if_neg hc, if_neg (fun x => hc (e.mp x))]
        exact deltaRescue_go_lin p g before ts

theorem deltaRescue_lin (p : Plan) (l : List (Except Fail Solved)) (g : Geo) :
    deltaRescue (linPlan m p) (l.map (Except.map (linSolved m))) (linGeo m g) =
      (deltaRescue p l g).map (linGeo m) := by
  unfold deltaRescue
  rw [holdDot_lin, show (linPlan m p).minError = p.minError from rfl]
  split_ifs
  · rfl
  · exact deltaRescue_go_lin m p g _ l

theorem projectTangent_lin (g : Geo) : projectTangent (linGeo m g) = linGeo m (projectTangent g) := by
  unfold projectTangent
  rw [holdDot_lin]
  rfl

theorem rescueLoop_lin (p : Plan) : ∀ (l : List (Except Fail Solved)) (g : Geo),
    rescueLoop (linPlan m p) (l.map (Except.map (linSolved m))) (linGeo m g) =
      (rescueLoop p l g).map (linGeo m)
  | [], g => rfl
  | t :: ts, g => by
    rw [List.map_cons]
    unfold rescueLoop
    rw [attempt_lin]
    rcases attempt p t with f | g'
    · cases f
      · rfl
      · simp only [Except.map, endpointError_lin]
        split_ifs
        · rfl
        · exact rescueLoop_lin p ts g
    · simp only [Except.map, endpointError_lin]
      by_cases hc : endpointError p g' < endpointError p g
      · simp only [if_pos hc, endpointError_lin]
        split_ifs
        · rfl
        · exact rescueLoop_lin p ts g'
      · simp only [if_neg hc, endpointError_lin]
        split_ifs
        · rfl
        · exact rescueLoop_lin p ts g

theorem endpointRescue_lin (p : Plan) (l : List (Except Fail Solved)) (g : Geo) :
    endpointRescue (linPlan m p) (l.map (Except.map (linSolved m))) (linGeo m g) =
      (endpointRescue p l g).map (linGeo m) := by
  unfold endpointRescue
  rw [endpointError_lin]
  split_ifs
  · rfl
  · exact rescueLoop_lin m p l g

theorem planarDirection_lin (p : Plan) (r1 : ℝ) (g : Geo) :
    planarDirection (linPlan m p) r1 (linGeo m g) = (planarDirection p r1 g).map m.lin := by
  unfold planarDirection
  simp only [linPlan, linGeo, getPos_lin, ← motion_sub, motion_norm, ← motion_smul, motion_dot, ← motion_add]
  split_ifs <;> rfl

theorem planarSeed_lin (p : Plan) (r1 : ℝ) (d : Option Dist) (v : V3) :
    planarSeed (linPlan m p) r1 d (m.lin v) = linSolved m (planarSeed p r1 d v) := by
  simp only [planarSeed, linPlan, angle_lin, getPos_lin, linSolved]

variable {m} (hk : KeepsAxes m)
include hk

open Classical in
theorem planarLoop_lin (p : Plan) (r1 : ℝ) (d : Option Dist) : ∀ (k : ℕ) (g best : Geo),
    planarLoop (linPlan m p) r1 d k (linGeo m g) (linGeo m best) =
      (planarLoop p r1 d k g best).map (linGeo m)
  | 0, g, best => rfl
  | k + 1, g, best => by
    unfold planarLoop
    rw [planarDirection_lin]
    rcases planarDirection p r1 g with _ | v
    · rfl
    simp only [Option.map_some]
    have h9 : allClose9 (m.lin v) (linGeo m g).vec3 ↔ allClose9 v g.vec3 := hk 1e-5 1e-9 v g.vec3
    by_cases hc : allClose9 v g.vec3
    · rw [if_pos hc, if_pos (h9.mpr hc)]
      rfl
    · rw [if_neg hc, if_neg (fun x => hc (h9.mp x)), planarSeed_lin, happyFinish_lin]
      rcases happyFinish p (planarSeed p r1 d v) with f | g'
      · cases f <;> rfl
      · simp only [Except.map, endpointError_lin]
        by_cases hb : endpointError p g' < endpointError p best
        · simp only [if_pos hb, endpointError_lin]
          split_ifs
          · rfl
          · exact planarLoop_lin p r1 d k g' g'
        · simp only [if_neg hb, endpointError_lin]
          split_ifs
          · rfl
          · exact planarLoop_lin p r1 d k g' best

theorem enforcePlanarity_lin (p : Plan) (d1 d2 : Option Dist) (rc : Ext) (g : Geo) :
    enforcePlanarity (linPlan m p) d1 d2 rc (linGeo m g) = (enforcePlanarity p d1 d2 rc g).map (linGeo m) := by
  unfold enforcePlanarity
  rw [endpointError_lin]
  have e : ∀ x, finalRadius x rc (linPlan m p).rDesign (linPlan m p).minError
    = finalRadius x rc p.rDesign p.minError := fun _ => rfl
  split_ifs
  · rfl
  · rcases d1 with _ | x
    · rcases rc with r | _
      · simp only [show (linPlan m p).rDesign = p.rDesign from rfl]
        rcases Ext.min (if 0 < r then .val r else p.rDesign) p.rDesign with r1 | _
        · exact planarLoop_lin hk p r1 d2 8 g g
        · rfl
      · simp only [show (linPlan m p).rDesign = p.rDesign from rfl]
        rcases p.rDesign with r1 | _
        · exact planarLoop_lin hk p r1 d2 8 g g
        · rfl
    · simp only [e]
      rcases finalRadius (some x) rc p.rDesign p.minError with f | r1
      · cases f <;> rfl
      · exact planarLoop_lin hk p r1 d2 8 g g

theorem finish_lin (p : Plan) (r : Runs) :
    finish (linPlan m p) (linRuns m r) = (finish p r).map (linGeo m) := by
  unfold finish
  have e1 : attempt (linPlan m p) (linRuns m r).main = _ := attempt_lin m p r.main
  rw [e1]
  rcases attempt p r.main with f | g
  · rfl
  change (deltaRescue (linPlan m p) (linRuns m r).delta (linGeo m g) >>= _) =
    Except.map _ (deltaRescue p r.delta g >>= _)
  rw [show deltaRescue (linPlan m p) (linRuns m r).delta (linGeo m g) = _ from deltaRescue_lin m p r.delta g]
  rcases deltaRescue p r.delta g with f | g
  · rfl
  change (endpointRescue (linPlan m p) (linRuns m r).retries (projectTangent (linGeo m g)) >>= _) =
    Except.map _ (endpointRescue p r.retries (projectTangent g) >>= _)
  rw [projectTangent_lin, show endpointRescue (linPlan m p) (linRuns m r).retries _ = _ from
    endpointRescue_lin m p r.retries (projectTangent g)]
  rcases endpointRescue p r.retries (projectTangent g) with f | g
  · rfl
  exact enforcePlanarity_lin hk p r.dist1 r.dist2 r.rc g

end finishing

/-- What the rest of the construction reads after a turned search is turned. -/
theorem solved_lin (m : Motion) (s : St) : (linSt m s).solved = s.solved.map (linSolved m) := by
  unfold St.solved linSt
  rcases s.leg1 with _ | l1
  · rfl
  rcases s.leg2 with _ | l2
  · rfl
  rfl

/-- C333: the search for a path with two curves, in coordinates turned by a quarter turn: it succeeds or
fails alike, after as many steps, with the same depths, radii and severities and the turned points and
directions, and what the finish reads of it is turned.  The target is off the line of the start, and the
start not straight behind the target. -/
theorem C333_search (j : Job) {pos1 posT : V3} (hv : j.vec1.IsUnit) (he0 : 0 ≤ j.minError)
    (he : j.minError < 1) (h1 : OffLine j.vec1 (posT - pos1))
    (h2 : ¬ StraightAhead posT ((-1 : ℝ) • j.vecT) pos1) :
    let m := Motion.turning (π / 2) 0
    search (linJob m j) (m.lin pos1) (m.lin posT) = (search j pos1 posT).map (linSt m) ∧
    ∀ s : St, (linSt m s).solved = s.solved.map (linSolved m) ∧
      (linSt m s).plan (linJob m j) = linPlan m (s.plan j) :=
  ⟨search_lin (quarter_keepsAxes 0) (turning_proper _ _) j hv he0 he h1 h2,
    fun s => ⟨solved_lin _ s, rfl⟩⟩

/-- C333: the finish of the path, with its rescues, in coordinates turned by a quarter turn. -/
theorem C333_finish (p : Plan) (r : Runs) :
    let m := Motion.turning (π / 2) 0
    finish (linPlan m p) (linRuns m r) = (finish p r).map (linGeo m) :=
  finish_lin (quarter_keepsAxes 0) p r

/-- C334: the finish of a path with two curves, with its rescues, in mirrored coordinates. -/
theorem C334_finish (p : Plan) (r : Runs) :
    let m := Motion.mirroring 0
    finish (linPlan m p) (linRuns m r) = (finish p r).map (linGeo m) :=
  finish_lin (mirror_keepsAxes 0) p r

/-! What the motions do to a point, and a search and a finish that succeed. -/

example (n e v : ℝ) : (Motion.turning (π / 2) 0).lin ⟨n, e, v⟩ = ⟨-e, n, v⟩ ∧
    (Motion.mirroring 0).lin ⟨n, e, v⟩ = ⟨n, -e, v⟩ := by
  constructor <;> ext <;> simp [Motion.lin, Motion.turning, Motion.mirroring]

example : ∃ s, search (jobOf ⟨0, 0, 1⟩ ⟨3 / 5, 0, 4 / 5⟩) 0 ⟨500, 200, 1000⟩ = .ok s ∧
    search (linJob (Motion.turning (π / 2) 0) (jobOf ⟨0, 0, 1⟩ ⟨3 / 5, 0, 4 / 5⟩))
      ((Motion.turning (π / 2) 0).lin 0) ((Motion.turning (π / 2) 0).lin ⟨500, 200, 1000⟩)
      = .ok (linSt (Motion.turning (π / 2) 0) s) := by
  obtain ⟨s, hs, h1, h2⟩ := sample_search
  refine ⟨s, hs, ?_⟩
  rw [(C333_search _ (by simp [jobOf, V3.IsUnit, V3.dot]) (by simp [jobOf]; norm_num)
    (by simp [jobOf]; norm_num) ?_ h2).1, hs]
  · rfl
  · unfold OffLine V3.norm
    rw [lt_sqrt (by norm_num)]
    simp [jobOf, V3.dot]
    norm_num

/-- C332 applies for every angle if start and target differ in depth. -/
example (θ : ℝ) : connectPos (.val 1) 1e-5 ((Motion.turning θ 0).lin 0) ((Motion.turning θ 0).lin 0)
    ((Motion.turning θ 0).lin ⟨0, 0, 1⟩) ((Motion.turning θ 0).lin ⟨4, 0, 3⟩) =
    (connectPos (.val 1) 1e-5 0 0 ⟨0, 0, 1⟩ ⟨4, 0, 3⟩).map (linResult (Motion.turning θ 0)) := by
  have hna : ¬ StraightAhead 0 (⟨0, 0, 1⟩ : V3) ⟨4, 0, 3⟩ := by
    rintro ⟨t, ht, h⟩
    have := congrArg V3.x h
    simp at this
  refine C332_turned_partial _ _ _ _ _ _ _ ?_
  rw [modTarget_idle hna]
  constructor
  · rintro ⟨-, -, h⟩; unfold isClose at h; norm_num at h
  · rintro ⟨-, -, h⟩
    unfold isClose at h
    simp [Motion.lin, Motion.turning] at h
    norm_num at h

/-- The connection to the position `(4, 0, 3)` of a vertical well, seen with another north. -/
example : connectPos (.val 1) 1e-5 ((Motion.turning (π / 2) 0).lin 0) ((Motion.turning (π / 2) 0).lin 0)
    ((Motion.turning (π / 2) 0).lin ⟨0, 0, 1⟩) ((Motion.turning (π / 2) 0).lin ⟨4, 0, 3⟩) =
    (connectPos (.val 1) 1e-5 0 0 ⟨0, 0, 1⟩ ⟨4, 0, 3⟩).map (linResult (Motion.turning (π / 2) 0)) :=
  C333_position ..

end Welleng.Props
