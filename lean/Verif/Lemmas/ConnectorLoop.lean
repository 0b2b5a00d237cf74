import Verif.Model.ConnectorLoop
import Verif.Lemmas.Connector
import Verif.Lemmas.ConnectorSolve

namespace Welleng.Con

open Real

theorem getDistances_nonneg (pos vec q : V3) :
    0 ≤ (getDistances pos vec q).d ∧ 0 ≤ (getDistances pos vec q).n ∧
      (getDistances pos vec q).n ≤ (getDistances pos vec q).d := by
  unfold getDistances
  split_ifs
  · exact ⟨le_rfl, le_rfl, le_rfl⟩
  · refine ⟨V3.norm_nonneg _, sqrt_nonneg _, ?_⟩
    refine (sqrt_le_left (V3.norm_nonneg _)).mpr ?_
    linarith [sq_nonneg (if V3.dot (q - pos) vec > V3.norm (q - pos) then V3.norm (q - pos)
      else V3.dot (q - pos) vec)]

theorem getRadiusCritical_ok {x : Dist} {e : ℝ} (hn : 0 ≤ x.n) (hnd : x.n ≤ x.d)
    (he : e < 1) : ∃ rc, getRadiusCritical x e = some rc ∧ 0 ≤ rc ∧
      2 * rc * x.n = (if x.n = 0 then 0 else x.d ^ 2 * (1 - e)) := by
  unfold getRadiusCritical
  by_cases h : x.n = 0
  · exact ⟨0, by rw [if_pos h], le_rfl, by rw [if_pos h]; simp⟩
  · have hp : 0 < x.n := lt_of_le_of_ne hn (Ne.symm h)
    have hd : 0 < x.d := lt_of_lt_of_le hp hnd
    have h1 : 0 < 1 - e := by linarith
    have : 0 < x.d ^ 2 / (2 * x.n) * (1 - e) := by positivity
    refine ⟨x.d ^ 2 / (2 * x.n) * (1 - e), ?_, this.le, ?_⟩
    · rw [if_neg h]; simp only [this, if_true]
    · rw [if_neg h]; field_simp

/-- What every curve and hold of the search satisfies. -/
structure LegOk (e mt r : ℝ) (pos vec q : V3) (l : Leg) : Prop where
  dist : l.dist = getDistances pos vec q
  crit : getRadiusCritical l.dist e = some l.rc
  rc_nonneg : 0 ≤ l.rc
  radius : l.radius = min r l.rc
  tangent : 0 ≤ l.tangent
  tangent_sq : l.tangent ^ 2 = l.dist.d ^ 2 - 2 * l.radius * l.dist.n
  dogleg_nonneg : 0 ≤ l.dogleg
  dogleg_le : l.dogleg ≤ 2 * π
  distCurve : l.distCurve = l.radius * l.dogleg
  dir : l.dir = getVecTarget pos vec q l.tangent l.distCurve (getRf l.dogleg)
  hold : l.hold = max l.tangent mt
  joint : l.joint = q - l.hold • l.dir

theorem leg_ok {e : ℝ} (mt : ℝ) {r : ℝ} (pos vec q : V3) (he0 : 0 ≤ e) (he : e < 1) :
    ∃ l, leg e mt r pos vec q = .ok l ∧ LegOk e mt r pos vec q l := by
  obtain ⟨hd, hn, hnd⟩ := getDistances_nonneg pos vec q
  obtain ⟨rc, h1, h2, h3⟩ := getRadiusCritical_ok hn hnd he
  set x := getDistances pos vec q with hx
  have hq : 0 ≤ x.d ^ 2 - 2 * min r rc * x.n := by
    have : min r rc * x.n ≤ rc * x.n := mul_le_mul_of_nonneg_right (min_le_right _ _) hn
    split_ifs at h3 with h
    · rw [h]; nlinarith [sq_nonneg x.d]
    · nlinarith [sq_nonneg x.d, mul_nonneg (sq_nonneg x.d) he0]
  have key : ∃ l, leg e mt r pos vec q = .ok l ∧ ∃ t dl, t = √(x.d ^ 2 - 2 * min r rc * x.n) ∧
      dl = checkDogleg (2 * atan2 (x.p - t) (2 * min r rc - x.n)) ∧
      l = ⟨x, rc, min r rc, t, dl, min r rc * dl, getVecTarget pos vec q t (min r rc * dl) (getRf dl),
        max t mt, q - max t mt • getVecTarget pos vec q t (min r rc * dl) (getRf dl)⟩ := by
    unfold leg
    simp only [← hx, h1, minDistToTarget, if_neg (not_lt.mpr hq)]
    exact ⟨_, rfl, _, _, rfl, rfl, rfl⟩
  obtain ⟨l, hl, t, dl, ht, hdl, rfl⟩ := key
  refine ⟨_, hl, ⟨rfl, h1, h2, rfl, ?_, ?_, ?_, ?_, rfl, rfl, rfl, rfl⟩⟩
  · show 0 ≤ t
    rw [ht]; exact sqrt_nonneg _
  · show t ^ 2 = _
    rw [ht]; exact sq_sqrt hq
  · show 0 ≤ dl
    rw [hdl]; exact checkDogleg_nonneg _ _
  · show dl ≤ _
    rw [hdl]; exact checkDogleg_le _ _

theorem leg_spec {e mt r : ℝ} {pos vec q : V3} {l : Leg} (he0 : 0 ≤ e) (he : e < 1)
    (h : leg e mt r pos vec q = .ok l) : LegOk e mt r pos vec q l := by
  obtain ⟨l', h1, h2⟩ := leg_ok mt (r := r) pos vec q he0 he
  rw [h] at h1
  injection h1 with h1
  exact h1 ▸ h2

/-- The length of the curve is not negative. -/
theorem LegOk.distCurve_nonneg {e mt r : ℝ} {pos vec q : V3} {l : Leg} (h : LegOk e mt r pos vec q l)
    (hr : 0 ≤ r) : 0 ≤ l.distCurve := by
  rw [h.distCurve, h.radius]
  exact mul_nonneg (le_min hr h.rc_nonneg) h.dogleg_nonneg

theorem LegOk.hold_nonneg {e mt r : ℝ} {pos vec q : V3} {l : Leg} (h : LegOk e mt r pos vec q l) :
    0 ≤ l.hold := by rw [h.hold]; exact le_trans h.tangent (le_max_left _ _)

/-- What every step of the search does. -/
structure Stepped (j : Job) (r1 r2 : ℝ) (s s' : St) (old : V3) (b : Bool) : Prop where
  pos1 : s'.pos1 = s.pos1
  posT : s'.posT = s.posT
  errors : s'.errors = b :: s.errors
  pos3List : s'.pos3List = s'.pos3 :: s.pos3List
  iterations : s'.iterations = s.iterations
  legs : ∃ l1 l2, s'.leg1 = some l1 ∧ s'.leg2 = some l2 ∧
    LegOk j.minError j.minTangent r1 s.pos1 j.vec1
      (modTarget (j.noise s.drawn) s.pos1 j.vec1 s.pos3) l1 ∧
    LegOk j.minError j.minTangent r2 s.posT ((-1 : ℝ) • j.vecT) s'.pos2 l2 ∧
    s'.pos2 = modTarget (j.noise (s.drawn + 1)) s.posT ((-1 : ℝ) • j.vecT) l1.joint ∧
    s'.pos3 = (1 / 2 : ℝ) • l2.joint + (1 / 2 : ℝ) • s.pos3 ∧
    s'.mdT = j.md1 + l1.distCurve + l2.hold + l2.distCurve ∧
    s'.rc = lower s.rc r1 j.minError l1.rc ∧ s'.rc2 = lower s.rc2 r2 j.minError l2.rc
  dls : s'.dls = Ext.max (dlsOf (.val j.r1)) (dlsOf s'.rc)
  dls2 : s'.dls2 = Ext.max (dlsOf (.val j.r2)) (dlsOf s'.rc2)

theorem stepOnce_ok (j : Job) (r1 r2 : ℝ) (s : St) (old : V3) (he0 : 0 ≤ j.minError)
    (he : j.minError < 1) :
    ∃ s' b, stepOnce j r1 r2 s old = .ok (s', b) ∧ Stepped j r1 r2 s s' old b := by
  obtain ⟨l1, h1, k1⟩ := leg_ok j.minTangent (r := r1) s.pos1 j.vec1
    (modTarget (j.noise s.drawn) s.pos1 j.vec1 s.pos3) he0 he
  obtain ⟨l2, h2, k2⟩ := leg_ok j.minTangent (r := r2) s.posT ((-1 : ℝ) • j.vecT)
    (modTarget (j.noise (s.drawn + 1)) s.posT ((-1 : ℝ) • j.vecT) l1.joint) he0 he
  unfold stepOnce
  simp only [h1, h2]
  exact ⟨_, _, rfl, ⟨rfl, rfl, rfl, rfl, rfl, ⟨l1, l2, rfl, rfl, k1, k2, rfl, rfl, rfl, rfl, rfl⟩,
    rfl, rfl⟩⟩

theorem stepOnce_spec {j : Job} {r1 r2 : ℝ} {s s' : St} {old : V3} {b : Bool}
    (he0 : 0 ≤ j.minError) (he : j.minError < 1) (h : stepOnce j r1 r2 s old = .ok (s', b)) :
    Stepped j r1 r2 s s' old b := by
  obtain ⟨t, c, h1, h2⟩ := stepOnce_ok j r1 r2 s old he0 he
  rw [h] at h1
  injection h1 with h1
  obtain ⟨rfl, rfl⟩ := Prod.mk.inj h1
  exact h2

/-- Induction over the steps of the iteration: what holds at the beginning and is kept by every
step holds at the end, and the iteration does not fail. -/
theorem iterate_ok {j : Job} {r1 r2 : ℝ} (he0 : 0 ≤ j.minError) (he : j.minError < 1)
    (P : ℕ → St → Prop)
    (hstep : ∀ k s s' old b, P k s → Stepped j r1 r2 s s' old b → P (k + 1) s')
    (hit : ∀ k s, P k s → P k { s with iterations := s.iterations + 1 }) :
    ∀ (n k : ℕ) (s : St) (old : V3), P k s →
      ∃ s' m, iterate j r1 r2 n s old = .ok s' ∧ P m s' ∧ k ≤ m ∧ m ≤ k + n ∧ (0 < n → k < m)
  | 0, k, s, old, h => ⟨s, k, rfl, h, le_rfl, le_rfl, fun h => absurd h (lt_irrefl 0)⟩
  | n + 1, k, s, old, h => by
    obtain ⟨s1, b, h1, h2⟩ := stepOnce_ok j r1 r2 s old he0 he
    have h3 := hstep k s s1 old b h h2
    cases b with
    | true =>
      refine ⟨s1, k + 1, ?_, h3, by omega, by omega, fun _ => by omega⟩
      simp only [iterate, h1]
    | false =>
      obtain ⟨s2, m, h4, h5, h6, h7, -⟩ := iterate_ok he0 he P hstep hit n (k + 1)
        { s1 with iterations := s1.iterations + 1 } s1.dir23 (hit _ _ h3)
      refine ⟨s2, m, ?_, h5, by omega, by omega, fun _ => by omega⟩
      simp only [iterate, h1]
      exact h4

theorem pick_ok (j : Job) (pos1 posT : V3) (r1 r2 : ℝ) (he : j.minError < 1) :
    ∀ (l : List V3) (k : ℕ) (best : V3) (b : Option ℝ),
      ∃ q, pick j pos1 posT r1 r2 l k best b = .ok q
  | [], _, best, _ => ⟨best, rfl⟩
  | p :: rest, k, best, b => by
    obtain ⟨-, hn, hnd⟩ := getDistances_nonneg posT ((-1 : ℝ) • j.vecT)
      (modTarget (j.noise k) posT ((-1 : ℝ) • j.vecT) (candidate pos1 j.vec1 r1 p))
    obtain ⟨rc, h1, -, -⟩ := getRadiusCritical_ok hn hnd he
    unfold pick
    simp only [h1]
    split_ifs
    · exact ⟨_, rfl⟩
    · cases b with
      | none => exact pick_ok j pos1 posT r1 r2 he rest _ _ _
      | some b =>
        simp only
        split_ifs
        · exact pick_ok j pos1 posT r1 r2 he rest _ _ _
        · exact pick_ok j pos1 posT r1 r2 he rest _ _ _

theorem getPos2_ok (j : Job) {rc : Ext} (hrc : Ext.pos rc) (r : ℝ) (pos vec q : V3)
    (he0 : 0 ≤ j.minError) (he : j.minError < 1) : ∃ p, getPos2 j rc r pos vec q = .ok p := by
  obtain ⟨l, h, -⟩ := leg_ok j.minTangent (r := r) pos vec q he0 he
  refine ⟨l.joint, ?_⟩
  unfold getPos2
  simp only [h]
  rw [if_neg (fun hh => hh.2 hrc)]

/-- The starting point exists, and finding it changes nothing but the two ends (each moved at
most once), the point itself and the number of draws. -/
theorem start_ok (j : Job) (r1 r2 : ℝ) (s : St) (hrc : Ext.pos s.rc) (he0 : 0 ≤ j.minError)
    (he : j.minError < 1) : ∃ s', start j r1 r2 s = .ok s' := by
  unfold start middle
  obtain ⟨a, ha⟩ := getPos2_ok j hrc r1 s.pos1 j.vec1
    (modTarget (j.noise s.drawn) s.pos1 j.vec1 s.posT) he0 he
  simp only [ha]
  obtain ⟨b, hb⟩ := getPos2_ok j hrc r2 (modTarget (j.noise s.drawn) s.pos1 j.vec1 s.posT)
    ((-1 : ℝ) • j.vecT) (modTarget (j.noise (s.drawn + 1))
      (modTarget (j.noise s.drawn) s.pos1 j.vec1 s.posT) ((-1 : ℝ) • j.vecT) s.pos1) he0 he
  simp only [hb]
  generalize modTarget (j.noise s.drawn) s.pos1 j.vec1 s.posT = posT
  generalize modTarget (j.noise (s.drawn + 1)) posT ((-1 : ℝ) • j.vecT) s.pos1 = pos1
  generalize modTarget (j.noise (s.drawn + 2)) pos1 j.vec1 (a + (1 / 2 : ℝ) • (b - a)) = m1
  generalize modTarget (j.noise (s.drawn + 3)) posT ((-1 : ℝ) • j.vecT) m1 = m2
  obtain ⟨-, n1, d1⟩ := getDistances_nonneg pos1 j.vec1 m1
  obtain ⟨-, n2, d2⟩ := getDistances_nonneg posT ((-1 : ℝ) • j.vecT) m2
  obtain ⟨c1, e1, -⟩ := getRadiusCritical_ok n1 d1 he
  obtain ⟨c2, e2, -⟩ := getRadiusCritical_ok n2 d2 he
  simp only [e1, e2]
  split_ifs
  · exact ⟨_, rfl⟩
  · obtain ⟨q, hq⟩ := pick_ok j pos1 posT r1 r2 he (perps j.vec1 (posT - pos1)) (s.drawn + 4)
      (candidate pos1 j.vec1 r1 (acrossHat j.vec1 (posT - pos1))) none
    unfold fallback
    simp only [hq]
    exact ⟨_, rfl⟩

/-- What finding the starting point does to the state. -/
theorem start_spec {j : Job} {r1 r2 : ℝ} {s s' : St} (h : start j r1 r2 s = .ok s') :
    s'.posT = modTarget (j.noise s.drawn) s.pos1 j.vec1 s.posT ∧
    s'.pos1 = modTarget (j.noise (s.drawn + 1)) s'.posT ((-1 : ℝ) • j.vecT) s.pos1 ∧
    s' = { s with pos1 := s'.pos1, posT := s'.posT, pos3 := s'.pos3, drawn := s.drawn + 8 } := by
  unfold start middle at h
  split at h
  · cases h
  · rename_i hm
    simp only at hm h
    split at hm
    · cases hm
    · split at hm
      · cases hm
      · injection hm with hm
        obtain ⟨h1, h2⟩ := Prod.mk.inj hm
        obtain ⟨h2, h3⟩ := Prod.mk.inj h2
        subst h1 h2
        split at h
        · split_ifs at h
          · injection h with h
            subst h
            exact ⟨rfl, rfl, rfl⟩
          · split at h
            · cases h
            · injection h with h
              subst h
              exact ⟨rfl, rfl, rfl⟩
        · cases h

end Welleng.Con
