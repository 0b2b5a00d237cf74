import Verif.Props.TiData
import Verif.Props.TorqueDragMore
import Verif.Props.Sections

/-!
C336-C338: forces, tortuosity and control points of a well mirrored in the vertical plane through north.
-/

namespace Welleng.Props

open Real Sec Ti Td Spec

/-! ### C336 -/

theorem deltas_neg (l : List ℝ) : deltas (l.map fun z => -z) = (deltas l).map fun z => -z := by
  cases l with
  | nil => rfl
  | cons x t =>
    simp only [deltas, List.map_cons, neg_zero, List.map_zipWith]
    congr 1
    rw [← List.map_cons (f := fun z => -z), List.zipWith_map]
    congr 1
    funext b a
    ring

/-- An element turning the other way. -/
def elemMirrored (e : Elem) : Elem := { e with aziDelta := -e.aziDelta }

theorem rows_mirrored (a : Arrays) :
    rows { a with aziDelta := a.aziDelta.map fun z => -z } = (rows a).map elemMirrored := by
  unfold rows
  simp only [← List.map_take, ← List.map_reverse, List.zip_map_right, List.zip_map_left, List.map_map]
  congr 1

theorem step_mirrored (s : Loads × ℝ) (e : Elem) : step s (elemMirrored e) = step s e := by
  simp only [step, normalOf, elemMirrored, forceNormal, forceTensionDelta, mul_neg, neg_mul, neg_sq]

theorem states_mirrored (s : Loads × ℝ) (es : List Elem) : states s (es.map elemMirrored) = states s es := by
  induction es generalizing s with
  | nil => rfl
  | cons e t ih => simp only [List.map_cons, states, step_mirrored, ih]

/-- C336, partial: with the sign of every azimuth changed all forces and torques are the same. -/
theorem C336_mirror_partial (inc azi weight mu radius : List ℝ) (wob tob overpull : Option ℝ)
    (p : Profiles) :
    getForces (arraysOf inc (azi.map fun z => -z) weight mu radius) wob tob overpull p
      = getForces (arraysOf inc azi weight mu radius) wob tob overpull p := by
  have e : rows (arraysOf inc (azi.map fun z => -z) weight mu radius)
      = (rows (arraysOf inc azi weight mu radius)).map elemMirrored := by
    rw [← rows_mirrored]
    simp only [arraysOf, deltas_neg]
  unfold getForces profile
  rw [e, states_mirrored]

/-- C336 is false of azimuths between north and a full turn, as a survey has them: a level turn from north to
north-east, and its mirror image to north-west, have different overpull tensions. -/
theorem C336_mirror_changes_forces :
    let azi := [0, π / 4]
    let mirrored := azi.map fun z => pmod (-z) (2 * π)
    (profile (⟨1, 0, 0⟩, 0) (rows (arraysOf [π / 2, π / 2] azi [0, 0] [1, 1] [1, 1])))[0]?.map
        (·.1.pickup) = some (1 + π / 4) ∧
    (profile (⟨1, 0, 0⟩, 0) (rows (arraysOf [π / 2, π / 2] mirrored [0, 0] [1, 1] [1, 1])))[0]?.map
        (·.1.pickup) = some (1 + 7 * π / 4) := by
  have hpi := pi_pos
  have h1 : pmod (-0) (2 * π) = 0 := by simp [pmod]
  have h2 : pmod (-(π / 4)) (2 * π) = 7 * π / 4 := by
    unfold pmod
    have : ⌊-(π / 4) / (2 * π)⌋ = -1 := by
      rw [Int.floor_eq_iff]
      have : -(π / 4) / (2 * π) = -1 / 8 := by field_simp; ring
      rw [this]; norm_num
    rw [this]; push_cast; ring
  constructor
  · simp [arraysOf, rows, incAverage, deltas, profile, states, step, normalOf, forceNormal,
      forceTensionDelta]
    exact sqrt_sq (by positivity)
  · simp only [List.map_cons, List.map_nil, h1, h2]
    simp [arraysOf, rows, incAverage, deltas, profile, states, step, normalOf, forceNormal,
      forceTensionDelta]
    exact sqrt_sq (by positivity)

/-! ### C337 -/

/-- `r'` is the station `r` of the mirrored well; its azimuth may be reduced to a full turn. -/
structure IsMirror (r r' : Row) : Prop where
  md : r'.st.md = r.st.md
  inc : r'.st.inc = r.st.inc
  sin : sin r'.st.azi = -sin r.st.azi
  cos : cos r'.st.azi = cos r.st.azi
  pos : r'.pos = ⟨r.pos.x, -r.pos.y, r.pos.z⟩
  dls : r'.dls = r.dls

/-- What mirroring does to the axis of a turn. -/
def axisMirrored (v : V3) : V3 := ⟨-v.x, v.y, -v.z⟩

theorem axis_norm (v : V3) : V3.norm (axisMirrored v) = V3.norm v := by
  simp [V3.norm, V3.dot, axisMirrored]

theorem normal_mirrored {a b a' b' : Row} (ha : IsMirror a a') (hb : IsMirror b b') :
    normal a'.st b'.st = (normal a.st b.st).map axisMirrored := by
  have e : V3.cross (getVec a'.st.inc a'.st.azi true) (getVec b'.st.inc b'.st.azi true)
      = axisMirrored (V3.cross (getVec a.st.inc a.st.azi true) (getVec b.st.inc b.st.azi true)) := by
    simp only [getVec_nev, V3.cross, tangent, axisMirrored, ha.inc, ha.sin, ha.cos, hb.inc, hb.sin, hb.cos]
    ext <;> simp only <;> ring
  unfold normal Tf.intervalNormal
  rw [e]
  generalize V3.cross (getVec a.st.inc a.st.azi true) (getVec b.st.inc b.st.azi true) = c
  have h0 : axisMirrored c = 0 ↔ c = 0 := by
    rw [V3.ext_iff, V3.ext_iff]
    simp [axisMirrored]
  by_cases hc : c = 0
  · rw [if_pos (h0.2 hc), if_pos hc]; rfl
  · rw [if_neg (h0.not.2 hc), if_neg hc, Option.map_some]
    congr 1
    unfold normalize
    rw [axis_norm]
    ext <;> simp [axisMirrored]

theorem isClose_neg (r t x y : ℝ) : isClose r t (-x) (-y) ↔ isClose r t x y := by
  unfold isClose
  rw [abs_neg, show -x - -y = -(x - y) by ring, abs_neg]

theorem normalsClose_mirrored (r t : ℝ) (a b : Option V3) :
    normalsClose r t (a.map axisMirrored) (b.map axisMirrored) ↔ normalsClose r t a b := by
  cases a <;> cases b <;> simp [normalsClose, axisMirrored, isClose_neg]

theorem excess_mirrored {sv sv' : ℕ → Row} (h : ∀ k, IsMirror (sv k) (sv' k)) (s j : ℕ) :
    V3.norm ((sv' j).pos - (sv' s).pos) = V3.norm ((sv j).pos - (sv s).pos) := by
  rw [(h j).pos, (h s).pos]
  simp only [V3.norm, V3.dot, V3.sub_x, V3.sub_y, V3.sub_z]
  congr 1
  ring

theorem tiContinuous_mirrored (rtol : ℝ) (t : Option ℝ) {sv sv' : ℕ → Row}
    (h : ∀ k, IsMirror (sv k) (sv' k)) (n : ℕ) : tiContinuous rtol t sv' n = tiContinuous rtol t sv n := by
  unfold tiContinuous
  refine List.map_congr_left fun k _ => ?_
  rw [decide_eq_decide, normal_mirrored (h _) (h _), normal_mirrored (h _) (h _), (h k).dls, (h (k + 1)).dls,
    normalsClose_mirrored]

/-- C337: a mirrored well is cut into sections at the same stations and has the same tortuosity index, the
same modified index and the same difficulty index. -/
theorem C337_mirrored (coeff kappa rtol : ℝ) (t : Option ℝ) {sv sv' : ℕ → Row}
    (h : ∀ k, IsMirror (sv k) (sv' k)) (n : ℕ) :
    tiStarts rtol t sv' n = tiStarts rtol t sv n ∧
    tiOf coeff kappa rtol t sv' n = tiOf coeff kappa rtol t sv n ∧
    mtiOf coeff kappa rtol t sv' n = mtiOf coeff kappa rtol t sv n ∧
    ∀ k, dogleg2 (sv' k).st (sv' (k + 1)).st = dogleg2 (sv k).st (sv (k + 1)).st ∧
      ∀ turned, ddi (sv' k).st.md (sv' k).pos.x (sv' k).pos.y (sv' k).pos.z turned
        = ddi (sv k).st.md (sv k).pos.x (sv k).pos.y (sv k).pos.z turned := by
  have hc := tiContinuous_mirrored rtol t h n
  have hm : (fun k => (sv' k).st.md) = fun k => (sv k).st.md := funext fun k => (h k).md
  refine ⟨by unfold tiStarts; rw [hc], ?_, ?_, fun k => ⟨?_, fun turned => ?_⟩⟩
  · unfold tiOf tortuosityIndex excessTi
    simp only [hc, hm, excess_mirrored h, (h _).md]
  · unfold mtiOf modifiedTortuosityIndex excessMti
    simp only [hc, hm, excess_mirrored h, (h _).md]
  · unfold dogleg2
    rw [getDogleg_eq_arccos, getDogleg_eq_arccos]
    congr 1
    simp only [V3.dot, tangent, (h _).inc, (h _).sin, (h _).cos]
    ring
  · rw [(h k).md, (h k).pos]
    simp only [ddi, neg_sq]

/-! ### C338 -/

/-- `p'` is the control point `p` of the mirrored well: azimuth (in degrees, below 360) and easting are
mirrored and the turn rate has the other sign; so has the toolface, unless the well does not turn. -/
structure PointMirrored (p p' : TurnPoint) : Prop where
  md : p'.md = p.md
  inc : p'.inc = p.inc
  azi : p'.azi = if p.azi = 0 then 0 else 360 - p.azi
  location : p'.location = ⟨-p.location.x, p.location.y, p.location.z⟩
  dls : p'.dls = p.dls
  buildRate : p'.buildRate = p.buildRate
  turnRate : p'.turnRate = p.turnRate.map fun x => -x
  toolface : p'.toolface = -p.toolface ∨ ((∀ r ∈ p.turnRate, r = 0) ∧ p'.toolface = p.toolface)
  method : p'.method = p.method
  tieOn : p'.tieOn = p.tieOn

/-- Azimuths below a full turn. -/
def Reduced (sv : ℕ → Row) : Prop := ∀ k, 0 ≤ (sv k).st.azi ∧ (sv k).st.azi < 2 * π

theorem azi_mirrored {r r' : Row} (h : IsMirror r r') (h0 : 0 ≤ r.st.azi) (h1 : r.st.azi < 2 * π)
    (h0' : 0 ≤ r'.st.azi) (h1' : r'.st.azi < 2 * π) :
    r'.st.azi = if r.st.azi = 0 then 0 else 2 * π - r.st.azi := by
  have hpi := pi_pos
  have hc : cos (r'.st.azi + r.st.azi) = 1 := by
    rw [cos_add, h.sin, h.cos]
    linear_combination sin_sq_add_cos_sq r.st.azi
  obtain ⟨k, hk⟩ := (cos_eq_one_iff _).mp hc
  have k0 : (0 : ℝ) ≤ k := by
    by_contra hn
    push Not at hn
    nlinarith
  have k2 : (k : ℝ) < 2 := by
    by_contra hn
    push Not at hn
    nlinarith
  have k0' : 0 ≤ k := by exact_mod_cast k0
  have k2' : k < 2 := by exact_mod_cast k2
  interval_cases k
  · simp at hk
    rw [if_pos (by linarith)]
    linarith
  · simp at hk
    rw [if_neg (by intro hz; linarith)]
    linarith

theorem t1_mirrored {a b a' b' : Row} (ha : IsMirror a a') (hb : IsMirror b b') :
    |Tf.t1 a'.st b'.st| = |Tf.t1 a.st b.st| := by
  have e1 : sin (b'.st.azi - a'.st.azi) = -sin (b.st.azi - a.st.azi) := by
    rw [sin_sub, sin_sub, ha.sin, ha.cos, hb.sin, hb.cos]; ring
  have e2 : cos (b'.st.azi - a'.st.azi) = cos (b.st.azi - a.st.azi) := by
    rw [cos_sub, cos_sub, ha.sin, ha.cos, hb.sin, hb.cos]; ring
  have key : ∀ y x : ℝ, |atan2 (-y) x| = |atan2 y x| := by
    intro y x
    have : (⟨x, -y⟩ : ℂ) = (starRingEnd ℂ) ⟨x, y⟩ := rfl
    unfold atan2
    rw [this, Complex.arg_conj]
    split_ifs with h
    · rw [h]
    · rw [abs_neg]
  unfold Tf.t1
  rw [e1, e2, ha.inc, hb.inc, mul_neg, key]

theorem degrees_eq (x : ℝ) : degrees x = x * 180 / π := by
  unfold degrees
  ring

/-- Azimuths of the mirrored well, in degrees. -/
theorem degrees_mirrored {a a' : ℝ} (h : a' = if a = 0 then 0 else 2 * π - a) :
    degrees a' = if degrees a = 0 then 0 else 360 - degrees a := by
  have hpi := pi_pos.ne'
  have e : degrees a = 0 ↔ a = 0 := by
    rw [degrees_eq]
    simp [hpi]
  rw [h]
  by_cases ha : a = 0
  · rw [if_pos ha, if_pos (e.2 ha), degrees_eq]; simp
  · rw [if_neg ha, if_neg (e.not.2 ha), degrees_eq, degrees_eq]
    field_simp
    ring

theorem turns_mirrored {x y x' y' : ℝ} (hx : 0 ≤ x ∧ x < 360) (hy : 0 ≤ y ∧ y < 360)
    (ex : x' = if x = 0 then 0 else 360 - x) (ey : y' = if y = 0 then 0 else 360 - y)
    (hn : |x - y| ≠ 180) :
    deltaAzi (x' - y') = -deltaAzi (x - y) ∧
    (x - y ≠ 0 → turnSign (x' - y') = -turnSign (x - y)) ∧ (x - y = 0 → x' - y' = 0) := by
  have n1 : x - y ≠ 180 := fun h => hn (by rw [h]; norm_num)
  have n2 : x - y ≠ -180 := fun h => hn (by rw [h]; norm_num)
  have sgn : ∀ d : ℝ, d ≠ 0 → d / |d| = if 0 < d then 1 else -1 := by
    intro d hd
    split_ifs with h
    · rw [abs_of_pos h, div_self hd]
    · rw [abs_of_neg (lt_of_le_of_ne (not_lt.mp h) hd), div_neg, div_self hd]
  obtain ⟨x0, x1⟩ := hx
  obtain ⟨y0, y1⟩ := hy
  have hd : (x' - y' = -(x - y)) ∨ (x' - y' = 360 - (x - y) ∧ 0 < x - y) ∨
      (x' - y' = -360 - (x - y) ∧ x - y < 0) := by
    split_ifs at ex ey with h1 h2 h2
    · left; rw [ex, ey, h1, h2]; ring
    · right; right; exact ⟨by rw [ex, ey, h1]; ring, by rw [h1]; have := lt_of_le_of_ne y0 (Ne.symm h2); linarith⟩
    · right; left; exact ⟨by rw [ex, ey, h2]; ring, by rw [h2]; have := lt_of_le_of_ne x0 (Ne.symm h1); linarith⟩
    · left; rw [ex, ey]; ring
  have b1 : x - y < 360 := by linarith
  have b2 : -360 < x - y := by linarith
  generalize x' - y' = d' at *
  generalize x - y = d at *
  refine ⟨?_, fun hz => ?_, fun hz => ?_⟩
  · unfold deltaAzi
    simp only
    rcases hd with h | ⟨h, hp⟩ | ⟨h, hp⟩ <;> subst h
    · rcases lt_trichotomy d (-180) with g | g | g
      · rw [if_neg (by linarith : ¬ -d < -180), if_pos (by linarith : -d > 180), if_pos g,
          if_neg (by linarith : ¬ d + 360 > 180)]; ring
      · exact absurd g n2
      · rcases lt_trichotomy d 180 with g' | g' | g'
        · rw [if_neg (by linarith : ¬ -d < -180), if_neg (by linarith : ¬ -d > 180),
            if_neg (by linarith : ¬ d < -180), if_neg (by linarith : ¬ d > 180)]
        · exact absurd g' n1
        · rw [if_pos (by linarith : -d < -180), if_neg (by linarith : ¬ -d + 360 > 180),
            if_neg (by linarith : ¬ d < -180), if_pos (by linarith : d > 180)]; ring
    · rcases lt_trichotomy d 180 with g | g | g
      · rw [if_neg (by linarith : ¬ 360 - d < -180), if_pos (by linarith : 360 - d > 180),
          if_neg (by linarith : ¬ d < -180), if_neg (by linarith : ¬ d > 180)]; ring
      · exact absurd g n1
      · rw [if_neg (by linarith : ¬ 360 - d < -180), if_neg (by linarith : ¬ 360 - d > 180),
          if_neg (by linarith : ¬ d < -180), if_pos g]; ring
    · rcases lt_trichotomy d (-180) with g | g | g
      · rw [if_neg (by linarith : ¬ -360 - d < -180), if_neg (by linarith : ¬ -360 - d > 180),
          if_pos g, if_neg (by linarith : ¬ d + 360 > 180)]; ring
      · exact absurd g n2
      · rw [if_pos (by linarith : -360 - d < -180), if_neg (by linarith : ¬ -360 - d + 360 > 180),
          if_neg (by linarith : ¬ d < -180), if_neg (by linarith : ¬ d > 180)]; ring
  · unfold turnSign
    have hz' : d' ≠ 0 := by
      rcases hd with h | ⟨h, hp⟩ | ⟨h, hp⟩ <;> rw [h]
      · exact neg_ne_zero.mpr hz
      · linarith
      · intro; linarith
    rw [if_neg hz, if_neg hz', sgn d hz, sgn d' hz']
    rcases hd with h | ⟨h, hp⟩ | ⟨h, hp⟩ <;> subst h <;> split_ifs <;>
      first
        | (norm_num; done)
        | (exfalso; first | linarith | exact n1 (by linarith) | exact n2 (by linarith) |
            exact hz (by linarith))
  · rcases hd with h | ⟨h, hp⟩ | ⟨h, hp⟩
    · rw [h, hz, neg_zero]
    · linarith
    · linarith

theorem pairwise_related {f g : ℕ → ℕ → TurnPoint} {R : TurnPoint → TurnPoint → Prop} {n : ℕ}
    (h : ∀ a b, a < n → R (f a b) (g a b)) : ∀ {l : List ℕ}, l.Pairwise (· < ·) → (∀ x ∈ l, x ≤ n) →
      List.Forall₂ R (pairwise f l) (pairwise g l)
  | [], _, _ => .nil
  | [_], _, _ => .nil
  | a :: b :: t, hl, hn => by
    obtain ⟨h1, h2⟩ := List.pairwise_cons.mp hl
    have hab := h1 b (by simp)
    have hb := hn b (by simp)
    exact .cons (h a b (by omega)) (pairwise_related h h2 fun x hx => hn x (List.mem_cons_of_mem _ hx))

theorem continuous_mirrored (rtol atol : ℝ) (dlsCont : Bool) (around : ℝ → ℝ) {sv sv' : ℕ → Row}
    (h : ∀ k, IsMirror (sv k) (sv' k)) (n : ℕ) :
    Sec.continuous rtol atol dlsCont around sv' n = Sec.continuous rtol atol dlsCont around sv n := by
  unfold Sec.continuous
  refine List.map_congr_left fun k _ => ?_
  have e : normalsClose rtol atol (normal (sv' (k - 1)).st (sv' k).st) (normal (sv' k).st (sv' (k + 1)).st) ↔
      normalsClose rtol atol (normal (sv (k - 1)).st (sv k).st) (normal (sv k).st (sv (k + 1)).st) := by
    rw [normal_mirrored (h _) (h _), normal_mirrored (h _) (h _), normalsClose_mirrored]
  simp only [(h _).dls]
  congr 1
  rw [decide_eq_decide]
  exact e

/-- C338: the control points of a mirrored well are the mirrored control points, at the same stations.  The
azimuths are below a full turn, no two are opposite, and the toolfaces are those of the survey. -/
theorem C338_mirrored (rtol atol : ℝ) (dlsCont : Bool) (around : ℝ → ℝ) (u : LenUnit) {sv sv' : ℕ → Row}
    {n : ℕ} (h : ∀ k, IsMirror (sv k) (sv' k)) (hr : Reduced sv) (hr' : Reduced sv')
    (ht : ∀ k < n, (sv k).toolface = Tf.t1 (sv k).st (sv (k + 1)).st)
    (ht' : ∀ k < n, (sv' k).toolface = Tf.t1 (sv' k).st (sv' (k + 1)).st)
    (ho : ∀ j k, |(sv j).st.azi - (sv k).st.azi| ≠ π) {l : List TurnPoint}
    (hl : getSections rtol atol dlsCont around u sv n = some l) :
    ∃ l', getSections rtol atol dlsCont around u sv' n = some l' ∧ List.Forall₂ PointMirrored l l' := by
  have hpi := pi_pos
  unfold getSections at hl
  split_ifs at hl with hn
  injection hl with hl
  subst hl
  refine ⟨_, by unfold getSections; rw [if_neg hn], ?_⟩
  rw [continuous_mirrored rtol atol dlsCont around h]
  have hdeg : ∀ k, degrees (sv' k).st.azi
      = if degrees (sv k).st.azi = 0 then 0 else 360 - degrees (sv k).st.azi := fun k =>
    degrees_mirrored (azi_mirrored (h k) (hr k).1 (hr k).2 (hr' k).1 (hr' k).2)
  have hrange : ∀ k, 0 ≤ degrees (sv k).st.azi ∧ degrees (sv k).st.azi < 360 := by
    intro k
    obtain ⟨h0, h1⟩ := hr k
    rw [degrees_eq]
    refine ⟨by positivity, ?_⟩
    rw [div_lt_iff₀ hpi]
    linarith
  have hopp : ∀ j k, |degrees (sv j).st.azi - degrees (sv k).st.azi| ≠ 180 := by
    intro j k hz
    apply ho j k
    rw [degrees_eq, degrees_eq, ← sub_div, ← sub_mul, abs_div, abs_mul, abs_of_pos hpi,
      abs_of_pos (by norm_num : (0 : ℝ) < 180), div_eq_iff hpi.ne'] at hz
    linarith
  have hdog : ∀ k, dogleg2 (sv' k).st (sv' (k + 1)).st = dogleg2 (sv k).st (sv (k + 1)).st := fun k =>
    ((C337_mirrored 1 1 1 none h 0).2.2.2 k).1
  have first : PointMirrored (firstPoint sv) (firstPoint sv') := by
    unfold firstPoint
    exact ⟨(h 0).md, by simp only [(h 0).inc], hdeg 0, by simp only [(h 0).pos], rfl, rfl, by simp, .inl (by simp),
      rfl, rfl⟩
  have pt : ∀ a b, a < n → PointMirrored (point u sv a b) (point u sv' a b) := by
    intro a b han
    obtain ⟨k1, k2, k3⟩ := turns_mirrored (hrange b) (hrange a) (hdeg b) (hdeg a) (hopp b a)
    have hloc : (⟨(sv' b).pos.y, (sv' b).pos.x, -(sv' b).pos.z⟩ : V3)
        = ⟨-(sv b).pos.y, (sv b).pos.x, -(sv b).pos.z⟩ := by rw [(h b).pos]
    unfold point
    simp only [hdog]
    generalize (if u = .meters then (30 : ℝ) else 100) = w
    by_cases hd : dogleg2 (sv a).st (sv (a + 1)).st = 0
    · simp only [if_pos hd]
      exact ⟨(h b).md, by simp only [(h b).inc], hdeg b, hloc, rfl, rfl, by simp, .inl (by simp), rfl, rfl⟩
    · simp only [if_neg hd]
      have htf : |degrees (sv' a).toolface| = |degrees (sv a).toolface| := by
        rw [degrees_eq, degrees_eq, abs_div, abs_mul, abs_div, abs_mul, ht a han, ht' a han,
          t1_mirrored (h a) (h (a + 1))]
      refine ⟨(h b).md, by simp only [(h b).inc], hdeg b, hloc, (h b).dls, ?_, ?_, ?_, rfl, rfl⟩
      · simp only [(h _).inc, (h _).md]
      · simp only [k1, (h _).md, divF]
        split_ifs <;> simp [neg_div]
      · simp only [htf]
        by_cases hz : degrees (sv b).st.azi - degrees (sv a).st.azi = 0
        · right
          rw [k3 hz, hz]
          refine ⟨fun r hr => ?_, rfl⟩
          simp only [divF, deltaAzi] at hr
          split_ifs at hr <;> simp at hr <;> first | exact hr.symm | linarith
        · left
          rw [k2 hz, mul_neg]
  exact .cons first (.cons first (pairwise_related pt (sec_starts_sorted
    (continuous_length (Nat.pos_of_ne_zero hn))) fun x hx => by
      rcases (mem_sec_starts (continuous_length (Nat.pos_of_ne_zero hn))).mp hx with h | h | h <;> omega))

/-! A well that builds and turns, and its mirror image, with azimuths below a full turn. -/

/-- A well turning from 10 to 40 degrees east of north, and its mirror image. -/
noncomputable def turner (west : Bool) (k : ℕ) : Row :=
  let azi (k : ℕ) : ℝ := if k = 0 then π / 18 else 2 * π / 9
  let st (k : ℕ) : Station := ⟨30 * k, π / 3, if west then 2 * π - azi k else azi k⟩
  ⟨st k, ⟨k, if west then -k else k, k⟩, k, Tf.t1 (st k) (st (k + 1))⟩

theorem turner_mirror (k : ℕ) : IsMirror (turner false k) (turner true k) := by
  refine ⟨rfl, rfl, ?_, ?_, ?_, rfl⟩ <;> simp [turner, sin_two_pi_sub, cos_two_pi_sub]

theorem turner_reduced (west : Bool) : Reduced (turner west) := by
  intro k
  have hpi := pi_pos
  cases west <;> simp only [turner] <;> split_ifs <;> first | contradiction | constructor <;> linarith

example : ∃ l l', getSections 0.01 0.01 true id .meters (turner false) 2 = some l ∧
    getSections 0.01 0.01 true id .meters (turner true) 2 = some l' ∧ List.Forall₂ PointMirrored l l' := by
  have hpi := pi_pos
  have hl : ∃ l, getSections 0.01 0.01 true id .meters (turner false) 2 = some l := ⟨_, rfl⟩
  obtain ⟨l, hl⟩ := hl
  obtain ⟨l', h1, h2⟩ := C338_mirrored 0.01 0.01 true id .meters turner_mirror (turner_reduced _)
    (turner_reduced _) (n := 2) (fun k _ => rfl) (fun k _ => rfl) (fun j k => by
      simp only [turner]
      have : ∀ x : ℝ, |x| < π → |x| ≠ π := fun x hx => hx.ne
      refine this _ (abs_lt.mpr ?_)
      split_ifs <;> first | contradiction | constructor <;> linarith) hl
  exact ⟨l, l', hl, h1, h2⟩

example : (tiOf 1 1 0.01 none (turner true) 2) = tiOf 1 1 0.01 none (turner false) 2 :=
  (C337_mirrored 1 1 0.01 none turner_mirror 2).2.1

end Welleng.Props
