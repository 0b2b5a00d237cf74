import Verif.Spec.Motion
import Verif.Props.ClosestPoint
import Verif.Props.Mirror

/-!
C331: clearances do not depend on the origin, on where north is, or on the sense of rotation.
-/

namespace Welleng.Props

open Real Welleng Spec Clr Err

variable (m : Motion)

theorem motion_col (i j : Fin 3) :
    m.q 0 i * m.q 0 j + m.q 1 i * m.q 1 j + m.q 2 i * m.q 2 j = if i = j then 1 else 0 := by
  have h := congrFun (congrFun m.orth i) j
  rw [Matrix.mul_apply, Fin.sum_univ_three, Matrix.one_apply] at h
  simpa using h

theorem motion_dot (a b : V3) : V3.dot (m.lin a) (m.lin b) = V3.dot a b := by
  have h00 := motion_col m 0 0
  have h01 := motion_col m 0 1
  have h02 := motion_col m 0 2
  have h11 := motion_col m 1 1
  have h12 := motion_col m 1 2
  have h22 := motion_col m 2 2
  simp at h00 h01 h02 h11 h12 h22
  simp only [V3.dot, Motion.lin]
  linear_combination (a.x * b.x) * h00 + (a.x * b.y + a.y * b.x) * h01 + (a.x * b.z + a.z * b.x) * h02
    + (a.y * b.y) * h11 + (a.y * b.z + a.z * b.y) * h12 + (a.z * b.z) * h22

theorem motion_add (a b : V3) : m.lin (a + b) = m.lin a + m.lin b := by
  ext <;> simp [Motion.lin] <;> ring

theorem motion_sub (a b : V3) : m.lin (a - b) = m.lin a - m.lin b := by
  ext <;> simp [Motion.lin] <;> ring

theorem motion_smul (c : ℝ) (a : V3) : m.lin (c • a) = c • m.lin a := by
  ext <;> simp [Motion.lin] <;> ring

theorem motion_norm (a : V3) : V3.norm (m.lin a) = V3.norm a := by
  unfold V3.norm; rw [motion_dot]

theorem motion_dist (a b : V3) : V3.norm (m.point a - m.point b) = V3.norm (a - b) := by
  rw [← motion_norm m (a - b), motion_sub]
  congr 1
  unfold Motion.point
  abel

theorem motion_tangent (i a : ℝ) : tangent i (m.azi a) = m.lin (tangent i a) := by
  have h := m.dir i a
  have h0 := congrFun h 0
  have h1 := congrFun h 1
  have h2 := congrFun h 2
  simp [Matrix.mulVec, dotProduct, Fin.sum_univ_three] at h0 h1 h2
  ext
  · simpa [Motion.lin] using h0
  · simpa [Motion.lin] using h1
  · simpa [Motion.lin] using h2

theorem motion_getDogleg (i1 a1 i2 a2 : ℝ) {b1 b2 : ℝ} {j1 j2 : ℝ}
    (h1 : tangent j1 b1 = m.lin (tangent i1 a1)) (h2 : tangent j2 b2 = m.lin (tangent i2 a2)) :
    getDogleg j1 b1 j2 b2 = getDogleg i1 a1 i2 a2 := by
  rw [getDogleg_eq_arccos, getDogleg_eq_arccos, h1, h2, motion_dot]

theorem motion_dogleg2 (a b : Station) : dogleg2 (m.station a) (m.station b) = dogleg2 a b :=
  motion_getDogleg m _ _ _ _ (motion_tangent m ..) (motion_tangent m ..)

theorem motion_step (L : ℝ) {i1 a1 i2 a2 j1 b1 j2 b2 : ℝ}
    (h1 : tangent j1 b1 = m.lin (tangent i1 a1)) (h2 : tangent j2 b2 = m.lin (tangent i2 a2)) :
    minCurveStep L j1 b1 j2 b2 = m.lin (minCurveStep L i1 a1 i2 a2) := by
  unfold minCurveStep
  rw [motion_getDogleg m _ _ _ _ h1 h2, minCurveStepRf_eq, minCurveStepRf_eq, h1, h2, ← motion_add,
    motion_smul]

theorem motion_interp_tangent {s1 s2 : Station} (hpi : dogleg2 s1 s2 < π) (x : ℝ) :
    tangent (interpAngles (m.station s1) (m.station s2) x).1 (interpAngles (m.station s1) (m.station s2) x).2
      = m.lin (tangent (interpAngles s1 s2 x).1 (interpAngles s1 s2 x).2) := by
  by_cases h0 : dogleg2 s1 s2 = 0
  · have h0' := h0
    rw [← motion_dogleg2 m] at h0'
    simp only [interpAngles, h0, h0', if_true]
    exact motion_tangent m ..
  · have h0' := h0
    rw [← motion_dogleg2 m] at h0'
    rw [interp_tangent h0 hpi, interp_tangent h0' (by rwa [motion_dogleg2]), motion_dogleg2, motion_add,
      motion_smul, motion_smul, ← motion_tangent, ← motion_tangent]
    rfl

theorem motion_interpPos {s1 s2 : Station} (hpi : dogleg2 s1 s2 < π) (p : V3) (x : ℝ) :
    interpPosNev (m.point p) (m.station s1) (m.station s2) x = m.point (interpPosNev p s1 s2 x) := by
  unfold interpPosNev Motion.point
  change _ + _ + minCurveStep x s1.inc (m.azi s1.azi) _ _ = _
  rw [motion_step m x (motion_tangent m s1.inc s1.azi) (motion_interp_tangent m hpi x), motion_add]
  abel

theorem motion_objective {s1 s2 : Station} (hpi : dogleg2 s1 s2 < π) (p p1 : V3) :
    objective (m.point p) (m.point p1) (m.station s1) (m.station s2) = objective p p1 s1 s2 := by
  funext x
  unfold objective
  rw [motion_interpPos m hpi, motion_dist]

/-- The positions of a moved well are the moved positions. -/
theorem C331_positions {st : List Station} {sx sx' sn : V3} {u u' : LenUnit} {off off' : SurveyG}
    {xyz xyz' : List V3} (h : surveyG st sx sn u = .ok (off, xyz))
    (h' : surveyG (st.map m.station) sx' (m.point sn) u' = .ok (off', xyz')) :
    off'.st = off.st.map m.station ∧ off'.nev = off.nev.map m.point := by
  obtain ⟨hst, hxyz, hnev, -⟩ := surveyG_st h
  obtain ⟨hst', hxyz', hnev', -⟩ := surveyG_st h'
  refine ⟨by rw [hst, hst'], ?_⟩
  rw [hnev, hnev', hxyz, hxyz', List.map_map]
  have key : ∀ (st : List Station) (a b c d : V3), getNev c sx' (m.point sn) = m.point (getNev a sx sn) →
      (positions c (st.map m.station)).map (getNev · sx' (m.point sn))
        = (positions a st).map (m.point ∘ (getNev · sx sn)) := by
    intro st
    induction st with
    | nil => intros; rfl
    | cons s t ih =>
      intro a _ c _ hac
      cases t with
      | nil => simp [positions, pairwise, cumsumFrom, hac]
      | cons s' t =>
        rw [List.map_cons, List.map_cons, positions_cons2, positions_cons2, List.map_cons, List.map_cons]
        rw [← List.map_cons, ih (a + deltaXyz s s') 0 _ 0 ?_]
        · simp [hac]
        · have e : ∀ (p d x n : V3), getNev (p + d) x n = getNev p x n + swap d := by
            intro p d x n
            ext <;> simp [getNev, swap] <;> ring
          rw [e, e, hac, deltaXyz_eq, deltaXyz_eq, swap_swap, swap_swap]
          simp only [Motion.station]
          rw [motion_step m _ (motion_tangent m s.inc s.azi) (motion_tangent m s'.inc s'.azi)]
          unfold Motion.point
          rw [motion_add]
          abel
  refine key st sx 0 sx' 0 ?_
  have e : ∀ (x n : V3), getNev x x n = n := by intro x n; ext <;> simp [getNev]
  rw [e, e]

/-- A moved result of the search for the closest point: the same interval, the same place in it and the
same distance. -/
def movedClosest (c : Closest) : Closest :=
  { c with pos := m.point c.pos, cov := c.cov.map m.cov }

theorem lerpCov_moved (x : ℝ) (a b : M3) : lerpCov x (m.cov a) (m.cov b) = m.cov (lerpCov x a b) := by
  simp only [lerpCov, Motion.cov]
  rw [mul_add, add_mul, Matrix.mul_smul, Matrix.smul_mul, mul_sub, sub_mul]

theorem searchInterval_moved {off off' : SurveyG} (hs : off'.st = off.st.map m.station)
    (hn : off'.nev = off.nev.map m.point) (hc : off'.cov = off.cov.map (List.map m.cov))
    (hpi : ∀ (i : ℕ) a b, off.st[i]? = some a → off.st[i + 1]? = some b → dogleg2 a b < π)
    (opt : Minimiser) (f f' : ℕ → V3) (p : V3) (j : ℕ) :
    searchInterval opt off' f' (m.point p) j = (searchInterval opt off f p j).map (movedClosest m) := by
  unfold searchInterval
  rw [hs, hn, hc]
  simp only [List.getElem?_map]
  rcases ha : off.st[j]? with _ | a
  · simp
  rcases hb : off.st[j + 1]? with _ | b
  · simp
  rcases hp : off.nev[j]? with _ | q
  · simp
  have hd := hpi j a b ha hb
  simp only [Option.map_some, motion_objective m hd]
  have e : (m.station b).md - (m.station a).md = b.md - a.md := rfl
  rw [e]
  set x := opt (objective p q a b) (b.md - a.md)
  obtain ⟨n1, k1, -, -, k2, -⟩ := interpolateSurvey_some (sv := off) (f j) x ha hb hp
  obtain ⟨n2, l1, -, -, l2, -⟩ := interpolateSurvey_some (sv := off') (f' j) x
    (s1 := m.station a) (s2 := m.station b) (p1 := m.point q)
    (by rw [hs, List.getElem?_map, ha]; rfl) (by rw [hs, List.getElem?_map, hb]; rfl)
    (by rw [hn, List.getElem?_map, hp]; rfl)
  rw [k1, l1]
  simp only [Option.map_some, movedClosest, k2, l2, motion_interpPos m hd]
  congr 2
  rcases hcc : off.cov with _ | cs
  · simp
  simp only [Option.map_some, List.getElem?_map]
  rcases h1 : cs[j]? with _ | c1
  · simp
  rcases h2 : cs[j + 1]? with _ | c2
  · simp
  simp [lerpCov_moved]

/-- C331: moving a reference point and an offset well together (shift, turn about the vertical,
reflection in a vertical plane) moves the closest point found, with any optimiser: it is on the same
interval, as far down that interval and at the same distance, with the moved covariance. -/
theorem C331_closest_point {st : List Station} {sx sx' sn : V3} {u u' : LenUnit} {off off' : SurveyG}
    {xyz xyz' : List V3} (h : surveyG st sx sn u = .ok (off, xyz))
    (h' : surveyG (st.map m.station) sx' (m.point sn) u' = .ok (off', xyz'))
    (hpi : ∀ (i : ℕ) a b, st[i]? = some a → st[i + 1]? = some b → dogleg2 a b < π)
    (cs : Option (List M3)) (opt : Minimiser) (f f' : ℕ → V3) (p : V3) :
    closestPoint opt { off' with cov := cs.map (List.map m.cov) } f' (m.point p)
      = (closestPoint opt { off with cov := cs } f p).map (movedClosest m) := by
  obtain ⟨hs, hn⟩ := C331_positions m h h'
  have hst := (surveyG_st h).1
  have hS := searchInterval_moved m (off := { off with cov := cs })
    (off' := { off' with cov := cs.map (List.map m.cov) }) hs hn rfl (by rw [hst]; exact hpi) opt f f' p
  have hN : nearest { off' with cov := cs.map (List.map m.cov) } (m.point p)
      = nearest { off with cov := cs } p := by
    unfold nearest
    simp only [hn, List.map_map]
    congr 2
    funext q
    exact motion_dist m q p
  have hl : off'.nev.length = off.nev.length := by rw [hn, List.length_map]
  unfold closestPoint
  simp only [hN, hS, hl]
  generalize nearest { off with cov := cs } p = i
  have e1 : ∀ (P : Prop) [Decidable P] (r : Option Closest),
      (if P then r.map (movedClosest m) else none) = (if P then r else none).map (movedClosest m) := by
    intro P _ r; split_ifs <;> rfl
  rw [e1, e1]
  generalize (if 0 < i then searchInterval opt { off with cov := cs } f p (i - 1) else none) = r1
  generalize (if i < off.nev.length - 1 then searchInterval opt { off with cov := cs } f p i else none) = r2
  rcases r1 with _ | a <;> rcases r2 with _ | b <;> simp [movedClosest]
  split_ifs <;> rfl

/-- The components of a position as the array that the separation is computed from. -/
def arr (p : V3) : V := ![p.x, p.y, p.z]

theorem arr_point (p r : V3) : (fun i => arr (m.point r) i - arr (m.point p) i)
    = m.q.mulVec fun i => arr r i - arr p i := by
  funext i
  fin_cases i <;>
    simp [arr, Motion.point, Motion.lin, Matrix.mulVec, dotProduct, Fin.sum_univ_three] <;> ring

theorem distanceCc_arr (p r : V3) : distanceCc (arr p) (arr r) = V3.norm (r - p) := by
  unfold distanceCc V3.norm
  congr 1
  simp only [Fin.sum_univ_three, arr, V3.dot]
  simp
  ring

theorem distanceCc_moved (p r : V3) :
    distanceCc (arr (m.point p)) (arr (m.point r)) = distanceCc (arr p) (arr r) := by
  rw [distanceCc_arr, distanceCc_arr, motion_dist]

theorem unitDelta_moved (p r : V3) :
    unitDelta (arr (m.point p)) (arr (m.point r)) = m.q.mulVec (unitDelta (arr p) (arr r)) := by
  have hd := distanceCc_moved m p r
  unfold distanceCc at hd
  unfold unitDelta
  simp only [hd]
  split_ifs with h
  · rw [Matrix.mulVec_zero]
  · have := arr_point m p r
    funext i
    have hi := congrFun this i
    rw [hi]
    simp only [Matrix.mulVec, dotProduct, Fin.sum_univ_three]
    ring

theorem quad_eq (u : V) (c : M3) : quad u c = dotProduct u (c.mulVec u) := by
  simp only [quad, dotProduct, Matrix.mulVec, Finset.mul_sum, mul_assoc]

theorem quad_moved (u : V) (c : M3) : quad (m.q.mulVec u) (m.cov c) = quad u c := by
  rw [quad_eq, quad_eq, Motion.cov, Matrix.mulVec_mulVec, Matrix.mul_assoc, m.orth, Matrix.mul_one,
    ← Matrix.mulVec_mulVec, Matrix.dotProduct_mulVec, ← Matrix.mulVec_transpose, Matrix.mulVec_mulVec, m.orth,
    Matrix.one_mulVec]

/-- One station of the clearance of two wells: reference point and offset point with their covariances,
and the settings. -/
def pairAt (p r : V3) (cp cr : M3) (Rr Ro k sigmaPa Sm : ℝ) : Pair :=
  ⟨arr p, arr r, cp, cr, Rr, Ro, k, sigmaPa, Sm⟩

/-- C331: every number reported for a station (distance, uncertainty towards the other well, boundary,
separations, allowed distance and separation factor) is unchanged if both points and both covariances are
moved. -/
theorem C331_separation (p r : V3) (cp cr : M3) (Rr Ro k sigmaPa Sm : ℝ) :
    separation (pairAt (m.point p) (m.point r) (m.cov cp) (m.cov cr) Rr Ro k sigmaPa Sm)
      = separation (pairAt p r cp cr Rr Ro k sigmaPa Sm) := by
  simp only [separation, pairAt, distanceCc_moved, unitDelta_moved, pcr, quad_moved]
  congr

/-- **C331**: the clearance of two wells that are moved together.  At each station of the reference well
the search finds the moved point, at the same distance, and the numbers reported are the same. -/
theorem C331_clearance {st rt : List Station} {sx sx' sn rx rx' rn : V3} {u u' v v' : LenUnit}
    {off off' ref ref' : SurveyG} {xyz xyz' rxyz rxyz' : List V3}
    (h : surveyG st sx sn u = .ok (off, xyz))
    (h' : surveyG (st.map m.station) sx' (m.point sn) u' = .ok (off', xyz'))
    (hr : surveyG rt rx rn v = .ok (ref, rxyz))
    (hr' : surveyG (rt.map m.station) rx' (m.point rn) v' = .ok (ref', rxyz'))
    (hpi : ∀ (i : ℕ) a b, st[i]? = some a → st[i + 1]? = some b → dogleg2 a b < π)
    (cs : List M3) (opt : Minimiser) (f f' : ℕ → V3) (j : ℕ) {p : V3} (hj : ref.nev[j]? = some p)
    {c : Closest} {co : M3} (hc : closestPoint opt { off with cov := some cs } f p = some c)
    (hco : c.cov = some co) :
    ∃ p' c' co', ref'.nev[j]? = some p' ∧
      closestPoint opt { off' with cov := some (cs.map m.cov) } f' p' = some c' ∧ c'.cov = some co' ∧
      c'.interval = c.interval ∧ c'.x = c.x ∧ c'.dist = c.dist ∧ c'.pos = m.point c.pos ∧
      ∀ cp Rr Ro k sigmaPa Sm,
        separation (pairAt p' c'.pos (m.cov cp) co' Rr Ro k sigmaPa Sm)
          = separation (pairAt p c.pos cp co Rr Ro k sigmaPa Sm) := by
  have hn := (C331_positions m hr hr').2
  have hm := C331_closest_point m h h' hpi (some cs) opt f f' p
  rw [hc] at hm
  refine ⟨m.point p, movedClosest m c, m.cov co, by rw [hn, List.getElem?_map, hj]; rfl, hm,
    by simp [movedClosest, hco], rfl, rfl, rfl, rfl, ?_⟩
  intros
  exact C331_separation m ..

/-- Non-vacuity: two parallel vertical wells, turned and shifted. -/
example : ∃ (opt : Minimiser) (off off' ref ref' : SurveyG) (xyz xyz' rxyz rxyz' : List V3) (c : Closest),
    surveyG [⟨0, 0, 0⟩, ⟨30, 0, 0⟩] 0 0 .meters = .ok (off, xyz) ∧
    surveyG ([⟨0, 0, 0⟩, ⟨30, 0, 0⟩].map (Motion.turning 1 ⟨1, 2, 3⟩).station) 0
      ((Motion.turning 1 ⟨1, 2, 3⟩).point 0) .meters = .ok (off', xyz') ∧
    surveyG [⟨0, 0, 0⟩, ⟨30, 0, 0⟩] ⟨10, 0, 0⟩ ⟨0, 10, 0⟩ .meters = .ok (ref, rxyz) ∧
    surveyG ([⟨0, 0, 0⟩, ⟨30, 0, 0⟩].map (Motion.turning 1 ⟨1, 2, 3⟩).station) 0
      ((Motion.turning 1 ⟨1, 2, 3⟩).point ⟨0, 10, 0⟩) .meters = .ok (ref', rxyz') ∧
    closestPoint opt { off with cov := some [1, 1] } (fun _ => 0) ⟨0, 10, 0⟩ = some c ∧
    ∃ co, c.cov = some co := by
  obtain ⟨opt, ho⟩ := findsMinimum_exists (ε := 0.001) (by norm_num)
  have h : ∃ off xyz, surveyG [⟨0, 0, 0⟩, ⟨30, 0, 0⟩] 0 0 .meters = .ok (off, xyz) := ⟨_, _, rfl⟩
  obtain ⟨off, xyz, h⟩ := h
  have hs : ([⟨0, 0, 0⟩, ⟨30, 0, 0⟩] : List Station).Pairwise fun a b => a.md < b.md := by simp
  have hst := (surveyG_st h).1
  have hnl : off.nev.length = 2 := by
    obtain ⟨-, h1, h2, -⟩ := surveyG_st h
    rw [h2, h1]; simp [positions_length]
  obtain ⟨q, hq⟩ : ∃ q, off.nev[0]? = some q := ⟨_, List.getElem?_eq_getElem (by omega)⟩
  have hS : ∃ c, searchInterval opt { off with cov := some [1, 1] } (fun _ => 0) ⟨0, 10, 0⟩ 0 = some c ∧
      ∃ co, c.cov = some co := by
    obtain ⟨n1, k1, -⟩ := interpolateSurvey_some (sv := { off with cov := some [1, 1] }) 0
      (opt (objective ⟨0, 10, 0⟩ q ⟨0, 0, 0⟩ ⟨30, 0, 0⟩) (30 - 0)) (i := 0) (s1 := ⟨0, 0, 0⟩)
      (s2 := ⟨30, 0, 0⟩) (by simp [hst]) (by simp [hst]) hq
    unfold searchInterval
    simp only [hst, hq, List.getElem?_cons_zero, List.getElem?_cons_succ, zero_add]
    simp only [hst] at k1
    rw [k1]
    exact ⟨_, rfl, _, rfl⟩
  obtain ⟨c, hc, hco⟩ := hS
  have hn : nearest { off with cov := some [1, 1] } ⟨0, 10, 0⟩ < 2 := by
    obtain ⟨v, hv, -⟩ := argmin_spec (l := off.nev.map fun q => V3.norm (q - ⟨0, 10, 0⟩)) (by
      intro h0; rw [List.map_eq_nil_iff] at h0; rw [h0] at hnl; simp at hnl)
    have := (List.getElem?_eq_some_iff.mp hv).1
    rw [List.length_map, hnl] at this
    exact this
  refine ⟨opt, off, _, _, _, xyz, _, _, _, c, h, rfl, rfl, rfl, ?_, hco⟩
  unfold closestPoint
  simp only [hnl]
  generalize nearest { off with cov := some [1, 1] } ⟨0, 10, 0⟩ = i at hn
  interval_cases i <;> simp [hc]

/-- C331 for covariances that come from tool models: two wells mirrored in a vertical plane have the
separation factors of the original wells. -/
theorem C331_mirrored_tool_models {c d : Ctx} {codes odes : List Entry}
    (hc : ∀ e ∈ codes, extended e.f = true → TrulyVertical c)
    (hd : ∀ e ∈ odes, extended e.f = true → TrulyVertical d) {T U : Totals}
    (hT : toolError c codes = .ok T) (hU : toolError d odes = .ok U) (v : V3) :
    ∃ T' U', toolError (mirror c) codes = .ok T' ∧ toolError (mirror d) odes = .ok U' ∧
      ∀ j < c.s.n, ∀ k < d.s.n, ∀ p r Rr Ro K sigmaPa Sm,
        separation (pairAt ((Motion.mirroring v).point p) ((Motion.mirroring v).point r)
            (T'.total j) (U'.total k) Rr Ro K sigmaPa Sm)
          = separation (pairAt p r (T.total j) (U.total k) Rr Ro K sigmaPa Sm) := by
  have ht : (Motion.mirroring v).q.transpose = mirM := by
    ext i j
    fin_cases i <;> fin_cases j <;> simp [Motion.mirroring, mirM]
  have hcov : ∀ a, (Motion.mirroring v).cov a = mirM * a * mirM := by
    intro a
    unfold Motion.cov
    rw [ht]
    rfl
  rcases C329_mirrored c codes hc with ⟨y, h1, -⟩ | ⟨T1, T', h1, h2, hm⟩
  · rw [hT] at h1; cases h1
  rcases C329_mirrored d odes hd with ⟨y, k1, -⟩ | ⟨U1, U', k1, k2, hn⟩
  · rw [hU] at k1; cases k1
  rw [hT] at h1; rw [hU] at k1
  cases h1; cases k1
  refine ⟨T', U', h2, k2, fun j hj k hk p r Rr Ro K sigmaPa Sm => ?_⟩
  rw [(hm j hj).1, (hn k hk).1, ← hcov, ← hcov]
  exact C331_separation _ ..

end Welleng.Props
