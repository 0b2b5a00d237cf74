import Verif.Props.FromConnections
import Verif.Props.ConnectPoints

/-!
C357: the survey through points.
-/

namespace Welleng.Props

open Real Welleng Spec Con Rs Fc Tf Proj Xt

/-! ### One gap -/

/-- Forward and sideways parts `w`, `b` of a chord whose arc turns by less than half a circle, and by more
than the tolerance `1e-10` on the sine of the turn. -/
def Turns (b w : ℝ) : Prop := 0 < w ∧ 1e-10 * (b ^ 2 + w ^ 2) ≤ 2 * b * w

/-- A gap between two points that is crossed as planned: the next point is straight ahead, or off the
direction of the hole and reached by a curve of the design severity and a straight, or, within the turning
circle, by one sharper curve; the curve turns by less than half a circle and not by next to nothing. -/
inductive Gap (s : At) (p : V3) (d : ℝ) : Prop
  | ahead (a : ℝ) (ha : 0 < a) (hp : p = s.pos + a • s.vec)
  | side (u : V3) (a b : ℝ) (hu : u.IsUnit) (ho : V3.dot s.vec u = 0) (hb : 0 < b)
      (hb2 : b ≠ 2 * designRadius 30 d) (hp : p = s.pos + a • s.vec + b • u) (hne : ¬ allClose s.pos p)
      (hdir : ¬ allClose s.vec (normalize (p - s.pos)))
      (hout : designRadius 30 d ≤ V3.norm (p - s.pos) ^ 2 / (2 * b) * (1 - 1e-5))
      (hturn : Turns b (a + √(V3.norm (p - s.pos) ^ 2 - 2 * designRadius 30 d * b)))
  | inside (u : V3) (a b : ℝ) (hu : u.IsUnit) (ho : V3.dot s.vec u = 0) (hb : 0 < b)
      (hp : p = s.pos + a • s.vec + b • u) (hne : ¬ allClose s.pos p)
      (hdir : ¬ allClose s.vec (normalize (p - s.pos)))
      (hin : V3.norm (p - s.pos) ^ 2 / (2 * b) ≤ designRadius 30 d) (hturn : Turns b a)

theorem sin_pos_lt_pi {x : ℝ} (h2 : x ≤ 2 * π) (h : 0 < sin x) : x < π := by
  by_contra hx
  rw [not_lt] at hx
  have := sin_nonneg_of_nonneg_of_le_pi (x := x - π) (by linarith) (by linarith)
  rw [sin_sub_pi] at this
  linarith

theorem turn_dogleg {y x b w c : ℝ} (hc : c ≠ 0) (hb : 0 < b) (hw : Turns b w) (hy : y = c * b)
    (hx : x = c * w) :
    checkDogleg (2 * atan2 y x) < π ∧ 1e-10 ≤ sin (checkDogleg (2 * atan2 y x)) := by
  have hx0 : x ≠ 0 := by rw [hx]; exact mul_ne_zero hc hw.1.ne'
  have hq : 0 < b ^ 2 + w ^ 2 := by positivity
  have hs : sin (checkDogleg (2 * atan2 y x)) = 2 * b * w / (b ^ 2 + w ^ 2) := by
    rw [sin_checkDogleg, sin_two_atan2 (Or.inl hx0), hx, hy]
    have : (c * w) ^ 2 + (c * b) ^ 2 ≠ 0 := by
      have : 0 < (c * w) ^ 2 := by have := mul_ne_zero hc hw.1.ne'; positivity
      positivity
    rw [div_eq_div_iff this hq.ne']
    ring
  have h1 : 1e-10 ≤ sin (checkDogleg (2 * atan2 y x)) := by
    rw [hs, le_div_iff₀ hq]; exact hw.2
  exact ⟨sin_pos_lt_pi (checkDogleg_le y x) (by linarith), h1⟩

theorem minDist_turn {R e a b : ℝ} {noise p v q t u : V3} {o : CurveHold} (hv : v.IsUnit) (hu : u.IsUnit)
    (ho : V3.dot v u = 0) (hb : 0 < b) (hb2 : b ≠ 2 * R) (hq : q = p + a • v + b • u)
    (hne : ¬ allClose p q) (hR : 0 < R) (he : e = 1e-5)
    (hout : R ≤ V3.norm (q - p) ^ 2 / (2 * b) * (1 - e))
    (hturn : Turns b (a + √(V3.norm (q - p) ^ 2 - 2 * R * b)))
    (h : connectPos (.val R) e noise p v q = some (t, .minDist, o)) :
    o.distCurve = R * o.dogleg ∧ o.dogleg < π ∧ 1e-10 ≤ sin o.dogleg ∧ 0 < o.tangent := by
  have hn2 : V3.norm (q - p) ^ 2 = a ^ 2 + b ^ 2 := (dist_components hv hu ho hq).1
  have hq0 : 0 < V3.norm (q - p) ^ 2 - 2 * R * b := by
    have h1 : R < V3.norm (q - p) ^ 2 / (2 * b) := by
      rw [he] at hout
      have : 0 < V3.norm (q - p) ^ 2 / (2 * b) := by
        by_contra hc
        nlinarith [hR, hout]
      nlinarith
    rw [lt_div_iff₀ (by positivity)] at h1
    linarith
  unfold connectPos at h
  simp only [not_ahead hu ho hb hq noise, getDistances_eq hv hu ho hb.le hq hne] at h
  cases hrc : getRadiusCritical ⟨V3.norm (q - p), a, b⟩ e with
  | none => rw [hrc] at h; simp at h
  | some rc =>
    rw [hrc] at h
    simp only at h
    split_ifs at h with hle
    · simp only [Option.map_eq_some_iff] at h
      obtain ⟨o', ho', he'⟩ := h
      simp only [Prod.mk.injEq, true_and] at he'
      rw [← he'.2]
      unfold curveHold minDistToTarget at ho'
      simp only [not_lt.mpr hq0.le, if_false, getCurveHoldData, Option.some.injEq] at ho'
      rw [← ho']
      set T := √(V3.norm (q - p) ^ 2 - 2 * R * b) with hT
      have hTsq : T ^ 2 = V3.norm (q - p) ^ 2 - 2 * R * b := sq_sqrt hq0.le
      have hw := hturn.1
      obtain ⟨k1, k2⟩ := turn_dogleg (y := a - T) (x := 2 * R - b) (c := (2 * R - b) / (a + T))
        (div_ne_zero (sub_ne_zero.mpr (Ne.symm hb2)) hw.ne') hb hturn
        (by rw [div_mul_eq_mul_div, eq_div_iff hw.ne']; linear_combination -hTsq - hn2)
        (by rw [div_mul_cancel₀ _ hw.ne'])
      exact ⟨rfl, k1, k2, sqrt_pos.mpr hq0⟩
    · simp only [Option.map_eq_some_iff] at h
      obtain ⟨o', -, he'⟩ := h
      simp at he'

theorem minCurve_turn {R e a b : ℝ} {noise p v q t u : V3} {o : CurveHold} (hv : v.IsUnit) (hu : u.IsUnit)
    (ho : V3.dot v u = 0) (hb : 0 < b) (hq : q = p + a • v + b • u) (hne : ¬ allClose p q)
    (hin : V3.norm (q - p) ^ 2 / (2 * b) ≤ R) (hturn : Turns b a)
    (h : connectPos (.val R) e noise p v q = some (t, .minCurve, o)) :
    o.distCurve = V3.norm (q - p) ^ 2 / (2 * b) * o.dogleg ∧ o.dogleg < π ∧ 1e-10 ≤ sin o.dogleg := by
  unfold connectPos at h
  simp only [not_ahead hu ho hb hq noise, getDistances_eq hv hu ho hb.le hq hne] at h
  cases hrc : getRadiusCritical ⟨V3.norm (q - p), a, b⟩ e with
  | none => rw [hrc] at h; simp at h
  | some rc =>
    rw [hrc] at h
    simp only at h
    split_ifs at h with hle
    · simp only [Option.map_eq_some_iff] at h
      obtain ⟨o', -, he⟩ := h
      simp at he
    · simp only [Option.map_eq_some_iff] at h
      obtain ⟨o', ho', he⟩ := h
      simp only [Prod.mk.injEq, true_and] at he
      rw [← he.2]
      unfold curveOnly minCurveToTarget at ho'
      simp only [hb.ne', and_false, if_false] at ho'
      split_ifs at ho' with hp
      · simp only [Ext.min, min_eq_right hin, getCurveHoldData, Option.some.injEq] at ho'
        rw [← ho']
        exact ⟨rfl, turn_dogleg one_ne_zero hb hturn (one_mul _).symm (one_mul _).symm⟩
      all_goals simp at ho'

/-- The connection to a point straight ahead. -/
theorem ahead_conn {noise : V3} {s : At} {p : V3} {a : ℝ} (d : ℝ) (hv : s.vec.IsUnit) (ha : 0 < a)
    (hp : p = s.pos + a • s.vec) :
    pointConn noise s p d = some ⟨.hold, s.md, a + s.md, none, none, s.vec, s.vec, s.vec, s.vec, 0, 0, 0, 0⟩ ∧
      connPoint noise s p d = some ⟨p, s.vec, a + s.md⟩ := by
  have hn : V3.norm (p - s.pos) = a := by
    rw [hp, add_sub_cancel_left, V3.norm_smul, abs_of_pos ha, norm_of_unit hv, mul_one]
  have hc : p ≠ s.pos ∧ allClose s.vec (normalize (p - s.pos)) := by
    constructor
    · intro h
      rw [h, sub_self] at hn
      simp [V3.norm, V3.dot] at hn
      exact ha.ne hn
    · have : normalize (p - s.pos) = s.vec := by
        unfold normalize
        rw [hn, hp, add_sub_cancel_left, smul_smul, one_div, inv_mul_cancel₀ ha.ne', one_smul]
      rw [this]
      exact allClose_refl _
  unfold pointConn connPoint
  rw [if_pos hc, if_pos hc]
  simp only [holdGeo, Option.map_some, hn, normalize_of_unit hv]
  exact ⟨trivial, trivial⟩

/-- A gap that is crossed as planned has a path along its connection. -/
theorem gap_path {noise : V3} {s : At} {p : V3} {d : ℝ} (hv : s.vec.IsUnit) (hd : 0 < d)
    (h : Gap s p d) :
    ∃ c e, pointConn noise s p d = some c ∧ connPoint noise s p d = some e ∧ e.pos = p ∧ e.vec.IsUnit ∧
      c.md1 = s.md ∧ c.mdT = e.md ∧ s.md < e.md ∧
      ∃ γ τ : ℝ → V3, Follows γ τ c ∧ γ s.md = s.pos ∧ γ e.md = p ∧ τ s.md = s.vec ∧ τ e.md = e.vec := by
  have hR := designRadius_pos (D := 30) (d := d) (by norm_num) hd
  cases h with
  | ahead a ha hp =>
    obtain ⟨hc, he⟩ := ahead_conn (noise := noise) d hv ha hp
    obtain ⟨γ, τ, g1, g2, g3⟩ := straight_path (a := s.md) (p := s.pos) (q := p) hv ha ⟨ha.le, hp⟩
    refine ⟨_, _, hc, he, rfl, hv, rfl, rfl, by simp only; linarith, γ, τ, ?_, g1, ?_, g3.start, ?_⟩
    · simp only [Follows]
      rw [add_comm a]
      exact g3
    · simp only; rw [add_comm a]; exact g2
    · simp only; rw [add_comm a]; exact g3.stop
  | side u a b hu ho hb hb2 hp hne hdir hout hturn =>
    obtain ⟨o, h1, h2, h3, h4, h5, h6⟩ := C74_design_radius_partial (noise := noise) hv hu ho hR hb hb2 hp
      hne (by norm_num) (by norm_num) hout
    obtain ⟨hlen, t1, t2, t3⟩ := minDist_turn hv hu ho hb hb2 hp hne hR rfl hout hturn h1
    have hdr : o.distCurve / designRadius 30 d = o.dogleg := by rw [hlen, mul_div_cancel_left₀ _ hR.ne']
    obtain ⟨-, hw, γ₁, τ₁, g1, g2, g3⟩ := arc_path (a := s.md) hR h5 (by rw [hdr]; exact t1)
      (by rw [hdr]; exact t2) h2
    rw [hdr] at g3
    obtain ⟨γ₂, τ₂, k1, k2, k3⟩ := straight_path (a := s.md + o.distCurve) hw t3 h3
    obtain ⟨γ, τ, e1, e2⟩ := glue (b := s.md + o.distCurve) (by rw [g2, k1] : γ₁ _ = γ₂ _)
      (by rw [g3.stop, k3.start] : τ₁ _ = τ₂ _)
    have hnot : ¬ (p ≠ s.pos ∧ allClose s.vec (normalize (p - s.pos))) := fun h => hdir h.2
    unfold pointConn connPoint
    rw [if_neg hnot, if_neg hnot, h1]
    simp only [Option.map_some, abs_of_pos h5]
    refine ⟨_, _, rfl, rfl, rfl, by rw [normalize_of_unit hw]; exact hw, rfl, by simp only; rw [h4]; ring,
      by simp only; linarith, γ, τ, ?_, ?_, ?_, ?_, ?_⟩
    · simp only [Follows]
      refine ⟨_, rfl, curveAlong_congr (fun x _ hx => e1 x hx) g3, rfl,
        holdAlong_congr (fun x hx _ => e2 x hx) k3⟩
    · rw [(e1 s.md (by linarith)).1, g1]
    · simp only
      rw [h4, ← add_assoc, (e2 _ (by linarith)).1, k2]
    · rw [(e1 s.md (by linarith)).2, g3.start]
    · simp only
      rw [h4, ← add_assoc, (e2 _ (by linarith)).2, k3.stop, normalize_of_unit hw]
  | inside u a b hu ho hb hp hne hdir hin hturn =>
    obtain ⟨o, h1, h2, h3, h4, h5⟩ := C74_critical_radius_partial (noise := noise) (e := 1e-5)
      (radius := .val (designRadius 30 d)) hv hu ho hb hturn.1.ne' hp hne (by norm_num) (by norm_num)
      (fun R hR => by injection hR with hR; rw [← hR]; exact hin)
    obtain ⟨hlen, t1, t2⟩ := minCurve_turn hv hu ho hb hp hne hin hturn h1
    have hrc : 0 < V3.norm (p - s.pos) ^ 2 / (2 * b) := by
      have h0 : 0 ≤ V3.norm (p - s.pos) ^ 2 / (2 * b) := by positivity
      refine lt_of_le_of_ne h0 fun h => ?_
      rw [← h, zero_mul] at hlen
      exact h5.ne' hlen
    have hdr : o.distCurve / (V3.norm (p - s.pos) ^ 2 / (2 * b)) = o.dogleg := by
      rw [hlen, mul_div_cancel_left₀ _ hrc.ne']
    obtain ⟨-, hw, γ, τ, g1, g2, g3⟩ := arc_path (a := s.md) hrc h5 (by rw [hdr]; exact t1)
      (by rw [hdr]; exact t2) h2
    rw [hdr] at g3
    have hnot : ¬ (p ≠ s.pos ∧ allClose s.vec (normalize (p - s.pos))) := fun h => hdir h.2
    unfold pointConn connPoint
    rw [if_neg hnot, if_neg hnot, h1]
    simp only [Option.map_some, h4]
    refine ⟨_, _, rfl, rfl, rfl, by rw [normalize_of_unit hw]; exact hw, rfl, rfl, by simp only; linarith,
      γ, τ, ?_, g1, g2, g3.start, ?_⟩
    · simp only [Follows]
      exact ⟨g3, trivial⟩
    · rw [normalize_of_unit hw]
      exact g3.stop

/-! ### All gaps -/

/-- Every gap, from where the connection before it ended, is crossed as planned. -/
def Gaps (noise : V3) : At → List (V3 × ℝ) → Prop
  | _, [] => True
  | s, (p, d) :: rest => 0 < d ∧ Gap s p d ∧ ∀ e, connPoint noise s p d = some e → Gaps noise e rest

theorem gaps_path {noise : V3} (l : List (V3 × ℝ)) {s : At} (hv : s.vec.IsUnit) (h : Gaps noise s l) :
    ∃ cs, pointConns noise s l = some cs ∧ cs.length = l.length ∧
      (∀ c, cs.head? = some c → c.md1 = s.md) ∧ cs.IsChain (fun x y => y.md1 = x.mdT) ∧
      (∀ c ∈ cs, s.md ≤ c.md1) ∧
      ∃ γ τ : ℝ → V3, γ s.md = s.pos ∧ τ s.md = s.vec ∧ (∀ c ∈ cs, Follows γ τ c) ∧
        ∀ (k : ℕ) c x, cs[k]? = some c → l[k]? = some x → γ c.mdT = x.1 := by
  induction l generalizing s with
  | nil => exact ⟨[], rfl, rfl, by simp, List.IsChain.nil, by simp, fun _ => s.pos, fun _ => s.vec, rfl, rfl, by simp, by simp⟩
  | cons x l ih =>
    obtain ⟨p, d⟩ := x
    obtain ⟨hd, hg, hrest⟩ := h
    obtain ⟨c, e, c1, c2, c3, c4, c5, c6, c7, γ₁, τ₁, f1, f2, f3, f4, f5⟩ := gap_path hv hd hg
    obtain ⟨cs, i1, i2, i3, i4, i5, γ₂, τ₂, j1, j2, j3, j4⟩ := ih c4 (hrest e c2)
    obtain ⟨γ, τ, e1, e2⟩ := glue (b := e.md) (by rw [f3, j1, c3] : γ₁ _ = γ₂ _) (by rw [f5, j2] : τ₁ _ = τ₂ _)
    have fol : ∀ c' ∈ cs, Follows γ τ c' := fun c' hc' =>
      follows_congr (fun x hx _ => e2 x ((i5 c' hc').trans hx)) (j3 c' hc')
    refine ⟨c :: cs, ?_, by simp [i2], by simp [c5], ?_, ?_, γ, τ, ?_, ?_, ?_, ?_⟩
    · rw [pointConns, c1, c2]
      simp only
      rw [if_pos (by rw [c3]; exact allClose_refl _), i1]
      rfl
    · cases cs with
      | nil => exact List.IsChain.singleton _
      | cons c' cs => exact List.isChain_cons_cons.mpr ⟨by rw [i3 c' rfl, c6], i4⟩
    · intro c' hc'
      rcases List.mem_cons.mp hc' with rfl | hc'
      · rw [c5]
      · exact c7.le.trans (i5 c' hc')
    · rw [(e1 _ c7.le).1, f2]
    · rw [(e1 _ c7.le).2, f4]
    · intro c' hc'
      rcases List.mem_cons.mp hc' with rfl | hc'
      · exact follows_congr (fun x _ hx => e1 x (by rw [← c6]; exact hx)) f1
      · exact fol c' hc'
    · intro k c' x hk hx
      cases k with
      | zero =>
        simp only [List.getElem?_cons_zero, Option.some.injEq] at hk hx
        rw [← hk, ← hx, c6, (e1 _ le_rfl).1, f3]
      | succ k =>
        simp only [List.getElem?_cons_succ] at hk hx
        have hm : c' ∈ cs := List.mem_of_getElem? hk
        rw [(e2 _ ?_).1, j4 k c' x hk hx]
        have := follows_lt (j3 c' hm)
        linarith [i5 c' hm]

/-- **C357** The survey of the connections through points, made with the given step.  If every gap is
crossed as planned, every point is the position of the station at the depth where its connection ends;
the survey starts at the first point and ends at the last. -/
theorem C357_through_points {key : ℕ → ℝ → ℤ} (hk : RoundsTo4 (key 4)) (decimals : ℕ) (noise : V3)
    {step : Option ℝ} {p q v : V3} {d md : ℝ} {rest : List (V3 × ℝ)} (hv : v.IsUnit)
    (hg : Gaps noise ⟨p, v, md⟩ ((q, d) :: rest)) (hs : ∀ st, step = some st → 0 < st)
    (ha : ∀ cs, pointConns noise ⟨p, v, md⟩ ((q, d) :: rest) = some cs → WantedApart step (cs.flatMap joints)) :
    ∃ cs out pos, pointConns noise ⟨p, v, md⟩ ((q, d) :: rest) = some cs ∧
      cs.length = rest.length + 1 ∧ fromConnections key decimals step cs = .ok out ∧
      surveyPositions p out = .ok pos ∧ pos.length = out.length ∧
      (out.head?.map Station.md = some md ∧ pos.head? = some p) ∧
      (∀ (k : ℕ) c x, cs[k]? = some c → ((q, d) :: rest)[k]? = some x →
        (c.mdT, x.1) ∈ (out.map Station.md).zip pos) ∧
      pos.getLast? = (((q, d) :: rest).getLast?).map Prod.fst := by
  obtain ⟨cs, i1, i2, i3, i4, -, γ, τ, j1, -, j3, j4⟩ := gaps_path _ hv hg
  match cs, i1, i2, i3, i4, j3, j4 with
  | [], _, i2, _, _, _, _ => simp at i2
  | c :: cs, i1, i2, i3, i4, j3, j4 =>
    obtain ⟨out, o1, -, o3, o4, o5, -, o7⟩ := C356_on_path hk decimals c cs j3 i4 hs (ha _ i1)
    have hc : c.md1 = md := i3 c rfl
    rw [hc] at o3 o7
    rw [show γ md = p from j1] at o7
    have hz : ∀ r ∈ out, (r.md, γ r.md) ∈ (out.map Station.md).zip (out.map fun r => γ r.md) := by
      intro r hr
      rw [List.zip_map', List.mem_map]
      exact ⟨r, hr, rfl⟩
    refine ⟨c :: cs, out, _, i1, by simpa using i2, o1, o7, by simp, ⟨by rw [← List.head?_map]; exact o3, ?_⟩, ?_, ?_⟩
    · rw [List.head?_map] at o3 ⊢
      cases hh : out.head? with
      | none => rw [hh] at o3; simp at o3
      | some r =>
        rw [hh] at o3
        simp only [Option.map_some, Option.some.injEq] at o3 ⊢
        rw [o3]; exact j1
    · intro k c' x hk' hx
      have hm : c' ∈ c :: cs := List.mem_of_getElem? hk'
      obtain ⟨r, hr, hrm⟩ := List.mem_map.mp (o5 c' hm _ (joints_ends c').2)
      have := hz r hr
      rw [hrm, j4 k c' x hk' hx] at this
      exact this
    · have hend : ∀ (c : Conn) cs m, endMd m (c :: cs) = (((c :: cs).getLast (by simp)).mdT) := by
        intro c cs
        induction cs generalizing c with
        | nil => intro m; rfl
        | cons c' cs ih =>
          intro m
          rw [endMd, ih c' c.mdT]
          exact congrArg Conn.mdT (List.getLast_cons (List.cons_ne_nil _ _)).symm
      rw [hend] at o4
      rw [List.getLast?_map] at o4 ⊢
      cases hl : out.getLast? with
      | none => rw [hl] at o4; simp at o4
      | some r =>
        rw [hl] at o4
        simp only [Option.map_some, Option.some.injEq] at o4 ⊢
        obtain ⟨x, hx⟩ : ∃ x, ((q, d) :: rest).getLast? = some x := ⟨_, List.getLast?_eq_some_getLast (by simp)⟩
        rw [hx, Option.map_some, Option.some.injEq, o4]
        refine j4 cs.length _ x ?_ ?_
        · rw [List.getLast_eq_getElem, List.getElem?_eq_getElem (by simp)]
          simp
        · rw [List.getLast?_eq_getElem?] at hx
          rw [← hx]
          congr 1
          simp at i2 ⊢
          omega

/-- A vertical well through points 100 m and 250 m below its start, with a station every 50 m. -/
example {key : ℕ → ℝ → ℤ} (hk : RoundsTo4 (key 4)) : ∃ cs out pos,
    pointConns 0 ⟨0, ⟨0, 0, 1⟩, 0⟩ [(⟨0, 0, 100⟩, 3), (⟨0, 0, 250⟩, 3)] = some cs ∧
      fromConnections key 4 (some 50) cs = .ok out ∧ surveyPositions 0 out = .ok pos ∧
      pos.getLast? = some ⟨0, 0, 250⟩ := by
  have hv : (⟨0, 0, 1⟩ : V3).IsUnit := by norm_num [V3.IsUnit, V3.dot]
  have p1 : (⟨0, 0, 100⟩ : V3) = 0 + (100 : ℝ) • ⟨0, 0, 1⟩ := by ext <;> simp
  have p2 : (⟨0, 0, 250⟩ : V3) = ⟨0, 0, 100⟩ + (150 : ℝ) • ⟨0, 0, 1⟩ := by ext <;> simp <;> norm_num
  obtain ⟨a1, e1⟩ := ahead_conn (noise := 0) (s := ⟨0, ⟨0, 0, 1⟩, 0⟩) 3 hv (by norm_num) p1
  obtain ⟨a2, e2⟩ := ahead_conn (noise := 0) (s := ⟨⟨0, 0, 100⟩, ⟨0, 0, 1⟩, 100 + 0⟩) 3 hv (by norm_num) p2
  have hg : Gaps 0 ⟨0, ⟨0, 0, 1⟩, 0⟩ [((⟨0, 0, 100⟩ : V3), (3 : ℝ)), (⟨0, 0, 250⟩, 3)] := by
    refine ⟨by norm_num, .ahead 100 (by norm_num) p1, fun e he => ?_⟩
    rw [e1] at he
    injection he with he
    rw [← he]
    exact ⟨by norm_num, .ahead 150 (by norm_num) p2, fun _ _ => trivial⟩
  obtain ⟨cs, out, pos, h1, -, h3, h4, -, -, -, h8⟩ := C357_through_points (step := some 50) hk 4 0 hv hg
    (fun st hst => by injection hst with hst; rw [← hst]; norm_num) (by
      intro cs hcs
      rw [pointConns, a1, e1] at hcs
      simp only [allClose_refl, if_true] at hcs
      rw [pointConns, a2, e2] at hcs
      simp only [allClose_refl, if_true, pointConns, Option.map_some, Option.some.injEq] at hcs
      have hw : ∀ x, WantedMd (some (50 : ℝ)) (cs.flatMap joints) x → ∃ k : ℤ, x = k * 50 := by
        rintro x (hx | ⟨st, hst, k, hx⟩)
        · rw [← hcs] at hx
          simp only [List.flatMap_cons, List.flatMap_nil, joints, List.append_nil, List.mem_append,
            List.mem_cons, List.not_mem_nil, or_false] at hx
          rcases hx with (hx | hx) | hx | hx
          · exact ⟨0, by rw [hx]; norm_num⟩
          · exact ⟨2, by rw [hx]; norm_num⟩
          · exact ⟨2, by rw [hx]; norm_num⟩
          · exact ⟨5, by rw [hx]; norm_num⟩
        · injection hst with hst
          exact ⟨k, by rw [hx, ← hst]⟩
      intro x y hx hy
      obtain ⟨i, rfl⟩ := hw x hx
      obtain ⟨j, rfl⟩ := hw y hy
      by_cases hij : i = j
      · left; rw [hij]
      · right
        have : (1 : ℝ) ≤ |((i - j : ℤ) : ℝ)| := by
          rw [← Int.cast_abs]
          exact_mod_cast Int.one_le_abs (sub_ne_zero.mpr hij)
        rw [← sub_mul, abs_mul, ← Int.cast_sub]
        norm_num
        push_cast at this
        linarith)
  exact ⟨cs, out, pos, h1, h3, h4, h8⟩

/-- A point 100 m ahead and 100 m aside is reached by a quarter circle, sharper than three degrees per 30 m. -/
example : Gap ⟨0, ⟨0, 0, 1⟩, 0⟩ ⟨100, 0, 100⟩ 3 := by
  have hn : V3.norm ((⟨100, 0, 100⟩ : V3) - 0) ^ 2 = 20000 := by
    unfold V3.norm
    rw [sq_sqrt] <;> norm_num [V3.dot]
  have h0 : 0 < V3.norm ((⟨100, 0, 100⟩ : V3) - 0) := by
    unfold V3.norm
    apply sqrt_pos.mpr
    norm_num [V3.dot]
  refine .inside ⟨1, 0, 0⟩ 100 100 (by norm_num [V3.IsUnit, V3.dot]) (by norm_num [V3.dot]) (by norm_num)
    (by ext <;> simp) ?_ ?_ ?_ ⟨by norm_num, by norm_num⟩
  · intro h
    have := h.1
    norm_num [isClose] at this
  · intro h
    have h1 := h.1
    have h2 : V3.norm (⟨100, 0, 100⟩ : V3) ≤ 200 := by
      unfold V3.norm
      rw [sqrt_le_left (by norm_num)]
      norm_num [V3.dot]
    have h3 : 0 < V3.norm (⟨100, 0, 100⟩ : V3) := by simpa using h0
    simp only [isClose, normalize, sub_zero, V3.smul_x, one_div] at h1
    have h4 : 1 / 2 ≤ (V3.norm (⟨100, 0, 100⟩ : V3))⁻¹ * 100 := by
      rw [inv_mul_eq_div, div_le_div_iff₀ (by norm_num) h3]
      linarith
    rw [abs_of_neg (by linarith), abs_of_pos (by linarith)] at h1
    norm_num at h1
    linarith
  · rw [hn]
    unfold designRadius
    have := pi_lt_four
    rw [le_div_iff₀ (by unfold radians; positivity)]
    unfold radians
    linarith

end Welleng.Props
