import Verif.Props.ExtendTvd
import Verif.Props.ConnectorCurve
import Verif.Props.Project

/-!
C205-C207: `connect_points` (`/repo/welleng/connector.py` 2357-2421).  C208: `survey_to_plan`
(2424-2542).
-/

namespace Welleng.Props

open Real Welleng Spec Con Tf Proj Xt

/-! ### One connection -/

theorem connPoint_pos {noise : V3} {s e : At} {p : V3} {d : ℝ} (h : connPoint noise s p d = some e) :
    e.pos = p := by
  unfold connPoint at h
  split_ifs at h with hc
  · simp only [holdGeo, Option.map_some, Option.some.injEq] at h
    rw [← h]
  · have hm : modTarget noise s.pos s.vec p = p := by
      unfold modTarget
      rw [if_neg]
      rintro ⟨h1, h2⟩
      exact hc ⟨h1, by rw [← h2]; exact allClose_refl _⟩
    simp only [Option.map_eq_some_iff] at h
    obtain ⟨r, hr, rfl⟩ := h
    simp only
    unfold connectPos at hr
    rw [hm] at hr
    simp only at hr
    cases hrc : getRadiusCritical (getDistances s.pos s.vec p) 1e-5 with
    | none => rw [hrc] at hr; simp at hr
    | some rc =>
      rw [hrc] at hr
      simp only at hr
      split_ifs at hr <;>
      · simp only [Option.map_eq_some_iff] at hr
        obtain ⟨o, -, rfl⟩ := hr
        rfl

theorem connPoint_md {noise : V3} {s e : At} {p : V3} {d : ℝ} (hd : 0 < d)
    (h : connPoint noise s p d = some e) : s.md ≤ e.md := by
  have hR := designRadius_pos (D := 30) (d := d) (by norm_num) hd
  unfold connPoint at h
  split_ifs at h with hc
  · simp only [holdGeo, Option.map_some, Option.some.injEq] at h
    rw [← h]
    simp only
    have : 0 ≤ V3.norm (p - s.pos) := by unfold V3.norm; exact sqrt_nonneg _
    linarith
  · simp only [Option.map_eq_some_iff] at h
    obtain ⟨r, hr, rfl⟩ := h
    simp only
    suffices h0 : 0 ≤ r.2.2.md by linarith
    unfold connectPos at hr
    simp only at hr
    generalize modTarget noise s.pos s.vec p = q at hr
    generalize getDistances s.pos s.vec q = x at hr
    cases hrc : getRadiusCritical x 1e-5 with
    | none => rw [hrc] at hr; simp at hr
    | some rc =>
      rw [hrc] at hr
      simp only at hr
      split_ifs at hr with hle
      · simp only [Option.map_eq_some_iff] at hr
        obtain ⟨o, ho, rfl⟩ := hr
        simp only
        unfold curveHold minDistToTarget at ho
        simp only at ho
        by_cases hq : x.d ^ 2 - 2 * designRadius 30 d * x.n < 0
        · rw [if_pos hq] at ho; simp at ho
        · rw [if_neg hq] at ho
          simp only [Option.some.injEq] at ho
          rw [← ho]
          simp only
          have := sqrt_nonneg (x.d ^ 2 - 2 * designRadius 30 d * x.n)
          positivity
      · simp only [Option.map_eq_some_iff] at hr
        obtain ⟨o, ho, rfl⟩ := hr
        simp only
        unfold curveOnly minCurveToTarget at ho
        have hcd := checkDogleg_nonneg x.n x.p
        by_cases h1 : x.d = 0 ∧ x.p = 0 ∧ x.n = 0
        · simp only [if_pos h1, Ext.min, getCurveHoldData, Option.some.injEq] at ho
          rw [← ho]
          simp [checkDogleg]
        · by_cases h2 : x.n = 0
          · simp only [if_neg h1, if_pos h2, Ext.min, getCurveHoldData, Option.some.injEq] at ho
            rw [← ho]
            simp only
            rw [h2] at hcd
            have := mul_nonneg hR.le hcd
            rw [h2]
            linarith
          · by_cases h3 : 0 < x.d ^ 2 / (2 * x.n)
            · simp only [if_neg h1, if_neg h2, if_pos h3, Ext.min, getCurveHoldData,
                Option.some.injEq] at ho
              rw [← ho]
              simp only
              have := mul_nonneg (lt_min hR h3).le hcd
              linarith
            · simp only [if_neg h1, if_neg h2, if_neg h3] at ho
              simp at ho

/-- Distances are never contradictory. -/
theorem getDistances_ok (pos vec q : V3) :
    0 ≤ (getDistances pos vec q).n ∧
      ((getDistances pos vec q).n ≠ 0 → 0 < (getDistances pos vec q).d ^ 2) := by
  unfold getDistances
  split_ifs with h
  · exact ⟨le_rfl, fun h => absurd rfl h⟩
  · simp only
    generalize (if V3.dot (q - pos) vec > V3.norm (q - pos) then V3.norm (q - pos)
      else V3.dot (q - pos) vec) = y
    refine ⟨sqrt_nonneg _, fun hn => ?_⟩
    by_contra hneg
    apply hn
    apply sqrt_eq_zero_of_nonpos
    have := sq_nonneg y
    push Not at hneg
    linarith

theorem connPoint_some (noise : V3) (s : At) (p : V3) {d : ℝ} (hd : 0 < d) :
    ∃ e, connPoint noise s p d = some e := by
  have hR := designRadius_pos (D := 30) (d := d) (by norm_num) hd
  unfold connPoint
  split_ifs with hc
  · exact ⟨_, rfl⟩
  · simp only [Option.map_eq_some_iff]
    unfold connectPos
    simp only
    generalize modTarget noise s.pos s.vec p = q
    obtain ⟨hn, hdn⟩ := getDistances_ok s.pos s.vec q
    generalize getDistances s.pos s.vec q = x at hn hdn
    have hrc : ∃ rc, getRadiusCritical x 1e-5 = some rc ∧
        (x.n ≠ 0 → rc = x.d ^ 2 / (2 * x.n) * (1 - 1e-5)) ∧ (x.n = 0 → rc = 0) := by
      unfold getRadiusCritical
      by_cases h0 : x.n = 0
      · exact ⟨0, by rw [if_pos h0], fun h => absurd h0 h, fun _ => rfl⟩
      · have hn' : 0 < x.n := lt_of_le_of_ne hn (Ne.symm h0)
        have := hdn h0
        have hp : 0 < x.d ^ 2 / (2 * x.n) * (1 - 1e-5) := mul_pos (by positivity) (by norm_num)
        exact ⟨_, by rw [if_neg h0]; simp only; rw [if_pos hp], fun _ => rfl, fun h => absurd h h0⟩
    obtain ⟨rc, e1, e2, e3⟩ := hrc
    rw [e1]
    simp only
    split_ifs with hle
    · have h0 : x.n ≠ 0 := fun h => by rw [e3 h] at hle; linarith
      have hn' : 0 < x.n := lt_of_le_of_ne hn (Ne.symm h0)
      rw [e2 h0] at hle
      have hq : ¬ (x.d ^ 2 - 2 * designRadius 30 d * x.n < 0) := by
        have hpos : 0 ≤ x.d ^ 2 / (2 * x.n) := by positivity
        have : designRadius 30 d ≤ x.d ^ 2 / (2 * x.n) := hle.trans (by nlinarith)
        rw [le_div_iff₀ (by positivity)] at this
        linarith
      unfold curveHold minDistToTarget
      simp only
      rw [if_neg hq]
      exact ⟨_, _, rfl, rfl⟩
    · unfold curveOnly minCurveToTarget
      by_cases h1 : x.d = 0 ∧ x.p = 0 ∧ x.n = 0
      · simp only [if_pos h1, Ext.min]
        exact ⟨_, _, rfl, rfl⟩
      · by_cases h2 : x.n = 0
        · simp only [if_neg h1, if_pos h2, Ext.min]
          exact ⟨_, _, rfl, rfl⟩
        · have hn' : 0 < x.n := lt_of_le_of_ne hn (Ne.symm h2)
          have h3 : 0 < x.d ^ 2 / (2 * x.n) := div_pos (hdn h2) (by positivity)
          simp only [if_neg h1, if_neg h2, if_pos h3, Ext.min]
          exact ⟨_, _, rfl, rfl⟩

/-! ### The chain -/

theorem connectFrom_some (noise : V3) (l : List (V3 × ℝ)) (hl : ∀ x ∈ l, 0 < x.2) (s : At) :
    ∃ legs, connectFrom noise s l = some legs ∧ legs.length = l.length ∧
      legs.map (·.stop.pos) = l.map (·.1) ∧
      legs.map (·.start) = startsOf s (legs.map (·.stop)) ∧
      (∀ leg ∈ legs, leg.start.md ≤ leg.stop.md) ∧
      ∀ (k : ℕ) leg, legs[k]? = some leg →
        ∃ x, l[k]? = some x ∧ connPoint noise leg.start x.1 x.2 = some leg.stop := by
  induction l generalizing s with
  | nil => exact ⟨[], rfl, rfl, rfl, rfl, by simp, by simp⟩
  | cons x l ih =>
    obtain ⟨p, d⟩ := x
    have hd : 0 < d := hl (p, d) (by simp)
    obtain ⟨e, he⟩ := connPoint_some noise s p hd
    have hpos := connPoint_pos he
    have hmd := connPoint_md hd he
    obtain ⟨legs, i1, i2, i3, i4, i5, i6⟩ := ih (fun x hx => hl x (List.mem_cons_of_mem _ hx)) e
    refine ⟨⟨s, e⟩ :: legs, ?_, by simp [i2], by simp [i3, hpos], ?_, ?_, ?_⟩
    · rw [connectFrom, he]
      simp only
      rw [if_pos (by rw [hpos]; exact allClose_refl _), i1, Option.map_some]
    · simp only [List.map_cons, startsOf]
      rw [i4]
    · intro leg hleg
      rcases List.mem_cons.mp hleg with rfl | h
      · exact hmd
      · exact i5 leg h
    · intro k leg hk
      cases k with
      | zero =>
        simp only [List.getElem?_cons_zero, Option.some.injEq] at hk
        subst hk
        exact ⟨(p, d), rfl, he⟩
      | succ k =>
        simp only [List.getElem?_cons_succ] at hk ⊢
        exact i6 k leg hk

theorem startVec_false (v : V3) : startVec false v = v := by
  unfold startVec; simp

theorem unit_ne_zero {v : V3} (hv : v.IsUnit) : v ≠ 0 := by
  rintro rfl
  simp [V3.IsUnit, V3.dot] at hv

/-- With a severity for every point, the loop after the first point. -/
theorem connectPoints_eq (noise : V3) (p : V3) (pts : List V3) {v : V3} (hv : v.IsUnit) (d : ℝ)
    (ds : List ℝ) (md : ℝ) :
    connectPoints noise false (p :: pts) v (.array (d :: ds)) md
      = connectFrom noise ⟨p, v, md⟩ (pts.zip ds) := by
  unfold connectPoints DlsArg.toList
  simp only [List.zip_cons_cons, startVec_false]
  rw [if_neg (fun h => unit_ne_zero hv h.1), normalize_of_unit hv]

/-! ### C205 -/

/-- **C205** For points in floating point, a unit start direction and a positive severity for every
point: `connect_points` returns one connection per gap.  The first starts at the first point in the
start direction at the start depth, each of the others where the one before ended, in position,
direction and depth; each ends at its point; the depths do not decrease. -/
theorem C205_through_points (noise : V3) (p : V3) (pts : List V3) {v : V3} (hv : v.IsUnit) (d : ℝ)
    (ds : List ℝ) (hlen : ds.length = pts.length) (hds : ∀ x ∈ ds, 0 < x) (md : ℝ) :
    ∃ legs, connectPoints noise false (p :: pts) v (.array (d :: ds)) md = some legs ∧
      legs.map (·.stop.pos) = pts ∧
      legs.map (·.start) = startsOf ⟨p, v, md⟩ (legs.map (·.stop)) ∧
      ∀ leg ∈ legs, leg.start.md ≤ leg.stop.md := by
  rw [connectPoints_eq noise p pts hv]
  obtain ⟨legs, h1, -, h3, h4, h5, -⟩ := connectFrom_some noise (pts.zip ds)
    (fun x hx => hds _ (List.of_mem_zip hx).2) ⟨p, v, md⟩
  refine ⟨legs, h1, ?_, h4, h5⟩
  rw [h3, List.map_fst_zip (by omega)]

/-- C205 hypotheses. -/
example : (⟨0, 0, 1⟩ : V3).IsUnit ∧ [(2 : ℝ), 3].length = [(⟨0, 0, 500⟩ : V3), ⟨300, 0, 1500⟩].length ∧
    ∀ x ∈ [(2 : ℝ), 3], 0 < x := by
  refine ⟨by norm_num [V3.IsUnit, V3.dot], rfl, ?_⟩
  intro x hx
  simp only [List.mem_cons, List.not_mem_nil, or_false] at hx
  rcases hx with rfl | rfl <;> norm_num

/-- **C205** A gap whose end lies off the direction of the hole, outside the turning circle of that
point's severity, is crossed by a curve of that severity and a straight, with the depths of that
path. -/
theorem C205_leg_path (noise : V3) (p : V3) (pts : List V3) {v : V3} (hv : v.IsUnit) (d : ℝ)
    (ds : List ℝ) (hlen : ds.length = pts.length) (hds : ∀ x ∈ ds, 0 < x) (md : ℝ) (legs : List Leg)
    (hlegs : connectPoints noise false (p :: pts) v (.array (d :: ds)) md = some legs)
    (k : ℕ) (leg : Leg) (hk : legs[k]? = some leg) (dk : ℝ) (hdk : ds[k]? = some dk)
    {u : V3} {a b : ℝ} (hs : leg.start.vec.IsUnit) (hu : u.IsUnit) (ho : V3.dot leg.start.vec u = 0)
    (hb : 0 < b) (hb2 : b ≠ 2 * (30 / radians dk))
    (hsplit : leg.stop.pos = leg.start.pos + a • leg.start.vec + b • u)
    (hne : ¬ allClose leg.start.pos leg.stop.pos)
    (hdir : ¬ allClose leg.start.vec (normalize (leg.stop.pos - leg.start.pos)))
    (hout : 30 / radians dk ≤ V3.norm (leg.stop.pos - leg.start.pos) ^ 2 / (2 * b) * (1 - 1e-5)) :
    ∃ (L T : ℝ) (q : V3), 0 < L ∧ ArcTo (30 / radians dk) L leg.start.pos leg.start.vec q leg.stop.vec ∧
      StraightTo T q leg.stop.vec leg.stop.pos ∧ leg.stop.md = leg.start.md + (L + T) := by
  rw [connectPoints_eq noise p pts hv] at hlegs
  obtain ⟨legs', h1, -, h3, -, -, h6⟩ := connectFrom_some noise (pts.zip ds)
    (fun x hx => hds _ (List.of_mem_zip hx).2) ⟨p, v, md⟩
  rw [h1] at hlegs
  obtain rfl := Option.some.inj hlegs
  obtain ⟨⟨y, dy⟩, hx, hc⟩ := h6 k leg hk
  have hdy : dy = dk := by
    rw [List.getElem?_zip_eq_some] at hx
    have := hx.2
    simp only at this
    rw [hdk] at this
    exact (Option.some.inj this).symm
  subst hdy
  have hd : 0 < dy := hds _ (List.mem_of_getElem? hdk)
  have hpos := connPoint_pos hc
  simp only at hpos hc
  subst hpos
  have hR : 0 < designRadius 30 dy := designRadius_pos (by norm_num) hd
  obtain ⟨o, o1, o2, o3, o4, o5, -⟩ := C74_design_radius_partial (R := designRadius 30 dy)
    (noise := noise) hs hu ho hR hb hb2 hsplit hne (by norm_num) (by norm_num) hout
  unfold connPoint at hc
  rw [if_neg (fun h => hdir h.2), o1] at hc
  simp only [Option.map_some, Option.some.injEq] at hc
  have hw : o.vecTarget.IsUnit := by
    obtain ⟨γ, τ, ν, hcc, -, -, -, tL⟩ := o2
    rw [← tL]; exact hcc.unit_tan _
  rw [normalize_of_unit hw] at hc
  have hvec : leg.stop.vec = o.vecTarget := by rw [← hc]
  have hmd : leg.stop.md = leg.start.md + o.md := by rw [← hc]
  rw [hvec, hmd, o4]
  exact ⟨o.distCurve, o.tangent, o.pos2, o5, o2, o3, rfl⟩

/-- C205 hypotheses: from the origin downwards to a point 3000 down and 1000 north with 3 degrees
per 30 m. -/
example : ∃ leg, connectPoints 0 false [0, ⟨1000, 0, 3000⟩] ⟨0, 0, 1⟩ (.array [3, 3]) 0 = some [leg] ∧
    ∃ (L T : ℝ) (q : V3), 0 < L ∧ ArcTo (30 / radians 3) L leg.start.pos leg.start.vec q leg.stop.vec ∧
      StraightTo T q leg.stop.vec leg.stop.pos ∧ leg.stop.md = leg.start.md + (L + T) := by
  have hv : (⟨0, 0, 1⟩ : V3).IsUnit := by norm_num [V3.IsUnit, V3.dot]
  have hds : ∀ x ∈ [(3 : ℝ)], 0 < x := by simp
  obtain ⟨legs, h1, h2, h3, -⟩ := C205_through_points 0 0 [⟨1000, 0, 3000⟩] hv 3 [3] rfl hds 0
  match legs, h1, h2, h3 with
  | leg :: _ :: _, _, h2, _ => simp at h2
  | [leg], h1, h2, h3 =>
    simp only [List.map_cons, List.map_nil, startsOf, List.cons.injEq, and_true] at h2 h3
    obtain ⟨-, -, u, a, b, hu, ho, hb, hb2, hs, hr⟩ := reachable_example
    refine ⟨leg, h1, C205_leg_path 0 0 [⟨1000, 0, 3000⟩] hv 3 [3] rfl hds 0 [leg] h1 0 leg rfl 3 rfl
      (u := u) (a := a) (b := b) (by rw [h3]; exact hv) hu (by rw [h3]; exact ho) hb hb2
      (by rw [h2, h3]; exact hs) ?_ ?_ (by rw [h2, h3]; exact hr)⟩
    · rw [h2, h3]; exact reachable_example.far
    · rw [h2, h3]
      intro hc
      have h := hc.1
      have hn : 0 < V3.norm ((⟨1000, 0, 3000⟩ : V3) - 0) := by
        unfold V3.norm
        apply sqrt_pos.mpr
        norm_num [V3.dot]
      have hn2 : V3.norm ((⟨1000, 0, 3000⟩ : V3) - 0) ≤ 10000 := by
        unfold V3.norm
        rw [sqrt_le_left (by norm_num)]
        norm_num [V3.dot]
      unfold isClose normalize at h
      simp only [V3.smul_x, V3.sub_x, V3.zero_x, sub_zero, zero_sub, abs_neg] at h
      have hx : (1 / 10 : ℝ) ≤ |1 / V3.norm ((⟨1000, 0, 3000⟩ : V3) - 0) * 1000| := by
        rw [abs_of_pos (by positivity), div_mul_eq_mul_div, le_div_iff₀ hn]
        linarith
      rw [sub_zero] at hx
      generalize |1 / V3.norm (⟨1000, 0, 3000⟩ : V3) * 1000| = y at h hx
      norm_num at h
      linarith

/-! ### C206 -/

/-- **C206** is false of the code: a severity given as a whole number makes `connect_points` return no
connection at all, whatever the points. -/
theorem C206_whole_number (noise : V3) (integer : Bool) (p : V3) (pts : List V3) (v : V3) (x md : ℝ) :
    connectPoints noise integer (p :: pts) v (.scalar x) md = some [] := by
  unfold connectPoints DlsArg.toList
  simp only [List.zip_cons_cons, List.zip_nil_right]
  rw [if_neg (fun h => h.2 rfl)]
  rfl

/-- **C206** (partial) As a float the severity applies to every gap, as if it were given for every
point. -/
theorem C206_float_partial (noise : V3) (integer : Bool) (pts : List V3) (v : V3) (x md : ℝ) :
    connectPoints noise integer pts v (.float x) md
      = connectPoints noise integer pts v (.array (List.replicate pts.length x)) md := rfl

/-- **C206** (partial) … so that with a positive float there is one connection per gap. -/
theorem C206_float_connects_partial (noise : V3) (p : V3) (pts : List V3) {v : V3} (hv : v.IsUnit)
    {x : ℝ} (hx : 0 < x) (md : ℝ) :
    ∃ legs, connectPoints noise false (p :: pts) v (.float x) md = some legs ∧
      legs.map (·.stop.pos) = pts := by
  obtain ⟨legs, h1, h2, -⟩ := C205_through_points noise p pts hv x (List.replicate pts.length x)
    (by simp) (fun y hy => by rw [List.eq_of_mem_replicate hy]; exact hx) md
  exact ⟨legs, h1, h2⟩

example : (⟨0, 0, 1⟩ : V3).IsUnit ∧ (0 : ℝ) < 3 := ⟨by norm_num [V3.IsUnit, V3.dot], by norm_num⟩

/-! ### C207 -/

theorem trunc_eq_zero {x : ℝ} (h : |x| < 1) : trunc x = 0 := by
  rw [abs_lt] at h
  unfold trunc
  split_ifs with h0
  · have : ⌊x⌋ = 0 := Int.floor_eq_zero_iff.mpr ⟨h0, h.2⟩
    rw [this]; simp
  · have : ⌈x⌉ = 0 := Int.ceil_eq_zero_iff.mpr ⟨h.1, (not_le.mp h0).le⟩
    rw [this]; simp

/-- **C207** is false of the code: with points given as whole numbers, a start direction that is not
along an axis is lost, and there are no usable connections. -/
theorem C207_direction_lost (noise : V3) (p q : V3) (pts : List V3) {v : V3}
    (hx : |v.x| < 1) (hy : |v.y| < 1) (hz : |v.z| < 1) (d e : ℝ) (ds : List ℝ) (md : ℝ) :
    connectPoints noise true (p :: q :: pts) v (.array (d :: e :: ds)) md = none := by
  unfold connectPoints DlsArg.toList
  simp only [List.zip_cons_cons]
  rw [if_pos]
  refine ⟨?_, by simp⟩
  unfold startVec
  simp only [if_true, trunc_eq_zero hx, trunc_eq_zero hy, trunc_eq_zero hz]
  rfl

/-- C207 negation, hypotheses: 30 degrees of inclination; with the same points as floats there is a
connection (C205). -/
example : |(⟨1 / 2, 0, √3 / 2⟩ : V3).x| < 1 ∧ |(⟨1 / 2, 0, √3 / 2⟩ : V3).y| < 1 ∧
    |(⟨1 / 2, 0, √3 / 2⟩ : V3).z| < 1 ∧ (⟨1 / 2, 0, √3 / 2⟩ : V3).IsUnit := by
  have h3 : √3 ^ 2 = 3 := sq_sqrt (by norm_num)
  have h0 := sqrt_nonneg (3 : ℝ)
  refine ⟨by norm_num [abs_lt], by norm_num, ?_, ?_⟩
  · simp only
    rw [abs_of_nonneg (by positivity)]
    nlinarith
  · simp only [V3.IsUnit, V3.dot]; nlinarith

/-- **C207** (partial) Points in floating point: the first connection starts in the direction given;
whole-number points: it does if the direction is along an axis. -/
theorem C207_direction_partial (noise : V3) (integer : Bool) (p : V3) (pts : List V3) {v : V3}
    (hv : v.IsUnit)
    (hint : integer = true → v = ⟨1, 0, 0⟩ ∨ v = ⟨0, 1, 0⟩ ∨ v = ⟨0, 0, 1⟩ ∨ v = ⟨-1, 0, 0⟩ ∨
      v = ⟨0, -1, 0⟩ ∨ v = ⟨0, 0, -1⟩)
    (ds : List ℝ) (md : ℝ) (legs : List Leg) (leg : Leg)
    (hlegs : connectPoints noise integer (p :: pts) v (.array ds) md = some (leg :: legs)) :
    leg.start = ⟨p, v, md⟩ := by
  have hsv : startVec integer v = v := by
    cases integer with
    | false => exact startVec_false v
    | true =>
      have h1 : trunc 1 = 1 := by unfold trunc; norm_num
      have h0 : trunc 0 = 0 := by unfold trunc; norm_num
      have hm : trunc (-1) = -1 := by
        unfold trunc; rw [if_neg (by norm_num)]
        have : ⌈(-1 : ℝ)⌉ = -1 := by rw [show (-1 : ℝ) = ((-1 : ℤ) : ℝ) by norm_num, Int.ceil_intCast]
        rw [this]; norm_num
      unfold startVec
      rcases hint rfl with rfl | rfl | rfl | rfl | rfl | rfl <;> simp [h1, h0, hm]
  cases ds with
  | nil => simp [connectPoints, DlsArg.toList] at hlegs
  | cons d ds =>
    unfold connectPoints DlsArg.toList at hlegs
    simp only [List.zip_cons_cons, hsv] at hlegs
    rw [if_neg (fun h => unit_ne_zero hv (hsv.symm.trans h.1)), normalize_of_unit hv] at hlegs
    generalize pts.zip ds = l at hlegs
    cases l with
    | nil => simp [connectFrom] at hlegs
    | cons x l =>
      rw [connectFrom] at hlegs
      cases hc : connPoint noise ⟨p, v, md⟩ x.1 x.2 with
      | none => rw [hc] at hlegs; simp at hlegs
      | some e =>
        rw [hc] at hlegs
        simp only at hlegs
        split_ifs at hlegs
        simp only [Option.map_eq_some_iff, List.cons.injEq] at hlegs
        obtain ⟨_, -, h, -⟩ := hlegs
        rw [← h]

/-! ### C208 -/

/-- **C208** is false of the code: whatever the survey and whichever connections can be made,
`survey_to_plan` never returns a plan. -/
theorem C208_never_returns {σ : Type} (n : ℕ) (made : ℕ → Bool) (dls : ℚ) (fuel start : ℕ)
    (l : List σ) : surveyToPlan n made dls fuel start ≠ some (.ok l) := by
  cases fuel with
  | zero => simp [surveyToPlan]
  | succ fuel =>
    have hg : ∃ e, getSection (σ := σ) n made start = .error e := by
      unfold getSection
      simp only
      split_ifs <;> exact ⟨_, rfl⟩
    obtain ⟨e, he⟩ := hg
    rw [surveyToPlan, he]
    split_ifs <;> simp

/-- **C208** For a survey of at least three stations the failure is the attribute that does not exist, of
two stations the unbound loop variable. -/
theorem C208_error {σ : Type} (n : ℕ) (made : ℕ → Bool) {dls : ℚ} (hd : 0 < dls) (fuel : ℕ) :
    (3 ≤ n → made 2 = true →
      surveyToPlan (σ := σ) n made dls (fuel + 1) 0 = some (.error .attributeError)) ∧
    (n = 2 → surveyToPlan (σ := σ) n made dls (fuel + 1) 0 = some (.error .unboundLocal)) := by
  constructor
  · intro h3 hm
    have hg : getSection (σ := σ) n made 0 = .error .attributeError := by
      unfold getSection
      simp only [zero_add]
      rw [if_neg (by omega : ¬ 2 > n), if_neg (by omega : ¬ n ≤ 2), if_pos hm]
    rw [surveyToPlan, hg, if_neg (not_le.mpr hd), if_neg (by omega)]
  · rintro rfl
    have hg : getSection (σ := σ) 2 made 0 = .error .unboundLocal := by
      unfold getSection; simp
    rw [surveyToPlan, hg, if_neg (not_le.mpr hd), if_neg (by omega)]

/-- **C208** (partial) The documented check comes first: a severity that is not positive is refused. -/
theorem C208_severity_partial {σ : Type} (n : ℕ) (made : ℕ → Bool) {dls : ℚ} (hd : dls ≤ 0)
    (fuel start : ℕ) :
    surveyToPlan (σ := σ) n made dls (fuel + 1) start = some (.error .assertionError) := by
  rw [surveyToPlan, if_pos hd]

example : surveyToPlan (σ := ℕ) 10 (fun _ => true) 1 5 0 = some (.error .attributeError) :=
  (C208_error 10 _ (by norm_num) 4).1 (by norm_num) rfl

end Welleng.Props
