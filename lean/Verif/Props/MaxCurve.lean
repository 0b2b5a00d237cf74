import Verif.Model.MaxCurve
import Verif.Props.ArcBuild
import Verif.Props.Toolface
import Mathlib.Analysis.Real.Pi.Bounds

/-!
C299-C302: the stations of the survey returned by `maximum_curvature`
(`/repo/welleng/survey.py` 1446-1518).
-/

namespace Welleng.Props

open Real Welleng Spec Tf Sv

/-! ### The list of stations -/

theorem stations_length (noise : ℝ) : ∀ st : List Station,
    (Mc.stations noise st).length = 2 * st.length - 1
  | [] => rfl
  | [_] => rfl
  | a :: b :: t => by
    have := stations_length noise (b :: t)
    simp only [Mc.stations, List.length_cons] at this ⊢
    omega

theorem stations_even (noise : ℝ) : ∀ (st : List Station) (k : ℕ) (a : Station),
    st[k]? = some a → (Mc.stations noise st)[2 * k]? = some (some a)
  | [], _, _, h => by simp at h
  | [x], 0, a, h => by simpa [Mc.stations] using h
  | [x], k + 1, a, h => by simp at h
  | x :: y :: t, 0, a, h => by simpa [Mc.stations] using h
  | x :: y :: t, k + 1, a, h => by
    have := stations_even noise (y :: t) k a (by simpa using h)
    rw [show 2 * (k + 1) = 2 * k + 1 + 1 by ring]
    simpa [Mc.stations] using this

theorem stations_odd (noise : ℝ) : ∀ (st : List Station) (k : ℕ) (a b : Station),
    st[k]? = some a → st[k + 1]? = some b →
    (Mc.stations noise st)[2 * k + 1]? =
      some (Mc.inserted noise (dlsOf 30 (dogleg2 a b) (b.md - a.md)) (t1 a b) a b)
  | [], _, _, _, h, _ => by simp at h
  | [x], _, _, _, _, h => by simp at h
  | x :: y :: t, 0, a, b, ha, hb => by
    simp only [List.getElem?_cons_zero, Option.some.injEq, zero_add, List.getElem?_cons_succ] at ha hb
    subst ha; subst hb
    simp [Mc.stations]
  | x :: y :: t, k + 1, a, b, ha, hb => by
    have := stations_odd noise (y :: t) k a b (by simpa using ha) (by simpa using hb)
    rw [show 2 * (k + 1) + 1 = 2 * k + 1 + 1 + 1 by ring]
    simpa [Mc.stations] using this

/-- A call that returns a survey. -/
theorem maximumCurvature_ok {noise : ℝ} {h : Header} {st : List Station} {l : List (Option Station)}
    (hl : (Mc.maximumCurvature noise h st).2 = .ok l) : l = Mc.stations noise st := by
  unfold Mc.maximumCurvature at hl
  simp only at hl
  split_ifs at hl
  exact (Except.ok.inj hl).symm

theorem real_place {l : List Station} {L : List (Option Station)} (h : l.map some = L) {k : ℕ}
    {a : Option Station} (ha : L[k]? = some a) : ∃ s, a = some s ∧ l[k]? = some s := by
  subst h
  rw [List.getElem?_map] at ha
  cases e : l[k]? with
  | none => simp [e] at ha
  | some s => exact ⟨s, by simpa [e, eq_comm] using ha, rfl⟩

/-! ### C302: the original stations -/

theorem flags_even : ∀ (f : List Bool) (k : ℕ), k < f.length → (Mc.flags f)[2 * k]? = f[k]?
  | [], _, h => by simp at h
  | x :: [], 0, _ => rfl
  | x :: [], k + 1, h => by simp at h
  | x :: y :: t, 0, _ => rfl
  | x :: y :: t, k + 1, h => by
    have := flags_even (y :: t) k (by simpa using h)
    rw [show 2 * (k + 1) = 2 * k + 1 + 1 by ring]
    cases k <;> simpa [Mc.flags] using this

theorem flags_odd : ∀ (f : List Bool) (k : ℕ), k + 1 < f.length →
    (Mc.flags f)[2 * k + 1]? = some true
  | [], _, h => by simp at h
  | x :: [], k, h => by simp at h
  | x :: y :: t, 0, _ => rfl
  | x :: y :: t, k + 1, h => by
    have := flags_odd (y :: t) k (by simpa using h)
    rw [show 2 * (k + 1) + 1 = 2 * k + 1 + 1 + 1 by ring]
    simpa [Mc.flags] using this

/-- **C302** The returned survey has the original stations at the even places, with their depth,
inclination, azimuth and interpolation flag, and one station marked as interpolated between any two
of them. -/
theorem C302_originals_kept {noise : ℝ} {h : Header} {st : List Station} {L : List (Option Station)}
    (hl : (Mc.maximumCurvature noise h st).2 = .ok L) (f : List Bool) (hf : f.length = st.length) :
    L.length = 2 * st.length - 1 ∧ (Mc.flags f).length = L.length ∧
    (∀ (k : ℕ) (a : Station), st[k]? = some a →
      L[2 * k]? = some (some a) ∧ (Mc.flags f)[2 * k]? = f[k]?) ∧
    ∀ k, k + 1 < st.length → (Mc.flags f)[2 * k + 1]? = some true := by
  rw [maximumCurvature_ok hl]
  refine ⟨stations_length _ _, ?_, fun k a ha => ⟨stations_even _ _ _ _ ha, ?_⟩, fun k hk => ?_⟩
  · rw [stations_length, ← hf]
    cases f with
    | nil => rfl
    | cons x t =>
      simp only [Mc.flags, List.length_cons, List.length_flatMap]
      simp; omega
  · refine flags_even f k ?_
    rw [hf]
    exact (List.getElem?_eq_some_iff.1 ha).1
  · exact flags_odd f k (by omega)

example : ∃ L, (Mc.maximumCurvature 1 ⟨.magnetic, 0, 0, 1, none, .meters⟩
    [⟨0, 0, 0⟩, ⟨30, 0.1, 0⟩]).2 = .ok L ∧ [false, false].length = 2 := ⟨_, rfl, rfl⟩

/-! ### The inserted station -/

/-- Sweep of the first half of an interval. -/
noncomputable def halfSweep (L d : ℝ) : ℝ := radians (d * (L / 2) / 30)

/-- The inserted station while the half sweep is at most `π`. -/
theorem inserted_eq {noise d tf : ℝ} {a b : Station} (hd : 0 < d + noise)
    (hs : halfSweep (b.md - a.md) (d + noise) ≤ π) :
    ∃ m, Mc.inserted noise (.val d) tf a b = some m ∧ m.md = (a.md + b.md) / 2 ∧
      tangent m.inc m.azi = cos (halfSweep (b.md - a.md) (d + noise)) • tangent a.inc a.azi
        + sin (halfSweep (b.md - a.md) (d + noise)) •
          toolDir (getAngles (tangent a.inc a.azi) true).1 (getAngles (tangent a.inc a.azi) true).2 tf ∧
      0 ≤ sin m.inc := by
  have hpi := pi_pos
  have hr : 0 < 30 / (d + noise) * 360 / (2 * π) := by positivity
  have hsw : (b.md - a.md) / (30 / (d + noise) * 360 / (2 * π)) / 2
      = halfSweep (b.md - a.md) (d + noise) := by
    unfold halfSweep radians
    field_simp; ring
  unfold Mc.inserted radiusFromDlsArr Mc.sweepRadius
  simp only [ne_eq, hd.ne', not_false_eq_true, if_true]
  rw [hsw, if_neg (not_lt.2 hs), getVec_nev, getArc_eq (tangent_unit _ _) _ _ _ hr.ne']
  set s := halfSweep (b.md - a.md) (d + noise) with hsdef
  set r := 30 / (d + noise) * 360 / (2 * π) with hrdef
  have hk : (1 / r) ≠ 0 := by positivity
  have e := toolDir_ortho (getAngles (tangent a.inc a.azi) true).1
    (getAngles (tangent a.inc a.azi) true).2 tf
  rw [tangent_getAngles_nev (tangent_unit _ _)] at e
  have hu := (arc_circular hk (tangent_unit a.inc a.azi) (toolDir_unit
    (getAngles (tangent a.inc a.azi) true).1 (getAngles (tangent a.inc a.azi) true).2 tf) e).unit_tan
      (s * r)
  have hkd : 1 / r * (s * r) = s := by field_simp
  refine ⟨_, rfl, ?_, ?_, sin_getAngles_nonneg _ _⟩
  · show s * r + a.md = _
    rw [← hsw]
    field_simp
    ring
  · show tangent (getAngles _ true).1 (getAngles _ true).2 = _
    rw [tangent_getAngles_nev hu, arcTan, hkd]

/-- The angle between a direction and one swept from it. -/
theorem dogleg2_swept {a m : Station} {s i z tf : ℝ} (h0 : 0 ≤ s) (h1 : s ≤ π)
    (hv : tangent i z = tangent a.inc a.azi)
    (h : tangent m.inc m.azi = cos s • tangent a.inc a.azi + sin s • toolDir i z tf) :
    dogleg2 a m = s := by
  unfold dogleg2
  have := toolDir_ortho i z tf
  rw [hv] at this
  rw [getDogleg_eq_arccos, h, V3.dot_add_right, V3.dot_smul_right, V3.dot_smul_right, this,
    tangent_unit]
  simp only [mul_one, mul_zero, add_zero]
  exact arccos_cos h0 h1

/-- The station inserted into an interval of a returned survey. -/
theorem inserted_place {noise : ℝ} {h : Header} {st l : List Station} {start : V3}
    {out : MinCurveOut} (hl : (Mc.maximumCurvature noise h st).2 = .ok (l.map some))
    (ho : minCurve st start .meters = .ok out)
    {k : ℕ} {a b : Station} {d : ℝ} (ha : st[k]? = some a) (hb : st[k + 1]? = some b)
    (hmd : a.md < b.md) (hd : out.dls[k + 1]? = some (.val d)) (hpos : 0 < d + noise)
    (hs : (d + noise) / 30 * ((b.md - a.md) / 2) ≤ 180) :
    ∃ m, l[2 * k]? = some a ∧ l[2 * k + 1]? = some m ∧ m.md = (a.md + b.md) / 2 ∧
      tangent m.inc m.azi = cos (halfSweep (b.md - a.md) (d + noise)) • tangent a.inc a.azi
        + sin (halfSweep (b.md - a.md) (d + noise)) •
          toolDir (getAngles (tangent a.inc a.azi) true).1 (getAngles (tangent a.inc a.azi) true).2
            (t1 a b) := by
  have hpi := pi_pos
  have hdls : d = degrees (dogleg2 a b) / (b.md - a.md) * 30 := by
    obtain ⟨d', e1, e2⟩ := ((C64_dls_is_turn_rate ho).2 k a b ha hb).2.2 hmd.ne'
    rw [hd] at e1
    cases e1
    rw [← getDogleg_eq_arccos] at e2
    have : getDogleg a.inc a.azi b.inc b.azi = dogleg2 a b := rfl
    rw [this] at e2
    have hne : b.md - a.md ≠ 0 := by linarith
    simp only [dlsLength, degrees] at *
    rw [← e2]
    field_simp
  have hodd := stations_odd noise st k a b ha hb
  have hne : b.md - a.md ≠ 0 := by linarith
  rw [dlsOf, if_neg hne, ← hdls] at hodd
  have hsw : halfSweep (b.md - a.md) (d + noise) ≤ π := by
    unfold halfSweep radians
    have : (d + noise) * ((b.md - a.md) / 2) / 30 ≤ 180 := by
      calc _ = (d + noise) / 30 * ((b.md - a.md) / 2) := by ring
        _ ≤ 180 := hs
    rw [div_le_iff₀ (by norm_num)]
    nlinarith
  obtain ⟨m, e1, e2, e3, -⟩ := inserted_eq (tf := t1 a b) hpos hsw
  rw [e1] at hodd
  have hL' := maximumCurvature_ok hl
  obtain ⟨s, es, ls⟩ := real_place hL' hodd
  cases es
  obtain ⟨s, es, ls0⟩ := real_place hL' (stations_even noise st k a ha)
  cases es
  exact ⟨m, ls0, ls, e2, e3⟩

theorem halfSweep_le {L e : ℝ} (hs : e / 30 * (L / 2) ≤ 180) : halfSweep L e ≤ π := by
  have hpi := pi_pos
  have : halfSweep L e = e / 30 * (L / 2) / 180 * π := by unfold halfSweep radians; ring
  rw [this]
  nlinarith

theorem halfSweep_lt {L e : ℝ} (hs : e / 30 * (L / 2) < 180) : halfSweep L e < π := by
  have hpi := pi_pos
  have : halfSweep L e = e / 30 * (L / 2) / 180 * π := by unfold halfSweep radians; ring
  rw [this]
  nlinarith

theorem halfSweep_pos {L e : ℝ} (hL : 0 < L) (he : 0 < e) : 0 < halfSweep L e := by
  have hpi := pi_pos
  unfold halfSweep radians
  positivity

/-- **C299** In metres, the severity that the returned survey reports at an inserted station is the
severity of the interval plus the noise, and that station lies half-way between its neighbours, whenever
that severity is positive and turns the well by at most half a turn before the middle. -/
theorem C299_severity {noise : ℝ} {h : Header} {st l : List Station} {start start' : V3}
    {out out' : MinCurveOut} (hl : (Mc.maximumCurvature noise h st).2 = .ok (l.map some))
    (ho : minCurve st start .meters = .ok out) (ho' : minCurve l start' .meters = .ok out')
    {k : ℕ} {a b : Station} {d : ℝ} (ha : st[k]? = some a) (hb : st[k + 1]? = some b)
    (hmd : a.md < b.md) (hd : out.dls[k + 1]? = some (.val d)) (hpos : 0 < d + noise)
    (hs : (d + noise) / 30 * ((b.md - a.md) / 2) ≤ 180) :
    out'.dls[2 * k + 1]? = some (.val (d + noise)) ∧
      l[2 * k + 1]?.map Station.md = some ((a.md + b.md) / 2) := by
  obtain ⟨m, ls0, ls, e2, e3⟩ := inserted_place hl ho ha hb hmd hd hpos hs
  refine ⟨?_, by rw [ls]; simp [e2]⟩
  have hmm : a.md < m.md := by rw [e2]; linarith
  have hdog := dogleg2_swept (halfSweep_pos (by linarith) hpos).le (halfSweep_le hs)
    (tangent_getAngles_nev (tangent_unit _ _)) e3
  rw [dls_eq_curvature ho' ls0 ls hmm (κ := radians ((d + noise) / 30))]
  · have hpi := pi_pos
    simp only [degrees, radians, rateLength, if_true]
    congr 2
    field_simp
  · rw [hdog, e2]
    unfold halfSweep radians
    ring

/-- A straight well of 30 m and a noise of 1 deg/30 m meet the hypotheses. -/
example : ∃ (l : List Station) (out out' : MinCurveOut),
    (Mc.maximumCurvature 1 ⟨.magnetic, 0, 0, 1, none, .meters⟩
      [⟨0, 1, 0⟩, ⟨30, 1, 0⟩]).2 = .ok (l.map some) ∧
    minCurve [⟨0, 1, 0⟩, ⟨30, 1, 0⟩] 0 .meters = .ok out ∧ minCurve l 0 .meters = .ok out' ∧
    out.dls[1]? = some (.val 0) ∧ (0 : ℝ) < 0 + 1 ∧ ((0 : ℝ) + 1) / 30 * ((30 - 0) / 2) ≤ 180 := by
  have hsw : halfSweep ((⟨30, 1, 0⟩ : Station).md - (⟨0, 1, 0⟩ : Station).md) (0 + 1) ≤ π := by
    have := pi_pos
    simp only [halfSweep, radians]
    linarith
  obtain ⟨m, e, -⟩ := inserted_eq (noise := 1) (tf := t1 ⟨0, 1, 0⟩ ⟨30, 1, 0⟩) (by norm_num) hsw
  have hdog : dogleg2 ⟨0, 1, 0⟩ ⟨30, 1, 0⟩ = 0 := by
    rw [dogleg2_same_azi le_rfl (by simp [pi_pos.le])]; simp
  have hdls : dlsOf 30 (dogleg2 ⟨0, 1, 0⟩ ⟨30, 1, 0⟩) (30 - 0) = .val 0 := by
    rw [hdog]; simp [dlsOf, degrees]
  refine ⟨[⟨0, 1, 0⟩, m, ⟨30, 1, 0⟩], _, _, ?_, rfl, rfl, ?_, by norm_num, by norm_num⟩
  · simp only [Mc.maximumCurvature, if_true, Mc.stations, hdls, e, List.map_cons, List.map_nil]
  · simp [pairwise, hdog, dlsOf, degrees]

/-! ### C300: the side to which the first half turns -/

/-- The toolface towards a direction swept from the frame of the station. -/
theorem t1_swept {a m : Station} {s tf : ℝ} (h0 : 0 < s) (h1 : s < π) (ht : -π < tf) (ht' : tf ≤ π)
    (h : tangent m.inc m.azi = cos s • tangent a.inc a.azi + sin s • toolDir a.inc a.azi tf) :
    t1 a m = tf := by
  have hs := sin_pos_of_pos_of_lt_pi h0 h1
  have e1 := sin_sq_add_cos_sq a.inc
  have e2 := sin_sq_add_cos_sq a.azi
  rw [t1_args, h]
  have r1 : V3.dot (cos s • tangent a.inc a.azi + sin s • toolDir a.inc a.azi tf) (rightSide a.azi)
      = sin s * sin tf := by
    simp only [V3.dot, toolDir, highSide, rightSide, tangent, V3.add_x, V3.add_y, V3.add_z,
      V3.smul_x, V3.smul_y, V3.smul_z]
    linear_combination (sin s * sin tf) * e2
  have r2 : V3.dot (cos s • tangent a.inc a.azi + sin s • toolDir a.inc a.azi tf)
      (highSide a.inc a.azi) = sin s * cos tf := by
    simp only [V3.dot, toolDir, highSide, rightSide, tangent, V3.add_x, V3.add_y, V3.add_z,
      V3.smul_x, V3.smul_y, V3.smul_z]
    linear_combination (sin s * cos tf) * e1 +
      (cos s * sin a.inc * cos a.inc + sin s * cos tf * cos a.inc ^ 2) * e2
  rw [r1, r2]
  unfold atan2
  have : (⟨sin s * cos tf, sin s * sin tf⟩ : ℂ) = (sin s : ℂ) * (Complex.cos tf + Complex.sin tf * Complex.I) := by
    apply Complex.ext <;> simp [← Complex.ofReal_cos, ← Complex.ofReal_sin]
  rw [this, Complex.arg_mul_cos_add_sin_mul_I hs ⟨ht, ht'⟩]

theorem t1_range (a b : Station) : -π < t1 a b ∧ t1 a b ≤ π := Complex.arg_mem_Ioc _

/-- **C300** (the part that holds) At a station that is not vertical, the returned survey reports the
toolface of the original one: the first half of the interval turns the same way as the interval. -/
theorem C300_toolface_partial {noise : ℝ} {h : Header} {st l : List Station}
    {start : V3} {out : MinCurveOut} (hl : (Mc.maximumCurvature noise h st).2 = .ok (l.map some))
    (ho : minCurve st start .meters = .ok out) {k : ℕ} {a b : Station} {d : ℝ}
    (ha : st[k]? = some a) (hb : st[k + 1]? = some b) (hmd : a.md < b.md)
    (hd : out.dls[k + 1]? = some (.val d)) (hpos : 0 < d + noise)
    (hs : (d + noise) / 30 * ((b.md - a.md) / 2) < 180) (hinc : 0 < sin a.inc) :
    (toolfaces l)[2 * k]? = (toolfaces st)[k]? := by
  obtain ⟨m, ls0, ls, e2, e3⟩ := inserted_place hl ho ha hb hmd hd hpos hs.le
  rw [← toolDir_congr (tangent_getAngles_nev (tangent_unit a.inc a.azi)).symm hinc
    (sin_getAngles_nonneg _ _)] at e3
  have e := t1_swept (halfSweep_pos (by linarith) hpos) (halfSweep_lt hs) (t1_range a b).1
    (t1_range a b).2 e3
  have p1 := pairwise_getElem? t1 st k a b ha hb
  have p2 := pairwise_getElem? t1 l (2 * k) a m ls0 ls
  unfold toolfaces
  rw [List.getElem?_append_left (List.getElem?_eq_some_iff.1 p1).1,
    List.getElem?_append_left (List.getElem?_eq_some_iff.1 p2).1, p1, p2, e]

/-- The hypotheses of `C300_toolface_partial` on the straight well above. -/
example : 0 < sin (1 : ℝ) ∧ ((0 : ℝ) + 1) / 30 * ((30 - 0) / 2) < 180 :=
  ⟨sin_pos_of_pos_of_lt_pi one_pos (by linarith [pi_gt_three]), by norm_num⟩

/-- Angles of the vertical. -/
theorem getAngles_down : getAngles ⟨0, 0, 1⟩ true = (0, 0) := by
  have hu : V3.IsUnit ⟨0, 0, 1⟩ := by simp [V3.IsUnit, V3.dot]
  have h1 : atan2 0 1 = 0 := by
    unfold atan2
    have : (⟨1, 0⟩ : ℂ) = 1 := by apply Complex.ext <;> simp
    rw [this, Complex.arg_one]
  have h2 : atan2 0 0 = 0 := by
    unfold atan2
    have : (⟨0, 0⟩ : ℂ) = 0 := by apply Complex.ext <;> simp
    rw [this, Complex.arg_zero]
  have h3 : pmod (2 * π) (2 * π) = 0 := by
    have := pmod_add_int_mul 0 two_pi_pos 1
    rw [pmod_eq_self two_pi_pos le_rfl two_pi_pos] at this
    simpa using this
  rw [getAngles_nev_of_unit hu]
  simp [getAnglesXyz, h1, h2, h3]

/-- **C300** is false at a vertical station: whatever the azimuth `φ` in which the well builds from a
vertical station recorded with that azimuth, the inserted station heads north. -/
theorem C300_kick_off_north {noise : ℝ} {h : Header} {l : List Station} {start : V3} {m1 m2 i φ d : ℝ}
    {out : MinCurveOut}
    (hl : (Mc.maximumCurvature noise h [⟨m1, 0, φ⟩, ⟨m2, i, φ⟩]).2 = .ok (l.map some))
    (ho : minCurve [⟨m1, 0, φ⟩, ⟨m2, i, φ⟩] start .meters = .ok out) (hmd : m1 < m2)
    (hi : 0 < i) (hi' : i < π) (hd : out.dls[1]? = some (.val d)) (hpos : 0 < d + noise)
    (hs : (d + noise) / 30 * ((m2 - m1) / 2) < 180) :
    ∃ m s, l[1]? = some m ∧ 0 < s ∧ s < π ∧ tangent m.inc m.azi = ⟨sin s, 0, cos s⟩ := by
  obtain ⟨m, -, ls, -, e3⟩ := inserted_place (k := 0) hl ho rfl rfl hmd hd hpos hs.le
  refine ⟨m, _, ls, halfSweep_pos (by simpa using hmd) hpos, halfSweep_lt hs, ?_⟩
  have hv : tangent 0 φ = ⟨0, 0, 1⟩ := by ext <;> simp [tangent]
  have ht : t1 ⟨m1, 0, φ⟩ ⟨m2, i, φ⟩ = 0 := by
    unfold t1 atan2
    simp only [sub_self, sin_zero, mul_zero, cos_zero, mul_one, zero_mul, sub_zero]
    exact Complex.arg_ofReal_of_nonneg (sin_pos_of_pos_of_lt_pi hi hi').le
  rw [e3]
  simp only [hv, getAngles_down, ht]
  ext <;> simp [toolDir, highSide, rightSide]

/-- **C300** fails for a well that builds due east from a vertical station: both original stations lie
in the vertical plane through east, the inserted one heads north. -/
theorem C300_east_well : ∃ (l : List Station) (m : Station),
    (Mc.maximumCurvature 1 ⟨.grid, 0, 0, 1, none, .meters⟩
      [⟨0, 0, π / 2⟩, ⟨30, 1, π / 2⟩]).2 = .ok (l.map some) ∧ l[1]? = some m ∧
    (tangent 0 (π / 2)).x = 0 ∧ (tangent 1 (π / 2)).x = 0 ∧ 0 < (tangent 1 (π / 2)).y ∧
    0 < (tangent m.inc m.azi).x ∧ (tangent m.inc m.azi).y = 0 := by
  have hpi := pi_gt_three
  have hdog : dogleg2 ⟨0, 0, π / 2⟩ ⟨30, 1, π / 2⟩ = 1 := by
    rw [dogleg2_same_azi (by norm_num) (by linarith)]; norm_num
  have hd : dlsOf 30 (dogleg2 ⟨0, 0, π / 2⟩ ⟨30, 1, π / 2⟩) (30 - 0) = .val (180 / π) := by
    rw [hdog]; simp [dlsOf, degrees]
  have hlt : 180 / π < 60 := by rw [div_lt_iff₀ (by linarith)]; linarith
  have hp : 0 < 180 / π := by positivity
  obtain ⟨m, e, -⟩ := inserted_eq (noise := 1) (d := 180 / π) (a := ⟨0, 0, π / 2⟩)
    (b := ⟨30, 1, π / 2⟩) (tf := t1 ⟨0, 0, π / 2⟩ ⟨30, 1, π / 2⟩) (by linarith)
    (halfSweep_le (by norm_num; linarith))
  have hl : (Mc.maximumCurvature 1 ⟨.grid, 0, 0, 1, none, .meters⟩
      [⟨0, 0, π / 2⟩, ⟨30, 1, π / 2⟩]).2
        = .ok ([(⟨0, 0, π / 2⟩ : Station), m, ⟨30, 1, π / 2⟩].map some) := by
    simp only [Mc.maximumCurvature, if_true, Mc.stations, hd, e, List.map_cons, List.map_nil]
  obtain ⟨m', s, h1, h2, h3, h4⟩ := C300_kick_off_north (start := 0) hl rfl (by norm_num) one_pos
    (by linarith) (d := 180 / π) (by simpa [pairwise] using hd) (by linarith) (by norm_num; linarith)
  refine ⟨_, m', hl, h1, by simp [tangent], by simp [tangent], ?_, ?_, ?_⟩
  · simpa [tangent] using sin_pos_of_pos_of_lt_pi one_pos (by linarith : (1 : ℝ) < π)
  · rw [h4]; exact sin_pos_of_pos_of_lt_pi h2 h3
  · rw [h4]

/-! ### C301: surveys in feet -/

/-- **C301** (the part that holds) For a survey in metres a survey is returned. -/
theorem C301_metres_partial (noise : ℝ) (h : Header) (st : List Station) (hu : h.depthUnit = .meters) :
    ∃ L, (Mc.maximumCurvature noise h st).2 = .ok L ∧ L.length = 2 * st.length - 1 := by
  refine ⟨_, ?_, stations_length noise st⟩
  simp [Mc.maximumCurvature, hu]

/-- **C301** is false: with a header in feet the call always ends in an assertion error, and the header
of the survey has by then been switched to grid azimuths. -/
theorem C301_feet (noise : ℝ) (h : Header) (st : List Station) (hu : h.depthUnit = .feet) :
    (Mc.maximumCurvature noise h st).2 = .error .assertionError ∧
      (Mc.maximumCurvature noise h st).1.aziRef = .grid := by
  simp [Mc.maximumCurvature, hu]

example : (⟨.magnetic, 0, 0, 1, none, .feet⟩ : Header).depthUnit = .feet := rfl

end Welleng.Props
