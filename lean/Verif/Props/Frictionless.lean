import Verif.Props.DragStations
import Verif.Lemmas.MinCurveList

/-!
C365: the loads of a string without friction.
C366: the hanging weight of a uniform string and the vertical depth it spans.
-/

namespace Welleng.Props

open Real Td

/-! ### C365 -/

theorem step_frictionless (s : Loads × ℝ) {e : Elem} (h : e.mu = 0) :
    step s e = (⟨s.1.pickup + e.weight * cos e.incAvg, s.1.slackoff + e.weight * cos e.incAvg,
      s.1.rotating + e.weight * cos e.incAvg⟩, s.2) := by
  simp [step, forceTensionDelta, torsionDelta, h]

/-- Where nothing rubs, the differences between the three load cases, and the torque, are those at the bit. -/
theorem profile_frictionless {a : Arrays} (h : ∀ m ∈ a.mu, m = 0) (s : Loads × ℝ) :
    ∀ x ∈ profile s (rows a), x.1.pickup - x.1.rotating = s.1.pickup - s.1.rotating ∧
      x.1.slackoff - x.1.rotating = s.1.slackoff - s.1.rotating ∧ x.2 = s.2 := by
  refine profile_inv (P := fun x => x.1.pickup - x.1.rotating = s.1.pickup - s.1.rotating ∧
    x.1.slackoff - x.1.rotating = s.1.slackoff - s.1.rotating ∧ x.2 = s.2) ?_ ⟨rfl, rfl, rfl⟩
  intro y e he hy
  rw [step_frictionless y (h _ (mem_rows he).1)]
  refine ⟨?_, ?_, hy.2.2⟩
  · simp only; linarith [hy.1]
  · simp only; linarith [hy.2.1]

/-- **C365** Off bottom and without friction, the pick-up, slack-off and rotating tensions are the same
profile, and there is no torque anywhere. -/
theorem C365_off_bottom {a : Arrays} (h : ∀ m ∈ a.mu, m = 0) (p : Profiles) :
    ∃ out l t, getForces a none none none p = .ok out ∧ out.pickup = some l ∧ out.slackoff = some l ∧
      out.rotating = some l ∧ out.torqueRotating = some t ∧ ∀ x ∈ t, x = 0 := by
  have hp := profile_frictionless h (⟨0, -0, -0⟩, 0)
  simp only [getForces, store, not_truthy_none, valueOf_none, or_self, false_and, if_false]
  refine ⟨_, _, _, rfl, rfl, ?_, ?_, rfl, ?_⟩
  · refine congrArg some (List.map_congr_left fun x hx => ?_)
    have := hp x hx
    simp only at this
    linarith [this.1, this.2.1]
  · refine congrArg some (List.map_congr_left fun x hx => ?_)
    have := hp x hx
    simp only at this
    linarith [this.1]
  · intro t ht
    obtain ⟨x, hx, rfl⟩ := List.mem_map.1 ht
    exact (hp x hx).2.2

/-- **C365** An overpull is felt in full at every station. -/
theorem C365_overpull {a : Arrays} (h : ∀ m ∈ a.mu, m = 0) (p : Profiles) {over : ℝ} (ho : over ≠ 0) :
    ∃ out l, getForces a none none (some over) p = .ok out ∧ out.rotating = some l ∧
      out.overpull = some (l.map (· + over)) := by
  have hp := profile_frictionless h (⟨over, -0, -0⟩, 0)
  have h3 := truthy_some ho
  simp only [getForces, store, h3, not_truthy_none, valueOf_none, valueOf_some, or_self, false_and,
    if_false, if_true]
  refine ⟨_, _, rfl, rfl, ?_⟩
  rw [List.map_map]
  refine congrArg some (List.map_congr_left fun x hx => ?_)
  have := (hp x hx).1
  simp only [Function.comp_apply] at this ⊢
  linarith

/-- **C365** Drilling without friction: sliding and rotating tensions agree and the torque on bit is felt at
every station. -/
theorem C365_drilling {a : Arrays} (h : ∀ m ∈ a.mu, m = 0) (p : Profiles) {wob tob : ℝ} (hw : wob ≠ 0)
    (ht : tob ≠ 0) (overpull : Option ℝ) :
    ∃ out l t, getForces a (some wob) (some tob) overpull p = .ok out ∧ out.drilling = some l ∧
      out.sliding = some l ∧ out.torqueDrilling = some t ∧ ∀ x ∈ t, x = tob := by
  have hp := profile_frictionless h (⟨valueOf overpull, -wob, -wob⟩, tob)
  have h1 := truthy_some hw
  have h2 := truthy_some ht
  by_cases h3 : truthy overpull
  all_goals
    simp only [getForces, store, h1, h2, h3, valueOf_some, and_self, not_true_eq_false, and_false, if_true,
      if_false]
    refine ⟨_, _, _, rfl, rfl, ?_, rfl, ?_⟩
    · refine congrArg some (List.map_congr_left fun x hx => ?_)
      have := (hp x hx).2.1
      simp only at this
      linarith
    · intro t ht
      obtain ⟨x, hx, rfl⟩ := List.mem_map.1 ht
      exact (hp x hx).2.2

/-- Not vacuous: a horizontal string of two elements. -/
example : ∀ m ∈ (⟨[0, π / 2], [0, 0], [0, 0], [0, 5], [0, 0], [1, 1], 2⟩ : Arrays).mu, m = 0 := by simp

/-! ### C366 -/

/-- The stations with the weights of a string that weighs `w` per unit of length in the mud. -/
noncomputable def uniformFrom (w mu : ℝ) : Station → List Station → List Leg
  | _, [] => []
  | p, q :: t => ⟨q.inc, q.azi, w * (q.md - p.md), mu⟩ :: uniformFrom w mu q t

/-- The string hangs from the first station. -/
noncomputable def uniformString (w mu : ℝ) : List Station → List Leg
  | [] => []
  | p :: t => ⟨p.inc, p.azi, 0, mu⟩ :: uniformFrom w mu p t

theorem uniformFrom_length (w mu : ℝ) : ∀ (p : Station) (t : List Station),
    (uniformFrom w mu p t).length = t.length
  | _, [] => rfl
  | _, q :: t => by simp [uniformFrom, uniformFrom_length w mu q t]

theorem uniformString_length (w mu : ℝ) (st : List Station) : (uniformString w mu st).length = st.length := by
  cases st <;> simp [uniformString, uniformFrom_length]

/-- The weight of an element along the well, as the load cases add it up. -/
noncomputable def weightAlong (w : ℝ) (p q : Station) : ℝ := w * (q.md - p.md) * cos ((q.inc + p.inc) / 2)

theorem parts_uniform (r w mu : ℝ) (x : Leg) (p : Station) (hx : x.inc = p.inc) (t : List Station) :
    (parts r (x :: uniformFrom w mu p t)).map (fun e => e.weight * cos e.incAvg)
      = pairwise (weightAlong w) (p :: t) := by
  induction t generalizing x p with
  | nil => rfl
  | cons q t ih =>
    simp only [uniformFrom, parts, List.map_cons, pairwise]
    rw [ih _ q rfl]
    simp [between, weightAlong, hx]

theorem hang_rotating (s : Loads × ℝ) (es : List Elem) :
    (hang s es).1.rotating = s.1.rotating + (es.map fun e => e.weight * cos e.incAvg).sum := by
  induction es with
  | nil => simp [hang]
  | cons e t ih =>
    simp only [hang, step, forceTensionDelta, ih, List.map_cons, List.sum_cons]
    ring

/-- Sums of a quantity that is the change of `z` on each interval, from station `k` on. -/
theorem drop_pairwise_sum {R : ℝ → ℝ → Prop} (hadd : ∀ {a b c d}, R a b → R c d → R (a + c) (b + d))
    (h0 : R 0 0) (f : Station → Station → ℝ) (w : ℝ) :
    ∀ (st : List Station) (p : V3) (k : ℕ) (v l : V3),
      st.IsChain (fun a b => R (w * (deltaXyz a b).z) (f a b)) → (positions p st)[k]? = some v →
      (positions p st).getLast? = some l → R (w * (l.z - v.z)) ((pairwise f st).drop k).sum
  | [], p, k, v, l, _, hv, _ => by simp [positions] at hv
  | [a], p, k, v, l, _, hv, hl => by
    cases k with
    | zero =>
      simp only [positions, pairwise, cumsumFrom, List.getElem?_cons_zero, Option.some.injEq,
        List.getLast?_singleton] at hv hl
      subst hv; subst hl
      simpa [pairwise] using h0
    | succ k => simp [positions, pairwise, cumsumFrom] at hv
  | a :: b :: t, p, k, v, l, hc, hv, hl => by
    obtain ⟨h1, h2⟩ := List.isChain_cons_cons.1 hc
    rw [positions_cons2] at hv hl
    have hl' : (positions (p + deltaXyz a b) (b :: t)).getLast? = some l := by
      rwa [positions, List.getLast?_cons_cons, ← positions] at hl
    cases k with
    | zero =>
      simp only [List.getElem?_cons_zero, Option.some.injEq] at hv
      subst hv
      have := hadd h1 (drop_pairwise_sum hadd h0 f w (b :: t) (p + deltaXyz a b) 0
        (p + deltaXyz a b) l h2 (by simp [positions]) hl')
      simp only [pairwise, List.drop_zero, List.sum_cons, V3.add_z] at this ⊢
      convert this using 1
      ring
    | succ k =>
      rw [List.getElem?_cons_succ] at hv
      exact drop_pairwise_sum hadd h0 f w (b :: t) (p + deltaXyz a b) k v l h2 hv hl'

/-- The vertical advance of an interval of one azimuth. -/
theorem advance_planar (a b : Station) (haz : b.azi = a.azi) (hne : b.inc ≠ a.inc) (h : |b.inc - a.inc| < π) :
    (deltaXyz a b).z = (b.md - a.md) * cos ((b.inc + a.inc) / 2)
      * (sin ((b.inc - a.inc) / 2) / ((b.inc - a.inc) / 2)) := by
  set d := (b.inc - a.inc) / 2 with hd
  have hd0 : d ≠ 0 := by
    rw [hd]; intro h0; exact hne (by linarith)
  have hlt : |d| < π / 2 := by
    rw [hd, abs_div, abs_of_pos (by norm_num : (0 : ℝ) < 2)]; linarith
  have hdpi := hlt.le
  have hdog : dogleg2 a b = 2 * |d| := by
    unfold dogleg2 getDogleg
    rw [haz]
    simp only [sub_self, zero_div, sin_zero]
    rw [← hd, show sin d ^ 2 + sin a.inc * sin b.inc * (0 : ℝ) ^ 2 = sin d ^ 2 by ring, sqrt_sq_eq_abs]
    have : |sin d| = sin |d| := by
      rcases le_total 0 d with h0 | h0
      · rw [abs_of_nonneg h0, abs_of_nonneg (sin_nonneg_of_nonneg_of_le_pi h0 (by
          have := (abs_le.1 hdpi).2; linarith [pi_pos]))]
      · rw [abs_of_nonpos h0, sin_neg, abs_of_nonpos (sin_nonpos_of_nonpos_of_neg_pi_le h0 (by
          have := (abs_le.1 hdpi).1; linarith [pi_pos]))]
    rw [this, arcsin_sin (by linarith [abs_nonneg d, pi_pos]) hdpi]
  have hrf : getRf (2 * |d|) = tan d / d := by
    have h2 : |d| ≠ 0 := abs_ne_zero.2 hd0
    unfold getRf
    rw [if_neg (mul_ne_zero two_ne_zero h2), show 2 * |d| / 2 = |d| by ring]
    rcases abs_choice d with h | h <;> rw [h]
    · field_simp
    · rw [tan_neg]; field_simp
  have hcos : cos a.inc + cos b.inc = 2 * cos ((b.inc + a.inc) / 2) * cos d := by
    have e1 : a.inc = (b.inc + a.inc) / 2 - d := by rw [hd]; ring
    have e2 : b.inc = (b.inc + a.inc) / 2 + d := by rw [hd]; ring
    rw [show cos a.inc = cos ((b.inc + a.inc) / 2 - d) from congrArg cos e1,
      show cos b.inc = cos ((b.inc + a.inc) / 2 + d) from congrArg cos e2, cos_sub, cos_add]
    ring
  simp only [deltaXyz, minCurveStepRf, hdog, hrf, hcos]
  have hc : cos d ≠ 0 := (cos_pos_of_mem_Ioo ⟨(abs_lt.1 hlt).1, (abs_lt.1 hlt).2⟩).ne'
  rw [tan_eq_sin_div_cos]
  field_simp

theorem advance_straight (a b : Station) (haz : b.azi = a.azi) (hinc : b.inc = a.inc) :
    (deltaXyz a b).z = (b.md - a.md) * cos ((b.inc + a.inc) / 2) := by
  have hdog : dogleg2 a b = 0 := by simp [dogleg2, getDogleg, haz, hinc]
  simp only [deltaXyz, minCurveStepRf, hdog, getRf, if_true, hinc]
  rw [show (a.inc + a.inc) / 2 = a.inc by ring]
  ring

/-- In a curve of one azimuth the mean inclination overstates the vertical advance. -/
theorem advance_le (a b : Station) (haz : b.azi = a.azi) (hmd : a.md < b.md) (h : |b.inc - a.inc| < π)
    (hm : 0 < cos ((b.inc + a.inc) / 2)) :
    (deltaXyz a b).z ≤ (b.md - a.md) * cos ((b.inc + a.inc) / 2) ∧
    (b.inc ≠ a.inc → (deltaXyz a b).z < (b.md - a.md) * cos ((b.inc + a.inc) / 2)) := by
  have hpos : 0 < (b.md - a.md) * cos ((b.inc + a.inc) / 2) := mul_pos (sub_pos.2 hmd) hm
  have key : b.inc ≠ a.inc → (deltaXyz a b).z < (b.md - a.md) * cos ((b.inc + a.inc) / 2) := by
    intro hne
    rw [advance_planar a b haz hne h]
    refine mul_lt_of_lt_one_right hpos ?_
    have hd0 : (b.inc - a.inc) / 2 ≠ 0 := by
      intro h0; exact hne (by linarith)
    generalize (b.inc - a.inc) / 2 = d at hd0
    rcases lt_or_gt_of_ne hd0 with h0 | h0
    · rw [div_lt_one_of_neg h0]
      have := sin_lt (neg_pos.2 h0)
      rw [sin_neg] at this
      linarith
    · rw [div_lt_one h0]
      exact sin_lt h0
  refine ⟨?_, key⟩
  by_cases hne : b.inc = a.inc
  · exact (advance_straight a b haz hne).le
  · exact (key hne).le

/-- The rotating tension of a uniform string at a station. -/
theorem rotating_uniform (w mu r : ℝ) (st : List Station) (p : Profiles) :
    ∃ out ro, getForces (strung r (uniformString w mu st)) none none none p = .ok out ∧
      out.rotating = some ro ∧ ∀ k < st.length, ro[k]? = some ((pairwise (weightAlong w) st).drop k).sum := by
  simp only [getForces, store, not_truthy_none, valueOf_none, or_self, false_and, if_false]
  refine ⟨_, _, rfl, rfl, fun k hk => ?_⟩
  rw [List.getElem?_map, profile_parts _ r (by rwa [uniformString_length]), Option.map_some, hang_rotating,
    List.map_drop]
  match st, hk with
  | p :: t, _ =>
    rw [uniformString, parts_uniform r w mu _ p rfl]
    simp

/-- **C366** Where every interval is straight, the rotating tension of a uniform string is its weight per
unit of length times the vertical depth from the station to the end of the string. -/
theorem C366_straight_partial (w mu r : ℝ) {st : List Station} (p0 : V3)
    (hst : st.IsChain fun a b => b.inc = a.inc ∧ b.azi = a.azi) (p : Profiles) :
    ∃ out ro, getForces (strung r (uniformString w mu st)) none none none p = .ok out ∧
      out.rotating = some ro ∧ ∀ (k : ℕ) (v l : V3), (positions p0 st)[k]? = some v →
        (positions p0 st).getLast? = some l → ro[k]? = some (w * (l.z - v.z)) := by
  obtain ⟨out, ro, h1, h2, h3⟩ := rotating_uniform w mu r st p
  refine ⟨out, ro, h1, h2, fun k v l hv hl => ?_⟩
  have hk : k < st.length := by
    have := (List.getElem?_eq_some_iff.1 hv).1
    rwa [positions_length] at this
  rw [h3 k hk, drop_pairwise_sum (R := Eq) (fun h h' => by rw [h, h']) rfl (weightAlong w) w st p0 k v l
    (hst.imp fun a b h => ?_) hv hl]
  rw [advance_straight a b h.2 h.1, weightAlong]
  ring

/-- **C366** In a well of one azimuth that never points upwards, the rotating tension of a uniform string is
never less than its weight per unit of length times the vertical depth. -/
theorem C366_planar_partial {w : ℝ} (hw : 0 ≤ w) (mu r : ℝ) {st : List Station} (p0 : V3)
    (hst : st.IsChain fun a b => b.azi = a.azi ∧ a.md < b.md ∧ |b.inc - a.inc| < π ∧
      0 < cos ((b.inc + a.inc) / 2)) (p : Profiles) :
    ∃ out ro, getForces (strung r (uniformString w mu st)) none none none p = .ok out ∧
      out.rotating = some ro ∧ ∀ (k : ℕ) (v l : V3), (positions p0 st)[k]? = some v →
        (positions p0 st).getLast? = some l → ∃ x, ro[k]? = some x ∧ w * (l.z - v.z) ≤ x := by
  obtain ⟨out, ro, h1, h2, h3⟩ := rotating_uniform w mu r st p
  refine ⟨out, ro, h1, h2, fun k v l hv hl => ?_⟩
  have hk : k < st.length := by
    have := (List.getElem?_eq_some_iff.1 hv).1
    rwa [positions_length] at this
  refine ⟨_, h3 k hk, drop_pairwise_sum (R := (· ≤ ·)) (fun h h' => add_le_add h h') le_rfl (weightAlong w) w st p0 k
    v l (hst.imp fun a b h => ?_) hv hl⟩
  have := mul_le_mul_of_nonneg_left (advance_le a b h.1 h.2.1 h.2.2.1 h.2.2.2).1 hw
  rw [weightAlong, mul_assoc]
  exact this

/-- C366 is false: in every build or drop below the horizontal, the reported tension exceeds the weight of
the string over the vertical depth it spans, also without friction. -/
theorem C366_curve_fails {w : ℝ} (hw : 0 < w) (mu r : ℝ) {a b : Station} (p0 : V3) (haz : b.azi = a.azi)
    (hmd : a.md < b.md) (hne : b.inc ≠ a.inc) (h : |b.inc - a.inc| < π) (hm : 0 < cos ((b.inc + a.inc) / 2))
    (p : Profiles) :
    ∃ out x y v l, getForces (strung r (uniformString w mu [a, b])) none none none p = .ok out ∧
      out.rotating = some [x, y] ∧ positions p0 [a, b] = [v, l] ∧ w * (l.z - v.z) < x := by
  obtain ⟨out, ro, h1, h2, h3⟩ := rotating_uniform w mu r [a, b] p
  have hlen : ro.length = 2 := by
    have hal := strung_aligned r (uniformString w mu [a, b])
    obtain ⟨out', ro', g1, g2, g3, -⟩ := C78_rotating_is_hanging_weight hal p
    rw [h1, Except.ok.injEq] at g1
    subst g1
    rw [h2, Option.some.injEq] at g2
    rw [g2, g3, uniformString_length]; rfl
  match ro, hlen with
  | [x, y], _ =>
    refine ⟨out, x, y, p0, p0 + deltaXyz a b, h1, h2, by simp [positions, pairwise, cumsumFrom], ?_⟩
    have := h3 0 (by simp)
    simp only [List.getElem?_cons_zero, pairwise, List.drop_zero, List.sum_cons, List.sum_nil, add_zero,
      Option.some.injEq] at this
    rw [this, weightAlong, V3.add_z, add_sub_cancel_left, mul_assoc]
    exact mul_lt_mul_of_pos_left ((advance_le a b haz hmd h hm).2 hne) hw

/-- Not vacuous: a build from vertical to 60 degrees over 500 m. -/
example : ∃ a b : Station, b.azi = a.azi ∧ a.md < b.md ∧ b.inc ≠ a.inc ∧ |b.inc - a.inc| < π ∧
    0 < cos ((b.inc + a.inc) / 2) := by
  have hpi := pi_pos
  refine ⟨⟨0, 0, 0⟩, ⟨500, π / 3, 0⟩, rfl, by norm_num, by positivity, ?_, ?_⟩
  · rw [sub_zero, abs_of_pos (by positivity)]; linarith
  · exact cos_pos_of_mem_Ioo ⟨by simp only; linarith, by simp only; linarith⟩

end Welleng.Props
