import Verif.Props.Accuracy
import Verif.Props.Approach
import Verif.Lemmas.SubArc

/-!
C343: positions and directions at two depths of a survey.
-/

namespace Welleng.Props

open Real Welleng Spec Clr

/-- Angle between two directions. -/
noncomputable def angleOf (a b : V3) : ℝ := arccos (V3.dot a b)

theorem angleOf_triangle {a b c : V3} (ha : a.IsUnit) (hb : b.IsUnit) (hc : c.IsUnit) :
    angleOf a c ≤ angleOf a b + angleOf b c := by
  unfold angleOf
  rw [← toE_angle ha hc, ← toE_angle ha hb, ← toE_angle hb hc]
  exact InnerProductGeometry.angle_le_angle_add_angle _ _ _

theorem interpAngles_zero (a b : Station) (hpi : dogleg2 a b < π) :
    tangent (interpAngles a b 0).1 (interpAngles a b 0).2 = tangent a.inc a.azi := by
  by_cases h0 : dogleg2 a b = 0
  · rw [interpAngles, if_pos h0]
  · have hd0 : 0 < dogleg2 a b := lt_of_le_of_ne (getDogleg_nonneg ..) (Ne.symm h0)
    have hs : sin (dogleg2 a b) ≠ 0 := (sin_pos_of_pos_of_lt_pi hd0 hpi).ne'
    rw [interp_tangent h0 hpi]
    simp [hs]

/-- The angle turned between two points of one interval. -/
theorem turn_within {a b : Station} (hL : a.md < b.md) (hpi : dogleg2 a b < π) {x y : ℝ} (h0 : 0 ≤ x)
    (hxy : x ≤ y) (h1 : y ≤ b.md - a.md) :
    angleOf (tangent (interpAngles a b x).1 (interpAngles a b x).2)
      (tangent (interpAngles a b y).1 (interpAngles a b y).2) = dogleg2 a b / (b.md - a.md) * (y - x) := by
  have hLp : 0 < b.md - a.md := by linarith
  by_cases hd : dogleg2 a b = 0
  · have : ∀ u, interpAngles a b u = (a.inc, a.azi) := by
      intro u; rw [interpAngles, if_pos hd]
    rw [this, this, hd, angleOf, show V3.dot (tangent a.inc a.azi) (tangent a.inc a.azi) = 1 from
      tangent_unit .., arccos_one]
    simp
  · obtain ⟨γ, τ, ν, hc, g0, t0, tL, ts⟩ := interp_on_arc hL hd hpi
    have hd0 : 0 < dogleg2 a b := lt_of_le_of_ne (getDogleg_nonneg ..) (Ne.symm hd)
    rw [← ts x, ← ts y, hc.tan_eq x, hc.tan_eq y, angleOf]
    have e1 := hc.unit_tan 0
    have e2 := hc.unit_nor 0
    have e3 := hc.ortho 0
    have : V3.dot (cos (dogleg2 a b / (b.md - a.md) * x) • τ 0 + sin (dogleg2 a b / (b.md - a.md) * x) • ν 0)
        (cos (dogleg2 a b / (b.md - a.md) * y) • τ 0 + sin (dogleg2 a b / (b.md - a.md) * y) • ν 0)
        = cos (dogleg2 a b / (b.md - a.md) * (y - x)) := by
      simp only [V3.dot_add_left, V3.dot_add_right, V3.dot_smul_left, V3.dot_smul_right,
        V3.dot_comm (ν 0) (τ 0), e3]
      rw [show V3.dot (τ 0) (τ 0) = 1 from e1, show V3.dot (ν 0) (ν 0) = 1 from e2,
        show dogleg2 a b / (b.md - a.md) * (y - x)
          = dogleg2 a b / (b.md - a.md) * y - dogleg2 a b / (b.md - a.md) * x by ring, cos_sub]
      ring
    rw [this]
    have hκ : 0 ≤ dogleg2 a b / (b.md - a.md) := (div_pos hd0 hLp).le
    refine arccos_cos (mul_nonneg hκ (by linarith)) ?_
    have : dogleg2 a b / (b.md - a.md) * (y - x) ≤ dogleg2 a b / (b.md - a.md) * (b.md - a.md) :=
      mul_le_mul_of_nonneg_left (by linarith) hκ
    rw [div_mul_cancel₀ _ hLp.ne'] at this
    linarith

/-- The distance between two points of one interval. -/
theorem dist_within {a b : Station} (hL : a.md < b.md) (hpi : dogleg2 a b < π) {x y : ℝ} (h0 : 0 ≤ x)
    (hxy : x ≤ y) (h1 : y ≤ b.md - a.md) (p : V3) :
    V3.norm (interpPosNev p a b y - interpPosNev p a b x) ≤ y - x := by
  rcases hxy.eq_or_lt with rfl | hlt
  · simp [V3.norm, V3.dot]
  · have e := sub_pos' (n := interpStation a b x) (x := y - x) hL hpi h0 (by linarith) (by linarith)
      (by linarith) rfl rfl p
    rw [add_sub_cancel] at e
    rw [← e, V3.norm_sub_comm]
    exact interp_dist_above _ _ _ (by linarith)

variable {st : List Station} {sx sn : V3} {u : LenUnit} {sv : SurveyG} {xyz : List V3}

/-- The node of every depth of the survey lies on one of its intervals. -/
theorem node_at (h : surveyG st sx sn u = .ok (sv, xyz)) (hsort : st.Pairwise fun a b => a.md < b.md)
    (hpi : ∀ (i : ℕ) a b, st[i]? = some a → st[i + 1]? = some b → dogleg2 a b < π) (f : ℕ → V3) {md : ℝ}
    {first last : Station} (hf : st.head? = some first) (hl : st.getLast? = some last)
    (h0 : first.md ≤ md) (h1 : md ≤ last.md) :
    ∃ i a b p node, st[i]? = some a ∧ st[i + 1]? = some b ∧ sv.nev[i]? = some p ∧
      a.md ≤ md ∧ md ≤ b.md ∧ interpolateMd sv f md = some node ∧
      node.vec = tangent (interpAngles a b (md - a.md)).1 (interpAngles a b (md - a.md)).2 ∧
      node.pos = interpPosNev p a b (md - a.md) := by
  rcases h0.eq_or_lt with rfl | hlt
  · obtain ⟨-, -, -, hlen⟩ := surveyG_st h
    match st, hlen, h, hsort, hpi, hf with
    | a :: b :: t, _, h, hsort, hpi, hf =>
      simp only [List.head?_cons, Option.some.injEq] at hf
      subst hf
      have hab : a.md < b.md := by
        rw [List.pairwise_cons] at hsort
        exact hsort.1 b (by simp)
      have hp := hpi 0 a b rfl rfl
      obtain ⟨node, n1, -, n2, n3, -⟩ := C18_clamp_above h f (first := a) (second := b) rfl rfl hab hp le_rfl
      refine ⟨0, a, b, node.pos, node, rfl, rfl, n3, le_rfl, hab.le, n1, ?_, ?_⟩
      · rw [sub_self, interpAngles_zero a b hp, n2]
      · rw [sub_self, interpPosNev, minCurveStep_zero, add_zero]
  · obtain ⟨i, a, b, p, node, h1, h2, h3, h4, h5, h6, -, h7, h8, -⟩ := C18_bracket h f hf hl hlt h1
    exact ⟨i, a, b, p, node, h1, h2, h3, h4.le, h5, h6, h7, h8⟩

/-- Stations: distance and turn. -/
theorem stations_apart (h : surveyG st sx sn u = .ok (sv, xyz)) (hsort : st.Pairwise fun a b => a.md < b.md)
    {D : ℝ} (hD : ∀ (i : ℕ) a b, st[i]? = some a → st[i + 1]? = some b → dogleg2 a b ≤ D * (b.md - a.md))
    {i : ℕ} {a : Station} {p : V3} (ha : st[i]? = some a) (hp : sv.nev[i]? = some p) :
    ∀ (m : ℕ) {b : Station} {q : V3}, st[i + m]? = some b → sv.nev[i + m]? = some q →
      V3.norm (q - p) ≤ b.md - a.md ∧
      angleOf (tangent a.inc a.azi) (tangent b.inc b.azi) ≤ D * (b.md - a.md)
  | 0, b, q, hb, hq => by
    rw [Nat.add_zero] at hb hq
    rw [ha] at hb
    rw [hp] at hq
    cases hb; cases hq
    rw [angleOf, show V3.dot (tangent a.inc a.azi) (tangent a.inc a.azi) = 1 from tangent_unit .., arccos_one]
    simp [V3.norm, V3.dot]
  | m + 1, b, q, hb, hq => by
    have hlen : i + m < st.length := by
      have := (List.getElem?_eq_some_iff.mp hb).1; omega
    obtain ⟨c, hc⟩ : ∃ c, st[i + m]? = some c := ⟨_, List.getElem?_eq_getElem hlen⟩
    have hlen' : i + m < sv.nev.length := by
      have := (List.getElem?_eq_some_iff.mp hq).1; omega
    obtain ⟨r, hr⟩ : ∃ r, sv.nev[i + m]? = some r := ⟨_, List.getElem?_eq_getElem hlen'⟩
    obtain ⟨h1, h2⟩ := stations_apart h hsort hD ha hp m hc hr
    have hq' := nev_step h hc hb hr
    rw [show i + m + 1 = i + (m + 1) by rfl, hq, Option.some.injEq] at hq'
    have hlt : c.md < b.md := by
      obtain ⟨i1, rfl⟩ := List.getElem?_eq_some_iff.mp hc
      obtain ⟨i2, rfl⟩ := List.getElem?_eq_some_iff.mp hb
      exact List.pairwise_iff_getElem.mp hsort _ _ _ _ (by omega)
    have hs : V3.norm (q - r) ≤ b.md - c.md := by
      rw [hq', add_sub_cancel_left]
      exact step_norm_le (by linarith)
    have h3 := V3.norm_add_le (q - r) (r - p)
    rw [sub_add_sub_cancel] at h3
    have h4 := angleOf_triangle (tangent_unit a.inc a.azi) (tangent_unit c.inc c.azi) (tangent_unit b.inc b.azi)
    have h5 : angleOf (tangent c.inc c.azi) (tangent b.inc b.azi) ≤ D * (b.md - c.md) := by
      have := hD (i + m) c b hc hb
      rwa [dogleg2, getDogleg_eq_arccos] at this
    constructor
    · linarith
    · nlinarith

/-- **C343** The positions at two depths of a survey are no further apart than the depths, and the
directions differ by no more than the largest severity of the survey times the difference of the
depths. -/
theorem C343_apart (h : surveyG st sx sn u = .ok (sv, xyz)) (hsort : st.Pairwise fun a b => a.md < b.md)
    (hpi : ∀ (i : ℕ) a b, st[i]? = some a → st[i + 1]? = some b → dogleg2 a b < π)
    {D : ℝ} (hD : ∀ (i : ℕ) a b, st[i]? = some a → st[i + 1]? = some b → dogleg2 a b ≤ D * (b.md - a.md))
    (f : ℕ → V3) {first last : Station} (hf : st.head? = some first) (hl : st.getLast? = some last)
    {x y : ℝ} (h0 : first.md ≤ x) (hxy : x ≤ y) (h1 : y ≤ last.md) :
    ∃ n m, interpolateMd sv f x = some n ∧ interpolateMd sv f y = some m ∧
      V3.norm (m.pos - n.pos) ≤ y - x ∧ angleOf n.vec m.vec ≤ D * (y - x) := by
  obtain ⟨i, a, b, p, n, ha, hb, hp, hax, hxb, hn, nv, np⟩ :=
    node_at h hsort hpi f hf hl h0 (hxy.trans h1)
  obtain ⟨j, c, d, q, m, hc, hd, hq, hcy, hyd, hm, mv, mp⟩ :=
    node_at h hsort hpi f hf hl (h0.trans hxy) h1
  have mono : ∀ {k l : ℕ} {s t : Station}, st[k]? = some s → st[l]? = some t → k < l → s.md < t.md := by
    intro k l s t hk hl hkl
    obtain ⟨i1, rfl⟩ := List.getElem?_eq_some_iff.mp hk
    obtain ⟨i2, rfl⟩ := List.getElem?_eq_some_iff.mp hl
    exact List.pairwise_iff_getElem.mp hsort _ _ _ _ hkl
  have hab := mono ha hb (by omega)
  have hcd := mono hc hd (by omega)
  have rate : ∀ {k : ℕ} {s t : Station}, st[k]? = some s → st[k + 1]? = some t → s.md < t.md →
      dogleg2 s t / (t.md - s.md) ≤ D := fun hs ht hlt => by
    rw [div_le_iff₀ (by linarith)]; exact hD _ _ _ hs ht
  refine ⟨n, m, hn, hm, ?_⟩
  rw [nv, np, mv, mp]
  rcases Nat.lt_trichotomy i j with hij | rfl | hij
  · -- different intervals: by way of the stations in between
    have hq1 := nev_step h ha hb hp
    obtain ⟨k, rfl⟩ := Nat.exists_eq_add_of_le (show i + 1 ≤ j by omega)
    obtain ⟨s1, s2⟩ := stations_apart h hsort hD hb hq1 k hc hq
    have d1 := interp_dist_below p hab (hpi i a b ha hb) (x := x - a.md) (by linarith) (by linarith)
    have d2 := interp_dist_above q c d (x := y - c.md) (by linarith)
    have t1 := turn_within hab (hpi i a b ha hb) (x := x - a.md) (y := b.md - a.md) (by linarith)
      (by linarith) le_rfl
    have t2 := turn_within hcd (hpi _ c d hc hd) (x := 0) (y := y - c.md) le_rfl (by linarith) (by linarith)
    rw [interpAngles_zero c d (hpi _ c d hc hd)] at t2
    have te : tangent (interpAngles a b (b.md - a.md)).1 (interpAngles a b (b.md - a.md)).2
        = tangent b.inc b.azi := by
      by_cases hd0 : dogleg2 a b = 0
      · rw [interpAngles, if_pos hd0]; exact tangent_eq_of_dogleg_zero hd0
      · obtain ⟨γ, τ, ν, hcc, g0, t0, tL, ts⟩ := interp_on_arc hab hd0 (hpi i a b ha hb)
        rw [← ts, tL]
    rw [te] at t1
    have r1 := mul_le_mul_of_nonneg_right (rate ha hb hab) (show 0 ≤ b.md - a.md - (x - a.md) by linarith)
    have r2 := mul_le_mul_of_nonneg_right (rate hc hd hcd) (show 0 ≤ y - c.md - 0 by linarith)
    constructor
    · have e1 := V3.norm_add_le (interpPosNev q c d (y - c.md) - q)
        (q - (p + minCurveStep (b.md - a.md) a.inc a.azi b.inc b.azi))
      have e2 := V3.norm_add_le (interpPosNev q c d (y - c.md)
          - (p + minCurveStep (b.md - a.md) a.inc a.azi b.inc b.azi))
        (p + minCurveStep (b.md - a.md) a.inc a.azi b.inc b.azi - interpPosNev p a b (x - a.md))
      rw [sub_add_sub_cancel] at e1 e2
      rw [V3.norm_sub_comm] at d2
      linarith
    · have e1 := angleOf_triangle
        (tangent_unit (interpAngles a b (x - a.md)).1 (interpAngles a b (x - a.md)).2)
        (tangent_unit b.inc b.azi)
        (tangent_unit (interpAngles c d (y - c.md)).1 (interpAngles c d (y - c.md)).2)
      have e2 := angleOf_triangle (tangent_unit b.inc b.azi) (tangent_unit c.inc c.azi)
        (tangent_unit (interpAngles c d (y - c.md)).1 (interpAngles c d (y - c.md)).2)
      nlinarith
  · rw [ha, Option.some.injEq] at hc
    rw [hb, Option.some.injEq] at hd
    rw [hp, Option.some.injEq] at hq
    subst hc; subst hd; subst hq
    have d1 := dist_within hab (hpi i a b ha hb) (x := x - a.md) (y := y - a.md) (by linarith) (by linarith)
      (by linarith) p
    have t1 := turn_within hab (hpi i a b ha hb) (x := x - a.md) (y := y - a.md) (by linarith) (by linarith)
      (by linarith)
    have r1 := mul_le_mul_of_nonneg_right (rate ha hb hab) (show 0 ≤ y - a.md - (x - a.md) by linarith)
    constructor
    · linarith
    · rw [t1]
      refine r1.trans (le_of_eq (by ring))
  · -- the deeper point in a shallower interval: both are at a common station
    have e : d.md ≤ a.md := by
      rcases Nat.lt_or_ge (j + 1) i with h2 | h2
      · exact (mono hd ha h2).le
      · obtain rfl : i = j + 1 := by omega
        rw [hd, Option.some.injEq] at ha
        rw [ha]
    have hxy' : x = y := by linarith
    subst hxy'
    rw [hn, Option.some.injEq] at hm
    subst hm
    rw [← np, ← mp, ← nv, ← mv]
    have hu : V3.dot n.vec n.vec = 1 := by rw [nv]; exact tangent_unit ..
    rw [angleOf, hu, arccos_one]
    simp [V3.norm, V3.dot]

/-- A build section of 90° over 30 m. -/
example : ∃ (sv : SurveyG) (xyz : List V3),
    surveyG [⟨0, 0, 0⟩, ⟨30, π / 2, 0⟩] 0 0 .meters = .ok (sv, xyz) ∧
    dogleg2 ⟨0, 0, 0⟩ ⟨30, π / 2, 0⟩ < π ∧
    dogleg2 ⟨0, 0, 0⟩ ⟨30, π / 2, 0⟩ ≤ π / 60 * (30 - 0) := by
  refine ⟨_, _, rfl, ?_, ?_⟩ <;> rw [dogleg2_same_azi (by positivity) (by linarith [pi_pos])] <;>
    linarith [pi_pos]

end Welleng.Props
