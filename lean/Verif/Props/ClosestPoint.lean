import Verif.Model.ClosestPoint
import Verif.Spec.Closest
import Verif.Props.Interpolate
import Verif.Props.Trajectory
import Verif.Props.Toolface

/-!
Properties C157-C159: the closest point of the offset well and the hole radii of a clearance
calculation.
-/

namespace Welleng.Props

open Real Welleng Spec Clr

variable {st : List Station} {sx sn : V3} {u : LenUnit} {off : SurveyG} {xyz : List V3}

/-! ### Helpers -/

theorem argmin_spec {l : List ℝ} (h : l ≠ []) :
    ∃ v, l[argmin l]? = some v ∧ ∀ y ∈ l, v ≤ y := by
  classical
  obtain ⟨m, hm, hmin⟩ : ∃ m ∈ l, ∀ y ∈ l, m ≤ y := by
    obtain ⟨m, hm, hmin⟩ := Finset.exists_min_image l.toFinset id
      (by obtain ⟨a, t, rfl⟩ := List.exists_cons_of_ne_nil h; exact ⟨a, by simp⟩)
    exact ⟨m, by simpa using hm, fun y hy => hmin y (by simpa using hy)⟩
  have hlt : argmin l < l.length := by
    unfold argmin
    rw [List.findIdx_lt_length]
    exact ⟨m, hm, by simpa using hmin⟩
  refine ⟨l[argmin l], List.getElem?_eq_getElem hlt, ?_⟩
  have := List.findIdx_getElem (w := hlt)
  exact of_decide_eq_true this

theorem nev_step (h : surveyG st sx sn u = .ok (off, xyz)) {j : ℕ} {a b : Station} {p : V3}
    (ha : st[j]? = some a) (hb : st[j + 1]? = some b) (hp : off.nev[j]? = some p) :
    off.nev[j + 1]? = some (p + minCurveStep (b.md - a.md) a.inc a.azi b.inc b.azi) := by
  obtain ⟨-, hxyz, hnev, -⟩ := surveyG_st h
  rw [hnev, List.getElem?_map] at hp ⊢
  cases hq : xyz[j]? with
  | none => rw [hq] at hp; cases hp
  | some q =>
    rw [hq] at hp
    injection hp with hp
    rw [hxyz] at hq ⊢
    rw [positions_step sx st ha hb hq, Option.map_some, deltaXyz_eq, ← hp]
    congr 1
    ext <;> simp [getNev, swap] <;> ring

theorem minCurveStep_zero (i1 a1 i2 a2 : ℝ) : minCurveStep 0 i1 a1 i2 a2 = 0 := by
  unfold minCurveStep
  rw [minCurveStepRf_eq]
  ext <;> simp

theorem interpPosNev_zero (p : V3) (a b : Station) : interpPosNev p a b 0 = p := by
  unfold interpPosNev
  rw [minCurveStep_zero, add_zero]

theorem interpPosNev_end (p : V3) {a b : Station} (hL : a.md < b.md) (hpi : dogleg2 a b < π) :
    interpPosNev p a b (b.md - a.md)
      = p + minCurveStep (b.md - a.md) a.inc a.azi b.inc b.azi := by
  have := interp_split hL hpi (x := b.md - a.md) (by linarith) le_rfl
  rw [sub_self, minCurveStep_zero, add_zero] at this
  unfold interpPosNev
  rw [this]

theorem V3.norm_sub_comm (a b : V3) : V3.norm (a - b) = V3.norm (b - a) := by
  rw [← norm_neg]
  congr 1
  ext <;> simp

/-- Along the hole a point is no further from the station above than the hole is long ... -/
theorem interp_dist_above (p : V3) (a b : Station) {x : ℝ} (h0 : 0 ≤ x) :
    V3.norm (p - interpPosNev p a b x) ≤ x := by
  rw [V3.norm_sub_comm]
  unfold interpPosNev
  rw [add_sub_cancel_left]
  exact step_norm_le h0

/-- ... and the same for the station below. -/
theorem interp_dist_below (p : V3) {a b : Station} (hL : a.md < b.md) (hpi : dogleg2 a b < π)
    {x : ℝ} (h0 : 0 ≤ x) (h1 : x ≤ b.md - a.md) :
    V3.norm (p + minCurveStep (b.md - a.md) a.inc a.azi b.inc b.azi - interpPosNev p a b x)
      ≤ b.md - a.md - x := by
  unfold interpPosNev
  rw [← interp_split hL hpi h0 h1, ← add_assoc, add_sub_cancel_left]
  exact step_norm_le (by linarith)

/-! ## C157 -/

theorem searchInterval_some (h : surveyG st sx sn u = .ok (off, xyz)) (opt : Minimiser)
    (f : ℕ → V3) (p : V3) {j : ℕ} {a b : Station} {p1 : V3}
    (ha : st[j]? = some a) (hb : st[j + 1]? = some b) (hp : off.nev[j]? = some p1) :
    ∃ c, searchInterval opt off f p j = some c ∧ c.interval = j ∧
      c.x = opt (objective p p1 a b) (b.md - a.md) ∧
      c.pos = interpPosNev p1 a b c.x ∧ c.dist = objective p p1 a b c.x := by
  have hst := (surveyG_st h).1
  obtain ⟨node, hn, -, -, n3, -⟩ := interpolateSurvey_some (sv := off) (f j)
    (opt (objective p p1 a b) (b.md - a.md)) (hst ▸ ha) (hst ▸ hb) hp
  unfold searchInterval
  rw [hst, ha, hb, hp]
  simp only [hn]
  exact ⟨_, rfl, rfl, rfl, n3, rfl⟩

/-- What a search of one interval gives. -/
structure Found (st : List Station) (off : SurveyG) (p : V3) (ε : ℝ) (j : ℕ) (c : Closest) :
    Prop where
  interval : c.interval = j
  onWell : OnWell st off.nev c.interval c.x c.pos
  dist : c.dist = V3.norm (c.pos - p)
  least : ∀ x q, OnWell st off.nev j x q → c.dist ≤ V3.norm (q - p) + ε

theorem searchInterval_found (h : surveyG st sx sn u = .ok (off, xyz))
    (hsort : st.Pairwise fun a b => a.md < b.md) {opt : Minimiser} {ε : ℝ}
    (hopt : FindsMinimum ε opt) (f : ℕ → V3) (p : V3) {j : ℕ} (hj : j + 1 < st.length) :
    ∃ c, searchInterval opt off f p j = some c ∧ Found st off p ε j c := by
  obtain ⟨hst, hxyz, hnev, -⟩ := surveyG_st h
  have hnl : off.nev.length = st.length := by rw [hnev, hxyz]; simp [positions_length]
  have ha : st[j]? = some st[j] := List.getElem?_eq_getElem (by omega)
  have hb : st[j + 1]? = some st[j + 1] := List.getElem?_eq_getElem hj
  have hp : off.nev[j]? = some (off.nev[j]'(by omega)) := List.getElem?_eq_getElem (by omega)
  obtain ⟨c, hc, c1, c2, c3, c4⟩ := searchInterval_some h opt f p ha hb hp
  have hlt : st[j].md < st[j + 1].md :=
    List.pairwise_iff_getElem.mp hsort j (j + 1) (by omega) hj (by omega)
  obtain ⟨o1, o2, o3⟩ := hopt (objective p off.nev[j] st[j] st[j + 1])
    (st[j + 1].md - st[j].md) (by linarith) (fun y => V3.norm_nonneg _)
  rw [← c2] at o1 o2 o3
  refine ⟨c, hc, c1, ?_, ?_, ?_⟩
  · rw [c1]
    exact ⟨_, _, _, ha, hb, hp, o1, o2, c3⟩
  · rw [c4, c3]; rfl
  · rintro x q ⟨a', b', p', ha', hb', hp', x0, x1, rfl⟩
    rw [ha] at ha'; rw [hb] at hb'; rw [hp] at hp'
    cases ha'; cases hb'; cases hp'
    rw [c4]
    exact o3 x x0 x1

/-- C157: for a reference station at `p` and an offset well with increasing depths, the point
reported as closest lies on the offset well, at the end or within one of the (at most two)
intervals that meet at the nearest offset station; the reported distance is the distance to
it, and (up to the tolerance `ε` of the search) is not larger than the distance to any offset
station or to any point of those intervals. -/
theorem C157_closest_point (h : surveyG st sx sn u = .ok (off, xyz))
    (hsort : st.Pairwise fun a b => a.md < b.md)
    (hpi : ∀ (i : ℕ) a b, st[i]? = some a → st[i + 1]? = some b → dogleg2 a b < π)
    {opt : Minimiser} {ε : ℝ} (hopt : FindsMinimum ε opt) (f : ℕ → V3) (p : V3) :
    ∃ c, closestPoint opt off f p = some c ∧
      OnWell st off.nev c.interval c.x c.pos ∧
      (nearest off p = c.interval ∨ nearest off p = c.interval + 1) ∧
      c.dist = V3.norm (c.pos - p) ∧
      (∀ q ∈ off.nev, c.dist ≤ V3.norm (q - p) + ε) ∧
      ∀ j x q, j = nearest off p ∨ j + 1 = nearest off p → OnWell st off.nev j x q →
        c.dist ≤ V3.norm (q - p) + ε := by
  obtain ⟨hst, hxyz, hnev, hlen⟩ := surveyG_st h
  have hnl : off.nev.length = st.length := by rw [hnev, hxyz]; simp [positions_length]
  obtain ⟨v, hv, hmin⟩ := argmin_spec (l := off.nev.map fun q => V3.norm (q - p)) (by
    intro h0
    rw [List.map_eq_nil_iff] at h0
    rw [h0] at hnl; simp at hnl; omega)
  have hi : nearest off p < st.length := by
    have := (List.getElem?_eq_some_iff.mp hv).1
    rw [List.length_map, hnl] at this
    exact this
  -- the nearest station
  obtain ⟨pi, hpi'⟩ : ∃ q, off.nev[nearest off p]? = some q :=
    ⟨_, List.getElem?_eq_getElem (by omega)⟩
  have hvi : v = V3.norm (pi - p) := by
    have : (off.nev.map fun q => V3.norm (q - p))[nearest off p]? = some v := hv
    rw [List.getElem?_map, hpi'] at this
    injection this with this
    exact this.symm
  have hnear : ∀ q ∈ off.nev, V3.norm (pi - p) ≤ V3.norm (q - p) := fun q hq => by
    rw [← hvi]
    exact hmin _ (List.mem_map.2 ⟨q, hq, rfl⟩)
  -- the nearest station belongs to the two intervals
  have hup : nearest off p + 1 < st.length → OnWell st off.nev (nearest off p) 0 pi := fun hl =>
    have hlt := List.pairwise_iff_getElem.mp hsort (nearest off p) (nearest off p + 1)
      (by omega) hl (by omega)
    ⟨_, _, pi, List.getElem?_eq_getElem (by omega), List.getElem?_eq_getElem hl, hpi', le_rfl,
      by linarith, (interpPosNev_zero ..).symm⟩
  have hdown : ∀ k, nearest off p = k + 1 → ∃ x, OnWell st off.nev k x pi := fun k hk => by
    have ha : st[k]? = some (st[k]'(by omega)) := List.getElem?_eq_getElem (by omega)
    have hb : st[k + 1]? = some (st[k + 1]'(by omega)) := List.getElem?_eq_getElem (by omega)
    have hq : off.nev[k]? = some (off.nev[k]'(by omega)) := List.getElem?_eq_getElem (by omega)
    have hlt := List.pairwise_iff_getElem.mp hsort k (k + 1) (by omega) (by omega) (by omega)
    have := nev_step h ha hb hq
    rw [hk] at hpi'
    rw [hpi'] at this
    injection this with this
    exact ⟨_, _, _, _, ha, hb, hq, by linarith, le_rfl,
      by rw [this, interpPosNev_end _ hlt (hpi k _ _ ha hb)]⟩
  -- assemble
  have key : ∀ c j, Found st off p ε j c → (nearest off p = j ∨ nearest off p = j + 1) →
      (∀ k, k = nearest off p ∨ k + 1 = nearest off p → k + 1 < st.length →
        ∀ x q, OnWell st off.nev k x q → c.dist ≤ V3.norm (q - p) + ε) →
      OnWell st off.nev c.interval c.x c.pos ∧
      (nearest off p = c.interval ∨ nearest off p = c.interval + 1) ∧
      c.dist = V3.norm (c.pos - p) ∧
      (∀ q ∈ off.nev, c.dist ≤ V3.norm (q - p) + ε) ∧
      ∀ j x q, j = nearest off p ∨ j + 1 = nearest off p → OnWell st off.nev j x q →
        c.dist ≤ V3.norm (q - p) + ε := by
    intro c j hF hn hall
    refine ⟨hF.onWell, by rw [hF.interval]; exact hn, hF.dist, ?_, ?_⟩
    · intro q hq
      have hcp : c.dist ≤ V3.norm (pi - p) + ε := by
        rcases hn with hn | hn
        · obtain ⟨_, _, _, _, hb, _⟩ := hF.onWell
          have hl := (List.getElem?_eq_some_iff.mp hb).1
          rw [hF.interval, ← hn] at hl
          exact hF.least _ _ (hn ▸ hup hl)
        · obtain ⟨x, hx⟩ := hdown j hn
          exact hF.least _ _ hx
      linarith [hnear q hq]
    · intro k x q hk hq
      have hl : k + 1 < st.length := by
        obtain ⟨_, _, _, _, hb, _⟩ := hq
        exact (List.getElem?_eq_some_iff.mp hb).1
      exact hall k hk hl x q hq
  unfold closestPoint
  simp only [hnl]
  rcases Nat.eq_zero_or_pos (nearest off p) with h0 | h0
  · -- only the interval below
    have hl : nearest off p < st.length - 1 := by omega
    obtain ⟨c2, e2, F2⟩ := searchInterval_found h hsort hopt f p
      (j := nearest off p) (by omega)
    rw [if_neg (by omega), if_pos hl, e2]
    refine ⟨c2, rfl, key c2 _ F2 (Or.inl rfl) ?_⟩
    intro k hk hl x q hq
    have : k = nearest off p := by omega
    subst this
    exact F2.least x q hq
  · obtain ⟨c1, e1, F1⟩ := searchInterval_found h hsort hopt f p
      (j := nearest off p - 1) (by omega)
    rw [if_pos h0, e1]
    by_cases hl : nearest off p < st.length - 1
    · obtain ⟨c2, e2, F2⟩ := searchInterval_found h hsort hopt f p
        (j := nearest off p) (by omega)
      rw [if_pos hl, e2]
      by_cases hlt : c1.dist < c2.dist
      · simp only [if_pos hlt]
        refine ⟨c1, rfl, key c1 _ F1 (Or.inr (by omega)) ?_⟩
        intro k hk _ x q hq
        rcases hk with hk | hk
        · subst hk; exact hlt.le.trans (F2.least x q hq)
        · have : k = nearest off p - 1 := by omega
          subst this; exact F1.least x q hq
      · simp only [if_neg hlt]
        refine ⟨c2, rfl, key c2 _ F2 (Or.inl rfl) ?_⟩
        intro k hk _ x q hq
        rcases hk with hk | hk
        · subst hk; exact F2.least x q hq
        · have : k = nearest off p - 1 := by omega
          subst this; exact (not_lt.1 hlt).trans (F1.least x q hq)
    · rw [if_neg hl]
      refine ⟨c1, rfl, key c1 _ F1 (Or.inr (by omega)) ?_⟩
      intro k hk hkl x q hq
      have : k = nearest off p - 1 := by omega
      subst this; exact F1.least x q hq

/-- A search with any positive tolerance exists. -/
theorem findsMinimum_exists {ε : ℝ} (hε : 0 < ε) : ∃ opt, FindsMinimum ε opt := by
  classical
  have key : ∀ (f : ℝ → ℝ) (b : ℝ), 0 ≤ b → (∀ y, 0 ≤ f y) →
      ∃ x, 0 ≤ x ∧ x ≤ b ∧ ∀ y, 0 ≤ y → y ≤ b → f x ≤ f y + ε := by
    intro f b hb hf
    have hne : (f '' Set.Icc 0 b).Nonempty := ⟨f 0, 0, ⟨le_rfl, hb⟩, rfl⟩
    have hbdd : BddBelow (f '' Set.Icc 0 b) := ⟨0, by rintro _ ⟨y, -, rfl⟩; exact hf y⟩
    obtain ⟨_, ⟨x, hx, rfl⟩, hlt⟩ := Real.lt_sInf_add_pos hne hε
    exact ⟨x, hx.1, hx.2, fun y h0 h1 => by
      have := csInf_le hbdd ⟨y, ⟨h0, h1⟩, rfl⟩
      linarith⟩
  refine ⟨fun f b => if h : 0 ≤ b ∧ ∀ y, 0 ≤ f y then (key f b h.1 h.2).choose else 0, ?_⟩
  intro f b hb hf
  simp only [dif_pos (⟨hb, hf⟩ : 0 ≤ b ∧ ∀ y, 0 ≤ f y)]
  exact (key f b hb hf).choose_spec

/-- An offset well of three stations: 100 m down, then a quarter turn of radius 10. -/
example : ∃ opt off xyz c, FindsMinimum 0.001 opt ∧
    surveyG [⟨0, 0, 0⟩, ⟨100, 0, 0⟩, ⟨100 + 5 * π, π / 2, 0⟩] 0 0 .meters = .ok (off, xyz) ∧
    closestPoint opt off (fun _ => 0) ⟨2, 0, 50⟩ = some c ∧
    ∀ q ∈ off.nev, c.dist ≤ V3.norm (q - ⟨2, 0, 50⟩) + 0.001 := by
  obtain ⟨opt, ho⟩ := findsMinimum_exists (ε := 0.001) (by norm_num)
  obtain ⟨c, h1, -, -, -, h2, -⟩ := C157_closest_point
    (st := [⟨0, 0, 0⟩, ⟨100, 0, 0⟩, ⟨100 + 5 * π, π / 2, 0⟩]) (sx := 0) (sn := 0) (u := .meters)
    rfl (by
      have := pi_pos
      simp only [List.pairwise_cons, List.mem_cons, List.not_mem_nil, or_false, forall_eq_or_imp,
        forall_eq, List.Pairwise.nil, and_true, false_imp_iff, implies_true]
      refine ⟨⟨by norm_num, by positivity⟩, by linarith⟩) (by
      intro i a b ha hb
      have e0 : dogleg2 ⟨0, 0, 0⟩ ⟨100, 0, 0⟩ < π := by
        rw [dogleg2_same_azi le_rfl (by linarith [pi_pos])]; linarith [pi_pos]
      have e1 : dogleg2 ⟨100, 0, 0⟩ ⟨100 + 5 * π, π / 2, 0⟩ < π := by
        rw [dogleg2_same_azi (by positivity) (by linarith [pi_pos])]; linarith [pi_pos]
      match i with
      | 0 => simp at ha hb; rw [← ha, ← hb]; exact e0
      | 1 => simp at ha hb; rw [← ha, ← hb]; exact e1
      | k + 2 => simp at hb) ho (fun _ => 0) ⟨2, 0, 50⟩
  exact ⟨opt, _, _, c, ho, rfl, h1, h2⟩

/-! ## C158 -/

/-- C158, the part that holds: the reported distance exceeds the distance to a point of the
offset well by no more than the distance along the hole from that point to the nearer end of
its interval (and the tolerance of the search); so it exceeds the smallest distance to the well
by no more than half the largest station spacing. -/
theorem C158_within_spacing_partial (h : surveyG st sx sn u = .ok (off, xyz))
    (hsort : st.Pairwise fun a b => a.md < b.md)
    (hpi : ∀ (i : ℕ) a b, st[i]? = some a → st[i + 1]? = some b → dogleg2 a b < π)
    {opt : Minimiser} {ε : ℝ} (hopt : FindsMinimum ε opt) (f : ℕ → V3) (p : V3) {D : ℝ}
    (hD : ∀ (i : ℕ) a b, st[i]? = some a → st[i + 1]? = some b → b.md - a.md ≤ D) :
    ∃ c, closestPoint opt off f p = some c ∧
      ∀ j x q, OnWell st off.nev j x q → c.dist ≤ V3.norm (q - p) + D / 2 + ε := by
  obtain ⟨c, hc, -, -, -, hs, -⟩ := C157_closest_point h hsort hpi hopt f p
  refine ⟨c, hc, ?_⟩
  rintro j x q ⟨a, b, p1, ha, hb, hp, x0, x1, rfl⟩
  have hlt : a.md < b.md := by
    obtain ⟨i1, rfl⟩ := List.getElem?_eq_some_iff.mp ha
    obtain ⟨i2, rfl⟩ := List.getElem?_eq_some_iff.mp hb
    exact List.pairwise_iff_getElem.mp hsort _ _ _ _ (by omega)
  have hd := hD j a b ha hb
  set q := interpPosNev p1 a b x with hq
  have tri : ∀ r : V3, V3.norm (r - p) ≤ V3.norm (r - q) + V3.norm (q - p) := fun r => by
    have := V3.norm_add_le (r - q) (q - p)
    rwa [sub_add_sub_cancel] at this
  have u1 := hs p1 (List.mem_of_getElem? hp)
  have u2 := hs _ (List.mem_of_getElem? (nev_step h ha hb hp))
  have v1 := interp_dist_above p1 a b x0
  have v2 := interp_dist_below p1 hlt (hpi j a b ha hb) x0 x1
  have t1 := tri p1
  have t2 := tri (p1 + minCurveStep (b.md - a.md) a.inc a.azi b.inc b.azi)
  rcases le_total x (b.md - a.md - x) with hx | hx <;> linarith

/-! The well of the counterexample: 100 m straight down, a U-turn of radius 10 m in two quarter
circles, and 50 m straight up. -/

/-- The stations of the U-shaped well. -/
noncomputable def uWell : List Station :=
  [⟨0, 0, 0⟩, ⟨100, 0, 0⟩, ⟨100 + 5 * π, π / 2, 0⟩, ⟨100 + 10 * π, π, 0⟩,
    ⟨150 + 10 * π, π, 0⟩]

theorem uWell_nev : ∃ xyz, surveyG uWell 0 0 .meters
    = .ok (⟨uWell, [⟨0, 0, 0⟩, ⟨0, 0, 100⟩, ⟨10, 0, 110⟩, ⟨20, 0, 100⟩, ⟨20, 0, 50⟩], none⟩,
      xyz) := by
  have hpi := pi_pos
  have e0 : getDogleg 0 0 0 0 = 0 := by
    have := dogleg2_same_azi (m1 := 0) (m2 := 0) (i1 := 0) (i2 := 0) (a := 0) le_rfl
      (by linarith)
    simpa [dogleg2] using this
  have e1 : getDogleg 0 0 (π / 2) 0 = π / 2 := by
    have := dogleg2_same_azi (m1 := 0) (m2 := 0) (i1 := 0) (i2 := π / 2) (a := 0) (by positivity)
      (by linarith)
    simpa [dogleg2] using this
  have e2 : getDogleg (π / 2) 0 π 0 = π / 2 := by
    have := dogleg2_same_azi (m1 := 0) (m2 := 0) (i1 := π / 2) (i2 := π) (a := 0) (by linarith)
      (by linarith)
    rw [dogleg2] at this
    rw [this]; ring
  have e3 : getDogleg π 0 π 0 = 0 := by
    have := dogleg2_same_azi (m1 := 0) (m2 := 0) (i1 := π) (i2 := π) (a := 0) le_rfl
      (by linarith)
    simpa [dogleg2] using this
  have h0 : (π / 2 : ℝ) ≠ 0 := by positivity
  have ht : tan (π / 2 / 2) = 1 := by rw [show π / 2 / 2 = π / 4 by ring]; exact tan_pi_div_four
  have d1 : deltaXyz ⟨0, 0, 0⟩ ⟨100, 0, 0⟩ = ⟨0, 0, 100⟩ := by
    rw [deltaXyz_eq, minCurveStep, minCurveStepRf_eq]
    simp only [e0, getRf, if_true]
    ext <;> simp [swap, tangent]
  have d2 : deltaXyz ⟨100, 0, 0⟩ ⟨100 + 5 * π, π / 2, 0⟩ = ⟨0, 10, 10⟩ := by
    rw [deltaXyz_eq, minCurveStep, minCurveStepRf_eq]
    simp only [e1, getRf, if_neg h0, ht]
    ext <;> simp [swap, tangent] <;> field_simp <;> norm_num
  have d3 : deltaXyz ⟨100 + 5 * π, π / 2, 0⟩ ⟨100 + 10 * π, π, 0⟩ = ⟨0, 10, -10⟩ := by
    rw [deltaXyz_eq, minCurveStep, minCurveStepRf_eq]
    simp only [e2, getRf, if_neg h0, ht]
    ext <;> simp [swap, tangent] <;> field_simp <;> ring
  have d4 : deltaXyz ⟨100 + 10 * π, π, 0⟩ ⟨150 + 10 * π, π, 0⟩ = ⟨0, 0, -50⟩ := by
    rw [deltaXyz_eq, minCurveStep, minCurveStepRf_eq]
    simp only [e3, getRf, if_true]
    ext <;> simp [swap, tangent]
    norm_num
  refine ⟨[⟨0, 0, 0⟩, ⟨0, 0, 100⟩, ⟨0, 10, 110⟩, ⟨0, 20, 100⟩, ⟨0, 20, 50⟩], ?_⟩
  have hp : cumsumFrom 0 ((0 : V3) :: pairwise deltaXyz uWell)
      = [⟨0, 0, 0⟩, ⟨0, 0, 100⟩, ⟨0, 10, 110⟩, ⟨0, 20, 100⟩, ⟨0, 20, 50⟩] := by
    simp only [uWell, pairwise, d1, d2, d3, d4, cumsumFrom]
    refine List.cons_eq_cons.2 ⟨?_, List.cons_eq_cons.2 ⟨?_, List.cons_eq_cons.2 ⟨?_,
      List.cons_eq_cons.2 ⟨?_, List.cons_eq_cons.2 ⟨?_, rfl⟩⟩⟩⟩⟩ <;>
      apply V3.ext <;> simp <;> norm_num
  unfold surveyG minCurve
  rw [show uWell = ⟨0, 0, 0⟩ :: ⟨100, 0, 0⟩ :: uWell.drop 2 from rfl]
  simp only []
  rw [show (⟨0, 0, 0⟩ :: ⟨100, 0, 0⟩ :: uWell.drop 2) = uWell from rfl, hp]
  simp [getNev]

/-- C158 fails: 2 m beside the middle of the straight first branch of the U-shaped well the
distance reported is at least 18 m, whatever the optimiser returns within its bounds. -/
theorem C158_closest_missed : ∃ (off : SurveyG) (xyz : List V3) (p q : V3) (x : ℝ),
    surveyG uWell 0 0 .meters = .ok (off, xyz) ∧ OnWell uWell off.nev 0 x q ∧
    V3.norm (q - p) = 2 ∧
    ∀ (opt : Minimiser) (f : ℕ → V3), (∀ g b, 0 ≤ b → 0 ≤ opt g b ∧ opt g b ≤ b) →
      ∃ c, closestPoint opt off f p = some c ∧ 18 ≤ c.dist := by
  obtain ⟨xyz, h⟩ := uWell_nev
  have hpi := pi_pos
  have hst : ∀ x L a m1 m2, interpPosNev a ⟨m1, L, 0⟩ ⟨m2, L, 0⟩ x = a + x • tangent L 0 := by
    intro x L a m1 m2
    have e : dogleg2 ⟨m1, L, 0⟩ ⟨m2, L, 0⟩ = 0 := by
      rw [dogleg2_same_azi le_rfl (by linarith)]; ring
    unfold interpPosNev interpAngles
    rw [if_pos e, minCurveStep_same rfl]
  have n1 : ∀ z : ℝ, V3.norm ⟨-2, 0, z⟩ = √(4 + z ^ 2) := fun z => by
    unfold V3.norm V3.dot; congr 1; ring
  refine ⟨_, xyz, ⟨2, 0, 50⟩, ⟨0, 0, 50⟩, 50, h, ⟨_, _, _, rfl, rfl, rfl, by norm_num,
    by norm_num, ?_⟩, ?_, ?_⟩
  · rw [hst]
    ext <;> simp [tangent]
  · have : (⟨0, 0, 50⟩ : V3) - ⟨2, 0, 50⟩ = ⟨-2, 0, 0⟩ := by ext <;> simp
    rw [this, n1, show (4 : ℝ) + 0 ^ 2 = 2 ^ 2 by norm_num]
    exact sqrt_sq (by norm_num)
  · intro opt f hopt
    set off : SurveyG := ⟨uWell, [⟨0, 0, 0⟩, ⟨0, 0, 100⟩, ⟨10, 0, 110⟩, ⟨20, 0, 100⟩,
      ⟨20, 0, 50⟩], none⟩ with hoff
    -- the nearest station is the last one
    have hd : off.nev.map (fun q => V3.norm (q - ⟨2, 0, 50⟩))
        = [√2504, √2504, √3664, √2824, 18] := by
      have h18 : (18 : ℝ) = √324 := by
        rw [show (324 : ℝ) = 18 ^ 2 by norm_num]; exact (sqrt_sq (by norm_num)).symm
      rw [h18]
      simp only [hoff, List.map_cons, List.map_nil, V3.norm, V3.dot]
      norm_num
    have b1 : 18 < √2504 := by rw [lt_sqrt (by norm_num)]; norm_num
    have b2 : 18 < √3664 := by rw [lt_sqrt (by norm_num)]; norm_num
    have b3 : 18 < √2824 := by rw [lt_sqrt (by norm_num)]; norm_num
    have hn : nearest off ⟨2, 0, 50⟩ = 4 := by
      unfold nearest argmin
      rw [hd]
      simp [List.findIdx_cons, b1.le, b2.le, b3.le, not_le.2 b1, not_le.2 b2, not_le.2 b3]
    obtain ⟨c, hc, c1, c2, c3, c4⟩ := searchInterval_some h opt f ⟨2, 0, 50⟩ (j := 3)
      (a := ⟨100 + 10 * π, π, 0⟩) (b := ⟨150 + 10 * π, π, 0⟩) (p1 := ⟨20, 0, 100⟩) rfl rfl rfl
    refine ⟨c, ?_, ?_⟩
    · unfold closestPoint
      simp only [hn]
      rw [if_pos (by norm_num), if_neg (by simp [hoff])]
      exact hc
    · rw [c4, objective, hst]
      unfold V3.norm V3.dot
      apply le_sqrt_of_sq_le
      simp [tangent]
      nlinarith [sq_nonneg (100 + -c.x - 50)]

/-! ## C159 -/

/-- C159 fails: the radii passed to a clearance calculation are never used: a survey always has
radii, and a survey made without them is taken to have holes of one foot radius. -/
theorem C159_radius_argument_ignored (n : ℕ) (given : Hdr.Radius) (r r' : ℝ) :
    radiiUsed n given r = radiiUsed n given r' ∧
    radiiUsed n .none r = .ok (List.replicate n 0.3048) := by
  refine ⟨?_, rfl⟩
  unfold radiiUsed
  cases Hdr.getRadius n given <;> rfl

/-- C159, the part that holds: radii given to the survey are the ones used, and the combined
hole radius of a station is the sum of its radius and the radius of the nearest offset
station, which is an end of the interval of the closest point. -/
theorem C159_radii_partial (n : ℕ) (rs : List ℝ) (hl : rs.length = n) (r : ℝ)
    (h : surveyG st sx sn u = .ok (off, xyz))
    (hsort : st.Pairwise fun a b => a.md < b.md)
    (hpi : ∀ (i : ℕ) a b, st[i]? = some a → st[i + 1]? = some b → dogleg2 a b < π)
    {opt : Minimiser} {ε : ℝ} (hopt : FindsMinimum ε opt) (f : ℕ → V3) (p : V3)
    (Ro : List ℝ) (hRo : Ro.length = st.length) {row : ℕ} (hrow : row < n) :
    radiiUsed n (.list rs) r = .ok rs ∧
    ∃ c, closestPoint opt off f p = some c ∧ ∃ k a b, (k = c.interval ∨ k = c.interval + 1) ∧
      rs[row]? = some a ∧ Ro[k]? = some b ∧ calcHole rs Ro row (nearest off p) = some (a + b) := by
  constructor
  · unfold radiiUsed Hdr.getRadius
    match rs, hl with
    | [], hl => simp at hl; subst hl; simp [getRadii]
    | [r0], hl => simp at hl; subst hl; simp [getRadii]
    | a :: b :: t, hl => simp [getRadii, hl]
  · obtain ⟨c, hc, ⟨a, b, _, ha, hb, _⟩, hn, -⟩ := C157_closest_point h hsort hpi hopt f p
    have l2 := (List.getElem?_eq_some_iff.mp hb).1
    have hk : nearest off p < Ro.length := by omega
    exact ⟨c, hc, nearest off p, rs[row], Ro[nearest off p], hn,
      List.getElem?_eq_getElem (by omega), List.getElem?_eq_getElem hk, by
        unfold calcHole
        rw [List.getElem?_eq_getElem (by omega), List.getElem?_eq_getElem hk]⟩

end Welleng.Props
