import Verif.Spec.MeasuredWell
import Verif.Props.Stability
import Verif.Props.Approach

/-! C317: how far the wells that were really drilled are from each other, against what is reported for
their surveys. -/

namespace Welleng.Props

open Real Welleng.Spec Clr

/-- A well gets no further than the length drilled. -/
theorem trueWell_dist {γ τ : ℝ → V3} {κ a b : ℝ} (h : TrueWell γ τ κ a b) {s s' : ℝ} (h1 : a ≤ s)
    (h2 : s ≤ s') (h3 : s' ≤ b) : V3.norm (γ s' - γ s) ≤ s' - s := by
  rcases h2.eq_or_lt with rfl | h2
  · rw [sub_self, sub_self, V3.norm_zero]
  set D := γ s' - γ s with hD
  have hder : ∀ x, s ≤ x → x ≤ s' → HasDerivAt (fun u => V3.dot D (γ u)) (V3.dot D (τ x)) x :=
    fun x x1 x2 => hasDeriv_dot D (h.deriv x (h1.trans x1) (x2.trans h3))
  obtain ⟨c, hc, he⟩ := exists_hasDerivAt_eq_slope (fun u => V3.dot D (γ u)) (fun u => V3.dot D (τ u))
    h2 (fun x hx => (hder x hx.1 hx.2).continuousAt.continuousWithinAt)
    (fun x hx => hder x hx.1.le hx.2.le)
  have hu := h.unit c (h1.trans hc.1.le) (hc.2.le.trans h3)
  have hle := V3.dot_le_norm D (τ c)
  rw [show V3.norm (τ c) = 1 by unfold V3.norm; rw [hu, sqrt_one], mul_one] at hle
  rw [eq_div_iff (by linarith), ← V3.dot_sub_right, ← hD, ← V3.norm_sq] at he
  have hn := V3.norm_nonneg D
  rcases hn.eq_or_lt with h0 | h0
  · linarith
  · have : V3.norm D * V3.norm D ≤ V3.norm D * (s' - s) := by
      nlinarith
    exact le_of_mul_le_mul_left this h0

/-- The depths of a survey from any station on. -/
theorem chain_mono {R : Station → Station → Prop} (hR : ∀ p q, R p q → p.md < q.md) {st : List Station}
    (h : st.IsChain R) : st.Pairwise fun p q => p.md < q.md :=
  (h.imp hR).pairwise

/-- Between two stations there is always one at most half a spacing away. -/
theorem near_station {h : ℝ} (hh : 0 ≤ h) : ∀ (st : List Station) (s0 sl : Station),
    st.IsChain (fun p q => p.md < q.md ∧ q.md - p.md ≤ h) → st[0]? = some s0 → st.getLast? = some sl →
    ∀ x, s0.md ≤ x → x ≤ sl.md → ∃ (k : ℕ) (s : Station), st[k]? = some s ∧ |x - s.md| ≤ h / 2 := by
  intro st
  induction st with
  | nil => intro s0 sl _ h0; simp at h0
  | cons p t ih =>
    intro s0 sl hc h0 hl x hx hx'
    obtain rfl : p = s0 := by simpa using h0
    cases t with
    | nil =>
      obtain rfl : p = sl := by simpa using hl
      refine ⟨0, p, rfl, ?_⟩
      rw [show x - p.md = 0 by linarith, abs_zero]; linarith
    | cons q t =>
      obtain ⟨⟨h1, h2⟩, hc'⟩ := List.isChain_cons_cons.mp hc
      rcases le_total q.md x with hq | hq
      · obtain ⟨k, s, hk, hs⟩ := ih q sl hc' rfl (by simpa using hl) x hq hx'
        exact ⟨k + 1, s, by simpa using hk, hs⟩
      · rcases le_total (x - p.md) (h / 2) with h3 | h3
        · exact ⟨0, p, rfl, by rw [abs_of_nonneg (by linarith)]; exact h3⟩
        · exact ⟨1, q, rfl, by rw [abs_of_nonpos (by linarith)]; linarith⟩

variable {γ τ γ' τ' : ℝ → V3} {κ a b h ε D κ' a' b' h' ε' D' : ℝ} {st st' : List Station}

theorem MeasuredWell.sorted (w : MeasuredWell γ τ κ a b h ε D st) :
    st.Pairwise fun p q => p.md < q.md := chain_mono (fun _ _ h => h.1) w.spaced

theorem MeasuredWell.in_range (w : MeasuredWell γ τ κ a b h ε D st) :
    ∀ r ∈ st, a ≤ r.md ∧ r.md ≤ b := by
  obtain ⟨s0, h0, rfl⟩ := w.top
  obtain ⟨sl, hl, rfl⟩ := w.bottom
  have hp := List.pairwise_iff_getElem.mp (MeasuredWell.sorted w)
  intro r hr
  obtain ⟨i, hi, rfl⟩ := List.getElem_of_mem hr
  obtain ⟨h0', rfl⟩ := List.getElem?_eq_some_iff.mp h0
  have hl' : st[st.length - 1]'(by omega) = sl := by
    rw [List.getLast?_eq_getElem?] at hl
    exact (List.getElem?_eq_some_iff.mp hl).2
  subst hl'
  constructor
  · rcases Nat.eq_zero_or_pos i with rfl | h
    · exact le_rfl
    · exact (hp 0 i h0' hi h).le
  · rcases Nat.lt_or_ge i (st.length - 1) with h | h
    · exact (hp i (st.length - 1) hi (by omega) h).le
    · have : i = st.length - 1 := by omega
      subst this; exact le_rfl

/-- The stations as they really are. -/
noncomputable def really (τ : ℝ → V3) (r : Station) : Station :=
  ⟨r.md, (getAngles (τ r.md) true).1, (getAngles (τ r.md) true).2⟩

theorem really_chain (w : TrueWell γ τ κ a b) (hκ : 0 ≤ κ) (hb : κ * h ≤ 2 * sin (D / 2)) (hD0 : 0 ≤ D)
    (hD : D < π) {st : List Station} (hr : ∀ r ∈ st, a ≤ r.md ∧ r.md ≤ b)
    (hc : st.IsChain fun p q => p.md < q.md ∧ q.md - p.md ≤ h) :
    (st.map (really τ)).IsChain fun p q => p.md < q.md ∧ q.md - p.md ≤ h ∧ dogleg2 p q ≤ D := by
  induction st with
  | nil => exact .nil
  | cons p t ih =>
    cases t with
    | nil => exact .singleton _
    | cons q t =>
      obtain ⟨⟨h1, h2⟩, hc'⟩ := List.isChain_cons_cons.mp hc
      refine .cons_cons ⟨h1, h2, ?_⟩ (ih (fun r hr' => hr r (List.mem_cons_of_mem _ hr')) hc')
      have hp := hr p (by simp)
      have hq := hr q (by simp)
      have hn := norm_sub_unit (tangent_unit (really τ p).inc (really τ p).azi)
        (tangent_unit (really τ q).inc (really τ q).azi) (getDogleg_nonneg ..) (getDogleg_le_pi ..)
        (cos_getDogleg ..)
      rw [show tangent (really τ p).inc (really τ p).azi = τ p.md from
          tangent_getAngles_nev (w.unit _ hp.1 hp.2),
        show tangent (really τ q).inc (really τ q).azi = τ q.md from
          tangent_getAngles_nev (w.unit _ hq.1 hq.2)] at hn
      have hb2 := w.bend p.md q.md hp.1 h1.le hq.2
      have hb3 : κ * (q.md - p.md) ≤ κ * h := mul_le_mul_of_nonneg_left h2 hκ
      show getDogleg _ _ _ _ ≤ D
      by_contra hcon
      push Not at hcon
      have hpi := getDogleg_le_pi (really τ p).inc (really τ p).azi (really τ q).inc (really τ q).azi
      have := sin_lt_sin_of_lt_of_le_pi_div_two (x := D / 2)
        (y := getDogleg (really τ p).inc (really τ p).azi (really τ q).inc (really τ q).azi / 2)
        (by linarith) (by linarith) (by linarith)
      linarith

/-- **C317** How far a station as calculated is from where the hole really is, when the start is known to
within `e`. -/
theorem C317_station (w : MeasuredWell γ τ κ a b h ε D st) {sx sn : V3} {u : LenUnit} {sv : SurveyG}
    {xyz : List V3} (hs : surveyG st sx sn u = .ok (sv, xyz)) {e : ℝ} (he : V3.norm (sn - γ a) ≤ e)
    {k : ℕ} {s : Station} {p : V3} (hk : st[k]? = some s) (hp : sv.nev[k]? = some p) :
    V3.norm (p - γ s.md) ≤ e + (κ * h + getRf D * ε) * (s.md - a) := by
  obtain ⟨hst, hxyz, hnev, hlen⟩ := surveyG_st hs
  obtain ⟨s0, h0, rfl⟩ := w.top
  have hr := MeasuredWell.in_range w
  have hh : κ * h < 2 := by
    have := sin_lt_sin_of_lt_of_le_pi_div_two (x := D / 2) (y := π / 2)
      (by linarith [pi_pos, w.turn_nonneg]) le_rfl (by linarith [w.turn_lt])
    rw [sin_pi_div_two] at this
    linarith [w.turn]
  have hc := really_chain w.well w.bent w.turn w.turn_nonneg w.turn_lt hr
    (w.spaced.imp fun _ _ h => ⟨h.1, h.2.1⟩)
  have hunit : ∀ r ∈ st, tangent (really τ r).inc (really τ r).azi = τ r.md := fun r hr' =>
    tangent_getAngles_nev (w.well.unit _ (hr r hr').1 (hr r hr').2)
  have htrue : ∀ r ∈ st.map (really τ), τ r.md = tangent r.inc r.azi := by
    intro r hm
    obtain ⟨q, hq, rfl⟩ := List.mem_map.mp hm
    exact (hunit q hq).symm
  -- the calculated position, in the axes of `positions`
  rw [hnev, List.getElem?_map] at hp
  obtain ⟨x, hx, rfl⟩ := Option.map_eq_some_iff.mp hp
  rw [hxyz] at hx
  have hx' : (positions (swap sn) st)[k]? = some (x + (swap sn - sx)) := by
    have := positions_translate sx (swap sn - sx) st
    rw [add_sub_cancel] at this
    rw [this, List.getElem?_map, hx]; rfl
  -- the same stations with exact directions
  have hkl : k < (positions (swap (γ s0.md)) (st.map (really τ))).length := by
    rw [positions_length, List.length_map]; exact (List.getElem?_eq_some_iff.mp hk).1
  have hy := List.getElem?_eq_getElem hkl
  generalize (positions (swap (γ s0.md)) (st.map (really τ)))[k] = y at hy
  have hkt : (st.map (really τ))[k]? = some (really τ s) := by rw [List.getElem?_map, hk]; rfl
  have hhead : (st.map (really τ)).head? = some (really τ s0) := by
    cases st with
    | nil => simp at h0
    | cons c t => obtain rfl : c = s0 := by simpa using h0
                  rfl
  have hclose := positions_close w.turn_lt (st.map (really τ)) st (ε := ε) (by
      rw [List.forall₂_map_left_iff, List.forall₂_same]
      intro r hr'
      refine ⟨rfl, ?_⟩
      rw [hunit r hr', ← norm_neg, neg_sub]
      exact w.measured r hr')
    (hc.imp fun _ _ h => ⟨h.1.le, h.2.2⟩) (w.spaced.imp fun _ _ h => h.2.2)
    (swap (γ s0.md)) (swap sn) e (really τ s0) hhead (by
      rw [← norm_swap, ← norm_neg]
      have : -swap (swap (γ s0.md) - swap sn) = sn - γ s0.md := by
        ext <;> simp [swap]
      rwa [this]) hkt hy hx'
  have hacc := positions_accuracy w.bent hh (st.map (really τ)) htrue (by
      refine List.isChain_iff_getElem.mpr fun i hi => ?_
      have hcc := List.isChain_iff_getElem.mp hc i hi
      refine ⟨hcc.1, hcc.2.1, ?_⟩
      have hi2 : i + 1 < st.length := by simpa using hi
      have hi1 : i < st.length := by omega
      have m1 := hr st[i] (List.getElem_mem hi1)
      have m2 := hr st[i + 1] (List.getElem_mem hi2)
      simp only [List.getElem_map, really]
      exact ⟨fun s h1 h2 => w.well.deriv s (m1.1.trans h1) (h2.trans m2.2),
        fun s h1 h2 => w.well.unit s (m1.1.trans h1) (h2.trans m2.2),
        fun s s' h1 h2 h3 => w.well.bend s s' (m1.1.trans h1) h2 (h3.trans m2.2)⟩)
    (swap (γ s0.md)) 0 (really τ s0) hhead (by
      show V3.norm (swap (γ s0.md) - swap (γ s0.md)) ≤ 0
      rw [sub_self, V3.norm_zero]) hkt hy
  have e1 : getNev x sx sn - γ s.md
      = swap (-(y - (x + (swap sn - sx))) + (y - swap (γ s.md))) := by
    ext <;> simp [getNev, swap] <;> ring
  rw [e1, norm_swap]
  refine (V3.norm_add_le _ _).trans ?_
  rw [norm_neg]
  have e2 : (really τ s).md = s.md := rfl
  have e3 : (really τ s0).md = s0.md := rfl
  rw [e2, e3] at hclose hacc
  linarith

/-- **C317** for the search of the closest point between two wells: for every point of the reference well
as drilled there is a station of its survey for which the reported distance is at most the distance from
that point to any point of the offset well as drilled, plus half a spacing of either survey, the tolerance
of the search and the error of the positions of either survey. -/
theorem C317_reported_distance (w : MeasuredWell γ τ κ a b h ε D st)
    (w' : MeasuredWell γ' τ' κ' a' b' h' ε' D' st') {sx sn sx' sn' : V3} {u u' : LenUnit}
    {off ref : SurveyG} {xyz xyz' : List V3} (hs : surveyG st sx sn u = .ok (off, xyz))
    (hs' : surveyG st' sx' sn' u' = .ok (ref, xyz')) {e e' : ℝ} (he : V3.norm (sn - γ a) ≤ e)
    (he' : V3.norm (sn' - γ' a') ≤ e') {opt : Minimiser} {δ : ℝ} (hopt : FindsMinimum δ opt)
    (f : ℕ → V3) {x' : ℝ} (h1 : a' ≤ x') (h2 : x' ≤ b') :
    ∃ (k : ℕ) (p : V3) (c : Closest), ref.nev[k]? = some p ∧ closestPoint opt off f p = some c ∧
      ∀ x, a ≤ x → x ≤ b → c.dist ≤ V3.norm (γ x - γ' x') + h / 2 + h' / 2 + δ
        + (e + (κ * h + getRf D * ε) * (b - a)) + (e' + (κ' * h' + getRf D' * ε') * (b' - a')) := by
  have near : ∀ {γ τ : ℝ → V3} {κ a b h ε D : ℝ} {st : List Station} {sx sn : V3} {u : LenUnit}
      {sv : SurveyG} {xyz : List V3} {e : ℝ}, MeasuredWell γ τ κ a b h ε D st →
      surveyG st sx sn u = .ok (sv, xyz) → V3.norm (sn - γ a) ≤ e → ∀ x, a ≤ x → x ≤ b →
      ∃ (k : ℕ) (p : V3), sv.nev[k]? = some p ∧
        V3.norm (p - γ x) ≤ h / 2 + (e + (κ * h + getRf D * ε) * (b - a)) := by
    intro γ τ κ a b h ε D st sx sn u sv xyz e w hs he x hx hx'
    obtain ⟨hst, hxyz, hnev, hlen⟩ := surveyG_st hs
    have hh : 0 ≤ h := by
      have := List.isChain_iff_getElem.mp w.spaced 0 (by omega)
      linarith [this.1, this.2.1]
    have hε : 0 ≤ ε := (V3.norm_nonneg _).trans (w.measured st[0] (List.getElem_mem (by omega)))
    obtain ⟨s0, h0, e0⟩ := w.top
    obtain ⟨sl, hl, el⟩ := w.bottom
    obtain ⟨k, s, hk, hd⟩ := near_station hh st s0 sl (w.spaced.imp fun _ _ h => ⟨h.1, h.2.1⟩) h0 hl x
      (by rw [e0]; exact hx) (by rw [el]; exact hx')
    have hkl : k < sv.nev.length := by
      rw [hnev, hxyz, List.length_map, positions_length]; exact (List.getElem?_eq_some_iff.mp hk).1
    refine ⟨k, sv.nev[k], List.getElem?_eq_getElem hkl, ?_⟩
    have h1 := C317_station w hs he hk (List.getElem?_eq_getElem hkl)
    have hr := MeasuredWell.in_range w s (List.mem_of_getElem? hk)
    have h2 : V3.norm (γ s.md - γ x) ≤ h / 2 := by
      rcases le_total x s.md with hxs | hxs
      · exact (trueWell_dist w.well hx hxs hr.2).trans (by rw [abs_sub_comm] at hd; exact (le_abs_self _).trans hd)
      · rw [← norm_neg, neg_sub]
        exact (trueWell_dist w.well hr.1 hxs hx').trans ((le_abs_self _).trans hd)
    have h3 : (κ * h + getRf D * ε) * (s.md - a) ≤ (κ * h + getRf D * ε) * (b - a) := by
      refine mul_le_mul_of_nonneg_left (by linarith) (add_nonneg (mul_nonneg w.bent hh) (mul_nonneg ?_ hε))
      linarith [rf_ge_one w.turn_nonneg w.turn_lt]
    have h4 := V3.norm_add_le (sv.nev[k] - γ s.md) (γ s.md - γ x)
    rw [sub_add_sub_cancel] at h4
    linarith
  obtain ⟨k, p, hk, hp⟩ := near w' hs' he' x' h1 h2
  have hpi : ∀ (i : ℕ) a b, st[i]? = some a → st[i + 1]? = some b → dogleg2 a b < π := by
    intro i p q hp hq
    obtain ⟨i1, rfl⟩ := List.getElem?_eq_some_iff.mp hp
    obtain ⟨i2, rfl⟩ := List.getElem?_eq_some_iff.mp hq
    exact (List.isChain_iff_getElem.mp w.spaced i i2).2.2.trans_lt w.turn_lt
  obtain ⟨c, hc, -, -, -, hle, -⟩ := C157_closest_point hs (MeasuredWell.sorted w) hpi hopt f p
  refine ⟨k, p, c, hk, hc, fun x hx hx' => ?_⟩
  obtain ⟨j, q, hj, hq⟩ := near w hs he x hx hx'
  have h3 := hle q (List.mem_of_getElem? hj)
  have h4 := V3.norm_add_le (q - γ x) (γ x - γ' x' + (γ' x' - p))
  have h5 := V3.norm_add_le (γ x - γ' x') (γ' x' - p)
  rw [sub_add_sub_cancel, sub_add_sub_cancel] at h4
  rw [sub_add_sub_cancel] at h5
  have h6 : V3.norm (γ' x' - p) = V3.norm (p - γ' x') := by rw [← norm_neg, neg_sub]
  linarith

/-- Non-vacuity: a build from vertical with a radius of 1000, surveyed at the top and 30 further on, the
second inclination too large by 1/1000. -/
example : MeasuredWell (fun s => ⟨1000 * (1 - cos (s / 1000)), 0, 1000 * sin (s / 1000)⟩)
    (fun s => tangent (s / 1000) 0) (1 / 1000) 0 30 30 (1 / 1000) 1 [⟨0, 0, 0⟩, ⟨30, 31 / 1000, 0⟩] := by
  have hpi := pi_gt_three
  refine ⟨⟨fun s _ _ => ⟨?_, ?_, ?_⟩, fun s _ _ => tangent_unit .., fun s s' _ h1 _ => ?_⟩, by norm_num,
    ⟨_, rfl, rfl⟩, ⟨_, rfl, rfl⟩, ?_, ?_, ?_, by norm_num, by linarith⟩
  · have := ((hasDerivAt_cos (s / 1000)).comp s ((hasDerivAt_id s).div_const 1000)).const_sub 1
    refine (this.const_mul 1000).congr_deriv ?_
    simp [tangent]
    ring
  · refine (hasDerivAt_const s (0 : ℝ)).congr_deriv ?_
    simp [tangent]
  · have := (hasDerivAt_sin (s / 1000)).comp s ((hasDerivAt_id s).div_const 1000)
    refine (this.const_mul 1000).congr_deriv ?_
    simp [tangent]
    ring
  · refine (tangent_close _ _ _ _).trans ?_
    rw [sub_self, abs_zero, add_zero, ← sub_div, abs_of_nonneg (by linarith)]
    linarith
  · intro r hr
    simp only [List.mem_cons, List.not_mem_nil, or_false] at hr
    rcases hr with rfl | rfl <;> refine (tangent_close _ _ _ _).trans ?_ <;> norm_num
  · refine .cons_cons ⟨by norm_num, by norm_num, ?_⟩ (.singleton _)
    rw [dogleg2_same_azi (by norm_num) (by norm_num; linarith)]
    norm_num
  · have := sin_gt_sub_cube (x := 1 / 2) (by norm_num)
    norm_num at this ⊢
    linarith

end Welleng.Props
