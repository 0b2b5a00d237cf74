import Verif.Lemmas.MinCurveList
import Verif.Lemmas.Searchsorted
import Mathlib.Data.List.TakeWhile
import Mathlib.Analysis.Real.Pi.Bounds

/-!
Property C18: `Survey.interpolate_md` (`/repo/welleng/survey.py` 1084-1132, 1781-1919).

Only strictly increasing depths are considered: `np.searchsorted` needs a sorted array.
-/

namespace Welleng.Props

open Real Welleng Spec

variable {st : List Station} {sx sn : V3} {u : LenUnit} {sv : SurveyG} {xyz : List V3}

theorem surveyG_st (h : surveyG st sx sn u = .ok (sv, xyz)) :
    sv.st = st ∧ xyz = positions sx st ∧ sv.nev = xyz.map (getNev · sx sn) ∧ 2 ≤ st.length := by
  unfold surveyG at h
  split at h
  · rename_i out ho
    injection h with h
    injection h with h1 h2
    subst h1; subst h2
    obtain ⟨a, b, t, rfl⟩ := minCurve_ok_length ho
    exact ⟨rfl, minCurve_poss ho, rfl, by simp⟩
  · cases h

/-- Consecutive positions of a survey differ by the minimum-curvature step. -/
theorem positions_step (p : V3) (s : List Station) {i : ℕ} {s1 s2 : Station} {p1 : V3}
    (h1 : s[i]? = some s1) (h2 : s[i + 1]? = some s2) (hp : (positions p s)[i]? = some p1) :
    (positions p s)[i + 1]? = some (p1 + deltaXyz s1 s2) := by
  induction s generalizing p i with
  | nil => simp at h1
  | cons a t ih =>
    cases t with
    | nil => simp at h2
    | cons b t =>
      rw [positions_cons2] at hp ⊢
      cases i with
      | zero =>
        simp only [List.getElem?_cons_zero, Option.some.injEq, List.getElem?_cons_succ,
          zero_add] at h1 h2 hp ⊢
        subst h1; subst h2; subst hp
        simp [positions]
      | succ i =>
        rw [List.getElem?_cons_succ] at h1 h2 hp ⊢
        exact ih (p + deltaXyz a b) h1 h2 hp

theorem interpolateSurvey_some {sv : SurveyG} {i : ℕ} {s1 s2 : Station} {p1 : V3} (f : V3) (x : ℝ)
    (e1 : sv.st[i]? = some s1) (e2 : sv.st[i + 1]? = some s2) (e3 : sv.nev[i]? = some p1) :
    ∃ node, interpolateSurvey sv f x i = some node ∧ node.md = s1.md + x ∧
      node.vec = tangent (interpAngles s1 s2 x).1 (interpAngles s1 s2 x).2 ∧
      node.pos = interpPosNev p1 s1 s2 x ∧
      node.interpolated = !(decide (x = 0) || decide (x = s2.md - s1.md)) := by
  unfold interpolateSurvey
  rw [e1, e2, e3]
  refine ⟨_, rfl, rfl, getVec_nev .., ?_, rfl⟩
  simp only [twoRowPos_eq, interpStation, interpPosNev, add_sub_cancel_left]

/-- C18: beyond the last station nothing is returned. -/
theorem C18_none_beyond_end (h : surveyG st sx sn u = .ok (sv, xyz)) (f : ℕ → V3) {md : ℝ}
    (hmd : ∀ s ∈ st, s.md < md) : interpolateMd sv f md = none := by
  obtain ⟨hst, -, -, hlen⟩ := surveyG_st h
  have hk : searchsortedLeft (sv.st.map Station.md) md = (sv.st.map Station.md).length := by
    unfold searchsortedLeft
    congr 1
    rw [List.takeWhile_eq_self_iff, hst]
    simpa using hmd
  unfold interpolateMd
  simp only [hk]
  rw [hst, List.length_map]
  obtain ⟨k, hk⟩ : ∃ k, st.length = k + 1 := ⟨st.length - 1, by omega⟩
  rw [hk]
  simp

/-- C18: between the first and the last station the interval used contains `md`, the node is at
`md`, its direction is the interpolated one and its position is that interval's start position
plus the minimum-curvature step to the interpolated direction. The datum rows `f` do not
matter. -/
theorem C18_bracket (h : surveyG st sx sn u = .ok (sv, xyz)) (f : ℕ → V3) {md : ℝ}
    {first last : Station} (hf : st.head? = some first) (hl : st.getLast? = some last)
    (h0 : first.md < md) (h1 : md ≤ last.md) :
    ∃ i s1 s2 p1 node, st[i]? = some s1 ∧ st[i + 1]? = some s2 ∧ sv.nev[i]? = some p1 ∧
      s1.md < md ∧ md ≤ s2.md ∧ interpolateMd sv f md = some node ∧
      node.md = md ∧
      node.vec = tangent (interpAngles s1 s2 (md - s1.md)).1 (interpAngles s1 s2 (md - s1.md)).2 ∧
      node.pos = interpPosNev p1 s1 s2 (md - s1.md) ∧
      (node.interpolated = true ↔ md ≠ s2.md) := by
  obtain ⟨hst, hxyz, hnev, hlen⟩ := surveyG_st h
  set mds := st.map Station.md with hmds
  obtain ⟨hb, ha⟩ := searchsortedLeft_spec mds md
  have hle := searchsortedLeft_le mds md
  have hml : mds.length = st.length := by simp [hmds]
  -- the insertion point is not the end ...
  have hlt : searchsortedLeft mds md < mds.length := by
    rcases Nat.lt_or_ge (searchsortedLeft mds md) mds.length with h' | h'
    · exact h'
    · exfalso
      have hl' : mds[mds.length - 1]? = some last.md := by
        rw [List.getLast?_eq_getElem?] at hl
        rw [hmds, List.getElem?_map, List.length_map, hl]; rfl
      have := hb (mds.length - 1) last.md (by omega) hl'
      linarith
  -- ... nor the beginning
  have hne : searchsortedLeft mds md ≠ 0 := by
    intro h'
    have hf' : mds[searchsortedLeft mds md]? = some first.md := by
      rw [h', hmds, List.getElem?_map, ← List.head?_eq_getElem?, hf]; rfl
    have := ha first.md hf'
    linarith
  obtain ⟨i, hi⟩ := Nat.exists_eq_succ_of_ne_zero hne
  have hi1 : i + 1 < st.length := by omega
  have e1 : st[i]? = some st[i] := List.getElem?_eq_getElem (by omega)
  have e2 : st[i + 1]? = some st[i + 1] := List.getElem?_eq_getElem hi1
  have em1 : mds[i]? = some st[i].md := by rw [hmds, List.getElem?_map, e1]; rfl
  have em2 : mds[i + 1]? = some st[i + 1].md := by rw [hmds, List.getElem?_map, e2]; rfl
  have b1 := hb i _ (by omega) em1
  have b2 := ha _ (by rw [hi]; exact em2)
  have hnl : sv.nev.length = st.length := by rw [hnev, hxyz]; simp [positions_length]
  have e3 : sv.nev[i]? = some (sv.nev[i]'(by omega)) := List.getElem?_eq_getElem (by omega)
  obtain ⟨node, hn, n1, n2, n3, n4⟩ := interpolateSurvey_some (sv := sv) (f i) (md - st[i].md)
    (by rw [hst]; exact e1) (by rw [hst]; exact e2) e3
  refine ⟨i, _, _, _, node, e1, e2, e3, b1, b2, ?_, by rw [n1]; ring, n2, n3, ?_⟩
  · unfold interpolateMd
    rw [hst, ← hmds]
    simp only [hi]
    rw [if_neg (by omega), em1]
    exact hn
  · rw [n4]
    simp only [Bool.not_eq_true', Bool.or_eq_false_iff, decide_eq_false_iff_not, sub_left_inj]
    constructor
    · exact fun h => h.2
    · exact fun h => ⟨by linarith, h⟩

/-- C18: at or above the first station the first station is returned (clamped, never
extrapolated upwards). -/
theorem C18_clamp_above (h : surveyG st sx sn u = .ok (sv, xyz)) (f : ℕ → V3) {md : ℝ}
    {first second : Station} (hf : st[0]? = some first) (hs : st[1]? = some second)
    (hlt : first.md < second.md) (hpi : dogleg2 first second < π) (h0 : md ≤ first.md) :
    ∃ node, interpolateMd sv f md = some node ∧ node.md = first.md ∧
      node.vec = tangent first.inc first.azi ∧ sv.nev[0]? = some node.pos ∧
      node.interpolated = false := by
  obtain ⟨hst, hxyz, hnev, hlen⟩ := surveyG_st h
  have hk : searchsortedLeft (sv.st.map Station.md) md = 0 := by
    rw [hst]
    by_contra hne
    have := (searchsortedLeft_spec (st.map Station.md) md).1 0 first.md (by omega)
      (by rw [List.getElem?_map, hf]; rfl)
    linarith
  have hnl : sv.nev.length = st.length := by rw [hnev, hxyz]; simp [positions_length]
  have e3 : sv.nev[0]? = some (sv.nev[0]'(by omega)) := List.getElem?_eq_getElem (by omega)
  have ht : tangent (interpAngles first second 0).1 (interpAngles first second 0).2
      = tangent first.inc first.azi := by
    by_cases hd : dogleg2 first second = 0
    · unfold interpAngles; rw [if_pos hd]
    · obtain ⟨γ, τ, ν, -, -, t0, -, ts⟩ := interp_on_arc hlt hd hpi
      rw [← ts 0, t0]
  obtain ⟨node, hn, n1, n2, n3, n4⟩ := interpolateSurvey_some (sv := sv) (f 0) 0
    (hst ▸ hf) (hst ▸ hs) e3
  refine ⟨node, ?_, by rw [n1]; ring, by rw [n2, ht], ?_, by rw [n4]; simp⟩
  · unfold interpolateMd
    simp only [hk]
    exact hn
  · rw [e3, n3, interpPosNev, minCurveStep_same ht.symm]
    simp

/-- C18: at a station's own depth the station itself is returned: its depth, direction and
position, not flagged as interpolated. -/
theorem C18_reproduces_stations (h : surveyG st sx sn u = .ok (sv, xyz)) (f : ℕ → V3)
    (hsort : st.Pairwise (fun a b => a.md < b.md))
    (hpi : ∀ i a b, st[i]? = some a → st[i + 1]? = some b → dogleg2 a b < π)
    {i : ℕ} {s : Station} (hi : st[i]? = some s) :
    ∃ node, interpolateMd sv f s.md = some node ∧ node.md = s.md ∧
      node.vec = tangent s.inc s.azi ∧ sv.nev[i]? = some node.pos ∧
      node.interpolated = false := by
  obtain ⟨hst, hxyz, hnev, hlen⟩ := surveyG_st h
  have hsort' := List.pairwise_iff_getElem.mp hsort
  obtain ⟨hil, hie⟩ := List.getElem?_eq_some_iff.mp hi
  cases i with
  | zero =>
    have e2 : st[1]? = some st[1] := List.getElem?_eq_getElem (by omega)
    have hlt := hsort' 0 1 (by omega) (by omega) (by omega)
    rw [hie] at hlt
    exact C18_clamp_above h f hi e2 hlt (hpi 0 _ _ hi e2) le_rfl
  | succ i =>
    have hl : st.getLast? = some st[st.length - 1] := by
      rw [List.getLast?_eq_getElem?]; exact List.getElem?_eq_getElem (by omega)
    have hf : st.head? = some st[0] := by
      rw [List.head?_eq_getElem?]; exact List.getElem?_eq_getElem (by omega)
    have h0 : st[0].md < s.md := by
      have := hsort' 0 (i + 1) (by omega) hil (by omega); rwa [hie] at this
    have h1 : s.md ≤ st[st.length - 1].md := by
      rcases Nat.lt_or_ge (i + 1) (st.length - 1) with h' | h'
      · have := hsort' (i + 1) (st.length - 1) hil (by omega) h'
        rw [hie] at this; exact this.le
      · have e : st.length - 1 = i + 1 := by omega
        simp only [e, hie, le_refl]
    obtain ⟨j, s1, s2, p1, node, e1, e2, e3, b1, b2, hn, hmd, hv, hp, hint⟩ :=
      C18_bracket h f hf hl h0 h1
    -- the bracket ends at the station itself
    have hji : j = i := by
      obtain ⟨hj1, hj1e⟩ := List.getElem?_eq_some_iff.mp e1
      obtain ⟨hj2, hj2e⟩ := List.getElem?_eq_some_iff.mp e2
      have hge : ¬ j ≥ i + 1 := by
        intro hge
        rcases Nat.lt_or_ge (i + 1) j with h' | h'
        · have := hsort' _ _ hil hj1 h'
          rw [hie, hj1e] at this; linarith
        · have : j = i + 1 := by omega
          subst this
          rw [hie] at hj1e; rw [hj1e] at b1; exact lt_irrefl _ b1
      have hle : ¬ j < i := by
        intro hlt
        have := hsort' _ _ hj2 hil (by omega)
        rw [hie, hj2e] at this; linarith
      omega
    subst hji
    have hs2 : s2 = s := by rw [hi] at e2; injection e2 with e2; exact e2.symm
    subst hs2
    have hlt : s1.md < s2.md := b1
    have hd := hpi j s1 s2 e1 hi
    have ht : tangent (interpAngles s1 s2 (s2.md - s1.md)).1 (interpAngles s1 s2 (s2.md - s1.md)).2
        = tangent s2.inc s2.azi := by
      by_cases hd0 : dogleg2 s1 s2 = 0
      · unfold interpAngles; rw [if_pos hd0]; exact tangent_eq_of_dogleg_zero hd0
      · obtain ⟨γ, τ, ν, -, -, -, tL, ts⟩ := interp_on_arc hlt hd0 hd
        rw [← ts, tL]
    refine ⟨node, hn, hmd, by rw [hv, ht], ?_, ?_⟩
    · -- position
      have hx1 : (positions sx st)[j]? = some ((positions sx st)[j]'(by
        rw [positions_length]; omega)) := List.getElem?_eq_getElem _
      have hstep := positions_step sx st e1 hi hx1
      rw [hnev, List.getElem?_map, hxyz, hstep]
      rw [hnev, List.getElem?_map, hxyz, hx1] at e3
      simp only [Option.map_some, Option.some.injEq] at e3 ⊢
      have hsp := interp_split hlt hd (x := s2.md - s1.md) (by linarith) le_rfl
      rw [sub_self, minCurveStep_same ht] at hsp
      rw [hp, interpPosNev, ← e3]
      have hz : (0 : ℝ) • tangent (interpAngles s1 s2 (s2.md - s1.md)).1
          (interpAngles s1 s2 (s2.md - s1.md)).2 = 0 := zero_smul _ _
      rw [hz, add_zero] at hsp
      rw [hsp, deltaXyz_eq]
      ext <;> simp [getNev, swap] <;> ring
    · by_contra hne
      exact (hint.mp (by simpa using hne)) rfl

/-- Non-vacuity: a three-station survey meets all hypotheses above. -/
example : ∃ sv xyz, surveyG [⟨0, 0, 0⟩, ⟨30, 0, 0⟩, ⟨60, 0, 0⟩] 0 0 .meters = .ok (sv, xyz) :=
  ⟨_, _, rfl⟩

example : ([⟨0, 0, 0⟩, ⟨30, 0, 0⟩, ⟨60, 0, 0⟩] : List Station).Pairwise
    (fun a b => a.md < b.md) := by norm_num

example : dogleg2 ⟨0, 0, 0⟩ ⟨30, 1 / 2, 0⟩ < π := by
  unfold dogleg2
  rw [getDogleg_eq_arccos]
  simp only [V3.dot, tangent]
  rw [arccos_lt_pi]
  simp
  have := cos_pos_of_mem_Ioo (x := (2 : ℝ)⁻¹) ⟨by linarith [pi_gt_three], by linarith [pi_gt_three]⟩
  linarith

end Welleng.Props
