import Verif.Props.Trajectory
import Verif.Props.Interpolate

/-! C398: interpolating a well that is drilled on (`/repo/welleng/survey.py` 1084-1132,
1809-1919). -/

namespace Welleng.Props

open Real Welleng

theorem prefix_getElem?_some {α : Type} {a b : List α} (h : a <+: b) {i : ℕ} {x : α}
    (hx : a[i]? = some x) : b[i]? = some x := by
  obtain ⟨t, rfl⟩ := h
  rw [List.getElem?_append_left (List.getElem?_eq_some_iff.1 hx).1, hx]

theorem takeWhile_append_short {α : Type} (p : α → Bool) (a b : List α)
    (h : (a.takeWhile p).length < a.length) : (a ++ b).takeWhile p = a.takeWhile p := by
  induction a with
  | nil => simp at h
  | cons x a ih =>
    rw [List.cons_append, List.takeWhile_cons, List.takeWhile_cons]
    split
    · rename_i hx
      rw [List.takeWhile_cons, if_pos hx, List.length_cons, List.length_cons] at h
      rw [ih (by omega)]
    · rfl

/-- The covariances of the longer survey begin with those of the shorter one, or neither survey
has any. -/
def CovsBegin (sv sv' : SurveyG) : Prop :=
  (sv.cov = none ∧ sv'.cov = none) ∨
    ∃ c c', sv.cov = some c ∧ sv'.cov = some c' ∧ c <+: c' ∧ c.length = sv.st.length

theorem interpolateSurvey_drilled_on {sv sv' : SurveyG} (hs : sv.st <+: sv'.st)
    (hn : sv.nev <+: sv'.nev) (hc : CovsBegin sv sv') (f : V3) (x : ℝ) (i : ℕ) {node : NodeOut}
    (h : interpolateSurvey sv f x i = some node) : interpolateSurvey sv' f x i = some node := by
  unfold interpolateSurvey at h
  split at h
  · rename_i s1 s2 p1 e1 e2 e3
    unfold interpolateSurvey
    rw [prefix_getElem?_some hs e1, prefix_getElem?_some hs e2, prefix_getElem?_some hn e3]
    rw [← h]
    rcases hc with ⟨c1, c2⟩ | ⟨c, c', c1, c2, hp, hl⟩
    · simp only [c1, c2]
    · have l2 : i + 1 < c.length := by
        rw [hl]; exact (List.getElem?_eq_some_iff.1 e2).1
      have g1 : c[i]? = some (c[i]'(by omega)) := List.getElem?_eq_getElem _
      have g2 : c[i + 1]? = some (c[i + 1]'l2) := List.getElem?_eq_getElem _
      simp only [c1, c2, g1, g2, prefix_getElem?_some hp g1, prefix_getElem?_some hp g2]
  · cases h

theorem interpolateMd_drilled_on {sv sv' : SurveyG} (hs : sv.st <+: sv'.st)
    (hn : sv.nev <+: sv'.nev) (hc : CovsBegin sv sv') (f : ℕ → V3) (md : ℝ) {node : NodeOut}
    (h : interpolateMd sv f md = some node) : interpolateMd sv' f md = some node := by
  have key : searchsortedLeft (sv.st.map Station.md) md < (sv.st.map Station.md).length →
      searchsortedLeft (sv'.st.map Station.md) md = searchsortedLeft (sv.st.map Station.md) md := by
    intro hl
    obtain ⟨t, ht⟩ := hs
    unfold searchsortedLeft at hl ⊢
    rw [← ht, List.map_append, takeWhile_append_short _ _ _ hl]
  have hlen : (sv.st.map Station.md).length ≤ (sv'.st.map Station.md).length := by
    simpa using hs.length_le
  unfold interpolateMd at h ⊢
  dsimp only at h ⊢
  split at h
  · rename_i e
    have hne : 0 < (sv.st.map Station.md).length := by
      by_contra h0
      have : sv.st = [] := by simpa using h0
      simp [interpolateSurvey, this] at h
    rw [key (by omega), e]
    exact interpolateSurvey_drilled_on hs hn hc _ _ _ h
  · rename_i idx e
    split at h
    · cases h
    · rename_i hlt
      rw [key (by omega), e]
      dsimp only
      rw [if_neg (by omega)]
      split at h
      · rename_i m em
        have hp : sv.st.map Station.md <+: sv'.st.map Station.md := hs.map _
        rw [prefix_getElem?_some hp em]
        exact interpolateSurvey_drilled_on hs hn hc _ _ _ h
      · cases h

variable {st more : List Station} {sx sn : V3} {u : LenUnit} {sv sv' : SurveyG} {xyz xyz' : List V3}

theorem surveyG_drilled_on (h : surveyG st sx sn u = .ok (sv, xyz))
    (h' : surveyG (st ++ more) sx sn u = .ok (sv', xyz')) :
    sv.st <+: sv'.st ∧ sv.nev <+: sv'.nev := by
  obtain ⟨a1, a2, a3, -⟩ := surveyG_st h
  obtain ⟨b1, b2, b3, -⟩ := surveyG_st h'
  refine ⟨by rw [a1, b1]; exact List.prefix_append _ _, ?_⟩
  rw [a3, b3, a2, b2]
  exact (positions_append sx st more).map _

theorem surveyG_cov (h : surveyG st sx sn u = .ok (sv, xyz)) : sv.cov = none := by
  unfold surveyG at h
  split at h
  · injection h with h
    injection h with h1 h2
    rw [← h1]
  · cases h

/-- **C398** Drilling on does not change what is interpolated above: whatever node a survey gives
at a depth, a continuation of that survey gives the same node (depth, direction, position and
flag) there. -/
theorem C398_drilled_on (h : surveyG st sx sn u = .ok (sv, xyz))
    (h' : surveyG (st ++ more) sx sn u = .ok (sv', xyz')) (f : ℕ → V3) (md : ℝ) (node : NodeOut)
    (hn : interpolateMd sv f md = some node) : interpolateMd sv' f md = some node :=
  interpolateMd_drilled_on (surveyG_drilled_on h h').1 (surveyG_drilled_on h h').2
    (.inl ⟨surveyG_cov h, surveyG_cov h'⟩) f md hn

/-- **C398** For every depth below the first station and down to the last one of the shorter
survey both surveys give a node, and it is the same one. -/
theorem C398_every_depth (h : surveyG st sx sn u = .ok (sv, xyz))
    (h' : surveyG (st ++ more) sx sn u = .ok (sv', xyz')) (f : ℕ → V3) {md : ℝ}
    {first last : Station} (hf : st.head? = some first) (hl : st.getLast? = some last)
    (h0 : first.md < md) (h1 : md ≤ last.md) :
    ∃ node, interpolateMd sv f md = some node ∧ interpolateMd sv' f md = some node ∧
      node.md = md := by
  obtain ⟨_, _, _, _, node, _, _, _, _, _, hn, hm, _⟩ := C18_bracket h f hf hl h0 h1
  exact ⟨node, hn, C398_drilled_on h h' f md node hn, hm⟩

/-- **C398** The same holds with the uncertainty: when the covariances of the longer survey begin
with those of the shorter one, the interpolated covariance is also unchanged. -/
theorem C398_covariance (h : surveyG st sx sn u = .ok (sv, xyz))
    (h' : surveyG (st ++ more) sx sn u = .ok (sv', xyz')) (cs cs' : List M3)
    (hc : cs.length = st.length) (f : ℕ → V3) (md : ℝ) (node : NodeOut)
    (hn : interpolateMd { sv with cov := some cs } f md = some node) :
    interpolateMd { sv' with cov := some (cs ++ cs') } f md = some node := by
  refine interpolateMd_drilled_on (sv := { sv with cov := some cs })
    (sv' := { sv' with cov := some (cs ++ cs') }) (surveyG_drilled_on h h').1 (surveyG_drilled_on h h').2
    (.inr ⟨cs, cs ++ cs', rfl, rfl, List.prefix_append _ _, ?_⟩) f md hn
  rw [hc]; exact congrArg List.length (surveyG_st h).1.symm

/-- Non-vacuity: a two-station well drilled on by a third station, read between its stations. -/
example : ∃ sv sv' xyz xyz', surveyG [⟨0, 0, 0⟩, ⟨100, 0, 0⟩] 0 0 .meters = .ok (sv, xyz) ∧
    surveyG ([⟨0, 0, 0⟩, ⟨100, 0, 0⟩] ++ [⟨200, 1, 2⟩]) 0 0 .meters = .ok (sv', xyz') ∧
    ∃ node, interpolateMd sv (fun _ => 0) 40 = some node ∧
      interpolateMd sv' (fun _ => 0) 40 = some node ∧ node.md = 40 := by
  refine ⟨_, _, _, _, rfl, rfl, ?_⟩
  exact C398_every_depth (st := [⟨0, 0, 0⟩, ⟨100, 0, 0⟩]) (more := [⟨200, 1, 2⟩]) (sx := 0)
    (sn := 0) (u := .meters) rfl rfl _ rfl rfl (by norm_num) (by norm_num)

end Welleng.Props
