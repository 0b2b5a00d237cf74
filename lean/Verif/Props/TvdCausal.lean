import Verif.Props.InterpTvd
import Verif.Props.Refine
import Verif.Props.InterpolateCausal

/-! C399: a vertical depth of a well that is drilled on (`/repo/welleng/survey.py` 1949-2066). -/

namespace Welleng.Props

open Real Welleng Tvd

theorem interval_drilled_on {l l' : List ℝ} (hp : l <+: l') (hs : l'.Pairwise (· < ·))
    {lo hi tvd : ℝ} (hlo : l.head? = some lo) (hhi : l.getLast? = some hi) (h0 : lo ≤ tvd)
    (h1 : tvd < hi) :
    ∃ i, interval l tvd = (i, 1) ∧ interval l' tvd = (i, 1) ∧ i + 1 < l.length := by
  rw [List.head?_eq_getElem?] at hlo
  obtain ⟨i, z1, z2, e, g1, g2, b1, b2⟩ := interval_bracket_any hlo hhi h0 h1
  have g1' := prefix_getElem?_some hp g1
  have g2' := prefix_getElem?_some hp g2
  have hk := searchsortedRight_eq hs g1' g2' b1 b2
  have hl := (List.getElem?_eq_some_iff.1 g2').1
  refine ⟨i, e, ?_, (List.getElem?_eq_some_iff.1 g2).1⟩
  unfold interval
  simp only [hk]
  rw [if_neg (by omega), if_neg (by omega), Nat.add_sub_cancel]

variable {st more : List Station} {sx sn : V3} {u : LenUnit} {sv sv' : SurveyG} {xyz xyz' : List V3}

/-- **C399** In a well whose stations get deeper and deeper, drilling on does not change what is
found at a vertical depth above the end: the node, or the failure, is the same. -/
theorem C399_drilled_on (h : surveyG st sx sn u = .ok (sv, xyz))
    (h' : surveyG (st ++ more) sx sn u = .ok (sv', xyz'))
    (hdeep : (sv'.nev.map V3.z).Pairwise (· < ·)) (f : ℕ → V3) {tvd : ℝ} {top bottom : V3}
    (ht : sv.nev.head? = some top) (hb : sv.nev.getLast? = some bottom)
    (h0 : top.z ≤ tvd) (h1 : tvd < bottom.z) :
    interpolateTvd sv' f tvd = interpolateTvd sv f tvd := by
  obtain ⟨hs, hn⟩ := surveyG_drilled_on h h'
  obtain ⟨i, e, e', hl⟩ := interval_drilled_on (hn.map V3.z) hdeep (lo := top.z) (hi := bottom.z)
    (by rw [List.head?_map, ht]; rfl) (by rw [List.getLast?_map, hb]; rfl) h0 h1
  rw [List.length_map] at hl
  obtain ⟨a1, a2, a3, -⟩ := surveyG_st h
  have hlen : sv.nev.length = sv.st.length := by
    rw [a3, List.length_map, a2, positions_length, a1]
  have c1 : sv.st[i]? = some (sv.st[i]'(by omega)) := List.getElem?_eq_getElem _
  have c2 : sv.st[i + 1]? = some (sv.st[i + 1]'(by omega)) := List.getElem?_eq_getElem _
  have c3 : sv.nev[i]? = some (sv.nev[i]'(by omega)) := List.getElem?_eq_getElem _
  have c4 : sv.nev[i + 1]? = some (sv.nev[i + 1]'(by omega)) := List.getElem?_eq_getElem _
  unfold interpolateTvd
  simp only [e, e', c1, c2, c3, c4, prefix_getElem?_some hs c1, prefix_getElem?_some hs c2,
    prefix_getElem?_some hn c3, prefix_getElem?_some hn c4]
  split
  · rfl
  · rename_i x hx
    obtain ⟨node, hnode, -⟩ := interpolateSurvey_some (sv := sv) (f i) x c1 c2 c3
    rw [hnode, interpolateSurvey_drilled_on hs hn (.inl ⟨surveyG_cov h, surveyG_cov h'⟩) _ _ _
      hnode]

/-- Non-vacuity: a vertical well of 100 drilled on to 200, read at the vertical depth 40. -/
example : ∃ sv sv' xyz xyz' top bottom,
    surveyG [⟨0, 0, 0⟩, ⟨100, 0, 0⟩] 0 0 .meters = .ok (sv, xyz) ∧
    surveyG ([⟨0, 0, 0⟩, ⟨100, 0, 0⟩] ++ [⟨200, 0, 0⟩]) 0 0 .meters = .ok (sv', xyz') ∧
    (sv'.nev.map V3.z).Pairwise (· < ·) ∧ sv.nev.head? = some top ∧
    sv.nev.getLast? = some bottom ∧ top.z ≤ 40 ∧ 40 < bottom.z := by
  have step : ∀ a b : ℝ, deltaXyz ⟨a, 0, 0⟩ ⟨b, 0, 0⟩ = ⟨0, 0, b - a⟩ := by
    intro a b
    rw [deltaXyz_eq, minCurveStep_same rfl]
    ext <;> simp [swap, Spec.tangent]
  refine ⟨_, _, _, _, 0, ⟨0, 0, 100⟩, rfl, rfl, ?_, ?_, ?_, ?_, ?_⟩
  all_goals simp [cumsumFrom, pairwise, step, getNev]
  · norm_num
  · rfl
  · norm_num

end Welleng.Props
