import Verif.Props.ClosestPoint
import Verif.Props.InterpolateCausal

/-! C404: the closest point of an offset well that is drilled on (`/repo/welleng/clearance.py`
349-353, 612-660). -/

namespace Welleng.Props

open Real Welleng Clr

theorem findIdx_congr_mem {α : Type} {p q : α → Bool} : ∀ {l : List α}, (∀ x ∈ l, p x = q x) →
    l.findIdx p = l.findIdx q
  | [], _ => rfl
  | a :: t, h => by
    rw [List.findIdx_cons, List.findIdx_cons, h a (by simp),
      findIdx_congr_mem fun x hx => h x (by simp [hx])]

/-- The place of the smallest entry does not change when entries that are not smaller follow. -/
theorem argmin_append_far {l m : List ℝ} (hl : l ≠ []) (h : ∀ y ∈ m, ∃ x ∈ l, x ≤ y) :
    argmin (l ++ m) = argmin l := by
  obtain ⟨v, hv, -⟩ := argmin_spec hl
  have hlt : argmin l < l.length := (List.getElem?_eq_some_iff.1 hv).1
  unfold argmin at hlt ⊢
  have hc : l.findIdx (fun x => decide (∀ y ∈ l ++ m, x ≤ y))
      = l.findIdx (fun x => decide (∀ y ∈ l, x ≤ y)) := by
    refine findIdx_congr_mem fun x hx => ?_
    rw [decide_eq_decide]
    refine ⟨fun hx y hy => hx y (List.mem_append_left _ hy), fun hx y hy => ?_⟩
    rcases List.mem_append.1 hy with hy | hy
    · exact hx y hy
    · obtain ⟨z, hz, hzy⟩ := h y hy
      exact (hx z hz).trans hzy
  rw [List.findIdx_append, hc, if_pos hlt]

variable {st more : List Station} {sx sn : V3} {u : LenUnit} {off off' : SurveyG}
  {xyz xyz' : List V3}

theorem searchInterval_drilled_on (hs : off.st <+: off'.st) (hn : off.nev <+: off'.nev)
    (hc : off.cov = none) (hc' : off'.cov = none) (opt : Minimiser) (f : ℕ → V3) (p : V3) (j : ℕ)
    {c : Closest} (h : searchInterval opt off f p j = some c) :
    searchInterval opt off' f p j = some c := by
  unfold searchInterval at h
  split at h
  · rename_i s1 s2 p1 e1 e2 e3
    dsimp only at h
    split at h
    · cases h
    · rename_i node hnode
      unfold searchInterval
      rw [prefix_getElem?_some hs e1, prefix_getElem?_some hs e2, prefix_getElem?_some hn e3]
      dsimp only
      rw [interpolateSurvey_drilled_on hs hn (.inl ⟨hc, hc'⟩) _ _ _ hnode, ← h]
      simp only [hc, hc']
  · cases h

theorem searchInterval_exists (h : surveyG st sx sn u = .ok (off, xyz)) (opt : Minimiser)
    (f : ℕ → V3) (p : V3) {j : ℕ} (hj : j + 1 < off.nev.length) :
    ∃ c, searchInterval opt off f p j = some c := by
  obtain ⟨a1, a2, a3, -⟩ := surveyG_st h
  have hlen : off.nev.length = off.st.length := by
    rw [a3, List.length_map, a2, positions_length, a1]
  unfold searchInterval
  have g1 : off.st[j]? = some (off.st[j]'(by omega)) := List.getElem?_eq_getElem _
  have g2 : off.st[j + 1]? = some (off.st[j + 1]'(by omega)) := List.getElem?_eq_getElem _
  have g3 : off.nev[j]? = some (off.nev[j]'(by omega)) := List.getElem?_eq_getElem _
  rw [g1, g2, g3]
  dsimp only
  obtain ⟨node, hnode, -⟩ := interpolateSurvey_some (f j)
    (opt (objective p off.nev[j] off.st[j] off.st[j + 1]) (off.st[j + 1].md - off.st[j].md))
    g1 g2 g3
  rw [hnode]
  exact ⟨_, rfl⟩

/-- A closest point is always found: a survey has at least two stations. -/
theorem closestPoint_exists (h : surveyG st sx sn u = .ok (off, xyz)) (opt : Minimiser)
    (f : ℕ → V3) (p : V3) : ∃ c, closestPoint opt off f p = some c := by
  obtain ⟨a1, a2, a3, a4⟩ := surveyG_st h
  have hlen : off.nev.length = st.length := by rw [a3, List.length_map, a2, positions_length]
  unfold closestPoint
  dsimp only
  rcases Nat.lt_or_ge (nearest off p) (off.nev.length - 1) with hi | hi
  · obtain ⟨b, hb⟩ := searchInterval_exists h opt f p (j := nearest off p) (by omega)
    rw [if_pos hi, hb]
    cases (if 0 < nearest off p then searchInterval opt off f p (nearest off p - 1) else none) with
    | none => exact ⟨b, rfl⟩
    | some a => dsimp only; split <;> exact ⟨_, rfl⟩
  · obtain ⟨v, hv, -⟩ := argmin_spec (l := off.nev.map fun q => V3.norm (q - p))
      (by intro e; rw [List.map_eq_nil_iff] at e; rw [e] at hlen; simp at hlen; omega)
    have hil := (List.getElem?_eq_some_iff.1 hv).1
    rw [List.length_map] at hil
    change nearest off p < _ at hil
    obtain ⟨a, ha⟩ := searchInterval_exists h opt f p (j := nearest off p - 1) (by omega)
    rw [if_pos (show 0 < nearest off p by omega), if_neg (by omega), ha]
    exact ⟨a, rfl⟩

/-- The new stations are not nearer to `p` than the nearest of the old ones. -/
def Farther (p : V3) (old new : List V3) : Prop :=
  ∀ q ∈ new, ∃ o ∈ old, V3.norm (o - p) ≤ V3.norm (q - p)

theorem nearest_drilled_on {new : List V3} (hne : off.nev ≠ []) (hn : off'.nev = off.nev ++ new)
    {p : V3} (hfar : Farther p off.nev new) : nearest off' p = nearest off p := by
  unfold nearest
  rw [hn, List.map_append]
  refine argmin_append_far (by simpa using hne) ?_
  intro y hy
  obtain ⟨q, hq, rfl⟩ := List.mem_map.1 hy
  obtain ⟨o, ho, hle⟩ := hfar q hq
  exact ⟨_, List.mem_map.2 ⟨o, ho, rfl⟩, hle⟩

/-- **C404** When an offset well is drilled on and the new stations are not nearer to a point than
its nearest station was, a closest point is still found and the distance reported does not grow;
if the nearest station was not the last one, the closest point is the same. -/
theorem C404_drilled_on (h : surveyG st sx sn u = .ok (off, xyz))
    (h' : surveyG (st ++ more) sx sn u = .ok (off', xyz')) (opt : Minimiser) (f : ℕ → V3) {p : V3}
    (hfar : Farther p off.nev (off'.nev.drop off.nev.length)) :
    ∃ c c', closestPoint opt off f p = some c ∧ closestPoint opt off' f p = some c' ∧
      c'.dist ≤ c.dist ∧ (nearest off p + 1 < off.nev.length → c' = c) := by
  obtain ⟨c, hc⟩ := closestPoint_exists h opt f p
  refine ⟨c, ?_⟩
  suffices H : ∃ c', closestPoint opt off' f p = some c' ∧ c'.dist ≤ c.dist ∧
      (nearest off p + 1 < off.nev.length → c' = c) by
    obtain ⟨c', e1, e2, e3⟩ := H
    exact ⟨c', hc, e1, e2, e3⟩
  obtain ⟨hs, hn⟩ := surveyG_drilled_on h h'
  obtain ⟨a1, a2, a3, a4⟩ := surveyG_st h
  have hlen : off.nev.length = off.st.length := by
    rw [a3, List.length_map, a2, positions_length, a1]
  have hne : off.nev ≠ [] := by
    rintro e; rw [e, a1] at hlen; simp at hlen; omega
  obtain ⟨new, hnew⟩ := hn
  rw [← hnew, List.drop_left] at hfar
  have hk := nearest_drilled_on hne hnew.symm hfar
  have hn : off.nev <+: off'.nev := ⟨new, hnew⟩
  have key : ∀ j c, searchInterval opt off f p j = some c →
      searchInterval opt off' f p j = some c := fun j c =>
    searchInterval_drilled_on hs hn (surveyG_cov h) (surveyG_cov h') opt f p j
  have hll : off.nev.length ≤ off'.nev.length := hn.length_le
  have ex := fun j => searchInterval_exists h opt f p (j := j)
  have hil : nearest off p < off.nev.length := by
    obtain ⟨v, hv, -⟩ := argmin_spec (l := off.nev.map fun q => V3.norm (q - p)) (by simpa using hne)
    have := (List.getElem?_eq_some_iff.1 hv).1
    simpa [nearest] using this
  have r1 : (if 0 < nearest off p then searchInterval opt off' f p (nearest off p - 1) else none)
      = if 0 < nearest off p then searchInterval opt off f p (nearest off p - 1) else none := by
    split
    · obtain ⟨c, hc⟩ := ex (nearest off p - 1) (by omega)
      rw [hc, key _ _ hc]
    · rfl
  unfold closestPoint at hc ⊢
  dsimp only at hc ⊢
  rw [hk, r1]
  rcases Nat.lt_or_ge (nearest off p + 1) off.nev.length with hi | hi
  · obtain ⟨b, hb⟩ := ex _ hi
    rw [if_pos (show nearest off p < off.nev.length - 1 by omega), hb] at hc
    rw [if_pos (show nearest off p < off'.nev.length - 1 by omega), key _ _ hb]
    exact ⟨c, hc, le_rfl, fun _ => rfl⟩
  · rw [if_neg (show ¬ nearest off p < off.nev.length - 1 by omega)] at hc
    generalize (if 0 < nearest off p then searchInterval opt off f p (nearest off p - 1)
      else none) = q1 at hc ⊢
    generalize (if nearest off p < off'.nev.length - 1 then searchInterval opt off' f p
      (nearest off p) else none) = q2
    cases q1 with
    | none => cases hc
    | some a =>
      simp only [Option.some.injEq] at hc
      subst hc
      cases q2 with
      | none => exact ⟨a, rfl, le_rfl, fun h => by omega⟩
      | some b =>
        dsimp only
        split
        · exact ⟨a, rfl, le_rfl, fun h => by omega⟩
        · rename_i hab
          exact ⟨b, rfl, not_lt.1 hab, fun h => by omega⟩

/-- Non-vacuity: a vertical offset well of 100 drilled on to 200, and a point 5 beside it at the
depth 20. -/
example : ∃ off off' xyz xyz',
    surveyG [⟨0, 0, 0⟩, ⟨100, 0, 0⟩] 0 0 .meters = .ok (off, xyz) ∧
    surveyG ([⟨0, 0, 0⟩, ⟨100, 0, 0⟩] ++ [⟨200, 0, 0⟩]) 0 0 .meters = .ok (off', xyz') ∧
    Farther ⟨5, 0, 20⟩ off.nev (off'.nev.drop off.nev.length) := by
  have step : ∀ a b : ℝ, deltaXyz ⟨a, 0, 0⟩ ⟨b, 0, 0⟩ = ⟨0, 0, b - a⟩ := by
    intro a b
    rw [deltaXyz_eq, minCurveStep_same rfl]
    ext <;> simp [swap, Spec.tangent]
  refine ⟨_, _, _, _, rfl, rfl, ?_⟩
  · intro q hq
    simp [cumsumFrom, pairwise, step, getNev] at hq ⊢
    subst hq
    left
    simp only [V3.norm, V3.dot]
    refine sqrt_le_sqrt ?_
    simp
    norm_num

end Welleng.Props
