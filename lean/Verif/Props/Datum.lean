import Verif.Props.Interpolate

/-!
C355: the depth datum of a survey.
-/

namespace Welleng.Props

open Real Welleng

/-- A station with its depth counted from another datum. -/
def lowered (δ : ℝ) (s : Station) : Station := { s with md := s.md + δ }

theorem pairwise_lowered {β : Type*} (δ : ℝ) (f : Station → Station → β)
    (hf : ∀ a b, f (lowered δ a) (lowered δ b) = f a b) (st : List Station) :
    pairwise f (st.map (lowered δ)) = pairwise f st := by
  induction st with
  | nil => rfl
  | cons a t ih =>
    cases t with
    | nil => rfl
    | cons b t =>
      simp only [List.map_cons, pairwise, hf] at ih ⊢
      rw [ih]

theorem searchsorted_lowered (δ : ℝ) (l : List ℝ) (v : ℝ) :
    searchsortedLeft (l.map (· + δ)) (v + δ) = searchsortedLeft l v := by
  unfold searchsortedLeft
  induction l with
  | nil => rfl
  | cons a t ih =>
    simp only [List.map_cons, List.takeWhile_cons, add_lt_add_iff_right]
    split_ifs <;> simp [ih]

theorem interpolateSurvey_lowered (δ : ℝ) (st : List Station) (nev : List V3) (cov : Option (List M3))
    (p : V3) (x : ℝ) (i : ℕ) :
    interpolateSurvey ⟨st.map (lowered δ), nev, cov⟩ p x i
      = (interpolateSurvey ⟨st, nev, cov⟩ p x i).map fun n => { n with md := n.md + δ } := by
  unfold interpolateSurvey
  simp only [List.getElem?_map]
  have hang : ∀ a b, interpAngles (lowered δ a) (lowered δ b) x = interpAngles a b x := by
    intro a b
    simp only [interpAngles, lowered, add_sub_add_right_eq_sub]
    rfl
  cases st[i]? with
  | none => rfl
  | some a =>
    cases st[i + 1]? with
    | none => rfl
    | some b =>
      cases nev[i]? with
      | none => rfl
      | some q =>
        simp only [Option.map_some, Option.some.injEq, NodeOut.mk.injEq]
        refine ⟨?_, ?_, ?_, ?_, ?_⟩
        · simp only [interpStation, lowered]; ring
        · simp only [interpStation, hang]
        · simp only [twoRowPos, deltaXyz_eq, interpStation, hang]
          simp only [lowered]
          congr 3
          ring
        · simp [lowered]
        · simp [interpCov, lowered]

/-- **C355** Count the depths of a survey from another datum.  The constructor accepts it as before, with
the same positions, doglegs, severities and intervals between stations, and interpolating at the depth
counted from the new datum gives the same node, or fails as before. -/
theorem C355_datum (δ : ℝ) (st : List Station) (sx sn : V3) (u : LenUnit) :
    (∀ e, minCurve st sx u = .error e → minCurve (st.map (lowered δ)) sx u = .error e) ∧
    (∀ o, minCurve st sx u = .ok o → ∃ o', minCurve (st.map (lowered δ)) sx u = .ok o' ∧
      o'.poss = o.poss ∧ o'.dogleg = o.dogleg ∧ o'.dls = o.dls ∧ o'.rf = o.rf ∧ o'.deltaMd.tail = o.deltaMd.tail) ∧
    ∀ sv xyz, surveyG st sx sn u = .ok (sv, xyz) →
      ∃ sv', surveyG (st.map (lowered δ)) sx sn u = .ok (sv', xyz) ∧
        ∀ f md, interpolateMd sv' f (md + δ) = (interpolateMd sv f md).map fun n => { n with md := n.md + δ } := by
  have key : ∀ o, minCurve st sx u = .ok o → ∃ o', minCurve (st.map (lowered δ)) sx u = .ok o' ∧
      o'.poss = o.poss ∧ o'.dogleg = o.dogleg ∧ o'.dls = o.dls ∧ o'.rf = o.rf ∧
      o'.deltaMd.tail = o.deltaMd.tail := by
    intro o ho
    have d1 := pairwise_lowered δ deltaXyz (fun a b => by simp [deltaXyz, dogleg2, lowered]) st
    have d2 := pairwise_lowered δ dogleg2 (fun a b => rfl) st
    have d3 := pairwise_lowered δ (fun a b => getRf (dogleg2 a b)) (fun a b => rfl) st
    have d4 := fun c : ℝ => pairwise_lowered δ (fun a b => dlsOf c (dogleg2 a b) (b.md - a.md))
      (fun a b => by simp [dogleg2, lowered]) st
    have d5 := pairwise_lowered δ (fun a b => b.md - a.md) (fun a b => by simp [lowered]) st
    match st, u, ho with
    | a :: b :: t, .meters, ho =>
      simp only [minCurve, Except.ok.injEq] at ho
      subst ho
      refine ⟨_, rfl, ?_, ?_, ?_, ?_, ?_⟩
      · exact congrArg (fun l => cumsumFrom sx ((0 : V3) :: l)) d1
      · exact congrArg (List.cons 0) d2
      · exact congrArg (List.cons (.val 0)) (d4 _)
      · exact congrArg (List.cons 1) d3
      · exact d5
    | a :: b :: t, .feet, ho =>
      simp only [minCurve, Except.ok.injEq] at ho
      subst ho
      refine ⟨_, rfl, ?_, ?_, ?_, ?_, ?_⟩
      · exact congrArg (fun l => cumsumFrom sx ((0 : V3) :: l)) d1
      · exact congrArg (List.cons 0) d2
      · exact congrArg (List.cons (.val 0)) (d4 _)
      · exact congrArg (List.cons 1) d3
      · exact d5
    | _, .other, ho => cases ho
    | [], .meters, ho => cases ho
    | [], .feet, ho => cases ho
    | [_], .meters, ho => cases ho
    | [_], .feet, ho => cases ho
  refine ⟨fun e he => ?_, key, fun sv xyz h => ?_⟩
  · match st, u, he with
    | _, .other, he => exact he
    | [], .meters, he => exact he
    | [], .feet, he => exact he
    | [_], .meters, he => exact he
    | [_], .feet, he => exact he
    | a :: b :: t, .meters, he => cases he
    | a :: b :: t, .feet, he => cases he
  · unfold surveyG at h
    split at h
    · rename_i o ho
      obtain ⟨o', e1, e2, -⟩ := key o ho
      injection h with h
      injection h with h1 h2
      subst h1; subst h2
      refine ⟨⟨st.map (lowered δ), o.poss.map (getNev · sx sn), none⟩, by simp only [surveyG, e1, e2], fun f md => ?_⟩
      unfold interpolateMd
      have hm : (st.map (lowered δ)).map Station.md = (st.map Station.md).map (· + δ) := by
        simp [lowered]
      simp only [hm, searchsorted_lowered, List.length_map, List.getElem?_map]
      cases searchsortedLeft (st.map Station.md) md with
      | zero => exact interpolateSurvey_lowered ..
      | succ i =>
        simp only
        split_ifs with hi
        · rfl
        · cases st[i]? with
          | none => rfl
          | some a =>
            simp only [Option.map_some, add_sub_add_right_eq_sub]
            exact interpolateSurvey_lowered ..
    · cases h

/-- Non-vacuity: a survey whose depths are counted from a rotary table 25 m above the datum. -/
example : ∃ sv xyz sv', surveyG [⟨0, 0, 0⟩, ⟨100, 0.2, 1⟩] 0 0 .meters = .ok (sv, xyz) ∧
    surveyG [⟨0 + 25, 0, 0⟩, ⟨100 + 25, 0.2, 1⟩] 0 0 .meters = .ok (sv', xyz) := by
  obtain ⟨sv', h, -⟩ := (C355_datum 25 [⟨0, 0, 0⟩, ⟨100, 0.2, 1⟩] 0 0 .meters).2.2 _ _ rfl
  exact ⟨_, _, sv', rfl, h⟩

end Welleng.Props
