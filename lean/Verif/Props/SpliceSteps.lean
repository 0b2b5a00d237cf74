import Verif.Props.SurveyList

/-!
C354: splicing surveys in steps.
-/

namespace Welleng.Props

open Welleng Sv

/-- The azimuth of a station in the reference of the header, when the constructor has finished. -/
theorem constructed_again (h : Header) (inc azi : ℝ) :
    (constructedAzis h false inc ((constructedAzis h false inc azi).get h.aziRef false)).get h.aziRef false
      = (constructedAzis h false inc azi).get h.aziRef false := by
  have hp : ∀ a, (processAziRef h false a).get h.aziRef false = a := by
    intro a
    unfold processAziRef
    cases h.aziRef <;> simp [Azis.get]
  have hs : ∀ (a : Azis) v, (a.setRad h.aziRef v).get h.aziRef false = v := by
    intro a v
    cases h.aziRef <;> rfl
  unfold constructedAzis
  cases h.verticalSectionAzimuth with
  | none => simp only [hp]
  | some v =>
    simp only [overwriteVertical]
    by_cases h0 : inc = 0
    · simp only [if_pos h0, hs]
    · simp only [if_neg h0, hp]

/-- **C354** Surveys spliced in steps: splice the first ones, then the result with the others.  Both calls
succeed as splicing all at once does, and the survey has the same depths, inclinations, azimuths in the
reference of the header, covariances and radii. -/
theorem C354_steps (s : Data) (t rest : List Data) (hu : s.header.depthUnit = .meters)
    (hr : s.header.aziRef ≠ .magnetic) (hc : ∀ x ∈ s :: (t ++ rest), x.covNev.isSome ∧ x.covHla.isSome)
    (hl : ∀ x ∈ s :: (t ++ rest), x.azi.length = x.inc.length) :
    ∃ part whole again, spliceSurveys (s :: t) = .ok part ∧ spliceSurveys (s :: (t ++ rest)) = .ok whole ∧
      spliceSurveys (surveyOf part :: rest) = .ok again ∧
      again.header = whole.header ∧ again.md = whole.md ∧ again.inc = whole.inc ∧
      again.covNev = whole.covNev ∧ again.covHla = whole.covHla ∧ again.radius = whole.radius ∧
      (surveyOf again).azi.map (fun a => a.get s.header.aziRef false)
        = (surveyOf whole).azi.map (fun a => a.get s.header.aziRef false) := by
  have hsub : ∀ x ∈ s :: t, x ∈ s :: (t ++ rest) := by
    intro x hx
    simp only [List.mem_cons, List.mem_append] at hx ⊢
    tauto
  obtain ⟨part, e1, a1, a2, a3, a4, a5, a6, a7⟩ := C20_splice s t hu hr fun x hx => hc x (hsub x hx)
  obtain ⟨whole, e2, b1, b2, b3, b4, b5, b6, b7⟩ := C20_splice s (t ++ rest) hu hr hc
  obtain ⟨again, e3, c1, c2, c3, c4, c5, c6, c7⟩ := C20_splice (surveyOf part) rest
    (by simp only [surveyOf, a1, hu]) (by simp only [surveyOf, a1]; exact hr) (by
      intro x hx
      rcases List.mem_cons.mp hx with rfl | hx
      · simp [surveyOf, a5, a6]
      · exact hc x (by simp [hx]))
  refine ⟨part, whole, again, e1, e2, e3, ?_, ?_, ?_, ?_, ?_, ?_, ?_⟩
  · rw [c1, b1]; exact a1
  · rw [c2, b2]; simp [surveyOf, a2]
  · rw [c3, b3]; simp [surveyOf, a3]
  · rw [c5, b5]; simp [surveyOf, a5]
  · rw [c6, b6]; simp [surveyOf, a6]
  · rw [c7, b7]; simp [surveyOf, a7]
  · have hlen : part.azi.length = part.inc.length := by
      rw [a4, a3]
      have hlt : ∀ x ∈ t, x.azi.length = x.inc.length := fun x hx => hl x (by simp [hx])
      simp only [List.length_append, List.length_map, hl s (by simp), List.length_flatMap]
      congr 2
      refine List.map_congr_left fun x hx => ?_
      simp [hlt x hx]
    have hA : again.azi = (surveyOf part).azi.map (fun a => a.get s.header.aziRef false)
        ++ rest.flatMap (fun x => (x.azi.map (fun a => a.get s.header.aziRef false)).tail) := by
      rw [c4]; simp only [surveyOf, a1]
    have hW : whole.azi = part.azi
        ++ rest.flatMap (fun x => (x.azi.map (fun a => a.get s.header.aziRef false)).tail) := by
      rw [b4, a4]; simp
    have hI : whole.inc = part.inc ++ rest.flatMap (fun x => x.inc.tail) := by
      rw [b3, a3]; simp
    have hIA : again.inc = part.inc ++ rest.flatMap (fun x => x.inc.tail) := c3
    have hAh : again.header = s.header := c1.trans a1
    unfold surveyOf
    simp only [hAh, b1, hA, hW, hI, hIA]
    rw [List.zipWith_append (by simp [surveyOf, hlen]), List.zipWith_append hlen.symm, List.map_append,
      List.map_append]
    congr 1
    simp only [surveyOf, a1]
    generalize part.inc = I at hlen
    generalize part.azi = A at hlen
    clear * -
    induction I generalizing A with
    | nil => rfl
    | cons i I ih =>
      cases A with
      | nil => rfl
      | cons a A =>
        simp only [List.zipWith_cons_cons, List.map_cons, constructed_again, ih]

/-- Non-vacuity: three surveys of a well with true azimuths, in two calls and in one. -/
example : ∃ part whole again,
    spliceSurveys [⟨⟨.true_, 0.1, 0.2, 1, some 0, .meters⟩, [0, 100], [0, 0.1], [⟨0, 0, 0, 0, 0, 0⟩, ⟨0, 1, 0, 2, 0, 0⟩],
      some [1, 1], some [1, 1], [1, 1]⟩, ⟨⟨.grid, 0.1, 0.2, 1, some 0, .meters⟩, [100, 200], [0.1, 0.2],
      [⟨0, 1, 0, 2, 0, 0⟩, ⟨0, 0, 0, 3, 0, 0⟩], some [1, 1], some [1, 1], [1, 1]⟩] = .ok part ∧
    spliceSurveys [⟨⟨.true_, 0.1, 0.2, 1, some 0, .meters⟩, [0, 100], [0, 0.1], [⟨0, 0, 0, 0, 0, 0⟩, ⟨0, 1, 0, 2, 0, 0⟩],
      some [1, 1], some [1, 1], [1, 1]⟩, ⟨⟨.grid, 0.1, 0.2, 1, some 0, .meters⟩, [100, 200], [0.1, 0.2],
      [⟨0, 1, 0, 2, 0, 0⟩, ⟨0, 0, 0, 3, 0, 0⟩], some [1, 1], some [1, 1], [1, 1]⟩,
      ⟨⟨.grid, 0.1, 0.2, 1, some 0, .meters⟩, [200, 300], [0.2, 0.3],
      [⟨0, 1, 0, 3, 0, 0⟩, ⟨0, 0, 0, 4, 0, 0⟩], some [1, 1], some [1, 1], [2, 2]⟩] = .ok whole ∧
    spliceSurveys [surveyOf part, ⟨⟨.grid, 0.1, 0.2, 1, some 0, .meters⟩, [200, 300], [0.2, 0.3],
      [⟨0, 1, 0, 3, 0, 0⟩, ⟨0, 0, 0, 4, 0, 0⟩], some [1, 1], some [1, 1], [2, 2]⟩] = .ok again ∧
    again.md = whole.md := by
  obtain ⟨p, w, a, h1, h2, h3, -, h4, -⟩ := C354_steps
    ⟨⟨.true_, 0.1, 0.2, 1, some 0, .meters⟩, [0, 100], [0, 0.1], [⟨0, 0, 0, 0, 0, 0⟩, ⟨0, 1, 0, 2, 0, 0⟩],
      some [1, 1], some [1, 1], [1, 1]⟩
    [⟨⟨.grid, 0.1, 0.2, 1, some 0, .meters⟩, [100, 200], [0.1, 0.2],
      [⟨0, 1, 0, 2, 0, 0⟩, ⟨0, 0, 0, 3, 0, 0⟩], some [1, 1], some [1, 1], [1, 1]⟩]
    [⟨⟨.grid, 0.1, 0.2, 1, some 0, .meters⟩, [200, 300], [0.2, 0.3],
      [⟨0, 1, 0, 3, 0, 0⟩, ⟨0, 0, 0, 4, 0, 0⟩], some [1, 1], some [1, 1], [2, 2]⟩]
    rfl (by simp) (by simp) (by simp)
  exact ⟨p, w, a, h1, h2, h3, h4⟩

end Welleng.Props
