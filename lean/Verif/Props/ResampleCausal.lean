import Verif.Props.SectionsCausal
import Verif.Props.Resample

/-! C397: resampling a well that is drilled on (`/repo/welleng/survey.py` 2703-2816). -/

namespace Welleng.Props

open Real Welleng Rs

theorem sections_drilled_on (c : Cfg) (md1 : ℝ) (v1 : V3) (A B : List Station) :
    (sections c md1 v1 A = none → sections c md1 v1 (A ++ B) = none) ∧
    ∀ rows, sections c md1 v1 A = some rows →
      sections c md1 v1 (A ++ B) = none ∨ ∃ t, sections c md1 v1 (A ++ B) = some (rows ++ t) := by
  induction A generalizing md1 v1 with
  | nil =>
    refine ⟨fun h => by simp [sections] at h, fun rows h => ?_⟩
    simp only [sections, Option.some.injEq] at h
    subst h
    rw [List.nil_append]
    cases sections c md1 v1 B with
    | none => exact .inl rfl
    | some t => exact .inr ⟨t, rfl⟩
  | cons l A ih =>
    obtain ⟨h1, h2⟩ := ih l.md (normalize (targetVec c v1 (getVec l.inc l.azi true)))
    simp only [List.cons_append, sections]
    cases sectionRows c md1 v1 l.md (getVec l.inc l.azi true) with
    | none => exact ⟨fun _ => rfl, fun rows h => by cases h⟩
    | some r =>
      dsimp only
      cases hA : sections c l.md (normalize (targetVec c v1 (getVec l.inc l.azi true))) A with
      | none => simp only [h1 hA]; exact ⟨fun _ => trivial, fun rows h => by cases h⟩
      | some t =>
        refine ⟨fun h => (by cases h), fun rows h => ?_⟩
        simp only [Option.some.injEq] at h
        subst h
        rcases h2 t hA with e | ⟨t', e⟩
        · exact .inl (by rw [e])
        · exact .inr ⟨t', by rw [e]; simp⟩

theorem removeDuplicates_drilled_on {α κ : Type} [DecidableEq κ] (key : α → κ) (A B : List α)
    {out : List α} (h : Sv.removeDuplicates key A = .ok out) :
    ∃ t, Sv.removeDuplicates key (A ++ B) = .ok (out ++ t) := by
  match A, h with
  | a :: b :: A, h =>
    simp only [Sv.removeDuplicates, Except.ok.injEq] at h
    subst h
    obtain ⟨C, hC⟩ := pairwise_prefix (fun x y : α => (x, y)) (a :: b :: A) B
    refine ⟨C.filterMap fun (x, y) => if key y ≠ key x then some y else none, ?_⟩
    simp only [List.cons_append] at hC
    simp only [List.cons_append, Sv.removeDuplicates]
    rw [hC, List.filterMap_append]

/-- **C397** Drilling on does not change the resampled stations above: when a survey and a
continuation of it are both resampled, the stations of the first are the beginning of those of the
second; and where the first cannot be connected, the second cannot. -/
theorem C397_drilled_on {κ : Type} [DecidableEq κ] (c : Cfg) (key : ℝ → κ) (u : LenUnit)
    (st more : List Station) :
    (∀ out, resample c key u st = .ok out →
      resample c key u (st ++ more) = .error .noSection ∨
      ∃ t, resample c key u (st ++ more) = .ok (out ++ t)) ∧
    (resample c key u st = .error .noSection → resample c key u (st ++ more) = .error .noSection) := by
  match st with
  | [] => simp [resample]
  | [_] => simp [resample]
  | s :: l :: rest =>
    obtain ⟨h1, h2⟩ := sections_drilled_on c s.md (getVec s.inc s.azi true) (l :: rest) more
    simp only [List.cons_append] at h1 h2
    simp only [List.cons_append, resample]
    cases hA : sections c s.md (getVec s.inc s.azi true) (l :: rest) with
    | none =>
      simp only [h1 hA]
      exact ⟨fun out h => (by cases h), fun _ => trivial⟩
    | some rows =>
      dsimp only
      constructor
      · intro out h
        rcases h2 rows hA with e | ⟨t, e⟩
        · exact .inl (by simp only [e])
        · simp only [e]
          cases hD : Sv.removeDuplicates (fun r : Station => key r.md) (rows.map toStation) with
          | error x => rw [hD] at h; cases h
          | ok o =>
            rw [hD] at h
            dsimp only at h
            obtain ⟨t', ht⟩ := removeDuplicates_drilled_on _ _ (t.map toStation) hD
            rw [List.map_append, ht]
            dsimp only
            split_ifs at h ⊢
            cases h
            exact .inr ⟨t', rfl⟩
      · intro h
        exfalso
        split at h
        · cases h
        · split_ifs at h
          cases h

/-- Non-vacuity: a survey that is resampled. -/
example : ∃ out, resample (defaults 30) round4 .meters kickOff = .ok out := by
  obtain ⟨out, h, -⟩ := C183_resampled (first := ⟨0, 0, 0⟩) (last := ⟨130, π / 2, 0⟩)
    round4_rounds kickOff_regular (by simp [kickOff]) rfl rfl
  exact ⟨out, h⟩

end Welleng.Props
