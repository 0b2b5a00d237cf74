import Verif.Props.ResampleCausal
import Verif.Props.InterpolateCausal
import Verif.Model.FromConnections

/-! C408: the survey of connections that are continued (`/repo/welleng/survey.py` 2622-2700). -/

namespace Welleng.Props

open Welleng Fc

theorem wellRows_append (step : Option ℝ) (B : List Conn) : ∀ A : List Conn,
    wellRows step (A ++ B) =
      match wellRows step A, wellRows step B with
      | some a, some b => some (a ++ b)
      | _, _ => none
  | [] => by
    simp only [List.nil_append, wellRows]
    cases wellRows step B <;> rfl
  | s :: A => by
    simp only [List.cons_append, wellRows, wellRows_append step B A]
    cases connRows step s <;> cases wellRows step A <;> cases wellRows step B <;> simp

/-- **C408** Further connections do not change the stations of the survey made from those before:
the stations from the first connections are the beginning of the stations from all of them, and the
positions of the surveys agree there.  What can fail is the interpolation of a further connection. -/
theorem C408_continued {κ : Type} [DecidableEq κ] (key : ℕ → ℝ → κ) (decimals : ℕ)
    (step : Option ℝ) (A B : List Conn) {out : List Station}
    (h : fromConnections key decimals step A = .ok out) :
    (fromConnections key decimals step (A ++ B) = .error .noSection ∧ wellRows step B = none) ∨
    ∃ t, fromConnections key decimals step (A ++ B) = .ok (out ++ t) ∧
      ∀ (start : V3) (p p' : List V3), surveyPositions start out = .ok p →
        surveyPositions start (out ++ t) = .ok p' → p <+: p' := by
  match A, h with
  | s :: A, h =>
    unfold fromConnections at h ⊢
    rw [List.cons_append] at *
    dsimp only at h ⊢
    rw [← List.cons_append, wellRows_append]
    split at h
    · cases h
    · rename_i rows e
      rw [e]
      cases eB : wellRows step B with
      | none => exact .inl ⟨rfl, rfl⟩
      | some b =>
        right
        dsimp only
        split at h
        · cases h
        · rename_i o eo
          simp only [Except.ok.injEq] at h
          subst h
          obtain ⟨t, ht⟩ := removeDuplicates_drilled_on (fun r : Station => key 4 r.md) _
            (b.map Rs.toStation) eo
          refine ⟨t, by rw [List.map_append, ht], ?_⟩
          intro start p p' hp hp'
          unfold surveyPositions at hp hp'
          split at hp
          · rename_i sv xyz e1
            split at hp'
            · rename_i sv' xyz' e2
              simp only [Except.ok.injEq] at hp hp'
              subst hp; subst hp'
              exact (surveyG_drilled_on e1 e2).2
            · cases hp'
          · cases hp

/-- **C408** Connections can be interpolated in stages: the rows of all exist exactly when the rows of
both parts do, and are one part followed by the other. -/
theorem C408_stages (step : Option ℝ) (A B : List Conn) (rows : List (ℝ × V3)) :
    wellRows step (A ++ B) = some rows ↔
      ∃ a b, wellRows step A = some a ∧ wellRows step B = some b ∧ rows = a ++ b := by
  rw [wellRows_append]
  cases wellRows step A <;> cases wellRows step B <;> simp [eq_comm]

/-- Non-vacuity: a straight connection of 100, and a further one. -/
example (key : ℕ → ℝ → ℤ) : ∃ out,
    fromConnections key 4 none
      [⟨.hold, 0, 100, none, none, ⟨0, 0, 1⟩, ⟨0, 0, 1⟩, ⟨0, 0, 1⟩, ⟨0, 0, 1⟩, 0, 0, 0, 0⟩]
      = .ok out ∧
    wellRows none
      [⟨.hold, 100, 150, none, none, ⟨0, 0, 1⟩, ⟨0, 0, 1⟩, ⟨0, 0, 1⟩, ⟨0, 0, 1⟩, 0, 0, 0, 0⟩]
      ≠ none :=
  ⟨_, rfl, by simp [wellRows, connRows]⟩

end Welleng.Props
