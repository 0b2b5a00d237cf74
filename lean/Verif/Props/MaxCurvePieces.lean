import Verif.Props.MaxCurve

/-! C400: the maximum-curvature stations of a well in two pieces (`/repo/welleng/survey.py`
1446-1518). -/

namespace Welleng.Props

open Real Welleng Mc

/-- The stations of a list cut at the station `b`: those above `b`, then those from `b` on. -/
theorem mcStations_pieces (noise : ℝ) (b : Station) (B : List Station) : ∀ A : List Station,
    stations noise (A ++ b :: B)
      = (stations noise (A ++ [b])).dropLast ++ stations noise (b :: B)
  | [] => by simp [stations]
  | [a] => by simp [stations]
  | a :: a' :: A => by
    have ih := mcStations_pieces noise b B (a' :: A)
    simp only [List.cons_append] at ih ⊢
    rw [stations, stations, ih]
    have hne : stations noise (a' :: (A ++ [b])) ≠ [] := by
      cases A <;> simp [stations]
    rw [List.dropLast_cons_of_ne_nil (by simp), List.dropLast_cons_of_ne_nil hne]
    rfl

/-- **C400** The maximum-curvature survey can be made in two pieces: for a well cut at a station,
the stations are those of the upper piece without its last one, followed by those of the lower
piece; and it fails exactly where the pieces fail. -/
theorem C400_pieces (noise : ℝ) (h : Sv.Header) (A : List Station) (b : Station) (B : List Station)
    {up low : List (Option Station)} (hup : (maximumCurvature noise h (A ++ [b])).2 = .ok up)
    (hlow : (maximumCurvature noise h (b :: B)).2 = .ok low) :
    (maximumCurvature noise h (A ++ b :: B)).2 = .ok (up.dropLast ++ low) ∧
      up.getLast? = some (some b) ∧ low.head? = some (some b) := by
  unfold maximumCurvature at *
  dsimp only at *
  split at hup
  · rename_i hu
    rw [if_pos hu] at hlow ⊢
    simp only [Except.ok.injEq] at hup hlow
    subst hup; subst hlow
    refine ⟨by rw [mcStations_pieces], ?_, ?_⟩
    · clear hu
      induction A with
      | nil => simp [stations]
      | cons a A ih =>
        cases A with
        | nil => simp [stations]
        | cons a' A =>
          simp only [List.cons_append] at ih ⊢
          rw [stations, List.getLast?_cons, List.getLast?_cons, ih]
          rfl
    · cases B <;> simp [stations]
  · cases hup

/-- **C400** Drilling on changes nothing above: the stations of a survey are the beginning of those
of a continuation of it. -/
theorem C400_drilled_on (noise : ℝ) (h : Sv.Header) (A : List Station) (b : Station)
    (B : List Station) {up out : List (Option Station)}
    (hup : (maximumCurvature noise h (A ++ [b])).2 = .ok up)
    (hout : (maximumCurvature noise h ((A ++ [b]) ++ B)).2 = .ok out) : up <+: out := by
  have hlow : ∃ low, (maximumCurvature noise h (b :: B)).2 = .ok low := by
    unfold maximumCurvature at *
    dsimp only at *
    split at hup
    · rename_i hu; rw [if_pos hu]; exact ⟨_, rfl⟩
    · cases hup
  obtain ⟨low, hlow⟩ := hlow
  obtain ⟨e, e1, e2⟩ := C400_pieces noise h A b B hup hlow
  rw [List.append_assoc, List.singleton_append] at hout
  rw [e] at hout
  simp only [Except.ok.injEq] at hout
  subst hout
  have hne : up ≠ [] := by rintro rfl; simp at e1
  have hl : up.getLast hne = some b := by
    rw [List.getLast?_eq_some_getLast hne] at e1; exact Option.some.inj e1
  cases low with
  | nil => simp at e2
  | cons x low =>
    simp only [List.head?_cons, Option.some.injEq] at e2
    subst e2
    refine ⟨low, ?_⟩
    conv_lhs => rw [← List.dropLast_append_getLast hne, hl]
    simp

/-- Non-vacuity: a well of three stations cut at the second one. -/
example : ∃ up low, (maximumCurvature 1 ⟨.magnetic, 0, 0, 1, none, .meters⟩
      ([⟨0, 0, 0⟩] ++ [⟨30, 0.1, 0⟩])).2 = .ok up ∧
    (maximumCurvature 1 ⟨.magnetic, 0, 0, 1, none, .meters⟩
      [⟨30, 0.1, 0⟩, ⟨60, 0.2, 0.1⟩]).2 = .ok low ∧ up.length = 3 ∧ low.length = 3 :=
  ⟨_, _, rfl, rfl, rfl, rfl⟩

end Welleng.Props
