import Verif.Props.ResampleTvd

/-! C407: resampling a well that is drilled on by vertical depth (`/repo/welleng/survey.py`
2848-2917). -/

namespace Welleng.Props

open Welleng Rt

/-- The loop of an interval leaves the nodes above alone if the last of them is a station, and ends
with a station. -/
theorem rtInterval_keeps (c : Cfg) (b : ℝ × ℝ) {n : Nd} (hn : n.interp = false) (rest : List Nd) :
    ∀ (fuel : ℕ) (pre : List Nd) (t : ℝ) (out : List Nd) (t' : ℝ),
      Rt.interval c b fuel (pre ++ n :: rest) t = some (out, t') →
      (∃ new, out = new ++ n :: rest) ∧ ∃ m tail, out = m :: tail ∧ m.interp = false
  | 0, pre, t, out, t', h => by simp [Rt.interval] at h
  | fuel + 1, pre, t, out, t', h => by
    have ih := rtInterval_keeps c b hn rest fuel
    cases pre with
    | nil =>
      rw [List.nil_append, Rt.interval] at h
      split at h
      · simp only [Option.some.injEq, Prod.mk.injEq] at h
        obtain ⟨rfl, -⟩ := h
        have e : ({ n with interp := false } : Nd) = n := by ext <;> simp [hn]
        exact ⟨⟨[], by rw [e]; rfl⟩, _, _, rfl, rfl⟩
      · split at h
        · exact ih [_] _ _ _ h
        · split at h
          · exact ih [_] _ _ _ h
          · simp only [Option.some.injEq, Prod.mk.injEq] at h
            obtain ⟨rfl, -⟩ := h
            exact ⟨⟨[_], rfl⟩, _, _, rfl, rfl⟩
    | cons p pre =>
      rw [List.cons_append, Rt.interval] at h
      split at h
      · simp only [Option.some.injEq, Prod.mk.injEq] at h
        obtain ⟨rfl, -⟩ := h
        exact ⟨⟨_ :: pre, rfl⟩, _, _, rfl, rfl⟩
      · split at h
        · exact ih (_ :: p :: pre) _ _ _ h
        · split at h
          · exact ih (_ :: p :: pre) _ _ _ h
          · simp only [Option.some.injEq, Prod.mk.injEq] at h
            obtain ⟨rfl, -⟩ := h
            exact ⟨⟨_ :: p :: pre, rfl⟩, _, _, rfl, rfl⟩

/-- The nodes above stay when further stations are worked through. -/
theorem rtSweep_keeps (c : Cfg) (fuel : ℕ) : ∀ (B : List (ℝ × ℝ)) {n : Nd} (_ : n.interp = false)
    (rest : List Nd) (t : ℝ) (out : List Nd), sweep c fuel B (n :: rest) t = some out →
      ∃ new, out = new ++ n :: rest
  | [], n, hn, rest, t, out, h => by
    simp only [sweep, Option.some.injEq] at h
    exact ⟨[], h.symm⟩
  | b :: B, n, hn, rest, t, out, h => by
    rw [sweep] at h
    split at h
    · cases h
    · rename_i nodes' t' e
      obtain ⟨⟨new, e1⟩, m, tail, e2, hm⟩ := rtInterval_keeps c b hn rest fuel [] t nodes' t' e
      rw [e2] at h
      obtain ⟨new', e3⟩ := rtSweep_keeps c fuel B hm tail t' out h
      exact ⟨new' ++ new, by rw [e3, ← e2, e1, List.append_assoc]⟩

theorem rtSweep_append (c : Cfg) (fuel : ℕ) (B : List (ℝ × ℝ)) : ∀ (A : List (ℝ × ℝ)) {n : Nd}
    (_ : n.interp = false) (rest : List Nd) (t : ℝ),
    (sweep c fuel A (n :: rest) t = none → sweep c fuel (A ++ B) (n :: rest) t = none) ∧
    ∀ out, sweep c fuel A (n :: rest) t = some out →
      ∀ out', sweep c fuel (A ++ B) (n :: rest) t = some out' → ∃ new, out' = new ++ out
  | [], n, hn, rest, t => by
    refine ⟨fun h => by simp [sweep] at h, fun out h out' h' => ?_⟩
    simp only [sweep, Option.some.injEq] at h
    rw [← h]
    exact rtSweep_keeps c fuel B hn rest t out' h'
  | a :: A, n, hn, rest, t => by
    rw [List.cons_append, sweep, sweep]
    cases e : Rt.interval c a fuel (n :: rest) t with
    | none => exact ⟨fun _ => rfl, fun out h => by cases h⟩
    | some r =>
      obtain ⟨nodes', t'⟩ := r
      obtain ⟨-, m, tail, e2, hm⟩ := rtInterval_keeps c a hn rest fuel [] t nodes' t' e
      subst e2
      exact rtSweep_append c fuel B A hm tail t'

/-- **C407** Drilling on does not change the nodes found above when a well is resampled by vertical
depth: if a survey and a continuation of it are both resampled, the nodes of the first, with their
flags, are the beginning of those of the second; where the loop does not end for the first, it does
not for the second. -/
theorem C407_drilled_on (c : Cfg) (fuel : ℕ) (start : Option ℝ) (A B : List (ℝ × ℝ)) (hA : A ≠ []) :
    (nodes c fuel start A = none → nodes c fuel start (A ++ B) = none) ∧
    ∀ out out', nodes c fuel start A = some out → nodes c fuel start (A ++ B) = some out' →
      out <+: out' := by
  obtain ⟨s, A, rfl⟩ := List.exists_cons_of_ne_nil hA
  obtain ⟨h1, h2⟩ := rtSweep_append c fuel B A (n := ⟨s.1, s.2, false⟩) rfl [] (start.getD s.2)
  simp only [List.cons_append, nodes]
  constructor
  · intro h
    rw [Option.map_eq_none_iff] at h ⊢
    exact h1 h
  · intro out out' h h'
    rw [Option.map_eq_some_iff] at h h'
    obtain ⟨o, ho, rfl⟩ := h
    obtain ⟨o', ho', rfl⟩ := h'
    obtain ⟨new, rfl⟩ := h2 o ho o' ho'
    rw [List.reverse_append]
    exact List.prefix_append _ _

/-- Non-vacuity: a vertical well of 5 drilled on to 15, with a level every 10. -/
example : nodes ⟨10, Eq, fun _ x => x⟩ 3 none [(0, 0), (5, 5)]
      = some [⟨0, 0, false⟩, ⟨5, 5, false⟩] ∧
    nodes ⟨10, Eq, fun _ x => x⟩ 3 none ([(0, 0), (5, 5)] ++ [(15, 15)])
      = some [⟨0, 0, false⟩, ⟨5, 5, false⟩, ⟨10, 10, true⟩, ⟨15, 15, false⟩] := by
  constructor <;> norm_num [nodes, sweep, Rt.interval]

end Welleng.Props
