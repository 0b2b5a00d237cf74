import Verif.Model.Wbp
import Mathlib.Data.List.Chain
import Mathlib.Tactic.SplitIfs

/-!
C46, C47, C89-C92: well plan files.
-/

namespace Welleng.Props

open Wbp

/-! ### C46 -/

theorem stripFrom_sublist {α S : Type} [DecidableEq α] (inc : S → α) :
    ∀ (l : List S) (last : S), (stripFrom inc last l).Sublist l
  | [], _ => by simp [stripFrom]
  | s :: t, last => by
    rw [stripFrom]
    split_ifs
    · exact (stripFrom_sublist inc t last).cons s
    · exact (stripFrom_sublist inc t s).cons_cons s

theorem stripFrom_chain {α S : Type} [DecidableEq α] (inc : S → α) :
    ∀ (l : List S) (last : S), (last :: stripFrom inc last l).IsChain (fun a b => inc b ≠ inc a)
  | [], _ => by simp [stripFrom]
  | s :: t, last => by
    rw [stripFrom]
    split_ifs with h
    · exact stripFrom_chain inc t last
    · exact List.IsChain.cons_cons h (stripFrom_chain inc t s)

theorem stripFrom_id {α S : Type} [DecidableEq α] (inc : S → α) :
    ∀ (l : List S) (last : S), (last :: l).IsChain (fun a b => inc b ≠ inc a) →
      stripFrom inc last l = l
  | [], _, _ => rfl
  | s :: t, last, h => by
    rw [List.isChain_cons_cons] at h
    rw [stripFrom, if_neg h.1, stripFrom_id inc t s h.2]

/-- C46, what holds: the first station is kept, nothing is added or reordered, no two successive
stations of the result have the same inclination, and a survey whose successive inclinations
all differ is unchanged. -/
theorem C46_strip_partial {α S : Type} [DecidableEq α] (inc : S → α) (l : List S) :
    (stripDuplicates inc l).head? = l.head? ∧ (stripDuplicates inc l).Sublist l ∧
    (stripDuplicates inc l).IsChain (fun a b => inc b ≠ inc a) ∧
    (l.IsChain (fun a b => inc b ≠ inc a) → stripDuplicates inc l = l) := by
  cases l with
  | nil => simp [stripDuplicates]
  | cons s t =>
    refine ⟨rfl, (stripFrom_sublist inc t s).cons_cons s, stripFrom_chain inc t s, fun h => ?_⟩
    rw [stripDuplicates, stripFrom_id inc t s h]

/-- C46 is false: in any stretch of constant inclination (a vertical well, a tangent, a
horizontal turn) every station but the first is removed, so the end of the well is lost. -/
theorem C46_constant_inclination {α S : Type} [DecidableEq α] (inc : S → α) (s : S) (t : List S)
    (h : ∀ x ∈ t, inc x = inc s) : stripDuplicates inc (s :: t) = [s] := by
  have : ∀ t : List S, (∀ x ∈ t, inc x = inc s) → stripFrom inc s t = [] := by
    intro t
    induction t with
    | nil => intro _; rfl
    | cons x t ih =>
      intro h
      rw [stripFrom, if_pos (h x List.mem_cons_self)]
      exact ih fun y hy => h y (List.mem_cons_of_mem _ hy)
  rw [stripDuplicates, this t h]

/-- Stations (depth, inclination, azimuth) of a horizontal turn: all different, one kept. -/
theorem C46_witness :
    stripDuplicates (fun s : ℕ × ℕ × ℕ => s.2.1) [(1000, 90, 0), (1030, 90, 3), (1060, 90, 6)]
      = [(1000, 90, 0)] := by decide

/-! ### C47 -/

variable {fmt : String → String → Bool}

/-- Reading keeps the lines it handles. -/
theorem handle_log {p p' : Plan} {ln : Line} (h : handle fmt p ln = .ok (some p')) :
    p'.log = p.log := by
  cases ln with
  | blank => simp [handle] at h
  | bang => simp only [handle, Except.ok.injEq, Option.some.injEq] at h; rw [← h]
  | depth k =>
    simp only [handle] at h
    split_ifs at h
    simp only [Except.ok.injEq, Option.some.injEq] at h; rw [← h]
  | targets => simp only [handle, Except.ok.injEq, Option.some.injEq] at h; rw [← h]
  | wellplans => simp only [handle, Except.ok.injEq, Option.some.injEq] at h; rw [← h]
  | data code payload =>
    simp only [handle] at h
    split_ifs at h with hf
    · simp only [handleTarget] at h
      split_ifs at h <;> simp only [Except.map, Except.ok.injEq, Option.some.injEq, reduceCtorEq] at h
        <;> rw [← h]
    · simp only [handleRec] at h
      split_ifs at h <;> simp only [Except.ok.injEq, Option.some.injEq, reduceCtorEq] at h
        <;> rw [← h]

theorem process_log : ∀ (lines : List Line) {p q : Plan} {rest : List Line},
    process fmt p lines = .ok (q, rest) → q.log ++ rest = p.log ++ lines
  | [], p, q, rest, h => by
    simp only [process, Except.ok.injEq, Prod.mk.injEq] at h
    rw [← h.1, ← h.2]
  | ln :: t, p, q, rest, h => by
    rw [process] at h
    cases hh : handle fmt p ln with
    | error e => simp [hh] at h
    | ok o =>
      cases o with
      | none =>
        simp only [hh, Except.ok.injEq, Prod.mk.injEq] at h
        rw [← h.1, ← h.2]
      | some p' =>
        simp only [hh] at h
        have := process_log t h
        rw [this]
        simp [handle_log hh]

/-- A header line stops a plan only when the plan already has one. -/
theorem handle_break {p : Plan} {ln : Line} (h : handle fmt p ln = .ok none) :
    p.flag = .done ∧ ∃ s, ln = .data "W" s := by
  cases ln with
  | data code payload =>
    simp only [handle] at h
    split_ifs at h with hf
    · cases ht : handleTarget fmt p code payload <;> simp [ht, Except.map] at h
    · simp only [handleRec] at h
      split_ifs at h with h1 h2 <;> simp at h
      exact ⟨h2, payload, by rw [h1]⟩
  | depth k => simp only [handle] at h; split_ifs at h; simp at h
  | _ => simp [handle] at h

/-- What is not read starts with a header line. -/
theorem process_rest : ∀ (lines : List Line) {p q : Plan} {ln : Line} {rest : List Line},
    process fmt p lines = .ok (q, ln :: rest) → ∃ s, ln = .data "W" s
  | [], p, q, ln, rest, h => by simp [process] at h
  | x :: t, p, q, ln, rest, h => by
    rw [process] at h
    cases hh : handle fmt p x with
    | error e => simp [hh] at h
    | ok o =>
      cases o with
      | none =>
        simp only [hh, Except.ok.injEq, Prod.mk.injEq, List.cons.injEq] at h
        rw [← h.2.1]
        exact (handle_break hh).2
      | some p' =>
        simp only [hh] at h
        exact process_rest t h

/-- A new plan reads at least one line. -/
theorem process_progress {u : Option String} {lines : List Line} {q : Plan} {rest : List Line}
    (hne : lines ≠ []) (h : process fmt (Plan.init u) lines = .ok (q, rest)) :
    rest.length < lines.length := by
  have hl := process_log lines h
  simp only [Plan.init, List.nil_append] at hl
  cases lines with
  | nil => exact absurd rfl hne
  | cons ln t =>
    rw [process] at h
    cases hh : handle fmt (Plan.init u) ln with
    | error e => simp [hh] at h
    | ok o =>
      cases o with
      | none => exact absurd (handle_break hh).1 (by simp [Plan.init])
      | some p' =>
        simp only [hh] at h
        have h2 := process_log t h
        have : (q.log ++ rest).length = (p'.log ++ [ln] ++ t).length := by rw [h2]
        rw [handle_log hh] at this
        have hq : q.log ≠ [] := by
          intro hq
          rw [hq, List.nil_append] at hl
          subst hl
          simp [hq, Plan.init] at this h2
          have := congrArg List.length h2
          simp [handle_log hh, Plan.init] at this
          -- the log of `q` extends that of the state after the first line
          have h3 : ∀ (l : List Line) {p q : Plan} {r : List Line},
              process fmt p l = .ok (q, r) → p.log <+: q.log := by
            intro l
            induction l with
            | nil =>
              intro p q r h
              simp only [process, Except.ok.injEq, Prod.mk.injEq] at h
              rw [h.1]
            | cons x t ih =>
              intro p q r h
              rw [process] at h
              cases hx : handle fmt p x with
              | error e => simp [hx] at h
              | ok o =>
                cases o with
                | none =>
                  simp only [hx, Except.ok.injEq, Prod.mk.injEq] at h
                  rw [h.1]
                | some p2 =>
                  simp only [hx] at h
                  refine List.IsPrefix.trans ?_ (ih h)
                  simp [handle_log hx]
          have h4 := h3 t h
          rw [hq] at h4
          simp at h4
        have hpos : 0 < q.log.length := List.length_pos_iff.mpr hq
        have h5 : q.log.length + rest.length = t.length + 1 := by
          have := congrArg List.length hl; simpa using this
        simp only [List.length_cons]
        omega

/-- C47: loading ends, for every file. -/
theorem C47_terminates (lines : List Line) : load fmt lines ≠ none := by
  have : ∀ (f : ℕ) (u : Option String) (lines : List Line), lines.length < f →
      loadLoop fmt f u lines ≠ none := by
    intro f
    induction f with
    | zero => intro u lines h; omega
    | succ f ih =>
      intro u lines hl h
      rw [loadLoop] at h
      cases hp : process fmt (Plan.init u) lines with
      | error e => simp [hp] at h
      | ok r =>
        obtain ⟨p, rest⟩ := r
        simp only [hp] at h
        split_ifs at h with hr
        have hne : lines ≠ [] := by
          rintro rfl
          simp only [process, Except.ok.injEq, Prod.mk.injEq] at hp
          exact hr hp.2.symm
        have := process_progress hne hp
        refine ih p.units rest (by omega) ?_
        cases hx : loadLoop fmt f p.units rest with
        | none => rfl
        | some x => simp [hx] at h
  exact this _ none lines (by omega)

theorem loadLoop_partition : ∀ (f : ℕ) (u : Option String) (lines : List Line) {plans},
    loadLoop fmt f u lines = some (.ok plans) → plans.flatMap (·.log) = lines ∧
      ∀ p ∈ plans.tail, ∃ s t, p.log = .data "W" s :: t
  | 0, u, lines, plans, h => by simp [loadLoop] at h
  | f + 1, u, lines, plans, h => by
    rw [loadLoop] at h
    cases hp : process fmt (Plan.init u) lines with
    | error e => simp [hp] at h
    | ok r =>
      obtain ⟨p, rest⟩ := r
      have hlog := process_log lines hp
      simp only [Plan.init, List.nil_append] at hlog
      simp only [hp] at h
      split_ifs at h with hr
      · simp only [Option.some.injEq, Except.ok.injEq] at h
        subst h; subst hr
        simpa using hlog
      · cases hx : loadLoop fmt f p.units rest with
        | none => simp [hx] at h
        | some x =>
          cases x with
          | error e => simp [hx, Except.map] at h
          | ok ps =>
            simp only [hx, Option.map_some, Except.map, Option.some.injEq, Except.ok.injEq] at h
            subst h
            obtain ⟨h1, h2⟩ := loadLoop_partition f _ _ hx
            refine ⟨by rw [List.flatMap_cons, h1, hlog], ?_⟩
            intro q hq
            simp only [List.tail_cons] at hq
            cases ps with
            | nil => simp at hq
            | cons a as =>
              rcases List.mem_cons.mp hq with rfl | hq
              · -- the first plan read from `rest`
                cases hrest : rest with
                | nil => exact absurd hrest hr
                | cons ln t =>
                  obtain ⟨s, rfl⟩ := process_rest lines (hrest ▸ hp)
                  cases hl : q.log with
                  | nil =>
                    exfalso
                    cases f with
                    | zero => simp [loadLoop] at hx
                    | succ f =>
                      rw [loadLoop] at hx
                      cases hp2 : process fmt (Plan.init p.units) rest with
                      | error e => simp [hp2] at hx
                      | ok r2 =>
                        obtain ⟨p2, rest2⟩ := r2
                        have hprog := process_progress hr hp2
                        have hlog2 := process_log rest hp2
                        simp only [Plan.init, List.nil_append] at hlog2
                        have hq2 : q = p2 := by
                          simp only [hp2] at hx
                          split_ifs at hx
                          · simp only [Option.some.injEq, Except.ok.injEq, List.cons.injEq] at hx
                            exact hx.1.symm
                          · cases hy : loadLoop fmt f p2.units rest2 with
                            | none => simp [hy] at hx
                            | some y =>
                              cases y with
                              | error e => simp [hy, Except.map] at hx
                              | ok ys =>
                                simp only [hy, Option.map_some, Except.map, Option.some.injEq,
                                  Except.ok.injEq, List.cons.injEq] at hx
                                exact hx.1.symm
                        rw [← hq2, hl, List.nil_append] at hlog2
                        rw [hlog2] at hprog
                        omega
                  | cons y ys =>
                    rw [List.flatMap_cons, hl, hrest, List.cons_append, List.cons.injEq] at h1
                    exact ⟨s, ys, by rw [h1.1]⟩
              · exact h2 q hq

/-- C47: every line of the file is read by exactly one plan, in order, and every plan but the
first starts at a header line. -/
theorem C47_partition {lines : List Line} {plans : List Plan}
    (h : load fmt lines = some (.ok plans)) :
    plans.flatMap (·.log) = lines ∧ ∀ p ∈ plans.tail, ∃ s t, p.log = .data "W" s :: t :=
  loadLoop_partition _ _ _ h

end Welleng.Props
