import Verif.Props.Wbp

/-! C409: a well plan appended to a `.wbp` file (`/repo/welleng/exchange/wbp.py` 235-288,
407-452). -/

namespace Welleng.Props

open Welleng Welleng.Wbp

variable {fmt : String → String → Bool}

/-- A plan that ended at a second header ends there whatever follows. -/
theorem process_append_rest (B : List Line) : ∀ (A : List Line) {p q : Plan} {ln : Line}
    {rest : List Line}, process fmt p A = .ok (q, ln :: rest) →
      process fmt p (A ++ B) = .ok (q, ln :: rest ++ B)
  | [], p, q, ln, rest, h => by simp [process] at h
  | x :: A, p, q, ln, rest, h => by
    rw [process] at h
    rw [List.cons_append, process]
    cases hx : handle fmt p x with
    | error e => simp [hx] at h
    | ok o =>
      cases o with
      | none =>
        simp only [hx, Except.ok.injEq, Prod.mk.injEq] at h
        obtain ⟨rfl, h⟩ := h
        injection h with h1 h2
        subst h1; subst h2
        rfl
      | some p' =>
        simp only [hx] at h
        exact process_append_rest B A h

/-- A plan with a header that ended with the file ends at a header that follows. -/
theorem process_append_header (s : String) (B : List Line) : ∀ (A : List Line) {p q : Plan},
    q.flag = .done → process fmt p A = .ok (q, []) →
      process fmt p (A ++ .data "W" s :: B) = .ok (q, .data "W" s :: B)
  | [], p, q, hq, h => by
    simp only [process, Except.ok.injEq, Prod.mk.injEq, and_true] at h
    subst h
    simp [process, handle, handleRec, hq]
  | x :: A, p, q, hq, h => by
    rw [process] at h
    rw [List.cons_append, process]
    cases hx : handle fmt p x with
    | error e => simp [hx] at h
    | ok o =>
      cases o with
      | none => simp [hx] at h
      | some p' =>
        simp only [hx] at h
        exact process_append_header s B A hq h

theorem loadLoop_fuel : ∀ (f k : ℕ) (u : Option String) (lines : List Line) {r},
    loadLoop fmt f u lines = some r → loadLoop fmt (f + k) u lines = some r
  | 0, k, u, lines, r, h => by simp [loadLoop] at h
  | f + 1, k, u, lines, r, h => by
    rw [show f + 1 + k = (f + k) + 1 by omega, loadLoop]
    rw [loadLoop] at h
    cases hp : process fmt (Plan.init u) lines with
    | error e => rw [hp] at h; exact h
    | ok x =>
      obtain ⟨p, rest⟩ := x
      simp only [hp] at h ⊢
      split_ifs at h ⊢ with hr
      · exact h
      · rw [Option.map_eq_some_iff] at h ⊢
        obtain ⟨a, ha, h⟩ := h
        exact ⟨a, loadLoop_fuel f k _ _ ha, h⟩

theorem loadLoop_appended (s : String) (B : List Line) : ∀ (f g : ℕ) (u : Option String)
    (A : List Line) {plans : List Plan} {last : Plan} {r : Except Wbp.Err (List Plan)},
    loadLoop fmt f u A = some (.ok plans) → plans.getLast? = some last → last.flag = .done →
    loadLoop fmt g last.units (.data "W" s :: B) = some r →
    loadLoop fmt (f + g) u (A ++ .data "W" s :: B) = some (r.map (plans ++ ·))
  | 0, g, u, A, plans, last, r, h, hl, hd, hB => by simp [loadLoop] at h
  | f + 1, g, u, A, plans, last, r, h, hl, hd, hB => by
    rw [show f + 1 + g = (f + g) + 1 by omega, loadLoop]
    rw [loadLoop] at h
    cases hp : process fmt (Plan.init u) A with
    | error e => simp [hp] at h
    | ok x =>
      obtain ⟨p, rest⟩ := x
      simp only [hp] at h
      cases rest with
      | nil =>
        simp only [if_true, Option.some.injEq, Except.ok.injEq] at h
        subst h
        simp only [List.getLast?_singleton, Option.some.injEq] at hl
        subst hl
        rw [process_append_header s B A hd hp]
        dsimp only
        rw [if_neg (by simp), show f + g = g + f by omega, loadLoop_fuel g f _ _ hB]
        cases r <;> rfl
      | cons ln rest =>
        rw [if_neg (by simp), Option.map_eq_some_iff] at h
        obtain ⟨a, ha, h⟩ := h
        cases a with
        | error e => cases h
        | ok ps =>
          simp only [Except.map, Except.ok.injEq] at h
          subst h
          have hne : ps ≠ [] := by
            rintro rfl
            have := (loadLoop_partition f p.units (ln :: rest) ha).1
            simp at this
          rw [List.getLast?_cons_of_ne_nil hne] at hl
          rw [process_append_rest _ A hp]
          dsimp only
          rw [if_neg (by simp), loadLoop_appended s B f g p.units (ln :: rest) ha hl hd hB]
          cases r <;> rfl

theorem loadLoop_ends (u : Option String) (lines : List Line) :
    ∃ r, loadLoop fmt (lines.length + 1) u lines = some r := by
  have : ∀ (f : ℕ) (u : Option String) (lines : List Line), lines.length < f →
      ∃ r, loadLoop fmt f u lines = some r := by
    intro f
    induction f with
    | zero => intro u lines h; omega
    | succ f ih =>
      intro u lines hl
      rw [loadLoop]
      cases hp : process fmt (Plan.init u) lines with
      | error e => exact ⟨_, rfl⟩
      | ok r =>
        obtain ⟨p, rest⟩ := r
        dsimp only
        split_ifs with hr
        · exact ⟨_, rfl⟩
        · have hne : lines ≠ [] := by
            rintro rfl
            simp only [process, Except.ok.injEq, Prod.mk.injEq] at hp
            exact hr hp.2.symm
          have := process_progress hne hp
          obtain ⟨x, hx⟩ := ih p.units rest (by omega)
          rw [hx]
          exact ⟨_, rfl⟩
  exact this _ u lines (by omega)

/-- **C409** Well plans can be appended to a file: if a file loads and its last plan has a header and
is not in its section of targets, then the file with the lines of further plans, beginning with a
header, loads exactly when the lines appended do, read with the units in force at the end of the
file, and the plans before are the same as without them. -/
theorem C409_appended {A B : List Line} {s : String} {plans : List Plan} {last : Plan}
    (h : load fmt A = some (.ok plans)) (hl : plans.getLast? = some last)
    (hd : last.flag = .done) :
    ∃ r, loadLoop fmt ((.data "W" s :: B : List Line).length + 1) last.units (.data "W" s :: B)
        = some r ∧ load fmt (A ++ .data "W" s :: B) = some (r.map (plans ++ ·)) := by
  obtain ⟨r, hr⟩ := loadLoop_ends (fmt := fmt) last.units (.data "W" s :: B)
  refine ⟨r, hr, ?_⟩
  have h1 := loadLoop_appended s B _ _ none A h hl hd hr
  obtain ⟨r2, h2⟩ := loadLoop_ends (fmt := fmt) none (A ++ .data "W" s :: B)
  have h3 := loadLoop_fuel _ 1 _ _ h2
  unfold load
  rw [h2, ← h3, ← h1]
  congr 1
  simp only [List.length_append, List.length_cons]
  omega

/-- **C409** In particular, whenever the longer file loads, its first plans are those of the shorter
one. -/
theorem C409_first_plans {A B : List Line} {s : String} {plans plans' : List Plan} {last : Plan}
    (h : load fmt A = some (.ok plans)) (hl : plans.getLast? = some last) (hd : last.flag = .done)
    (h' : load fmt (A ++ .data "W" s :: B) = some (.ok plans')) : plans <+: plans' := by
  obtain ⟨r, -, e⟩ := C409_appended (B := B) (s := s) h hl hd
  rw [e] at h'
  cases r with
  | error x => cases h'
  | ok t =>
    simp only [Except.map, Option.some.injEq, Except.ok.injEq] at h'
    exact ⟨t, h'⟩

/-- Non-vacuity: a file with one plan, and a second plan appended. -/
example : ∃ plans last plans', load (fun _ _ => true) [.depth "1", .wellplans, .data "W" "a",
      .data "P" "x"] = some (.ok plans) ∧ plans.getLast? = some last ∧ last.flag = .done ∧
    load (fun _ _ => true) ([.depth "1", .wellplans, .data "W" "a", .data "P" "x"] ++
      .data "W" "b" :: [.data "P" "y"]) = some (.ok plans') ∧ plans'.length = 2 :=
  ⟨_, _, _, rfl, rfl, rfl, rfl, rfl⟩

end Welleng.Props
