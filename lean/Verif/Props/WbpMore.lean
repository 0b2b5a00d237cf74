import Verif.Props.Wbp

/-!
C47 (one header per plan), C89-C92: which files load, header round trip, export of a loaded plan,
codes.
-/

namespace Welleng.Props

open Wbp

variable {fmt : String → String → Bool}

/-- A header line. -/
def isW : Line → Bool
  | .data c _ => c = "W"
  | _ => false

/-- A section keyword. -/
def isKey : Line → Bool
  | .depth _ => true
  | .targets => true
  | .wellplans => true
  | _ => false

/-- How many header lines a plan has read. -/
def headers (p : Plan) : ℕ := (p.log.filter isW).length

/-- The state of a plan agrees with the number of header lines it has read. -/
def Tidy (p : Plan) : Prop :=
  p.flag ≠ .targets ∧ headers p ≤ (if p.flag = .done then 1 else 0)

theorem headers_snoc (p p' : Plan) (ln : Line) (h : p'.log = p.log) :
    headers { p' with log := p'.log ++ [ln] } = headers p + (if isW ln then 1 else 0) := by
  unfold headers
  simp only [h, List.filter_append, List.length_append]
  by_cases hw : isW ln = true <;> simp [List.filter, hw]

theorem handle_tidy {p p' : Plan} {ln : Line} (hp : Tidy p) (hk : isKey ln = false)
    (h : handle fmt p ln = .ok (some p')) : Tidy { p' with log := p'.log ++ [ln] } := by
  have hl := handle_log h
  have hs := headers_snoc p p' ln hl
  unfold Tidy at hp ⊢
  rw [hs]
  cases ln with
  | blank => simp [handle] at h
  | bang =>
    simp only [handle, Except.ok.injEq, Option.some.injEq] at h
    subst h
    simpa [isW] using hp
  | depth k => simp [isKey] at hk
  | targets => simp [isKey] at hk
  | wellplans => simp [isKey] at hk
  | data code payload =>
    simp only [handle, if_neg hp.1, handleRec] at h
    by_cases hW : code = "W"
    · rw [if_pos hW] at h
      split_ifs at h with h1 h2
      · simp at h
      · simp only [Except.ok.injEq, Option.some.injEq] at h
        subst h
        rw [if_neg h1] at hp
        simp only [isW, hW, decide_true, if_true]
        exact ⟨by simp, by omega⟩
    · have hw : isW (.data code payload) = false := by simp [isW, hW]
      rw [if_neg hW] at h
      rw [hw]
      have : p'.flag = p.flag := by
        split_ifs at h <;> simp only [Except.ok.injEq, Option.some.injEq, reduceCtorEq] at h
          <;> rw [← h]
      simp only [this]
      simpa using hp

theorem process_tidy : ∀ (lines : List Line) {p q : Plan} {rest : List Line}, Tidy p →
    (∀ ln ∈ lines, isKey ln = false) → process fmt p lines = .ok (q, rest) → Tidy q
  | [], p, q, rest, hp, _, h => by
    simp only [process, Except.ok.injEq, Prod.mk.injEq] at h
    rwa [← h.1]
  | ln :: t, p, q, rest, hp, hk, h => by
    rw [process] at h
    cases hh : handle fmt p ln with
    | error e => simp [hh] at h
    | ok o =>
      cases o with
      | none =>
        simp only [hh, Except.ok.injEq, Prod.mk.injEq] at h
        rwa [← h.1]
      | some p' =>
        simp only [hh] at h
        exact process_tidy t (handle_tidy hp (hk ln List.mem_cons_self) hh)
          (fun x hx => hk x (List.mem_cons_of_mem _ hx)) h

theorem process_append : ∀ (a b : List Line) {p : Plan} {r}, (∀ ln ∈ a, isW ln = false) →
    process fmt p (a ++ b) = .ok r → ∃ q, process fmt p a = .ok (q, []) ∧
      process fmt q b = .ok r
  | [], b, p, r, _, h => ⟨p, rfl, h⟩
  | ln :: t, b, p, r, hw, h => by
    rw [List.cons_append, process] at h
    rw [process]
    cases hh : handle fmt p ln with
    | error e => simp [hh] at h
    | ok o =>
      cases o with
      | none =>
        obtain ⟨-, s, rfl⟩ := handle_break hh
        simpa [isW] using hw _ List.mem_cons_self
      | some p' =>
        simp only [hh] at h ⊢
        exact process_append t b (fun x hx => hw x (List.mem_cons_of_mem _ hx)) h

theorem headers_le_of_tidy {p : Plan} (h : Tidy p) : headers p ≤ 1 := by
  have := h.2
  split_ifs at this <;> omega

theorem loadLoop_one_header : ∀ (f : ℕ) (u : Option String) (lines : List Line) {plans},
    (∀ ln ∈ lines, isKey ln = false) → loadLoop fmt f u lines = some (.ok plans) →
    ∀ p ∈ plans, headers p ≤ 1
  | 0, u, lines, plans, _, h => by simp [loadLoop] at h
  | f + 1, u, lines, plans, hk, h => by
    rw [loadLoop] at h
    cases hp : process fmt (Plan.init u) lines with
    | error e => simp [hp] at h
    | ok r =>
      obtain ⟨p, rest⟩ := r
      have hq : headers p ≤ 1 := headers_le_of_tidy
        (process_tidy lines (by simp [Tidy, Plan.init, headers]) hk hp)
      simp only [hp] at h
      split_ifs at h with hr
      · simp only [Option.some.injEq, Except.ok.injEq] at h
        subst h
        simpa using hq
      · cases hx : loadLoop fmt f p.units rest with
        | none => simp [hx] at h
        | some x =>
          cases x with
          | error e => simp [hx, Except.map] at h
          | ok ps =>
            simp only [hx, Option.map_some, Except.map, Option.some.injEq, Except.ok.injEq] at h
            subst h
            have hlog := process_log lines hp
            simp only [Plan.init, List.nil_append] at hlog
            have := loadLoop_one_header f _ rest
              (fun ln hln => hk ln (by rw [← hlog]; exact List.mem_append_right _ hln)) hx
            intro q hq'
            rcases List.mem_cons.mp hq' with rfl | hq'
            · exact hq
            · exact this q hq'

/-- C47: in a file whose section keywords all come before the header lines, no plan has more than
one header line. -/
theorem C47_one_header {pre body : List Line} {plans : List Plan}
    (hpre : ∀ ln ∈ pre, isW ln = false) (hbody : ∀ ln ∈ body, isKey ln = false)
    (h : load fmt (pre ++ .wellplans :: body) = some (.ok plans)) :
    ∀ p ∈ plans, headers p ≤ 1 := by
  unfold load at h
  rw [loadLoop] at h
  cases hp : process fmt (Plan.init none) (pre ++ .wellplans :: body) with
  | error e => simp [hp] at h
  | ok r =>
    obtain ⟨p, rest⟩ := r
    obtain ⟨q, hq1, hq2⟩ := process_append pre _ hpre hp
    have hlq := process_log pre hq1
    simp only [Plan.init, List.nil_append, List.append_nil] at hlq
    rw [process] at hq2
    simp only [handle] at hq2
    have h0 : headers { q with
        flag := .wellplans
        tieOn := true
        log := q.log ++ [Line.wellplans] } = 0 := by
      unfold headers
      simp only [hlq, List.filter_append, List.length_append]
      have : pre.filter isW = [] := by
        rw [List.filter_eq_nil_iff]; intro x hx; simp [hpre x hx]
      simp [this, List.filter, isW]
    have hqp : headers p ≤ 1 := by
      refine headers_le_of_tidy (process_tidy body ?_ hbody hq2)
      exact ⟨by simp, by rw [h0]; exact Nat.zero_le _⟩
    have hlb := process_log body hq2
    simp only [hp] at h
    split_ifs at h with hr
    · simp only [Option.some.injEq, Except.ok.injEq] at h
      subst h
      simpa using hqp
    · cases hx : loadLoop fmt ((pre ++ Line.wellplans :: body).length) p.units rest with
      | none => rw [hx] at h; simp at h
      | some x =>
        cases x with
        | error e => rw [hx] at h; simp [Except.map] at h
        | ok ps =>
          simp only [hx, Option.map_some, Except.map, Option.some.injEq, Except.ok.injEq] at h
          subst h
          have hrest : ∀ ln ∈ rest, isKey ln = false := by
            intro ln hln
            -- what is not read begins at a header line, so lies in the body
            have hsuf : rest <:+ body := by
              have : ∀ (l : List Line) {p q : Plan} {r : List Line},
                  process fmt p l = .ok (q, r) → r <:+ l := by
                intro l
                induction l with
                | nil =>
                  intro p q r h
                  simp only [process, Except.ok.injEq, Prod.mk.injEq] at h
                  rw [h.2]
                | cons x t ih =>
                  intro p q r h
                  rw [process] at h
                  cases hx : handle fmt p x with
                  | error e => simp [hx] at h
                  | ok o =>
                    cases o with
                    | none =>
                      simp only [hx, Except.ok.injEq, Prod.mk.injEq] at h
                      rw [h.2]
                    | some p2 =>
                      simp only [hx] at h
                      exact (ih h).trans (List.suffix_cons x t)
              exact this body hq2
            exact hbody ln (hsuf.mem hln)
          have := loadLoop_one_header _ _ rest hrest hx
          intro y hy
          rcases List.mem_cons.mp hy with rfl | hy
          · exact hqp
          · exact this y hy

/-- Two plans: the header lines split the file. -/
example : (load (fun _ _ => true)
    [.depth "2", .targets, .wellplans, .data "W" "a", .data "P" "1", .data "L" "x",
      .data "W" "b", .data "P" "2"]).map
        (fun r => r.map (fun ps => ps.map (fun p => (p.header, p.steps))))
    = some (.ok [(some "a", ["1"]), (some "b", ["2"])]) := by
  decide +kernel

/-- Without the restriction on keywords two headers end up in one plan. -/
theorem C47_keyword_merges :
    (load (fun _ _ => true)
      [.data "W" "a", .data "P" "1", .wellplans, .data "W" "b", .data "P" "2"]).map
        (fun r => r.map (fun ps => ps.map (fun p => (p.header, p.steps))))
    = some (.ok [(some "b", ["1", "2"])]) := by
  decide +kernel

/-! ### C89 -/

/-- C89 is false: a file with a blank line does not load. -/
theorem C89_blank_line_fails {lines : List Line} (h : Line.blank ∈ lines) {plans : List Plan} :
    load fmt lines ≠ some (.ok plans) := by
  intro hl
  have key : ∀ (l : List Line) {p q : Plan} {r : List Line},
      process fmt p l = .ok (q, r) → Line.blank ∈ l → Line.blank ∈ r := by
    intro l
    induction l with
    | nil => intro p q r _ h; simp at h
    | cons x t ih =>
      intro p q r h hm
      rw [process] at h
      cases hx : handle fmt p x with
      | error e => simp [hx] at h
      | ok o =>
        cases o with
        | none =>
          simp only [hx, Except.ok.injEq, Prod.mk.injEq] at h
          rwa [← h.2]
        | some p2 =>
          simp only [hx] at h
          rcases List.mem_cons.mp hm with rfl | hm
          · simp [handle] at hx
          · exact ih h hm
  have loop : ∀ (f : ℕ) (u : Option String) (l : List Line) (plans : List Plan),
      Line.blank ∈ l → loadLoop fmt f u l ≠ some (.ok plans) := by
    intro f
    induction f with
    | zero => intro u l plans _ h; simp [loadLoop] at h
    | succ f ih =>
      intro u l plans hm h
      rw [loadLoop] at h
      cases hp : process fmt (Plan.init u) l with
      | error e => simp [hp] at h
      | ok r =>
        obtain ⟨p, rest⟩ := r
        have hb := key l hp hm
        simp only [hp] at h
        rw [if_neg (by rintro rfl; simp at hb)] at h
        cases hx : loadLoop fmt f p.units rest with
        | none => simp [hx] at h
        | some x =>
          cases x with
          | error e => simp [hx, Except.map] at h
          | ok ps => exact ih p.units rest ps hb hx
  exact loop _ _ _ _ h hl

/-- C89 is false: a target with a geometry line does not load, whatever else is in the file. -/
theorem C89_geometry_fails (name geometry : String) (rest : List Line) :
    load fmt (.targets :: .data "T" name :: .data "G" geometry :: rest)
      = some (.error .attribute) := by
  have h1 : process fmt (Plan.init none) (.targets :: .data "T" name :: .data "G" geometry :: rest)
      = .error .attribute := by
    simp [process, handle, handleTarget, Plan.init, Except.map]
  unfold load
  rw [loadLoop, h1]

/-- A line that needs a step before it. -/
def needsStep : Line → Bool
  | .data c _ => c = "L" || c = "S"
  | _ => false

/-- A line after which there is a step. -/
def givesStep : Line → Bool
  | .data c _ => c = "P" || c = "X" || c = "L" || c = "S"
  | _ => false

/-- A line that is well formed on its own and in no target section. -/
def plain (fmt : String → String → Bool) : Line → Bool
  | .blank => false
  | .bang => true
  | .depth k => k ∈ depthKeys
  | .targets => false
  | .wellplans => true
  | .data c s => fmt c s

theorem process_plain : ∀ (lines : List Line) {p : Plan}, (∀ ln ∈ lines, plain fmt ln = true) →
    p.flag ≠ .targets → lines.IsChain (fun a b => needsStep b = true → givesStep a = true) →
    (∀ ln, lines.head? = some ln → needsStep ln = true → p.steps ≠ []) →
    ∃ r, process fmt p lines = .ok r
  | [], p, _, _, _, _ => ⟨_, rfl⟩
  | ln :: t, p, hpl, hf, hch, hs => by
    have hpl' := fun x hx => hpl x (List.mem_cons_of_mem _ hx)
    have h0 := hpl ln List.mem_cons_self
    rw [process]
    have next : ∀ p' : Plan, handle fmt p ln = .ok (some p') → p'.flag ≠ .targets →
        (givesStep ln = true → p'.steps ≠ []) →
        ∃ r, (match handle fmt p ln with
          | .error e => .error e
          | .ok none => .ok (p, ln :: t)
          | .ok (some p') => process fmt { p' with log := p'.log ++ [ln] } t) = Except.ok r := by
      intro p' hh hf' hg
      rw [hh]
      refine process_plain t hpl' hf' hch.tail ?_
      intro x hx hnx
      cases t with
      | nil => simp at hx
      | cons y ys =>
        simp only [List.head?_cons, Option.some.injEq] at hx
        subst hx
        rw [List.isChain_cons_cons] at hch
        exact hg (hch.1 hnx)
    cases ln with
    | blank => simp [plain] at h0
    | bang => exact next p rfl hf (by simp [givesStep])
    | depth k =>
      simp only [plain, decide_eq_true_eq] at h0
      exact next _ (by simp only [handle, if_pos h0]; rfl) (by simp) (by simp [givesStep])
    | targets => simp [plain] at h0
    | wellplans => exact next _ rfl (by simp) (by simp [givesStep])
    | data c s =>
      simp only [plain] at h0
      have hs' : needsStep (.data c s) = true → p.steps ≠ [] := hs _ rfl
      by_cases hW : c = "W"
      · by_cases hd : p.flag = .done
        · have : handle fmt p (.data c s) = .ok none := by
            simp [handle, handleRec, hW, hd]
          rw [this]
          exact ⟨_, rfl⟩
        · refine next { p with flag := .done, tieOn := true, header := some s } ?_ (by simp) ?_
          · subst hW; simp [handle, handleRec, hd, hf, h0]
          · subst hW; simp [givesStep]
      by_cases hP : c = "P"
      · refine next { p with steps := p.steps ++ [s] } ?_ hf (by simp)
        subst hP; simp [handle, handleRec, hf, h0]
      by_cases hL : c = "L"
      · have := hs' (by simp [needsStep, hL])
        refine next { p with tieOn := false } ?_ hf (fun _ => this)
        subst hL; simp [handle, handleRec, hf, h0, this]
      by_cases hX : c = "X"
      · refine next { p with steps := p.steps ++ [s] } ?_ hf (by simp)
        subst hX; simp [handle, handleRec, hf, h0]
      by_cases hS : c = "S"
      · have := hs' (by simp [needsStep, hS])
        refine next p ?_ hf (fun _ => this)
        subst hS; simp [handle, handleRec, hf, h0, this]
      · refine next p ?_ hf ?_
        · simp [handle, handleRec, hf, hW, hP, hL, hX, hS]
        · simp [givesStep, hP, hX, hL, hS]

/-- C89, what holds: a file without blank lines and target sections, with well-formed payloads,
in which every location or survey line directly follows a step line, loads. -/
theorem C89_plain_file_partial {lines : List Line} (hpl : ∀ ln ∈ lines, plain fmt ln = true)
    (hch : lines.IsChain (fun a b => needsStep b = true → givesStep a = true))
    (hs : ∀ ln, lines.head? = some ln → needsStep ln = false) :
    ∃ plans, load fmt lines = some (.ok plans) := by
  have loop : ∀ (f : ℕ) (u : Option String) (l : List Line), (∀ ln ∈ l, plain fmt ln = true) →
      l.IsChain (fun a b => needsStep b = true → givesStep a = true) →
      (∀ ln, l.head? = some ln → needsStep ln = false) →
      ∀ e, loadLoop fmt f u l ≠ some (.error e) := by
    intro f
    induction f with
    | zero => intro u l _ _ _ e h; simp [loadLoop] at h
    | succ f ih =>
      intro u l h1 h2 h3 e h
      obtain ⟨⟨p, rest⟩, hp⟩ := process_plain l (p := Plan.init u) h1 (by simp [Plan.init]) h2
        (fun ln hln hn => by rw [h3 ln hln] at hn; exact absurd hn (by simp))
      have hlog := process_log l hp
      simp only [Plan.init, List.nil_append] at hlog
      rw [loadLoop] at h
      simp only [hp] at h
      split_ifs at h with hr
      · simp at h
      · refine ih p.units rest ?_ ?_ ?_ e ?_
        · intro x hx; exact h1 x (by rw [← hlog]; exact List.mem_append_right _ hx)
        · rw [← hlog] at h2; exact h2.right_of_append
        · intro x hx
          cases rest with
          | nil => simp at hx
          | cons y ys =>
            simp only [List.head?_cons, Option.some.injEq] at hx
            obtain ⟨s, hs⟩ := process_rest l hp
            rw [← hx, hs]; simp [needsStep]
        · cases hx : loadLoop fmt f p.units rest with
          | none => simp [hx] at h
          | some x =>
            cases x with
            | error e' => simp only [hx, Option.map_some, Except.map, Option.some.injEq] at h; rw [h]
            | ok ps => simp [hx, Except.map] at h
  cases hl : load fmt lines with
  | none => exact absurd hl (C47_terminates lines)
  | some r =>
    cases r with
    | error e => exact absurd hl (loop _ _ _ hpl hch hs e)
    | ok ps => exact ⟨ps, rfl⟩

/-! ### C90 -/

/-- No blank at either end. -/
def Trimmed (s : List Char) : Prop := s.head? ≠ some ' ' ∧ s.getLast? ≠ some ' '

theorem dropWhile_blanks (n : ℕ) (s : List Char) :
    (List.replicate n ' ' ++ s).dropWhile (· = ' ') = s.dropWhile (· = ' ') := by
  induction n with
  | zero => rfl
  | succ n ih => simp [List.replicate_succ, List.dropWhile_cons, ih]

theorem dropWhile_head {s : List Char} (h : s.head? ≠ some ' ') :
    s.dropWhile (· = ' ') = s := by
  cases s with
  | nil => rfl
  | cons c t => rw [List.dropWhile_cons_of_neg]; simpa using h

theorem strip_pad {s : List Char} (h : Trimmed s) (n m : ℕ) :
    strip (List.replicate n ' ' ++ s ++ List.replicate m ' ') = s := by
  unfold strip
  rw [List.append_assoc, dropWhile_blanks]
  cases s with
  | nil =>
    have : (List.replicate m ' ').dropWhile (· = ' ') = [] := by
      have := dropWhile_blanks m []
      simpa using this
    simp [this]
  | cons c t =>
    have hc : (c :: t ++ List.replicate m ' ').dropWhile (· = ' ')
        = c :: t ++ List.replicate m ' ' := dropWhile_head (by simpa using h.1)
    rw [hc, List.reverse_append, List.reverse_replicate, dropWhile_blanks, dropWhile_head]
    · simp
    · rw [List.head?_reverse]; exact h.2

theorem slice_mid {i j : ℕ} {a b c : List Char} (ha : a.length = i) (hb : a.length + b.length = j) :
    slice i j (a ++ b ++ c) = b := by
  unfold slice
  rw [List.take_append_of_le_length (by simp [hb]), List.take_of_length_le (by simp [hb]),
    List.drop_append_of_le_length (by omega), ← ha, List.drop_length, List.nil_append]

/-- Blank fields read as `None`. -/
def field (s : List Char) : Option (List Char) := if s = [] then none else some s

theorem rjust_length {w : ℕ} {s : List Char} (h : s.length ≤ w) : (rjust w s).length = w := by
  simp [rjust]; omega

theorem ljust_length {w : ℕ} {s : List Char} (h : s.length ≤ w) : (ljust w s).length = w := by
  simp [ljust]; omega

theorem stringStrip_pad {s t : List Char} (h : Trimmed s) (n m : ℕ)
    (he : t = List.replicate n ' ' ++ s ++ List.replicate m ' ') :
    stringStrip t = field s := by
  unfold stringStrip field
  rw [he, strip_pad h]

/-- C90: a header whose names have no blanks at the ends and fit their columns (60 characters
for the names, 7 for the side track, 6 and 8 for the numbers) is read back as written. -/
theorem C90_header_round_trip_partial {h : Header} (hs : Trimmed h.sidetrack)
    (hp : Trimmed h.plan) (hq : Trimmed h.parent) (hd : Trimmed h.dls) (he : Trimmed h.extension)
    (ls : h.sidetrack.length ≤ 7) (lp : h.plan.length ≤ 60) (lq : h.parent.length ≤ 60)
    (ld : h.dls.length ≤ 6) (le : h.extension.length ≤ 8) :
    readHeader (writeHeader h) = ⟨some h.kind, some h.method, some h.dirty, field h.sidetrack,
      field h.plan, field h.parent, field h.dls, field h.extension⟩ := by
  have r7 := rjust_length ls
  have l60 := ljust_length lp
  have q60 := ljust_length lq
  have r6 := rjust_length ld
  obtain ⟨A, hA⟩ : ∃ A, A = ['W', ':', h.kind, h.unit, h.method, h.dirty, ' ', ' ', ' ', '0', ' ',
    '1', '2', '3'] := ⟨_, rfl⟩
  have hw : writeHeader h = A ++ (' ' :: rjust 7 h.sidetrack) ++ (' ' :: ljust 60 h.plan) ++
      (' ' :: ljust 60 h.parent) ++ (' ' :: rjust 6 h.dls) ++ (' ' :: rjust 7 h.extension) := by
    rw [hA]; rfl
  have lA : A.length = 14 := by rw [hA]; rfl
  have e1 : stringStrip (slice 14 22 (writeHeader h)) = field h.sidetrack := by
    -- side track
    rw [hw]
    simp only [List.append_assoc]
    rw [← List.append_assoc, slice_mid lA (by simp [lA, r7])]
    exact stringStrip_pad hs (7 - h.sidetrack.length + 1) 0 (by
      simp [rjust, List.replicate_succ])
  have e2 : stringStrip (slice 23 84 (writeHeader h)) = field h.plan := by
    -- plan
    have : writeHeader h = (A ++ (' ' :: rjust 7 h.sidetrack) ++ [' ']) ++
        (ljust 60 h.plan ++ [' ']) ++ (ljust 60 h.parent ++ (' ' :: rjust 6 h.dls) ++
          (' ' :: rjust 7 h.extension)) := by
      rw [hw]; simp
    rw [this, slice_mid (by simp [lA, r7]) (by simp [lA, r7, l60])]
    exact stringStrip_pad hp 0 (60 - h.plan.length + 1) (by
      simp [ljust, List.replicate_succ'])
  have e3 : stringStrip (slice 84 144 (writeHeader h)) = field h.parent := by
    have : writeHeader h = (A ++ (' ' :: rjust 7 h.sidetrack) ++ (' ' :: ljust 60 h.plan) ++ [' ']) ++
        ljust 60 h.parent ++ ((' ' :: rjust 6 h.dls) ++ (' ' :: rjust 7 h.extension)) := by
      rw [hw]; simp
    rw [this, slice_mid (by simp [lA, r7, l60]) (by simp [lA, r7, l60, q60])]
    exact stringStrip_pad hq 0 (60 - h.parent.length) (by simp [ljust])
  have e4 : stringStrip (slice 144 151 (writeHeader h)) = field h.dls := by
    have : writeHeader h = (A ++ (' ' :: rjust 7 h.sidetrack) ++ (' ' :: ljust 60 h.plan) ++
        (' ' :: ljust 60 h.parent)) ++ (' ' :: rjust 6 h.dls) ++ (' ' :: rjust 7 h.extension) := by
      rw [hw]
    rw [this, slice_mid (by simp [lA, r7, l60, q60]) (by simp [lA, r7, l60, q60, r6])]
    exact stringStrip_pad hd (6 - h.dls.length + 1) 0 (by simp [rjust, List.replicate_succ])
  have e5 : stringStrip (slice 151 160 (writeHeader h)) = field h.extension := by
    have hlen : (writeHeader h).length ≤ 160 := by
      rw [hw]; simp [lA, r7, l60, q60, r6, rjust]; omega
    have : slice 151 160 (writeHeader h) = ' ' :: rjust 7 h.extension := by
      unfold slice
      rw [List.take_of_length_le hlen, hw, List.drop_append_of_le_length
        (by simp [lA, r7, l60, q60, r6]), List.drop_of_length_le (by simp [lA, r7, l60, q60, r6]),
        List.nil_append]
    rw [this]
    exact stringStrip_pad he (7 - h.extension.length + 1) 0 (by simp [rjust, List.replicate_succ])
  have c : (writeHeader h)[2]? = some h.kind ∧ (writeHeader h)[4]? = some h.method ∧
      (writeHeader h)[5]? = some h.dirty := by
    simp [writeHeader]
  rw [readHeader, e1, e2, e3, e4, e5, c.1, c.2.1, c.2.2]

/-- A sample header. -/
def sampleHeader : Header :=
  ⟨'1', '2', '0', '0', [], "Plan A".toList, "Parent".toList, "3.00".toList, "0.00000".toList⟩

example : Trimmed sampleHeader.plan ∧ Trimmed sampleHeader.sidetrack := by
  simp [Trimmed, sampleHeader]

/-- C90 is false for long names: a plan name of 70 characters loses its last nine, which become
the parent's name, and the dogleg severity is unreadable. -/
theorem C90_long_name :
    let h : Header := { sampleHeader with plan := List.replicate 70 'a' }
    (readHeader (writeHeader h)).plan = some (List.replicate 61 'a') ∧
    (readHeader (writeHeader h)).parent = some (List.replicate 9 'a' ++ " Parent".toList) ∧
    (readHeader (writeHeader h)).dls = none := by
  decide +kernel

/-! ### C91 -/

/-- C91 is false: a plan read from a file without a side track id cannot be written. -/
theorem C91_no_sidetrack_fails {h : Header} (hs : Trimmed h.sidetrack)
    (hp : Trimmed h.plan) (hq : Trimmed h.parent) (hd : Trimmed h.dls) (he : Trimmed h.extension)
    (ls : h.sidetrack = []) (lp : h.plan.length ≤ 60) (lq : h.parent.length ≤ 60)
    (ld : h.dls.length ≤ 6) (le : h.extension.length ≤ 8) :
    formatSidetrack (readHeader (writeHeader h)).sidetrack = .error .value := by
  rw [C90_header_round_trip_partial hs hp hq hd he (by simp [ls]) lp lq ld le]
  simp [field, ls, formatSidetrack]

/-- C91, what holds: with a side track id of at most seven characters the column is written as
it was. -/
theorem C91_sidetrack_partial {h : Header} (hs : Trimmed h.sidetrack)
    (hp : Trimmed h.plan) (hq : Trimmed h.parent) (hd : Trimmed h.dls) (he : Trimmed h.extension)
    (hne : h.sidetrack ≠ []) (ls : h.sidetrack.length ≤ 7) (lp : h.plan.length ≤ 60)
    (lq : h.parent.length ≤ 60) (ld : h.dls.length ≤ 6) (le : h.extension.length ≤ 8) :
    formatSidetrack (readHeader (writeHeader h)).sidetrack = .ok (rjust 7 h.sidetrack) := by
  rw [C90_header_round_trip_partial hs hp hq hd he ls lp lq ld le]
  simp [field, hne, formatSidetrack]

/-! ### C92 -/

/-- C92: the unit code written for a pair of units reads back as that pair, and every code is
the one written for its units. -/
theorem C92_units : (∀ s d : U, (unitKey (some s) (some d)).bind unitsOf = some (s, d)) ∧
    (∀ k s d, unitsOf k = some (s, d) → unitKey (some s) (some d) = some k) := by
  constructor
  · intro s d; cases s <;> cases d <;> decide
  · intro k s d h
    have hk : k = "1" ∨ k = "2" ∨ k = "3" ∨ k = "4" := by
      by_contra hc
      simp only [not_or] at hc
      obtain ⟨h1, h2, h3, h4⟩ := hc
      simp [unitsOf, depthTable, List.lookup, beq_false_of_ne h1, beq_false_of_ne h2,
        beq_false_of_ne h3, beq_false_of_ne h4] at h
    rcases hk with rfl | rfl | rfl | rfl <;>
      (have h' := h; revert h'; cases s <;> cases d <;> decide)

theorem getKey_spec {V : Type} [DecidableEq V] : ∀ {d : List (Char × V)}, (d.map (·.2)).Nodup →
    ∀ {k v}, (k, v) ∈ d → getKey d v = some k
  | [], _, _, _, h => by simp at h
  | (k', v') :: t, hn, k, v, h => by
    simp only [List.map_cons, List.nodup_cons] at hn
    unfold getKey
    rcases List.mem_cons.mp h with he | h
    · simp only [Prod.mk.injEq] at he
      rw [List.filter_cons_of_pos (by simp [he.2])]
      simp [he.1]
    · have hne : v' ≠ v := fun hc => hn.1 (List.mem_map.mpr ⟨(k, v), h, hc.symm⟩)
      rw [List.filter_cons_of_neg (by simpa using hne)]
      exact getKey_spec hn.2 h

/-- C92: every location type and plan method is written as the code it is read from. -/
theorem C92_codes : (∀ k v, (k, v) ∈ typeTable → getKey typeTable v = some k) ∧
    (∀ k v, (k, v) ∈ methodTable → getKey methodTable v = some k) :=
  ⟨fun _ _ h => getKey_spec (by decide) h, fun _ _ h => getKey_spec (by decide) h⟩

end Welleng.Props
