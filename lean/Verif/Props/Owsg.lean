import Verif.Spec.Owsg
import Mathlib.Tactic.NormNum
import Mathlib.Tactic.Linarith
import Mathlib.Data.List.Nodup

/-!
C259-C266: conversion of OWSG workbooks to JSON tool models.
-/

namespace Welleng.Props

open Welleng Welleng.Owsg

/-! ### C259 -/

theorem trunc_int (n : ℤ) : trunc (n : ℚ) = n := by
  unfold trunc
  split <;> simp

theorem showNum_int (py : Py) (n : ℤ) : showNum py (n : ℚ) = toString n := by
  simp [showNum]

theorem int_toString_ne (n : ℤ) : toString n ≠ "" := by
  intro h
  have hl : (toString n).length = 0 := by rw [h]; rfl
  cases n with
  | ofNat m =>
    have h1 : (toString (Int.ofNat m)) = toString m := rfl
    rw [h1] at h
    have : (Nat.repr m) ≠ "" := by
      intro h2
      have := congrArg String.toList h2
      simp [Nat.toList_repr] at this
    exact this h
  | negSucc m =>
    have h1 : toString (Int.negSucc m) = "-" ++ toString (m + 1) := rfl
    rw [h1] at h
    have := congrArg String.toList h
    simp at this

theorem scrub_ne {py : Py} (hpy : ∀ q, py.repr q ≠ "") (c : Cell) :
    (scrub py c != "") = (c != .blank && c != .text "") := by
  cases c with
  | blank => rfl
  | num q =>
    have : showNum py q ≠ "" := by
      unfold showNum
      split
      · exact int_toString_ne _
      · exact hpy q
    rw [Bool.eq_iff_iff]; simp [scrub, this]
  | text s =>
    rw [Bool.eq_iff_iff]; simp [scrub]

theorem formulaStr_same (py : Py) (c : Cell) : Spec.SameFormula c (formulaStr py c) := by
  refine ⟨?_, ?_, ?_⟩
  · rintro s rfl; rfl
  · rintro n rfl; exact showNum_int py n
  · rintro rfl; rfl

theorem singularity_same (py : Py) (c : Cell) : Spec.SameSingularity c (singularity py c) := by
  refine ⟨?_, ?_⟩
  · cases c with
    | blank => simp [singularity]
    | num q => by_cases h : q = 0 <;> simp [singularity, h]
    | text s => simp [singularity]
  · rintro s rfl; rfl

theorem convertRow_represents {py : Py} {a b : String} {r : Row} {t : Term} {ws : List Warning}
    (h : convertRow py a b r = some (t, ws)) : Spec.Represents r t := by
  unfold convertRow at h
  cases h1 : factor py r.p1 with
  | none => simp [h1] at h
  | some f1 =>
  cases h2 : factor py r.p2 with
  | none => simp [h1, h2] at h
  | some f2 =>
  cases h3 : factor py r.p3 with
  | none => simp [h1, h2, h3] at h
  | some f3 =>
    simp only [h1, h2, h3, Option.some.injEq, Prod.mk.injEq] at h
    obtain ⟨rfl, -⟩ := h
    have hf : ∀ (c : Cell) (f : ℤ), factor py c = some f → ∀ n : ℤ, c = .num n → f = n := by
      rintro c f hc n rfl
      simp only [factor, Option.some.injEq] at hc
      rw [← hc, trunc_int]
    exact {
      name := fun s hs => by simp [hs, scrub]
      weight := fun s hs => by simp [hs, scrub]
      value := fun q hq => by simp [hq, magnitudeOf]
      units := fun s hs => by simp [hs, scrub]
      mode := fun p hp hs => by
        simp only [Spec.modeTable, List.mem_cons, List.not_mem_nil, or_false] at hp
        rcases hp with rfl | rfl | rfl | rfl <;> simp [hs, scrub, propMode]
      depthFactor := hf _ _ h1
      inclinationFactor := hf _ _ h2
      azimuthFactor := hf _ _ h3
      depth := formulaStr_same py _
      inclination := formulaStr_same py _
      azimuth := formulaStr_same py _
      north := singularity_same py _
      east := singularity_same py _
      vertical := singularity_same py _ }

/-- The rows that are converted are those of the specification. -/
theorem convertRows_cons {py : Py} (hpy : ∀ q, py.repr q ≠ "") (a b : String) (r : Row)
    (t : List Row) : convertRows py a b (r :: t) =
      if Spec.hasTerm r then
        match convertRow py a b r, convertRows py a b t with
        | some x, some y => some (x.1 :: y.1, x.2 ++ y.2)
        | _, _ => none
      else convertRows py a b t := by
  rw [convertRows]
  have : (isTermRow r && scrub py r.code != "") = Spec.hasTerm r := by
    rw [scrub_ne hpy, Spec.hasTerm, isTermRow, Bool.and_assoc]
    rfl
  rw [this]
  cases convertRow py a b r <;> cases convertRows py a b t <;> rfl

/-- Rows and what each gives. -/
theorem convertRows_forall {py : Py} (hpy : ∀ q, py.repr q ≠ "") {a b : String} :
    ∀ {rows : List Row} {terms : List Term} {ws : List Warning},
      convertRows py a b rows = some (terms, ws) →
      ∃ wss : List (List Warning), ws = wss.flatten ∧
        List.Forall₂ (fun r (x : Term × List Warning) => convertRow py a b r = some x)
          (rows.filter Spec.hasTerm) (terms.zip wss) ∧ terms.length = wss.length
  | [], terms, ws, h => by
    simp only [convertRows, Option.some.injEq, Prod.mk.injEq] at h
    obtain ⟨rfl, rfl⟩ := h
    exact ⟨[], rfl, by simp, rfl⟩
  | r :: t, terms, ws, h => by
    rw [convertRows_cons hpy] at h
    by_cases hr : Spec.hasTerm r = true
    · rw [if_pos hr] at h
      cases hx : convertRow py a b r with
      | none => simp [hx] at h
      | some x =>
        cases hy : convertRows py a b t with
        | none => simp [hx, hy] at h
        | some y =>
          obtain ⟨wss, he, hf, hl⟩ := convertRows_forall hpy (terms := y.1) (ws := y.2) hy
          simp only [hx, hy, Option.some.injEq, Prod.mk.injEq] at h
          obtain ⟨rfl, rfl⟩ := h
          refine ⟨x.2 :: wss, by simp [he], ?_, by simp [hl]⟩
          rw [List.filter_cons_of_pos hr, List.zip_cons_cons]
          exact .cons hx hf
    · rw [if_neg hr] at h
      obtain ⟨wss, he, hf, hl⟩ := convertRows_forall hpy h
      exact ⟨wss, he, by rwa [List.filter_cons_of_neg (by simpa using hr)], hl⟩

/-- C259: the terms of a converted sheet are, in order, those of the rows with a number and a code,
and each says what its row says. -/
theorem C259_terms {py : Py} (hpy : ∀ q, py.repr q ≠ "") {known : String → Bool} {rows : List Row}
    {sheet setLabel : String} {m : Meta} {terms : List Term} {ws : List Warning}
    (h : convertSheet py known rows sheet setLabel = some (m, terms, ws)) :
    List.Forall₂ Spec.Represents (rows.filter Spec.hasTerm) terms := by
  unfold convertSheet at h
  dsimp only at h
  split at h
  · simp at h
  · rename_i terms' ws' hr
    simp only [Option.some.injEq, Prod.mk.injEq] at h
    obtain ⟨-, rfl, -⟩ := h
    obtain ⟨wss, -, hf, hl⟩ := convertRows_forall hpy hr
    rw [List.forall₂_iff_get] at hf ⊢
    obtain ⟨h1, h2⟩ := hf
    rw [List.length_zip, ← hl, min_self] at h1
    refine ⟨h1, fun i hi hi' => ?_⟩
    have := h2 i hi (by rw [List.length_zip, ← hl, min_self]; exact hi')
    simp only [List.get_eq_getElem, List.getElem_zip] at this
    exact convertRow_represents this

/-- The conversion succeeds when every factor is a number or an empty cell. -/
theorem C259_succeeds {py : Py} (hpy : ∀ q, py.repr q ≠ "") (known : String → Bool)
    (rows : List Row) (sheet setLabel : String)
    (hf : ∀ r ∈ rows, ∀ c ∈ [r.p1, r.p2, r.p3], c = .blank ∨ ∃ q, c = .num q) :
    ∃ m terms ws, convertSheet py known rows sheet setLabel = some (m, terms, ws) := by
  have key : ∀ (a b : String) (rows : List Row),
      (∀ r ∈ rows, ∀ c ∈ [r.p1, r.p2, r.p3], c = .blank ∨ ∃ q, c = .num q) →
      ∃ x, convertRows py a b rows = some x := by
    intro a b rows
    induction rows with
    | nil => intro _; exact ⟨_, rfl⟩
    | cons r t ih =>
      intro h
      obtain ⟨y, hy⟩ := ih fun r' hr' => h r' (List.mem_cons_of_mem _ hr')
      rw [convertRows_cons hpy]
      split
      · have hfac : ∀ c ∈ [r.p1, r.p2, r.p3], ∃ f, factor py c = some f := by
          intro c hc
          rcases h r List.mem_cons_self c hc with rfl | ⟨q, rfl⟩
          · exact ⟨_, rfl⟩
          · exact ⟨_, rfl⟩
        obtain ⟨f1, h1⟩ := hfac r.p1 (by simp)
        obtain ⟨f2, h2⟩ := hfac r.p2 (by simp)
        obtain ⟨f3, h3⟩ := hfac r.p3 (by simp)
        have : ∃ x, convertRow py a b r = some x := by
          unfold convertRow
          simp only [h1, h2, h3]
          exact ⟨_, rfl⟩
        obtain ⟨x, hx⟩ := this
        rw [hx, hy]
        exact ⟨_, rfl⟩
      · exact ⟨y, hy⟩
  unfold convertSheet
  dsimp only
  obtain ⟨⟨terms, ws⟩, hx⟩ := key setLabel
    (scrubOr py (metadataKv py rows []) "OWSG Prefix" sheet) rows hf
  rw [hx]
  exact ⟨_, _, _, rfl⟩

/-- A sheet with one term. -/
def termRow : Row :=
  ⟨.blank, .blank, .num 1, .text "DREF-R", .text "DREF", .num (35 / 100), .text "m", .text "R",
    .num 1, .num 0, .num 0, .text " 1 ", .num 0, .blank, .blank, .num 0, .text "x"⟩

/-- Conversions that are never used here. -/
def noPy : Py := ⟨fun _ => none, fun _ => none, fun _ => "?", fun s => s⟩

example : (convertSheet noPy (fun _ => true) [termRow] "MWD" "SetA").map (·.2.1) =
    some [⟨"welleng/owsg/SetA/MWD/DREF-R", "DREF-R", "DREF", 35 / 100, "m", 1, 0, 0, "Random", "1",
      "0", "0", none, none, some "x"⟩] := by
  decide +kernel

/-! ### C260 -/

theorem convertRow_warnings {py : Py} {a b : String} {r : Row} {t : Term} {ws : List Warning}
    (h : convertRow py a b r = some (t, ws)) :
    (t.units ∉ allowedUnits ↔ .unit t.name t.units ∈ ws) ∧
    (∀ s, (r.prop = .text s → (s ∉ ["R", "S", "G", "W"] ↔ .mode t.name s ∈ ws))) ∧
    (∀ s, r.magnitude = .text s → (py.float s = none ↔ .magnitude t.name s ∈ ws)) := by
  unfold convertRow at h
  cases h1 : factor py r.p1 with
  | none => simp [h1] at h
  | some f1 =>
  cases h2 : factor py r.p2 with
  | none => simp [h1, h2] at h
  | some f2 =>
  cases h3 : factor py r.p3 with
  | none => simp [h1, h2, h3] at h
  | some f3 =>
    simp only [h1, h2, h3, Option.some.injEq, Prod.mk.injEq] at h
    obtain ⟨rfl, rfl⟩ := h
    have hm : ∀ w ∈ (magnitudeOf py (scrub py r.code) r.magnitude).2,
        ∃ s, w = .magnitude (scrub py r.code) s := by
      intro w hw
      unfold magnitudeOf at hw
      split at hw
      · simp at hw
      · simp at hw
      · split at hw
        · simp at hw
        · exact ⟨_, List.mem_singleton.mp hw⟩
    refine ⟨?_, ?_, ?_⟩
    · dsimp only
      constructor
      · intro hu; simp [hu]
      · intro hw hu
        rw [if_pos hu, List.nil_append, List.mem_append] at hw
        rcases hw with hw | hw
        · split at hw <;> simp at hw
        · obtain ⟨s, hs⟩ := hm _ hw
          simp at hs
    · intro s hs
      have hpm : (propMode s).isSome = true ↔ s ∈ ["R", "S", "G", "W"] := by
        unfold propMode
        split <;> simp_all
      dsimp only
      rw [show scrub py r.prop = s by rw [hs]; rfl]
      constructor
      · intro hn
        have : ¬ (propMode s).isSome = true := fun h => hn (hpm.mp h)
        simp only [List.mem_append]
        left; right
        rw [if_neg this]
        simp
      · intro hw hn
        rw [if_pos (hpm.mpr hn)] at hw
        simp only [List.append_nil, List.mem_append] at hw
        rcases hw with hw | hw
        · split at hw <;> simp at hw
        · obtain ⟨s', hs'⟩ := hm _ hw
          simp at hs'
    · intro s hs
      simp only [List.mem_append]
      constructor
      · intro hn
        right
        simp [hs, magnitudeOf, hn]
      · rintro ((hw | hw) | hw)
        · split at hw <;> simp at hw
        · split at hw <;> simp at hw
        · rw [hs] at hw
          unfold magnitudeOf at hw
          cases hfl : py.float s with
          | none => rfl
          | some q => simp [hfl] at hw

/-- C260, what holds: a term is flagged for its unit, its propagation mode or the text in the place
of its magnitude as soon as these do not fit. -/
theorem C260_flagged_partial {py : Py} (hpy : ∀ q, py.repr q ≠ "") {known : String → Bool}
    {rows : List Row} {sheet setLabel : String} {m : Meta} {terms : List Term} {ws : List Warning}
    (h : convertSheet py known rows sheet setLabel = some (m, terms, ws)) :
    List.Forall₂ (fun r t =>
        (t.units ∉ allowedUnits → .unit t.name t.units ∈ ws) ∧
        (∀ s, r.prop = .text s → s ∉ ["R", "S", "G", "W"] → .mode t.name s ∈ ws) ∧
        (∀ s, r.magnitude = .text s → py.float s = none → .magnitude t.name s ∈ ws))
      (rows.filter Spec.hasTerm) terms := by
  unfold convertSheet at h
  dsimp only at h
  split at h
  · simp at h
  · rename_i terms' ws' hr
    simp only [Option.some.injEq, Prod.mk.injEq] at h
    obtain ⟨-, rfl, rfl⟩ := h
    obtain ⟨wss, rfl, hf, hl⟩ := convertRows_forall hpy hr
    rw [List.forall₂_iff_get] at hf ⊢
    obtain ⟨h1, h2⟩ := hf
    rw [List.length_zip, ← hl, min_self] at h1
    refine ⟨h1, fun i hi hi' => ?_⟩
    have := h2 i hi (by rw [List.length_zip, ← hl, min_self]; exact hi')
    simp only [List.get_eq_getElem, List.getElem_zip] at this
    obtain ⟨w1, w2, w3⟩ := convertRow_warnings this
    have hin : ∀ w ∈ wss[i]'(by rw [← hl]; exact hi'), ∀ l : List Warning, w ∈ l ++ wss.flatten :=
      fun w hw l => List.mem_append_right _ (List.mem_flatten.mpr ⟨_, List.getElem_mem _, hw⟩)
    exact ⟨fun hu => hin _ (w1.mp hu) _, fun s hs hn => hin _ ((w2 s hs).mp hn) _,
      fun s hs hn => hin _ ((w3 s hs).mp hn) _⟩

/-- C260 is false: a term whose magnitude cell is empty becomes a term of magnitude zero, and
nothing is flagged. -/
theorem C260_no_magnitude :
    (convertSheet noPy (fun _ => true) [{ termRow with magnitude := .blank }] "MWD" "SetA").map
      (fun x => (x.2.1.map (·.value), x.2.2)) = some ([0], []) := by
  decide +kernel

/-- A unit that is not in the schema, and a mode without a counterpart. -/
example : (convertSheet noPy (fun _ => true)
    [{ termRow with units := .text "deg.nT", prop := .text "B" }] "MWD" "SetA").map (·.2.2) =
      some [.unit "DREF-R" "deg.nT", .mode "DREF-R" "B"] := by
  decide +kernel

/-! ### C261 -/

/-- C261, what holds: up to five warnings are all kept in the file. -/
theorem C261_five_partial {py : Py} {known : String → Bool} {rows : List Row}
    {sheet setLabel : String} {m : Meta} {terms : List Term} {ws : List Warning}
    (h : convertSheet py known rows sheet setLabel = some (m, terms, ws)) (h5 : ws.length ≤ 5) :
    m.warned = ws := by
  unfold convertSheet at h
  dsimp only at h
  split at h
  · simp at h
  · simp only [Option.some.injEq, Prod.mk.injEq] at h
    obtain ⟨rfl, -, rfl⟩ := h
    exact List.take_of_length_le h5

/-- C261 is false: of six terms in a foreign unit the file flags five. -/
theorem C261_sixth_lost :
    (convertSheet noPy (fun _ => true)
      (["a", "b", "c", "d", "e", "f"].map fun s =>
        { termRow with code := .text s, units := .text "deg.nT" }) "MWD" "SetA").map
      (fun x => (x.2.2.length, x.1.warned.length,
        decide (Warning.unit "f" "deg.nT" ∈ x.1.warned))) = some (6, 5, false) := by
  decide +kernel

/-! ### C262 -/

/-- C262, what holds: a limit given as a whole number other than zero is kept. -/
theorem C262_number_partial (n d : ℤ) (hn : n ≠ 0) :
    orNum (incRange (some (.num n))) d = n := by
  simp [incRange, orNum, trunc_int, hn]

theorem takeWhile_digits {l t : List Char} (hl : ∀ c ∈ l, digit? c = true)
    (ht : ∀ c, t.head? = some c → digit? c = false) :
    (l ++ t).takeWhile digit? = l ∧ (l ++ t).dropWhile digit? = t := by
  induction l with
  | nil =>
    cases t with
    | nil => simp
    | cons c t => simp [ht c rfl]
  | cons a l ih =>
    have ha := hl a List.mem_cons_self
    obtain ⟨h1, h2⟩ := ih fun c hc => hl c (List.mem_cons_of_mem _ hc)
    simp [ha, h1, h2]

theorem owsgRound_int (n : ℤ) : roundEven (n : ℚ) = n := by
  simp [roundEven]

/-- C262, what holds: so is a limit written as a whole number with the unit, as in `89 deg`. -/
theorem C262_text_partial {l : List Char} (hl : l ≠ []) (hd : ∀ c ∈ l, digit? c = true) :
    (matchRange (l ++ [' ', 'd', 'e', 'g'])).map roundEven = some (digitsVal l : ℤ) := by
  obtain ⟨h1, h2⟩ := takeWhile_digits (t := [' ', 'd', 'e', 'g']) hd (by
    intro c hc
    simp only [List.head?_cons, Option.some.injEq] at hc
    subst hc
    decide)
  have hu : matchUnsigned (l ++ [' ', 'd', 'e', 'g']) = some (digitsVal l : ℚ) := by
    unfold matchUnsigned
    dsimp only
    rw [h1, h2, if_neg hl]
    simp [degTail]
  have hm : matchRange (l ++ [' ', 'd', 'e', 'g']) = some (digitsVal l : ℚ) := by
    unfold matchRange
    split
    · rename_i t he
      obtain ⟨a, l', rfl⟩ := List.exists_cons_of_ne_nil hl
      simp only [List.cons_append, List.cons.injEq] at he
      have := hd a List.mem_cons_self
      rw [he.1] at this
      exact absurd this (by decide)
    · exact hu
  rw [hm, Option.map_some]
  have := owsgRound_int (digitsVal l : ℤ)
  rw [Int.cast_natCast] at this
  rw [this]

theorem degTail_spaces (k : ℕ) (unit : Bool) :
    degTail (List.replicate k ' ' ++ if unit then ['d', 'e', 'g'] else []) = true := by
  unfold degTail
  have : (List.replicate k ' ' ++ if unit then ['d', 'e', 'g'] else []).dropWhile (· = ' ')
      = if unit then ['d', 'e', 'g'] else [] := by
    induction k with
    | zero => cases unit <;> rfl
    | succ k ih =>
      rw [List.replicate_succ, List.cons_append, List.dropWhile_cons, if_pos (by decide), ih]
  simp only [this]
  cases unit <;> rfl

theorem spaces_head (k : ℕ) (unit : Bool) (c : Char)
    (h : (List.replicate k ' ' ++ if unit then ['d', 'e', 'g'] else []).head? = some c) :
    digit? c = false := by
  cases k with
  | zero =>
    cases unit
    · simp at h
    · simp only [List.replicate_zero, List.nil_append, if_true, List.head?_cons,
        Option.some.injEq] at h
      subst h
      decide
  | succ k =>
    simp only [List.replicate_succ, List.cons_append, List.head?_cons, Option.some.injEq] at h
    subst h
    decide

/-- C262, what holds: a limit written with decimals, after a minus sign or none, before spaces and
the unit or neither, is read as that number. -/
theorem C262_decimal_partial {w f : List Char} (hw : w ≠ []) (hf : f ≠ [])
    (dw : ∀ c ∈ w, digit? c = true) (df : ∀ c ∈ f, digit? c = true) (neg unit : Bool) (k : ℕ) :
    matchRange ((if neg then ['-'] else []) ++ (w ++ '.' :: (f ++ (List.replicate k ' ' ++
        if unit then ['d', 'e', 'g'] else []))))
      = some ((if neg then -1 else 1) *
          ((digitsVal w : ℚ) + (digitsVal f : ℚ) / 10 ^ f.length)) := by
  set tail := List.replicate k ' ' ++ if unit then ['d', 'e', 'g'] else [] with htl
  have hu : matchUnsigned (w ++ '.' :: (f ++ tail))
      = some ((digitsVal w : ℚ) + (digitsVal f : ℚ) / 10 ^ f.length) := by
    obtain ⟨h1, h2⟩ := takeWhile_digits (t := '.' :: (f ++ tail)) dw (by
      intro c hc
      simp only [List.head?_cons, Option.some.injEq] at hc
      subst hc
      decide)
    obtain ⟨h3, h4⟩ := takeWhile_digits (t := tail) df (spaces_head k unit)
    unfold matchUnsigned
    dsimp only
    rw [h1, h2, if_neg hw]
    split
    · rename_i t he
      obtain rfl : f ++ tail = t := by simpa using he
      rw [h3, h4, if_neg hf, if_pos (degTail_spaces k unit)]
    · rename_i hne
      exact absurd rfl (hne _)
  cases neg with
  | true =>
    simp only [if_true, List.singleton_append, matchRange]
    rw [hu]
    simp
  | false =>
    simp only [Bool.false_eq_true, if_false, List.nil_append, one_mul]
    obtain ⟨a, w', rfl⟩ := List.exists_cons_of_ne_nil hw
    unfold matchRange
    split
    · rename_i t he
      simp only [List.cons_append, List.cons.injEq] at he
      have := dw a List.mem_cons_self
      rw [he.1] at this
      exact absurd this (by decide)
    · exact hu

/-- C262, what holds: the number read is rounded to the nearest whole number, halves to even. -/
theorem C262_rounded_partial (q : ℚ) :
    |(roundEven q : ℚ) - q| ≤ 1 / 2 ∧ (|(roundEven q : ℚ) - q| = 1 / 2 → Even (roundEven q)) := by
  have h1 := Int.floor_le q
  have h2 := Int.lt_floor_add_one q
  unfold roundEven
  dsimp only
  split_ifs with a b c
  · rw [abs_sub_comm, abs_of_nonneg (by linarith)]
    exact ⟨a.le, fun h => absurd h a.ne⟩
  · push_cast
    rw [abs_of_nonneg (by linarith)]
    exact ⟨by linarith, fun h => by linarith⟩
  · rw [abs_sub_comm, abs_of_nonneg (by linarith)]
    exact ⟨by linarith, fun _ => Int.even_iff.2 c⟩
  · push_cast
    rw [abs_of_nonneg (by linarith)]
    refine ⟨by linarith, fun _ => ?_⟩
    rw [Int.even_add_one, Int.not_even_iff_odd, Int.odd_iff]
    omega

/-- C262, what holds: the limits of a converted sheet come from the rows with their labels, and are
0 and 180 degrees when there is no such row. -/
theorem C262_sheet_partial {py : Py} {known : String → Bool} {rows : List Row}
    {sheet setLabel : String} {m : Meta} {terms : List Term} {ws : List Warning}
    (h : convertSheet py known rows sheet setLabel = some (m, terms, ws)) :
    let kv := metadataKv py rows []
    (kv.lookup "Inclination Range Min" = none → m.incMin = 0) ∧
    (kv.lookup "Inclination Range Max" = none → m.incMax = 180) ∧
    (∀ n : ℤ, n ≠ 0 → kv.lookup "Inclination Range Min" = some (.num n) → m.incMin = n) ∧
    (∀ n : ℤ, n ≠ 0 → kv.lookup "Inclination Range Max" = some (.num n) → m.incMax = n) ∧
    (∀ s, kv.lookup "Inclination Range Min" = some (.text s) →
      m.incMin = orNum (incRange (some (.text s))) 0) ∧
    (∀ s, kv.lookup "Inclination Range Max" = some (.text s) →
      m.incMax = orNum (incRange (some (.text s))) 180) := by
  intro kv
  have hm : m.incMin = orNum (incRange (kv.lookup "Inclination Range Min")) 0 ∧
      m.incMax = orNum (incRange (kv.lookup "Inclination Range Max")) 180 := by
    unfold convertSheet at h
    dsimp only at h
    split at h
    · simp at h
    · simp only [Option.some.injEq, Prod.mk.injEq] at h
      obtain ⟨rfl, -, -⟩ := h
      exact ⟨rfl, rfl⟩
  rw [hm.1, hm.2]
  refine ⟨fun e => by rw [e]; rfl, fun e => by rw [e]; rfl, fun n hn e => ?_, fun n hn e => ?_,
    fun s e => by rw [e], fun s e => by rw [e]⟩
  · rw [e]; exact C262_number_partial n 0 hn
  · rw [e]; exact C262_number_partial n 180 hn

/-- C262 is false: an upper limit of zero becomes 180 degrees, and so does one that is written with
a degree sign, without a warning. -/
theorem C262_widened :
    orNum (incRange (some (.num 0))) 180 = 180 ∧
      orNum (incRange (some (.text "89°"))) 180 = 180 ∧
      orNum (incRange (some (.text "89 deg"))) 180 = 89 := by
  decide +kernel

/-! ### C263 -/

/-- C263, what holds: within a converted sheet, terms with different names have different
identifiers, if the identifiers are different for different seeds. -/
theorem C263_terms_partial {py : Py} (hpy : ∀ q, py.repr q ≠ "")
    (huu : Function.Injective py.uuid) {known : String → Bool}
    {rows : List Row} {sheet setLabel : String} {m : Meta} {terms : List Term} {ws : List Warning}
    (h : convertSheet py known rows sheet setLabel = some (m, terms, ws)) :
    ∀ t ∈ terms, ∀ t' ∈ terms, t.name ≠ t'.name → t.uuid ≠ t'.uuid := by
  unfold convertSheet at h
  dsimp only at h
  split at h
  · simp at h
  · rename_i terms' ws' hr
    simp only [Option.some.injEq, Prod.mk.injEq] at h
    obtain ⟨-, rfl, -⟩ := h
    obtain ⟨wss, -, hf, hl⟩ := convertRows_forall hpy hr
    generalize scrubOr py (metadataKv py rows []) "OWSG Prefix" sheet = pre at hf hr
    have huid : ∀ t ∈ terms', t.uuid =
        py.uuid ("welleng/owsg/" ++ (setLabel ++ "/" ++ pre ++ "/" ++ t.name)) := by
      intro t ht
      obtain ⟨i, hi, rfl⟩ := List.getElem_of_mem ht
      rw [List.forall₂_iff_get] at hf
      obtain ⟨h1, h2⟩ := hf
      rw [List.length_zip, ← hl, min_self] at h1
      have := h2 i (by rw [h1]; exact hi) (by rw [List.length_zip, ← hl, min_self]; exact hi)
      simp only [List.get_eq_getElem, List.getElem_zip] at this
      unfold convertRow at this
      dsimp only at this
      split at this
      · simp only [Option.some.injEq, Prod.mk.injEq] at this
        rw [← this.1]
      · simp at this
    intro t ht t' ht' hne he
    rw [huid t ht, huid t' ht'] at he
    have := congrArg String.toList (huu he)
    simp only [String.toList_append, List.append_cancel_left_eq] at this
    exact hne (String.toList_injective this)

/-- A row of the metadata. -/
def labelRow (k : String) (v : Cell) : Row :=
  { termRow with no := .blank, code := .blank, label := .text k, labelVal := v }

/-- The hypotheses of `C262_sheet_partial` are met: a sheet with an upper limit and no lower one. -/
example :
    let rows := [labelRow "Inclination Range Max:" (.text "89 deg"), termRow]
    (convertSheet noPy (fun _ => true) rows "MWD" "SetA").map (fun x => (x.1.incMin, x.1.incMax))
        = some (0, 89) ∧
      (metadataKv noPy rows []).lookup "Inclination Range Min" = none := by
  decide +kernel

/-- C263 is false: two sheets whose cell for the prefix is empty get the same identifiers, whatever
their names and contents, because the name of the sheet is used only when the label is missing. -/
theorem C263_same_for_two_sheets :
    let rows := [labelRow "OWSG Prefix:" .blank, termRow]
    (convertSheet noPy (fun _ => true) rows "MWD" "SetA").map (fun x => (x.1.uuid, x.2.1.map (·.uuid)))
      = (convertSheet noPy (fun _ => true) rows "GYRO" "SetA").map
        (fun x => (x.1.uuid, x.2.1.map (·.uuid))) := by
  decide +kernel

/-! ### C264 -/

theorem safeFilename_safe {s : List Char} (h : ∀ c ∈ s, safeChar c = true) : safeFilename s = s := by
  unfold safeFilename
  conv_rhs => rw [← List.map_id s]
  exact List.map_congr_left fun c hc => by simp [h c hc]

theorem safe_names {A : Type*} : ∀ (sheets : List (List Char × A))
    (d : List Char → Option A), (sheets.map (·.1)).Nodup →
    (∀ p ∈ sheets, ∀ c ∈ p.1, safeChar c = true) → ∀ p ∈ sheets, writeAll sheets d p.1 = some p.2
  | [], d, _, _, p, hp => by simp at hp
  | (s, x) :: t, d, hn, hs, p, hp => by
    have hskip : ∀ (t : List (List Char × A)) (d : List Char → Option A) (f : List Char),
        (∀ q ∈ t, safeFilename q.1 ≠ f) → writeAll t d f = d f := by
      intro t
      induction t with
      | nil => intro d f _; rfl
      | cons q t ih =>
        intro d f h
        rw [show q = (q.1, q.2) from rfl, writeAll, ih _ _ fun r hr => h r (List.mem_cons_of_mem _ hr)]
        rw [if_neg (h q List.mem_cons_self).symm]
    simp only [List.map_cons, List.nodup_cons] at hn
    rw [writeAll]
    rcases List.mem_cons.mp hp with rfl | hp
    · rw [hskip]
      · rw [if_pos (safeFilename_safe (hs _ List.mem_cons_self)).symm]
      · intro q hq he
        rw [safeFilename_safe (hs q (List.mem_cons_of_mem _ hq))] at he
        exact hn.1 (List.mem_map.mpr ⟨q, hq, he⟩)
    · exact safe_names t _ hn.2 (fun q hq => hs q (List.mem_cons_of_mem _ hq)) p hp

theorem safeChar_iff (c : Char) : safeChar c = true ↔ Spec.FileChar c := by
  have hz : ∀ a b : Char, (a ≤ b) ↔ a.val ≤ b.val := fun _ _ => Iff.rfl
  simp only [safeChar, Spec.FileChar, Char.isAlphanum, Char.isAlpha, Char.isUpper, Char.isLower,
    Char.isDigit, Bool.or_eq_true, Bool.and_eq_true, decide_eq_true_eq, beq_iff_eq,
    List.mem_cons, List.not_mem_nil, or_false, hz, ge_iff_le]
  simp only [or_assoc]

/-- C264, what holds: sheets with different names made of characters that are kept are each found
in the file of their name. -/
theorem C264_safe_names_partial {A : Type*} (sheets : List (List Char × A))
    (d : List Char → Option A) (hn : (sheets.map (·.1)).Nodup)
    (hs : ∀ p ∈ sheets, ∀ c ∈ p.1, Spec.FileChar c) :
    ∀ p ∈ sheets, writeAll sheets d p.1 = some p.2 :=
  safe_names sheets d hn fun p hp c hc => (safeChar_iff c).2 (hs p hp c hc)

/-- The hypotheses of `C264_safe_names_partial` are met by names of sheets of the workbook. -/
example : ∀ s ∈ ["MWD+IFR1+SAG+MS", "GYRO-MWD_Fl", "B001Ma", "INC.Only"],
    ∀ c ∈ s.toList, Spec.FileChar c := by
  intro s hs c hc
  rw [← safeChar_iff]
  revert s c
  decide +kernel

/-- C264 is false: two sheets whose names differ in a blank and an underscore are written to the
same file, and the first is lost. -/
theorem C264_overwritten {A : Type*} (x y : A) :
    writeAll [("CB Film".toList, x), ("CB_Film".toList, y)] (fun _ => none)
        (safeFilename "CB Film".toList) = some y ∧
      ∀ f, writeAll [("CB Film".toList, x), ("CB_Film".toList, y)] (fun _ => none) f = some x →
        x = y := by
  have h : safeFilename "CB Film".toList = safeFilename "CB_Film".toList := by decide +kernel
  unfold writeAll writeAll writeAll
  rw [h]
  generalize safeFilename "CB_Film".toList = g
  refine ⟨if_pos rfl, fun f hf => ?_⟩
  dsimp only at hf
  by_cases hg : f = g
  · rw [if_pos hg] at hf
    exact (Option.some.inj hf).symm
  · rw [if_neg hg, if_neg hg] at hf
    exact absurd hf (by simp)

/-! ### C265 -/

/-- C265, what holds: a whole revision number is kept. -/
theorem C265_whole_partial (n : ℤ) : revision (some (.num n)) = n := by
  simp [revision, trunc_int]

/-- C265 is false: revision 5.1 becomes revision 5, as does revision 5.0,
and a revision given as text becomes 0. -/
theorem C265_five_point_one :
    revision (some (.num (51 / 10))) = 5 ∧ revision (some (.num 5)) = 5 ∧
      revision (some (.text "5.1")) = 0 := by
  decide +kernel

/-! ### C266 -/

/-- C266, what holds: without a label for the prefix the sheet gives the identifier of the model, and
a prefix that is given is the identifier. -/
theorem C266_prefix_partial {py : Py} {known : String → Bool} {rows : List Row}
    {sheet setLabel : String} {m : Meta} {terms : List Term} {ws : List Warning}
    (h : convertSheet py known rows sheet setLabel = some (m, terms, ws)) :
    (∀ s, s ≠ "" → (metadataKv py rows []).lookup "OWSG Prefix" = some (.text s) →
      m.modelId = s) ∧
    ((metadataKv py rows []).lookup "OWSG Prefix" = none → sheet ≠ "" → m.modelId = sheet) := by
  unfold convertSheet at h
  dsimp only at h
  split at h
  · simp at h
  · simp only [Option.some.injEq, Prod.mk.injEq] at h
    obtain ⟨rfl, -, -⟩ := h
    constructor
    · intro s hs hk
      have : scrubOr py (metadataKv py rows []) "OWSG Prefix" sheet = s := by
        unfold scrubOr
        rw [hk]
        split
        · simp_all
        · rename_i he; exact absurd (Cell.text.inj (Option.some.inj he)) hs
        · rename_i he; simp at he
        · rename_i he
          rw [← Option.some.inj he]
          rfl
      simp [orText, this, hs]
    · intro hk hs
      have : scrubOr py (metadataKv py rows []) "OWSG Prefix" sheet = sheet := by
        simp [scrubOr, hk]
      simp [orText, this, hs]

/-- C266 is false: when the cells for the prefix and for the short name are empty, the model has no
identifier, although the sheet has a name. -/
theorem C266_nameless :
    (convertSheet noPy (fun _ => true)
      [labelRow "OWSG Prefix:" .blank, labelRow "Short Name:" .blank, termRow] "MWD" "SetA").map
      (fun x => (x.1.modelId, x.1.shortName)) = some ("", "MWD") := by
  decide +kernel

/-- The metadata of a sheet. -/
example : (convertSheet noPy (fun _ => true)
    [labelRow "OWSG Prefix:" (.text "A001Mc"), labelRow "Short Name:" (.text "MWD+SRGM"),
      labelRow "Inclination Range Max:" (.text "89 deg"), termRow] "MWD" "SetA").map
    (fun x => (x.1.modelId, x.1.shortName, x.1.incMin, x.1.incMax)) =
      some ("A001Mc", "MWD+SRGM", 0, 89) := by
  decide +kernel

end Welleng.Props
