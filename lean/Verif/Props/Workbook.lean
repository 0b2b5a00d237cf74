import Verif.Spec.Workbook
import Verif.Props.EdmSurvey
import Mathlib.Data.List.Induction

/-!
C270-C275: the readers of the ISCWSA example workbooks.
-/

namespace Welleng.Props

open Ingest

/-! ### Rows and what is read from them -/

/-- What `filterMap` keeps of a list from the `k`-th element on, with the places it comes from. -/
theorem filterMap_places {A B : Type} (f : A → Option B) (k : ℕ) (l : List A) :
    ∃ idx : List ℕ, idx.Pairwise (· < ·) ∧
      (∀ i, i ∈ idx ↔ k ≤ i ∧ ∃ r b, l[i]? = some r ∧ f r = some b) ∧
      List.Forall₂ (fun i b => ∃ r, l[i]? = some r ∧ f r = some b) idx
        ((l.drop k).filterMap f) := by
  induction l using List.reverseRecOn with
  | nil => exact ⟨[], by simp⟩
  | append_singleton l a ih =>
    obtain ⟨idx, h1, h2, h3⟩ := ih
    have hlt : ∀ i ∈ idx, i < l.length := by
      intro i hi
      obtain ⟨-, r, b, hr, -⟩ := (h2 i).1 hi
      exact (List.getElem?_eq_some_iff.1 hr).1
    have hmono : List.Forall₂ (fun i b => ∃ r, (l ++ [a])[i]? = some r ∧ f r = some b) idx
        ((l.drop k).filterMap f) := by
      refine List.Forall₂.imp ?_ h3
      rintro i b ⟨r, hr, hb⟩
      refine ⟨r, ?_, hb⟩
      rw [List.getElem?_append_left (List.getElem?_eq_some_iff.1 hr).1]; exact hr
    by_cases hk : k ≤ l.length
    · rcases hf : f a with _ | b
      · refine ⟨idx, h1, ?_, ?_⟩
        · intro i
          rw [h2]
          refine and_congr_right fun _ => ?_
          constructor
          · rintro ⟨r, b, hr, hb⟩
            refine ⟨r, b, ?_, hb⟩
            rw [List.getElem?_append_left (List.getElem?_eq_some_iff.1 hr).1]; exact hr
          · rintro ⟨r, b, hr, hb⟩
            rcases lt_trichotomy i l.length with h | h | h
            · rw [List.getElem?_append_left h] at hr; exact ⟨r, b, hr, hb⟩
            · subst h; simp at hr; subst hr; rw [hf] at hb; cases hb
            · rw [List.getElem?_eq_none (by simp; omega)] at hr; cases hr
        · rw [List.drop_append_of_le_length hk]
          simpa [List.filterMap_append, hf] using hmono
      · refine ⟨idx ++ [l.length], ?_, ?_, ?_⟩
        · rw [List.pairwise_append]
          refine ⟨h1, by simp, ?_⟩
          intro x hx y hy
          simp at hy; subst hy; exact hlt x hx
        · intro i
          simp only [List.mem_append, List.mem_singleton]
          constructor
          · rintro (h | h)
            · obtain ⟨h0, r, b', hr, hb⟩ := (h2 i).1 h
              refine ⟨h0, r, b', ?_, hb⟩
              rw [List.getElem?_append_left (List.getElem?_eq_some_iff.1 hr).1]; exact hr
            · subst h; exact ⟨hk, a, b, by simp, hf⟩
          · rintro ⟨h0, r, b', hr, hb⟩
            rcases lt_trichotomy i l.length with h | h | h
            · rw [List.getElem?_append_left h] at hr; exact Or.inl ((h2 i).2 ⟨h0, r, b', hr, hb⟩)
            · exact Or.inr h
            · rw [List.getElem?_eq_none (by simp; omega)] at hr; cases hr
        · rw [List.drop_append_of_le_length hk]
          simp only [List.filterMap_append, List.filterMap_cons, hf, List.filterMap_nil]
          exact List.rel_append hmono (List.Forall₂.cons ⟨a, by simp, hf⟩ List.Forall₂.nil)
    · have e1 : (l ++ [a]).drop k = [] := List.drop_eq_nil_of_le (by simp; omega)
      refine ⟨[], by simp, ?_, by rw [e1]; simp⟩
      intro i
      constructor
      · simp
      · rintro ⟨h0, r, b, hr, -⟩
        have := (List.getElem?_eq_some_iff.1 hr).1
        simp at this; omega

theorem col_some {r : List Cell} {i : ℕ} {c : Cell} (h : r[i]? = some c) : col r i = c := by
  simp [col, h]

theorem col_num {r : List Cell} {i : ℕ} {x : ℝ} : col r i = .num x ↔ r[i]? = some (.num x) := by
  unfold col
  cases r[i]? <;> simp

theorem stationOf_some {parse : String → Option ℝ} {r : List Cell} {s : WStation} :
    stationOf parse r = some s ↔ r[4]? = some (.num s.md) ∧ s.inc = floatOr0 parse r 5 ∧
      s.azi = floatOr0 parse r 6 ∧ s.tvd = floatOr0 parse r 7 ∧
      s.toolface = toFloat parse (col r 8) := by
  rw [← col_num]
  unfold stationOf
  cases s
  cases col r 4 <;> simp [eq_comm]

/-- C271. The stations of a well path sheet are its rows from the third on that have a number in
column E, in the order of the sheet, with the inclination, azimuth, vertical depth and toolface of
that row. -/
theorem C271_stations (parse : String → Option ℝ) (rows : List (List Cell)) :
    ∃ idx : List ℕ, idx.Pairwise (· < ·) ∧
      (∀ i, i ∈ idx ↔ 2 ≤ i ∧ ∃ r m, rows[i]? = some r ∧ r[4]? = some (.num m)) ∧
      List.Forall₂ (fun i s => ∃ r, rows[i]? = some r ∧ r[4]? = some (.num s.md) ∧
          (∀ v, r[5]? = some (.num v) → s.inc = some v) ∧
          (∀ v, r[6]? = some (.num v) → s.azi = some v) ∧
          (∀ v, r[7]? = some (.num v) → s.tvd = some v) ∧
          (∀ v, r[8]? = some (.num v) → s.toolface = some v))
        idx (stationsOf parse rows) := by
  obtain ⟨idx, h1, h2, h3⟩ := filterMap_places (stationOf parse) 2 rows
  refine ⟨idx, h1, ?_, ?_⟩
  · intro i
    rw [h2]
    refine and_congr_right fun _ => ?_
    constructor
    · rintro ⟨r, s, hr, hs⟩
      exact ⟨r, s.md, hr, (stationOf_some.1 hs).1⟩
    · rintro ⟨r, m, hr, hm⟩
      exact ⟨r, ⟨m, floatOr0 parse r 5, floatOr0 parse r 6, floatOr0 parse r 7,
        toFloat parse (col r 8)⟩, hr, stationOf_some.2 ⟨hm, rfl, rfl, rfl, rfl⟩⟩
  · refine List.Forall₂.imp ?_ h3
    rintro i s ⟨r, hr, hs⟩
    obtain ⟨a, b, c, d, e⟩ := stationOf_some.1 hs
    refine ⟨r, hr, a, ?_, ?_, ?_, ?_⟩
    · intro v hv; simp [b, floatOr0, hv, toFloat]
    · intro v hv; simp [c, floatOr0, hv, toFloat]
    · intro v hv; simp [d, floatOr0, hv, toFloat]
    · intro v hv; simp [e, col_some hv, toFloat]

/-- An empty inclination cell of a station is not a number, it is not read as zero. -/
theorem C271_blank (parse : String → Option ℝ) (rows : List (List Cell)) :
    ∀ s ∈ stationsOf parse rows, ∃ r ∈ rows.drop 2, r[4]? = some (.num s.md) ∧
      (r[5]? = some .empty → s.inc = none) ∧ (r[6]? = some .empty → s.azi = none) := by
  intro s hs
  obtain ⟨r, hr, h⟩ := List.mem_filterMap.1 hs
  obtain ⟨a, b, c, -, -⟩ := stationOf_some.1 h
  refine ⟨r, hr, a, fun hv => ?_, fun hv => ?_⟩
  · simp [b, floatOr0, hv, toFloat]
  · simp [c, floatOr0, hv, toFloat]

example (parse : String → Option ℝ) :
    stationsOf parse [[.str "Well", .str "A"], [],
      [.empty, .empty, .empty, .empty, .num 0, .num 0, .num 10, .num 0, .empty],
      [.empty, .empty, .empty, .empty, .str "end"],
      [.empty, .empty, .empty, .empty, .num 30, .num 2, .empty, .num 29, .num 90]]
      = [⟨0, some 0, some 10, some 0, none⟩, ⟨30, some 2, none, some 29, some 90⟩] := by
  simp [stationsOf, stationOf, col, floatOr0, toFloat]

/-- C273. The error terms of a Model sheet are its rows that have a number in column D and a code
in column E, in the order of the sheet, each with its own code, weight function, magnitude, unit
and propagation. -/
theorem C273_terms (text : ℝ → String) (parse : String → Option ℝ) (rows : List (List Cell)) :
    ∃ idx : List ℕ, idx.Pairwise (· < ·) ∧
      (∀ i, i ∈ idx ↔ ∃ r no, rows[i]? = some r ∧ r[3]? = some (.num no) ∧
        ((∃ s, r[4]? = some (.str s) ∧ s ≠ "") ∨ ∃ x : ℝ, r[4]? = some (.num x) ∧ x ≠ 0)) ∧
      List.Forall₂ (fun i t => ∃ r, rows[i]? = some r ∧
          (∀ s, r[4]? = some (.str s) → t.code = Owsg.stripS s) ∧
          (∀ s, r[6]? = some (.str s) → t.wtFn = s) ∧
          (∀ v, r[9]? = some (.num v) → t.magnitude = some v) ∧
          (∀ s, r[10]? = some (.str s) → t.unit = s) ∧
          (∀ s, r[11]? = some (.str s) → t.propagation = Owsg.stripS s))
        idx (modelTerms text parse rows) := by
  obtain ⟨idx, h1, h2, h3⟩ := filterMap_places (termOf text parse) 0 rows
  refine ⟨idx, h1, ?_, ?_⟩
  · intro i
    rw [h2]
    constructor
    · rintro ⟨-, r, t, hr, ht⟩
      unfold termOf at ht
      split_ifs at ht with hc
      rw [Bool.and_eq_true] at hc
      obtain ⟨hn, hcode⟩ := hc
      rcases h : col r 3 with _ | no | s
      · simp [h, isNum] at hn
      · refine ⟨r, no, hr, col_num.1 h, ?_⟩
        rcases h4 : r[4]? with _ | c
        · simp [col, h4, truthy] at hcode
        · cases c <;> simp_all [col, truthy]
      · simp [h, isNum] at hn
    · rintro ⟨r, no, hr, hn, hc⟩
      have hc' : truthy (col r 4) = true := by
        rcases hc with ⟨s, h, hs⟩ | ⟨x, h, hx⟩
        · simp [col_some h, truthy, hs]
        · simp [col_some h, truthy, hx]
      have ht : (termOf text parse r).isSome := by
        unfold termOf
        rw [if_pos (by rw [col_some hn, hc']; rfl)]; rfl
      obtain ⟨t, ht⟩ := Option.isSome_iff_exists.1 ht
      exact ⟨Nat.zero_le _, r, t, hr, ht⟩
  · rw [List.drop_zero] at h3
    refine List.Forall₂.imp ?_ h3
    rintro i t ⟨r, hr, ht⟩
    unfold termOf at ht
    split_ifs at ht with hc
    cases ht
    refine ⟨r, hr, ?_, ?_, ?_, ?_, ?_⟩ <;> intro s hs <;> simp [col_some hs, cellText, toFloat]

example (text : ℝ → String) (parse : String → Option ℝ) :
    modelTerms text parse [[.str "Source", .str "x", .empty, .str "No", .str "Code"],
      [.empty, .empty, .empty, .num 1, .str "DRFR", .str "d", .str "DREF", .empty, .str "Depth",
        .num 0.35, .str "m", .str "R"]] =
      [⟨Owsg.stripS "DRFR", "DREF", some 0.35, "m", Owsg.stripS "R"⟩] := by
  simp [modelTerms, termOf, col, truthy, isNum, cellText, toFloat]

/-! ### C274: the source tabs -/

/-- Every column of a tab has one value for each depth. -/
def TabParallel {K : Type} (t : Tab K) : Prop :=
  ∀ b ∈ t.blocks, ∀ c ∈ b.2, c.2.length = t.md.length

/-- All the columns of a tab have `n` values. -/
def TabAligned {K : Type} (n : ℕ) (t : Tab K) : Prop :=
  t.md.length = n ∧ ∀ b ∈ t.blocks, ∀ c ∈ b.2, c.2.length = n

theorem lookup_sourceTabs {K : Type} (codes : List String) (n : ℕ) (tab : String → Tab K)
    (sheets : List String) (s : String) :
    (sourceTabs codes n tab sheets).lookup s =
      if s ∈ sheets ∧ s ∈ codes ∧ s ∉ nonSource then some (alignTab n (tab s)) else none := by
  unfold sourceTabs
  induction sheets using List.reverseRecOn with
  | nil => simp
  | append_singleton l a ih =>
    rw [List.foldl_append, List.foldl_cons, List.foldl_nil]
    by_cases h1 : a ∈ nonSource
    · rw [if_pos h1, ih]
      by_cases h : s = a
      · subst h; simp [h1]
      · simp [h]
    · rw [if_neg h1]
      by_cases h2 : a ∈ codes
      · rw [if_pos h2, lookup_dictSet, ih]
        by_cases h : s = a
        · subst h; simp [h1, h2]
        · simp [h]
      · rw [if_neg h2, ih]
        by_cases h : s = a
        · subst h; simp [h2]
        · simp [h]

/-- C274, where the sheets have at least as many rows as the well path has stations: the tabs are
those of the sheets named as an error term, each has one value for each station, and these are the
first of the sheet. -/
theorem C274_aligned_partial {K : Type} (codes : List String) {n : ℕ} (hn : n ≠ 0)
    (tab : String → Tab K) (sheets : List String) (hp : ∀ s, TabParallel (tab s)) (s : String)
    (hl : n ≤ (tab s).md.length) :
    ((sourceTabs codes n tab sheets).lookup s ≠ none ↔
      s ∈ sheets ∧ s ∈ codes ∧ s ∉ nonSource) ∧
    ∀ t, (sourceTabs codes n tab sheets).lookup s = some t →
      TabAligned n t ∧ t.md <+: (tab s).md ∧
      t.blocks.map (·.1) = (tab s).blocks.map (·.1) ∧
      List.Forall₂ (fun b b' => List.Forall₂ (fun c c' => c.1 = c'.1 ∧ c.2 <+: c'.2) b.2 b'.2)
        t.blocks (tab s).blocks := by
  rw [lookup_sourceTabs]
  constructor
  · split_ifs with h <;> simp [h]
  · intro t ht
    split_ifs at ht with h
    cases ht
    unfold alignTab
    have hp := hp s
    have rfl2 : ∀ bs : List (String × List (String × List K)), List.Forall₂ (fun b b' =>
        List.Forall₂ (fun c c' => c.1 = c'.1 ∧ c.2 <+: c'.2) b.2 b'.2) bs bs := by
      intro bs
      refine List.forall₂_same.2 fun b _ => List.forall₂_same.2 fun c _ => ⟨rfl, List.prefix_rfl⟩
    split_ifs with h'
    · refine ⟨⟨by simp; omega, ?_⟩, List.take_prefix _ _, ?_, ?_⟩
      · intro b hb c hc
        obtain ⟨b0, hb0, rfl⟩ := List.mem_map.1 hb
        obtain ⟨c0, hc0, rfl⟩ := List.mem_map.1 hc
        have := hp b0 hb0 c0 hc0
        simp; omega
      · simp [List.map_map, Function.comp_def]
      · rw [List.forall₂_map_left_iff]
        refine List.forall₂_same.2 fun b _ => ?_
        rw [List.forall₂_map_left_iff]
        exact List.forall₂_same.2 fun c _ => ⟨rfl, List.take_prefix _ _⟩
    · have e : (tab s).md.length = n := by
        by_contra hne
        exact h' ⟨hn, by omega⟩
      exact ⟨⟨e, fun b hb c hc => (hp b hb c hc).trans e⟩, List.prefix_rfl, rfl, rfl2 _⟩

example : sourceTabs ["ABXY", "drdp"] 2
    (fun _ => (⟨[0, 30, 60], [("NEV", [("N", [1, 2, 3])])]⟩ : Tab ℕ)) ["Model", "ABXY", "drdp", "x"]
    = [("ABXY", ⟨[0, 30], [("NEV", [("N", [1, 2])])]⟩)] := by decide +kernel

/-- C274 fails: a sheet with fewer rows than the well path has stations is kept as it is. -/
theorem C274_short : ∃ (tab : String → Tab ℕ) (t : Tab ℕ), (∀ s, TabParallel (tab s)) ∧
    (sourceTabs ["ABXY"] 3 tab ["ABXY"]).lookup "ABXY" = some t ∧ ¬ TabAligned 3 t := by
  refine ⟨fun _ => ⟨[0, 60], [("NEV", [("N", [1, 3])])]⟩, ⟨[0, 60], [("NEV", [("N", [1, 3])])]⟩,
    ?_, by decide +kernel, by simp [TabAligned]⟩
  intro s b hb c hc
  simp at hb; subst hb; simp at hc; subst hc; rfl

/-! ### C275: the totals -/

/-- Each comparison is of a row of the sheet with the survey's value at the depth of that row. -/
def SameDepth {K : Type} (sheet survey : List (ℝ × K)) (scale : ℝ) : Prop :=
  ∃ cmp, totalsPairs scale sheet survey = some cmp ∧
    List.Forall₂ (fun (row : ℝ × K) (c : ℝ × K × K) => c.1 = row.1 * scale ∧ c.2.1 = row.2 ∧
      (c.1, c.2.2) ∈ survey) sheet cmp

/-- C275, where the rows of the sheet are the first stations of the survey. -/
theorem C275_same_rows_partial {K : Type} (sheet survey : List (ℝ × K)) (scale : ℝ)
    (h : sheet.map (fun r => r.1 * scale) <+: survey.map (·.1)) :
    SameDepth sheet survey scale := by
  have hl : sheet.length ≤ survey.length := by simpa using h.length_le
  refine ⟨_, by rw [totalsPairs, if_pos hl], ?_⟩
  clear hl
  induction sheet generalizing survey with
  | nil => simp
  | cons a t ih =>
    cases survey with
    | nil => simp at h
    | cons b u =>
      simp only [List.map_cons, List.cons_prefix_cons] at h
      simp only [List.zip_cons_cons, List.map_cons]
      refine List.Forall₂.cons ⟨rfl, rfl, ?_⟩ ?_
      · simp [h.1]
      · refine List.Forall₂.imp ?_ (ih u h.2)
        rintro r c ⟨h1, h2, h3⟩
        exact ⟨h1, h2, List.mem_cons_of_mem _ h3⟩

example : SameDepth [((0 : ℝ), 1), (100, 2)] [(0, 5), (30.48, 6), (60, 7)] 0.3048 :=
  C275_same_rows_partial _ _ _ (by norm_num)

/-- C275 fails: a sheet that lists every other station is compared with other stations, and one
that lists more rows than there are stations is an error. -/
theorem C275_by_place :
    ¬ SameDepth [((0 : ℝ), 1), (60, 2)] [(0, 1), (30, 5), (60, 2)] 1 ∧
    ¬ SameDepth [((0 : ℝ), 1), (0, 1)] [(0, 1)] 1 := by
  constructor
  · rintro ⟨cmp, h, hf⟩
    simp [totalsPairs] at h
    subst h
    simp at hf
  · rintro ⟨cmp, h, -⟩
    simp [totalsPairs] at h

end Welleng.Props
