import Verif.Model.Sheets
import Verif.Props.Ingest

/-!
C138-C142: the sheet readers of `/repo/welleng/errors/iscwsa_ingest.py`.
-/

namespace Welleng.Props

open Ingest
open Edm (dictSet)

/-! ### C138 -/

theorem replaceDeg_cons {c : Char} {t : List Char} (h : ¬ "deg".toList <+: c :: t) :
    replaceDeg (c :: t) = c :: replaceDeg t := by
  rw [replaceDeg.eq_2]
  rintro u rfl rfl
  exact h ⟨u, rfl⟩

theorem replaceDeg_none {u : List Char} (h : ¬ "deg".toList <:+: u) : replaceDeg u = u := by
  induction u with
  | nil => rfl
  | cons c t ih =>
    rw [replaceDeg_cons (fun hp => h hp.isInfix),
      ih (fun hi => h (hi.trans (List.suffix_cons c t).isInfix))]

theorem replaceDeg_once {a b : List Char} (ha : ¬ "deg".toList <:+: a)
    (hb : ¬ "deg".toList <:+: b) :
    replaceDeg (a ++ "deg".toList ++ b) = a ++ "rad".toList ++ b := by
  induction a with
  | nil =>
    show 'r' :: 'a' :: 'd' :: replaceDeg b = _
    rw [replaceDeg_none hb]; rfl
  | cons c t ih =>
    have ht : ¬ "deg".toList <:+: t :=
      fun hi => ha (hi.trans (List.suffix_cons c t).isInfix)
    have hc : ¬ "deg".toList <+: c :: (t ++ "deg".toList ++ b) := by
      rintro ⟨u, hu⟩
      apply ha
      rw [show "deg".toList = ['d', 'e', 'g'] from rfl] at hu ⊢
      match t, hu with
      | [], hu => simp at hu
      | [x], hu => simp at hu
      | x :: y :: r, hu =>
        simp only [List.cons_append, List.nil_append, List.cons.injEq] at hu
        obtain ⟨rfl, rfl, rfl, _⟩ := hu
        exact ⟨[], r, by simp⟩
    rw [List.cons_append, List.cons_append, replaceDeg_cons hc, ih ht]
    rfl

/-- C138: the entry of an error source has the weighting function, magnitude, unit and propagation
of the source.  A magnitude in a unit with degrees is given in radians and the unit says so. -/
theorem C138_legacy_entry (terms : List (Term ℝ)) (hn : (terms.map (·.code)).Nodup)
    (hx : ¬ ("XCLA" ∈ terms.map (·.code) ∧ "XCLL" ∈ terms.map (·.code))) (t : Term ℝ)
    (ht : t ∈ terms) :
    ∃ e, ((if t.code = "XCLL" then "XCLA" else t.code), e) ∈ legacyTable terms ∧
      e.function = String.ofList (t.wtFn.toList.map fun c => if c = '-' then '_' else c) ∧
      (¬ "deg".toList <:+: t.unit.toList → e.magnitude = t.magnitude ∧ e.unit = t.unit) ∧
      (∀ a b : String, t.unit = a ++ "deg" ++ b → ¬ "deg".toList <:+: a.toList →
        ¬ "deg".toList <:+: b.toList →
        e.magnitude = t.magnitude * (Real.pi / 180) ∧ e.unit = a ++ "rad" ++ b) ∧
      (t.propagation = "R" → e.propagation = "random") ∧
      (t.propagation = "S" → e.propagation = "systematic") ∧
      (t.propagation = "G" → e.propagation = "global") ∧
      (t.propagation = "W" → e.propagation = "within_pad") := by
  refine ⟨_, (C51_distinct_partial (fn := legacyFn) (si := magnitudeSi) (unitSi := unitSi) terms hn
    hx).2 t ht, rfl, ?_, ?_, ?_, ?_, ?_, ?_⟩
  · intro h
    simp only [entryOf, magnitudeSi, if_neg h, unitSi, replaceDeg_none h, String.ofList_toList,
      and_self]
  · intro a b hu ha hb
    have hi : "deg".toList <:+: t.unit.toList := by
      rw [hu, String.toList_append, String.toList_append]
      exact ⟨a.toList, b.toList, rfl⟩
    simp only [entryOf, magnitudeSi, if_pos hi, unitSi]
    refine ⟨by unfold radians; ring, ?_⟩
    rw [hu, String.toList_append, String.toList_append, replaceDeg_once ha hb]
    apply String.toList_injective
    simp
  all_goals
    intro h
    simp [entryOf, propagationOf, h]

/-- A degree source and a plain source of one workbook. -/
example : ∃ e, ("AMIL", e) ∈ legacyTable
    [⟨"DECG", "AZ", 0.36, "deg", "G"⟩, ⟨"AMIL", "AMIL", 220, "nT", "S"⟩] ∧
      e.magnitude = 220 ∧ e.unit = "nT" := by
  obtain ⟨e, h1, -, h2, -⟩ := C138_legacy_entry
    [⟨"DECG", "AZ", 0.36, "deg", "G"⟩, ⟨"AMIL", "AMIL", 220, "nT", "S"⟩] (by decide) (by decide)
    ⟨"AMIL", "AMIL", 220, "nT", "S"⟩ (by simp)
  refine ⟨e, by simpa using h1, h2 ?_⟩
  show ¬ ['d', 'e', 'g'] <:+: ['n', 'T']
  decide

/-- C138: a source whose propagation is not one of the four letters is entered as systematic. -/
theorem C138_unknown_propagation (t : Term ℝ)
    (h : t.propagation ∉ ["R", "S", "G", "W"]) :
    (entryOf legacyFn magnitudeSi unitSi t).propagation = "systematic" := by
  simp only [List.mem_cons, List.not_mem_nil, or_false, not_or] at h
  simp [entryOf, propagationOf, h]

/-! ### C139 -/

/-- C139: whatever the order of the columns of the TOTALS sheet, each component is read from the
first column headed with its name, in the rows below the header that begin with a number, and is NaN
if there is no such column. -/
theorem C139_totals_by_name (parse : String → Option ℝ) (rows : List (List Cell))
    (header : List Cell) (h : rows[1]? = some header) :
    ∃ nev hla data, parseTotals parse rows = some (nev, hla) ∧
      data = (rows.drop 2).filter (fun r => match r with
        | .num _ :: _ => true
        | _ => false) ∧
      nev.length = data.length ∧ hla.length = data.length ∧
      ∀ (k : ℕ) (r : List Cell), data[k]? = some r →
        ∃ vn vh, nev[k]? = some vn ∧ hla[k]? = some vh ∧
        ∀ (cols : List String) (v : List (Option ℝ)),
          ((cols = ["NN", "EE", "VV", "NE", "NV", "EV"] ∧ v = vn) ∨
            (cols = ["HH", "LL", "AA", "HL", "HA", "LA"] ∧ v = vh)) →
          v.length = 6 ∧ ∀ (j : ℕ) (l : String), cols[j]? = some l →
            (∀ c : ℕ, header[c]? = some (Cell.str l) → (∀ c' < c, header[c']? ≠ some (Cell.str l)) →
              v[j]? = some ((r[c]?).bind (toFloat parse))) ∧
            (Cell.str l ∉ header → v[j]? = some none) := by
  refine ⟨(dataRows rows).map (extractRow parse header nevCols),
    (dataRows rows).map (extractRow parse header hlaCols), dataRows rows, by simp [parseTotals, h],
    ?_, by simp, by simp, fun k r hr => ⟨extractRow parse header nevCols r, extractRow parse header hlaCols r,
      by simp [hr], by simp [hr], ?_⟩⟩
  · unfold dataRows
    congr 1
    funext r
    rcases r with _ | ⟨_ | _ | _, _⟩ <;> rfl
  have key : ∀ (cols : List String) (j : ℕ) (l : String), cols[j]? = some l →
      (∀ c : ℕ, header[c]? = some (Cell.str l) → (∀ c' < c, header[c']? ≠ some (Cell.str l)) →
        (extractRow parse header cols r)[j]? = some ((r[c]?).bind (toFloat parse))) ∧
      (Cell.str l ∉ header → (extractRow parse header cols r)[j]? = some none) := by
    intro cols j l hj
    have lab : ∀ x : Cell, label x = some l ↔ x = .str l := by
      intro x; cases x <;> simp [label]
    constructor
    · intro c hc hfirst
      have hm : some l ∈ header.map label :=
        List.mem_map.2 ⟨_, List.mem_of_getElem? hc, (lab _).2 rfl⟩
      have hidx : (header.map label).idxOf (some l) = c := by
        have hlt := List.idxOf_lt_length_of_mem hm
        have hget := List.getElem_idxOf hlt
        obtain ⟨hcl, hce⟩ := List.getElem?_eq_some_iff.1 hc
        rw [List.getElem_map, lab] at hget
        rw [List.length_map] at hlt
        rcases lt_trichotomy ((header.map label).idxOf (some l)) c with h1 | h1 | h1
        · exact absurd (List.getElem?_eq_some_iff.2 ⟨hlt, hget⟩) (hfirst _ h1)
        · exact h1
        · exfalso
          rw [List.idxOf] at h1
          have := List.not_of_lt_findIdx h1
          simp only [List.getElem_map, hce, label] at this
          simp at this
      simp only [extractRow, List.getElem?_map, hj, Option.map_some, if_pos hm, hidx]
    · intro hno
      have hm : some l ∉ header.map label := by
        intro hm
        obtain ⟨x, hx, hl⟩ := List.mem_map.1 hm
        exact hno ((lab x).1 hl ▸ hx)
      simp only [extractRow, List.getElem?_map, hj, Option.map_some, if_neg hm]
  rintro cols v (⟨rfl, rfl⟩ | ⟨rfl, rfl⟩)
  · exact ⟨rfl, key _⟩
  · exact ⟨rfl, key _⟩

/-- A sheet whose columns are not in the usual order. -/
example (parse : String → Option ℝ) : ∃ nev hla, parseTotals parse
    [[], [.str "Md", .str "EE", .str "NN"], [.num 30, .num 2, .num 1]] = some (nev, hla) ∧
    nev = [[some 1, some 2, none, none, none, none]] := by
  refine ⟨_, _, rfl, ?_⟩
  have h : dataRows [[], [.str "Md", .str "EE", .str "NN"], [.num 30, .num 2, .num 1]]
      = [[.num 30, .num 2, .num 1]] := rfl
  rw [h]
  simp [extractRow, nevCols, label, toFloat, List.idxOf_cons]

/-! ### C140 -/

theorem labels_nev (header : List Cell) :
    (nevPositions header).map (fun i => ((header.map label)[i]?).join)
      = ((header.map label).filter fun o => o.any fun l => decide (l ∈ nevCols)) := by
  have h : header.map label
      = (List.range header.length).map (fun i => ((header.map label)[i]?).join) := by
    apply List.ext_getElem
    · simp
    · intro i h1 h2
      rw [List.length_map] at h1
      simp [h1]
  conv_rhs => rw [h]
  rw [List.filter_map]
  congr 1
  unfold nevPositions
  refine List.filter_congr fun i _ => ?_
  simp

theorem count_before {header : List Cell} {j c : ℕ} {l : String} (hl : l ∈ nevCols)
    (h : (nevPositions header)[j]? = some c) :
    ((header.map label).take c).count (some l)
      = (((header.map label).filter fun o => o.any fun l => decide (l ∈ nevCols)).take j).count
        (some l) := by
  rw [← labels_nev]
  have hc : c < header.length := by
    have := List.mem_of_getElem? h
    simp only [nevPositions, List.mem_filter, List.mem_range] at this
    exact this.1
  have hsplit : (nevPositions header).take j = nevPositions (header.take c) := by
    have e : List.range header.length
        = List.range c ++ (List.range (header.length - c)).map (c + ·) := by
      rw [← List.range_add, Nat.add_sub_cancel' hc.le]
    have e2 : nevPositions header = nevPositions (header.take c)
        ++ ((List.range (header.length - c)).map (c + ·)).filter fun i =>
          decide (((header.map label)[i]?.join).any (fun l => decide (l ∈ nevCols))) := by
      unfold nevPositions
      rw [e, List.filter_append, List.length_take, min_eq_left hc.le]
      congr 1
      refine List.filter_congr fun i hi => ?_
      rw [List.mem_range] at hi
      rw [List.map_take, List.getElem?_take_of_lt hi]
    have hlen : (nevPositions (header.take c)).length = j := by
      have hjl := (List.getElem?_eq_some_iff.1 h).1
      rcases lt_trichotomy (nevPositions (header.take c)).length j with h1 | h1 | h1
      · exfalso
        have hp : (nevPositions header).Pairwise (· < ·) :=
          List.Pairwise.filter _ List.pairwise_lt_range
        have hcm : c ∈ nevPositions header := List.mem_of_getElem? h
        have h0 : ∃ c0, (nevPositions header)[(nevPositions (header.take c)).length]? = some c0 ∧
            c ≤ c0 := by
          rw [e2, List.getElem?_append_right (le_refl _), Nat.sub_self]
          have hne : (((List.range (header.length - c)).map (c + ·)).filter fun i =>
            decide (((header.map label)[i]?.join).any (fun l => decide (l ∈ nevCols)))) ≠ [] := by
            intro hn
            rw [e2, hn, List.append_nil] at hjl
            omega
          obtain ⟨c0, r, hr⟩ := List.exists_cons_of_ne_nil hne
          refine ⟨c0, by rw [hr]; rfl, ?_⟩
          have : c0 ∈ c0 :: r := List.mem_cons_self
          rw [← hr, List.mem_filter, List.mem_map] at this
          obtain ⟨⟨y, _, hy⟩, _⟩ := this
          omega
        obtain ⟨c0, hc0, hle⟩ := h0
        obtain ⟨ha, ha'⟩ := List.getElem?_eq_some_iff.1 hc0
        obtain ⟨hb, hb'⟩ := List.getElem?_eq_some_iff.1 h
        have := List.pairwise_iff_getElem.1 hp _ _ ha hb h1
        omega
      · exact h1
      · exfalso
        rw [e2, List.getElem?_append_left h1] at h
        have := List.mem_of_getElem? h
        simp only [nevPositions, List.mem_filter, List.mem_range, List.length_take] at this
        omega
    rw [e2, List.take_append_of_le_length hlen.ge, ← hlen, List.take_length]
  rw [← List.map_take, ← List.map_take, hsplit]
  have e3 : (nevPositions (header.take c)).map (fun i => ((header.map label)[i]?).join)
      = (nevPositions (header.take c)).map (fun i => (((header.take c).map label)[i]?).join) := by
    refine List.map_congr_left fun i hi => ?_
    simp only [nevPositions, List.mem_filter, List.mem_range, List.length_take] at hi
    rw [List.map_take, List.getElem?_take_of_lt (by omega)]
  rw [e3, labels_nev, List.count_filter]
  simpa using hl

/-- C140 (partial): if the two blocks of the Validation sheet list the components in the usual
order, each diagnostic value is read from the first column with its name and each calculated value
from the second. -/
theorem C140_validation_partial (parse : String → Option ℝ) (header r : List Cell)
    (rest : List (Option String))
    (h : (header.map label).filter (fun o => o.any fun l => decide (l ∈ nevCols))
      = nevCols.map some ++ nevCols.map some ++ rest) (j : ℕ) (l : String)
    (hj : nevCols[j]? = some l) :
    (∃ c, header[c]? = some (Cell.str l) ∧ ((header.map label).take c).count (some l) = 0 ∧
      (validationRow parse header r).diagnostic[j]? = some ((r[c]?).bind (toFloat parse))) ∧
    (∃ c, header[c]? = some (Cell.str l) ∧ ((header.map label).take c).count (some l) = 1 ∧
      (validationRow parse header r).calculated[j]? = some ((r[c]?).bind (toFloat parse))) := by
  have hl : l ∈ nevCols := List.mem_of_getElem? hj
  have hj6 : j < 6 := (List.getElem?_eq_some_iff.1 hj).1
  have main : ∀ i n : ℕ, (nevCols.map some ++ nevCols.map some ++ rest)[i]? = some (some l) →
      ((nevCols.map some ++ nevCols.map some ++ rest).take i).count (some l) = n →
      ∃ c, (nevPositions header)[i]? = some c ∧ header[c]? = some (Cell.str l) ∧
        ((header.map label).take c).count (some l) = n := by
    intro i n hi hn
    rw [← h, ← labels_nev, List.getElem?_map] at hi
    cases hc : (nevPositions header)[i]? with
    | none => rw [hc] at hi; simp at hi
    | some c =>
      rw [hc] at hi
      refine ⟨c, rfl, ?_, ?_⟩
      · simp only [Option.map_some, Option.some.injEq, List.getElem?_map] at hi
        cases hh : header[c]? with
        | none => rw [hh] at hi; simp at hi
        | some x =>
          rw [hh] at hi
          cases x <;> simp_all [label]
      · rw [count_before hl hc, h, hn]
  constructor
  · obtain ⟨c, h1, h2, h3⟩ := main j 0
      (by
        rw [List.append_assoc, List.getElem?_append_left (by simpa [nevCols] using hj6)]
        simp [hj])
      (by
        rw [List.append_assoc, List.take_append_of_le_length (by simpa [nevCols] using hj6.le)]
        interval_cases j <;> simp_all [nevCols] <;> subst hj <;> decide)
    refine ⟨c, h2, h3, ?_⟩
    simp only [validationRow, List.getElem?_map, List.getElem?_take_of_lt hj6, h1, Option.map_some]
  · obtain ⟨c, h1, h2, h3⟩ := main (6 + j) 1
      (by
        rw [List.append_assoc, List.getElem?_append_right (by simp [nevCols]),
          List.getElem?_append_left (by simp [nevCols]; omega), List.getElem?_map,
          show 6 + j - (nevCols.map some).length = j by simp [nevCols], hj]
        rfl)
      (by
        rw [List.take_append_of_le_length (by simp [nevCols]; omega)]
        interval_cases j <;> simp_all [nevCols] <;> subst hj <;> decide)
    refine ⟨c, h2, h3, ?_⟩
    simp only [validationRow, List.getElem?_map, List.getElem?_take_of_lt hj6, List.getElem?_drop,
      h1, Option.map_some]

/-- C140 is false: the columns of the Validation sheet are taken in the order in which they stand.
With NE and VV exchanged, the covariance is read as the vertical variance. -/
theorem C140_order_of_columns (parse : String → Option ℝ) :
    (validationRow parse
      [.str "MD", .str "Source", .str "NN", .str "EE", .str "NE", .str "VV", .str "NV", .str "EV"]
      [.num 30, .str "DRFR", .num 1, .num 2, .num 4, .num 3, .num 5, .num 6]).diagnostic
      = [some 1, some 2, some 4, some 3, some 5, some 6] ∧
    nevCols = ["NN", "EE", "VV", "NE", "NV", "EV"] := by
  refine ⟨?_, rfl⟩
  have h : nevPositions
      [.str "MD", .str "Source", .str "NN", .str "EE", .str "NE", .str "VV", .str "NV", .str "EV"]
      = [2, 3, 4, 5, 6, 7] := by
    simp [nevPositions, nevCols, label, List.range_succ, List.filter]
  simp [validationRow, h, toFloat]

example (parse : String → Option ℝ) (r : List Cell) :
    ∃ c, ((nevCols ++ nevCols).map Cell.str)[c]? = some (.str "NE") ∧
      (((nevCols ++ nevCols).map Cell.str).map label |>.take c).count (some "NE") = 1 ∧
      (validationRow parse ((nevCols ++ nevCols).map Cell.str) r).calculated[3]?
        = some ((r[c]?).bind (toFloat parse)) :=
  (C140_validation_partial parse _ r [] (by simp [nevCols, label]) 3 "NE" rfl).2

/-! ### C141 -/

/-- The block label and the number of earlier blocks with it determine the name, and conversely,
unless a label looks like a numbered one. -/
theorem numbered_inj {l l' : String} {m m' : ℕ}
    (h1 : ∀ k, 0 < k → numbered l k ≠ l') (h2 : ∀ k, 0 < k → numbered l' k ≠ l)
    (h : numbered l m = numbered l' m') : l = l' ∧ m = m' := by
  rcases Nat.eq_zero_or_pos m with rfl | hm
  · rcases Nat.eq_zero_or_pos m' with rfl | hm'
    · exact ⟨by simpa [numbered] using h, rfl⟩
    · exact absurd (by simpa [numbered] using h.symm) (h2 m' hm')
  · rcases Nat.eq_zero_or_pos m' with rfl | hm'
    · exact absurd (by simpa [numbered] using h) (h1 m hm)
    · have h' := congrArg String.toList h
      simp only [numbered, hm.ne', hm'.ne', if_false, String.toList_append] at h'
      have d : ∀ n : ℕ, '_' ∉ (toString n).toList := by
        intro n
        rw [show toString n = n.repr from rfl, Nat.toList_repr]
        exact Nat.underscore_not_in_toDigits
      have key : ∀ (a b c d : List Char), '_' ∉ c → '_' ∉ d →
          a ++ ['_'] ++ c = b ++ ['_'] ++ d → a = b ∧ c = d := by
        intro a b c d hc hd he
        rw [List.append_assoc, List.append_assoc, List.append_eq_append_iff] at he
        rcases he with ⟨x, hx, hy⟩ | ⟨x, hx, hy⟩
        · cases x with
          | nil => simp_all
          | cons z t =>
            exfalso
            simp only [List.cons_append, List.nil_append, List.cons.injEq] at hy
            rw [hy.2] at hc
            simp at hc
        · cases x with
          | nil => simp_all
          | cons z t =>
            exfalso
            simp only [List.cons_append, List.nil_append, List.cons.injEq] at hy
            rw [hy.2] at hd
            simp at hd
      obtain ⟨e1, e2⟩ := key _ _ _ _ (d _) (d _) h'
      refine ⟨String.toList_injective e1, ?_⟩
      have := String.toList_injective e2
      have e3 := congrArg (fun s : String => Nat.ofDigitChars 10 s.toList 0) this
      simp only [show ∀ n : ℕ, toString n = n.repr from fun _ => rfl, Nat.toList_repr,
        Nat.ofDigitChars_ten_toDigits] at e3
      omega

theorem seenCount_dictSet (seen : List (String × ℕ)) (l l' : String) (v : ℕ) :
    seenCount (dictSet seen l v) l' = if l = l' then v else seenCount seen l' := by
  induction seen with
  | nil =>
    by_cases h : l = l' <;> simp [dictSet, seenCount, h]
  | cons a t ih =>
    obtain ⟨a1, a2⟩ := a
    unfold dictSet
    by_cases h1 : a1 = l
    · subst h1
      by_cases h : a1 = l' <;> simp [seenCount, h]
    · rw [if_neg h1]
      by_cases h2 : a1 = l'
      · have : l ≠ l' := fun e => h1 (h2.trans e.symm)
        simp [seenCount, h2, this]
      · simp only [seenCount, List.find?_cons, h2, decide_false] at ih ⊢
        exact ih

section Blocks

variable {B : Type} (read : Span → List B) (first : Option String)

theorem blocks_inv (spans : List Span)
    (hn : ∀ s ∈ spans, ∀ s' ∈ spans, ∀ k, 0 < k → numbered s.label k ≠ s'.label) :
    (∀ l, some l ≠ first → seenCount (spans.foldl (sourceStep read first) ([], [])).1 l
        = (spans.map (·.label)).count l) ∧
    (∀ n ∈ (sourceBlocks read first spans).map (·.1), ∃ s ∈ spans, some s.label ≠ first ∧
        ∃ m < (spans.map (·.label)).count s.label, n = numbered s.label m) ∧
    (∀ pre s post, spans = pre ++ s :: post → some s.label ≠ first → read s ≠ [] →
        (numbered s.label ((pre.map (·.label)).count s.label), read s)
          ∈ sourceBlocks read first spans) ∧
    ((sourceBlocks read first spans).map (·.1)).Nodup ∧
    (sourceBlocks read first spans).length
      = (spans.filter fun s => decide (some s.label ≠ first) && !(read s).isEmpty).length := by
  induction spans using List.reverseRecOn with
  | nil => simp [sourceBlocks, seenCount]
  | append_singleton p s ih =>
    obtain ⟨i1, i2, i3, i4, i5⟩ := ih fun a ha b hb => hn a (by simp [ha]) b (by simp [hb])
    unfold sourceBlocks at *
    rw [List.foldl_append, List.foldl_cons, List.foldl_nil]
    generalize hst : p.foldl (sourceStep read first) ([], []) = st at *
    have split : ∀ {pre x post}, p ++ [s] = pre ++ x :: post →
        (post = [] ∧ pre = p ∧ x = s) ∨ ∃ q, post = q ++ [s] ∧ p = pre ++ x :: q := by
      intro pre x post h
      rcases List.eq_nil_or_concat post with rfl | ⟨q, z, rfl⟩
      · obtain ⟨h1, h2⟩ := List.append_inj' h rfl
        exact Or.inl ⟨rfl, h1.symm, by simpa using h2.symm⟩
      · right
        rw [List.concat_eq_append] at h ⊢
        rw [← List.cons_append, ← List.append_assoc] at h
        obtain ⟨h1, h2⟩ := List.append_inj' h rfl
        simp only [List.cons.injEq, and_true] at h2
        exact ⟨q, by rw [h2], h1⟩
    have mono : ∀ l, (p.map (·.label)).count l ≤ ((p ++ [s]).map (·.label)).count l := by
      intro l; rw [List.map_append, List.count_append]; omega
    by_cases hf : some s.label = first
    · rw [show sourceStep read first st s = st by simp [sourceStep, hf]]
      refine ⟨fun l hl => ?_, fun n h => ?_, fun pre x post h hx hr => ?_, i4, ?_⟩
      · rw [i1 l hl, List.map_append, List.count_append]
        have : s.label ≠ l := fun e => hl (e ▸ hf)
        simp [this]
      · obtain ⟨x, hx, h1, m, h2, h3⟩ := i2 n h
        exact ⟨x, by simp [hx], h1, m, h2.trans_le (mono _), h3⟩
      · rcases split h with ⟨-, -, rfl⟩ | ⟨q, -, hq⟩
        · exact absurd hf hx
        · exact i3 pre x q hq hx hr
      · rw [i5, List.filter_append]; simp [hf]
    · have hc := i1 s.label hf
      have hseen : ∀ l, some l ≠ first →
          seenCount (dictSet st.1 s.label (seenCount st.1 s.label + 1)) l
            = ((p ++ [s]).map (·.label)).count l := by
        intro l hl
        rw [seenCount_dictSet, List.map_append, List.count_append]
        by_cases e : s.label = l
        · subst e; simp [hc]
        · rw [if_neg e, i1 l hl]; simp [e]
      by_cases hr0 : read s = []
      · rw [show sourceStep read first st s
          = (dictSet st.1 s.label (seenCount st.1 s.label + 1), st.2) by
            simp [sourceStep, hf, hr0]]
        refine ⟨hseen, fun n h => ?_, fun pre x post h hx hr => ?_, i4, ?_⟩
        · obtain ⟨x, hx, h1, m, h2, h3⟩ := i2 n h
          exact ⟨x, by simp [hx], h1, m, h2.trans_le (mono _), h3⟩
        · rcases split h with ⟨-, -, rfl⟩ | ⟨q, -, hq⟩
          · exact absurd hr0 hr
          · exact i3 pre x q hq hx hr
        · rw [i5, List.filter_append]; simp [hr0]
      · have hnew : numbered s.label (seenCount st.1 s.label) ∉ st.2.map (·.1) := by
          intro h
          obtain ⟨x, hx, h1, m, h2, h3⟩ := i2 _ h
          obtain ⟨e1, e2⟩ := numbered_inj (hn s (by simp) x (by simp [hx]))
            (hn x (by simp [hx]) s (by simp)) h3
          rw [← e1] at h2
          omega
        rw [show sourceStep read first st s
          = (dictSet st.1 s.label (seenCount st.1 s.label + 1),
              st.2 ++ [(numbered s.label (seenCount st.1 s.label), read s)]) by
            rw [← dictSet_new _ hnew]; simp [sourceStep, hf, hr0]]
        refine ⟨hseen, fun n h => ?_, fun pre x post h hx hr => ?_, ?_, ?_⟩
        · rw [List.map_append, List.mem_append] at h
          rcases h with h | h
          · obtain ⟨x, hx, h1, m, h2, h3⟩ := i2 n h
            exact ⟨x, by simp [hx], h1, m, h2.trans_le (mono _), h3⟩
          · refine ⟨s, by simp, hf, seenCount st.1 s.label, ?_, by simpa using h⟩
            rw [hc, List.map_append, List.count_append]; simp
        · rcases split h with ⟨-, rfl, rfl⟩ | ⟨q, -, hq⟩
          · rw [hc]; simp
          · exact List.mem_append_left _ (i3 pre x q hq hx hr)
        · rw [List.map_append]
          refine List.nodup_append.2 ⟨i4, by simp, ?_⟩
          intro a ha b hb e
          simp only [List.map_cons, List.map_nil, List.mem_singleton] at hb
          exact hnew (hb ▸ e ▸ ha)
        · rw [List.length_append, i5, List.filter_append]; simp [hf, hr0]

/-- C141 (partial): unless some label reads like the numbered name of another, every block of a
source sheet with columns is kept with its columns under its own name: the label for the first
block with that label, then the label with `_2`, `_3`, ...  Nothing else is kept. -/
theorem C141_blocks_partial (spans : List Span)
    (hn : ∀ s ∈ spans, ∀ s' ∈ spans, ∀ k, 0 < k →
      s.label ++ "_" ++ toString (k + 1) ≠ s'.label) :
    (∀ pre s post, spans = pre ++ s :: post → some s.label ≠ first → read s ≠ [] →
        ((if (pre.map (·.label)).count s.label = 0 then s.label
          else s.label ++ "_" ++ toString ((pre.map (·.label)).count s.label + 1)), read s)
          ∈ sourceBlocks read first spans) ∧
    ((sourceBlocks read first spans).map (·.1)).Nodup ∧
    (sourceBlocks read first spans).length
      = (spans.filter fun s => decide (some s.label ≠ first) && !(read s).isEmpty).length :=
  (blocks_inv read first spans fun a ha b hb k hk => by
    simpa [numbered, hk.ne'] using hn a ha b hb k hk).2.2

end Blocks

/-- C141 is false: with a label that reads like a numbered one, a block replaces another. -/
theorem C141_block_replaced :
    sourceBlocks (fun s => [s.start]) (some "Md")
      [⟨1, "Covariance", 6⟩, ⟨7, "Covariance", 6⟩, ⟨13, "Covariance_2", 6⟩]
      = [("Covariance", [1]), ("Covariance_2", [13])] := by
  decide +kernel

/-- Two blocks with one label are both kept. -/
example : sourceBlocks (fun s => [s.start]) (some "Md")
    [⟨0, "Md", 1⟩, ⟨1, "Covariance", 6⟩, ⟨7, "Covariance", 6⟩]
    = [("Covariance", [1]), ("Covariance_2", [7])] := by
  decide +kernel

/-! ### C142 -/

/-- Two blocks have no column in common. -/
def Apart (a b : Span) : Prop := ∀ i, ¬ (a.covers i = true ∧ b.covers i = true)

theorem addCells_inv (cells : List (ℕ × Option String)) :
    ∀ spans : List Span, spans.Pairwise Apart → (∀ s ∈ spans, 0 < s.span) →
    (addCells spans cells).Pairwise Apart ∧ (∀ s ∈ spans, s ∈ addCells spans cells) ∧
    ∀ c ∈ cells, c.2.isSome → ∃ s ∈ addCells spans cells, s.covers c.1 = true := by
  induction cells with
  | nil => intro spans h _; simp [addCells, h]
  | cons c t ih =>
    intro spans h hp
    obtain ⟨i, o⟩ := c
    have hcons : ∀ x, addCells x ((i, o) :: t) = addCells (match o with
        | none => x
        | some v =>
          if x.any (fun s => decide (s.start = i)) then x
          else if x.any (fun s => s.covers i) then x else x ++ [⟨i, v, 1⟩]) t := by
      intro x; rfl
    rw [hcons]
    cases o with
    | none =>
      obtain ⟨h1, h2, h3⟩ := ih spans h hp
      refine ⟨h1, h2, fun c hc hs => ?_⟩
      rcases List.mem_cons.1 hc with rfl | hc
      · simp at hs
      · exact h3 c hc hs
    | some v =>
      simp only
      by_cases ha : spans.any (fun s => decide (s.start = i)) = true
      · rw [if_pos ha]
        obtain ⟨h1, h2, h3⟩ := ih spans h hp
        refine ⟨h1, h2, fun c hc hs => ?_⟩
        rcases List.mem_cons.1 hc with rfl | hc
        · obtain ⟨s, hs1, hs2⟩ := List.any_eq_true.1 ha
          have h4 := hp s hs1
          refine ⟨s, h2 s hs1, ?_⟩
          simp only [decide_eq_true_eq] at hs2
          simp only [Span.covers, decide_eq_true_eq]
          omega
        · exact h3 c hc hs
      · rw [if_neg ha]
        by_cases hb : spans.any (fun s => s.covers i) = true
        · rw [if_pos hb]
          obtain ⟨h1, h2, h3⟩ := ih spans h hp
          refine ⟨h1, h2, fun c hc hs => ?_⟩
          rcases List.mem_cons.1 hc with rfl | hc
          · obtain ⟨s, hs1, hs2⟩ := List.any_eq_true.1 hb
            exact ⟨s, h2 s hs1, hs2⟩
          · exact h3 c hc hs
        · rw [if_neg hb]
          have hap : (spans ++ [(⟨i, v, 1⟩ : Span)]).Pairwise Apart := by
            refine List.pairwise_append.2 ⟨h, by simp, ?_⟩
            intro a ha' b hb' k hk
            rw [List.mem_singleton] at hb'
            subst hb'
            have hki : k = i := by
              have := hk.2
              simp only [Span.covers, decide_eq_true_eq] at this
              omega
            subst hki
            exact hb (List.any_eq_true.2 ⟨a, ha', hk.1⟩)
          obtain ⟨h1, h2, h3⟩ := ih _ hap (by
            intro x hx
            rcases List.mem_append.1 hx with hx | hx
            · exact hp x hx
            · rw [List.mem_singleton] at hx; subst hx; exact Nat.one_pos)
          refine ⟨h1, fun s hs => h2 s (by simp [hs]), fun c hc hs => ?_⟩
          rcases List.mem_cons.1 hc with rfl | hc
          · exact ⟨⟨i, v, 1⟩, h2 _ (by simp), by simp [Span.covers]⟩
          · exact h3 c hc hs

/-- C142: if merged ranges do not overlap, no column of a sheet belongs to two blocks, every merged
range with a label is a block, and every labelled cell belongs to a block. -/
theorem C142_blocks_apart (merged : List (ℕ × Option String × ℕ)) (row : List (Option String))
    (hpos : ∀ m ∈ merged, 0 < m.2.2)
    (hm : merged.Pairwise fun a b => ∀ i : ℕ,
      ¬ ((a.1 ≤ i ∧ i < a.1 + a.2.2) ∧ (b.1 ≤ i ∧ i < b.1 + b.2.2))) :
    (headerSpans merged row).Pairwise (fun a b => ∀ i : ℕ,
      ¬ ((a.start ≤ i ∧ i < a.start + a.span) ∧ (b.start ≤ i ∧ i < b.start + b.span))) ∧
    (∀ m ∈ merged, ∀ l, m.2.1 = some l → (⟨m.1, l, m.2.2⟩ : Span) ∈ headerSpans merged row) ∧
    ∀ (i : ℕ) (l : String), row[i]? = some (some l) →
      ∃ s ∈ headerSpans merged row, s.start ≤ i ∧ i < s.start + s.span := by
  have h0 : (merged.filterMap fun m => m.2.1.map fun l => (⟨m.1, l, m.2.2⟩ : Span)).Pairwise
      Apart := by
    refine List.Pairwise.filterMap _ (fun a b hab s hs s' hs' i hi => ?_) hm
    obtain ⟨l, -, rfl⟩ := Option.map_eq_some_iff.1 hs
    obtain ⟨l', -, rfl⟩ := Option.map_eq_some_iff.1 hs'
    simp only [Span.covers, decide_eq_true_eq] at hi
    exact hab i hi
  obtain ⟨h1, h2, h3⟩ := addCells_inv (row.zipIdx.map fun p => (p.2, p.1)) _ h0 (by
    intro s hs
    obtain ⟨m, hm1, hm2⟩ := List.mem_filterMap.1 hs
    obtain ⟨l, -, rfl⟩ := Option.map_eq_some_iff.1 hm2
    exact hpos m hm1)
  refine ⟨h1.imp fun h i hi => h i (by simpa [Span.covers] using hi), ?_, ?_⟩
  · intro m hm' l hl
    exact h2 _ (List.mem_filterMap.2 ⟨m, hm', by simp [hl]⟩)
  · intro i l hl
    obtain ⟨s, hs, hc⟩ := h3 (i, some l) (List.mem_map.2 ⟨(some l, i), by
      rw [List.mem_zipIdx_iff_getElem?]; exact hl, rfl⟩) rfl
    refine ⟨s, hs, ?_⟩
    simpa [Span.covers] using hc

example : headerSpans [(1, some "dpde", 3)] [some "Md", some "dpde", none, none, some "e"]
    = [⟨1, "dpde", 3⟩, ⟨0, "Md", 1⟩, ⟨4, "e", 1⟩] := by
  decide +kernel

end Welleng.Props
