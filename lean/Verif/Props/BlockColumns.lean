import Verif.Model.Sheets
import Verif.Props.EdmSurvey

/-!
C370: the columns of a block of a source sheet.
-/

namespace Welleng.Props

open Ingest Edm

variable {K : Type} (toF : Cell → Option K) (subcols : List (Option String)) (data : List (List Cell))

/-- The label of a column in row 2. -/
def columnLabel (i : ℕ) : Option String := (subcols[i]?).join

/-- The values of a column. -/
def columnOf (i : ℕ) : List (Option K) := data.map fun r => (r[i]?).bind toF

theorem readBlock_lookup (start : ℕ) (l : String) (offs : List ℕ) (b : List (String × List (Option K))) :
    (offs.foldl (fun b o =>
      match (subcols[start + o]?).join with
      | none => b
      | some sub => dictSet b sub (data.map fun r => (r[start + o]?).bind toF)) b).lookup l
      = match (offs.filter fun o => decide (columnLabel subcols (start + o) = some l)).getLast? with
        | some o => some (columnOf toF data (start + o))
        | none => b.lookup l := by
  induction offs generalizing b with
  | nil => rfl
  | cons o t ih =>
    rw [List.foldl_cons, ih]
    cases hc : columnLabel subcols (start + o) with
    | none =>
      have hc' : (subcols[start + o]?).join = none := hc
      rw [hc', List.filter_cons_of_neg (by simp [hc])]
    | some sub =>
      have hc' : (subcols[start + o]?).join = some sub := hc
      rw [hc']
      simp only
      by_cases hl : sub = l
      · subst hl
        rw [List.filter_cons_of_pos (by simp [hc])]
        cases hg : (t.filter fun o => decide (columnLabel subcols (start + o) = some sub)).getLast? with
        | none =>
          rw [List.getLast?_eq_none_iff] at hg
          rw [hg]
          simp [lookup_dictSet, columnOf]
        | some o' =>
          have hne : (t.filter fun o => decide (columnLabel subcols (start + o) = some sub)) ≠ [] := by
            intro h0; rw [h0] at hg; simp at hg
          rw [List.getLast?_cons, hg]
          simp
      · rw [List.filter_cons_of_neg (by simpa [hc] using hl)]
        cases (t.filter fun o => decide (columnLabel subcols (start + o) = some l)).getLast? with
        | none => simp [lookup_dictSet, Ne.symm hl]
        | some o' => rfl

/-- **C370** (partial) A column of a block is read under its label, unless a later column of the block has the
same label; and nothing is read under other names. -/
theorem C370_columns_partial (s : Span) :
    (∀ o l, o < s.span → columnLabel subcols (s.start + o) = some l →
      (∀ o', o < o' → o' < s.span → columnLabel subcols (s.start + o') ≠ some l) →
      (readBlock toF subcols data s).lookup l = some (columnOf toF data (s.start + o))) ∧
    ∀ l, (∀ o < s.span, columnLabel subcols (s.start + o) ≠ some l) →
      (readBlock toF subcols data s).lookup l = none := by
  constructor
  · intro o l ho hl hlast
    refine (readBlock_lookup toF subcols data s.start l (List.range s.span) []).trans ?_
    have hsplit : List.range s.span = List.range o ++ o :: (List.range' (o + 1) (s.span - (o + 1))) := by
      obtain ⟨k, hk⟩ := Nat.exists_eq_add_of_lt ho
      rw [hk, show o + k + 1 - (o + 1) = k by omega, ← List.range'_succ, List.range_eq_range',
        List.range_eq_range']
      have := List.range'_append (s := 0) (m := o) (n := k + 1) (step := 1)
      simp only [one_mul, zero_add] at this
      rw [this]
      congr 1
    have : ((List.range s.span).filter fun o => decide (columnLabel subcols (s.start + o) = some l)).getLast?
        = some o := by
      rw [hsplit, List.filter_append, List.filter_cons_of_pos (by simpa using hl)]
      have h0 : ((List.range' (o + 1) (s.span - (o + 1))).filter
          fun o => decide (columnLabel subcols (s.start + o) = some l)) = [] := by
        rw [List.filter_eq_nil_iff]
        intro o' ho'
        rw [List.mem_range'_1] at ho'
        simpa using hlast o' (by omega) (by omega)
      rw [h0]
      simp
    rw [this]
  · intro l hl
    refine (readBlock_lookup toF subcols data s.start l (List.range s.span) []).trans ?_
    have : ((List.range s.span).filter fun o => decide (columnLabel subcols (s.start + o) = some l)) = [] := by
      rw [List.filter_eq_nil_iff]
      intro o ho
      simpa using hl o (List.mem_range.1 ho)
    rw [this]
    rfl

/-- C370 is false: of two columns of a block with one label the first is lost. -/
theorem C370_repeated_label (a b : K) (c1 c2 : Cell) (h1 : toF c1 = some a) (h2 : toF c2 = some b) :
    readBlock toF [none, some "N", some "N"] [[.empty, c1, c2]] ⟨1, "e", 2⟩ = [("N", [some b])] := by
  simp [readBlock, List.range_succ, dictSet, h1, h2]

/-- Not vacuous: a block of three columns. -/
example : readBlock (toFloat fun _ => none) [none, some "N", some "E", some "V"]
    [[.num 30, .num 1, .num 2, .num 3]] ⟨1, "e", 3⟩
    = [("N", [some 1]), ("E", [some 2]), ("V", [some 3])] := by
  simp [readBlock, List.range_succ, dictSet, toFloat]

end Welleng.Props
