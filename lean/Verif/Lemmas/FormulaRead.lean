import Verif.Model.FormulaText

/-! Comparison of the tree read from a text with a given tree. -/

namespace Welleng.Ftext

open Wbp (Text)

mutual
/-- Comparison of trees. -/
def same : Tree → Tree → Bool
  | .num p, .num q => p == q
  | .name s, .name t => s == t
  | .bin o a b, .bin p c d => decide (o = p) && same a c && same b d
  | .un o a, .un p c => decide (o = p) && same a c
  | .call f l, .call g m => same f g && sameAll l m
  | _, _ => false
/-- Comparison of argument lists. -/
def sameAll : List Tree → List Tree → Bool
  | [], [] => true
  | a :: l, b :: m => same a b && sameAll l m
  | _, _ => false
end

mutual
theorem eq_of_same : ∀ {a b : Tree}, same a b = true → a = b
  | .num p, b, h => by cases b <;> simp_all [same]
  | .name s, b, h => by cases b <;> simp_all [same]
  | .bin o l r, b, h => by
    cases b <;> simp only [same, Bool.false_eq_true] at h
    simp only [Bool.and_eq_true, decide_eq_true_eq] at h
    rw [h.1.1, eq_of_same h.1.2, eq_of_same h.2]
  | .un o l, b, h => by
    cases b <;> simp only [same, Bool.false_eq_true] at h
    simp only [Bool.and_eq_true, decide_eq_true_eq] at h
    rw [h.1, eq_of_same h.2]
  | .call f l, b, h => by
    cases b <;> simp only [same, Bool.false_eq_true] at h
    simp only [Bool.and_eq_true] at h
    rw [eq_of_same h.1, eq_of_sameAll h.2]
theorem eq_of_sameAll : ∀ {a b : List Tree}, sameAll a b = true → a = b
  | [], b, h => by cases b <;> simp_all [sameAll]
  | x :: l, b, h => by
    cases b <;> simp only [sameAll, Bool.false_eq_true] at h
    simp only [Bool.and_eq_true] at h
    rw [eq_of_same h.1, eq_of_sameAll h.2]
end

/-- The text is read as the tree. -/
def reads (s : String) (t : Tree) : Bool :=
  match parse (rewrite s.toList) with
  | some e => same e t
  | none => false

theorem parse_of_reads {s : String} {t : Tree} (h : reads s t = true) :
    parse (rewrite s.toList) = some t := by
  unfold reads at h
  split at h
  · rename_i e he; rw [he, eq_of_same h]
  · simp at h

end Welleng.Ftext
