import Verif.Lemmas.FormulaReads
import Verif.Lemmas.FormulaParse
import Verif.Spec.FormulaTable
import Verif.Props.Formula

/-! The formulas of the shipped tool models are read as the trees of `Lemmas/FormulaTrees.lean`;
values of trees, and names that a value needs. -/

namespace Welleng.Ftext

open Wbp (Text)
open Interp Spec Welleng.Props

set_option maxRecDepth 100000 in
theorem trees_all : ∀ r ∈ shipped,
    r.depth ∈ trees.map (·.1) ∧ r.inc ∈ trees.map (·.1) ∧ r.azi ∈ trees.map (·.1) := by
  decide +kernel

/-- The tree of a text of the table. -/
def treeFor (s : String) : Tree := (trees.lookup s).getD (.num 0)

theorem parse_treeFor {s : String} (h : s ∈ trees.map (·.1)) :
    parse (rewrite s.toList) = some (treeFor s) := by
  obtain ⟨p, hp, rfl⟩ := List.mem_map.1 h
  cases hl : trees.lookup p.1 with
  | none =>
    have := List.lookup_eq_none_iff.1 hl p hp
    simp at this
  | some t =>
    obtain ⟨l1, l2, he, -⟩ := List.lookup_eq_some_iff.1 hl
    rw [treeFor, hl]
    exact parse_of_reads (trees_read (p.1, t) (by rw [he]; simp))

/-! ### Values -/

/-- Names of the functions of one argument. -/
def fn1Names : List Text :=
  ["sin".toList, "cos".toList, "tan".toList, "abs".toList, "sqrt".toList]

/-- Value of a tree. -/
noncomputable def value (env : String → Option (ℕ → ℝ)) : Tree → ℕ → ℝ
  | .num q => fun _ => q
  | .name s => if s = "pi".toList then fun _ => Real.pi else (env (String.ofList s)).getD 0
  | .bin op a b => fun k => op.fn (value env a k) (value env b k)
  | .un _ a => fun k => -value env a k
  | .call (.name f) [a] => fun k => ((mathFn1 (String.ofList f)).getD id) (value env a k)
  | .call _ _ => 0

/-- A tree built from numbers, the names `bound`, operators and functions of one argument. -/
def closed (bound : Text → Bool) : Tree → Bool
  | .num _ => true
  | .name s => s == "pi".toList || bound s
  | .bin op a b => op.allowed && closed bound a && closed bound b
  | .un op a => decide (op = .usub) && closed bound a
  | .call (.name f) [a] => fn1Names.contains f && closed bound a
  | .call _ _ => false

theorem fn1Names_some : ∀ f ∈ fn1Names, ∃ g, mathFn1 (String.ofList f) = some g := by
  intro f hf
  simp only [fn1Names, List.mem_cons, List.not_mem_nil, or_false] at hf
  rcases hf with rfl | rfl | rfl | rfl | rfl <;> exact ⟨_, rfl⟩

theorem denotes_value {env : String → Option (ℕ → ℝ)} {bound : Text → Bool}
    (hb : ∀ s, bound s = true → (env (String.ofList s)).isSome = true) (hpi : env "pi" = none) :
    ∀ t, closed bound t = true → Denotes env t.py (value env t)
  | .num q, _ => by unfold value Tree.py; exact .num _
  | .name s, h => by
    unfold value Tree.py
    by_cases hs : s = "pi".toList
    · subst hs; rw [if_pos rfl]; exact .pi
    · rw [if_neg hs]
      simp only [closed, Bool.or_eq_true, beq_iff_eq, hs, false_or] at h
      obtain ⟨v, hv⟩ := Option.isSome_iff_exists.1 (hb s h)
      rw [hv]; exact .var hv
  | .bin op a b, h => by
    simp only [closed, Bool.and_eq_true] at h
    have ha := denotes_value hb hpi a h.1.2
    have hb' := denotes_value hb hpi b h.2
    unfold value Tree.py
    cases op with
    | add => exact .add ha hb'
    | sub => exact .sub ha hb'
    | mult => exact .mul ha hb'
    | div => exact .div ha hb'
    | pow => exact .pow ha hb'
    | other => simp [Op.allowed] at h
  | .un op a, h => by
    simp only [closed, Bool.and_eq_true, decide_eq_true_eq] at h
    have ha := denotes_value hb hpi a h.2
    unfold value Tree.py
    rw [h.1]; exact .neg ha
  | .call (.name f) [a], h => by
    simp only [closed, Bool.and_eq_true, List.contains_iff_mem] at h
    have ha := denotes_value hb hpi a h.2
    obtain ⟨g, hg⟩ := fn1Names_some f h.1
    rw [value, hg]
    simp only [Tree.py, pyAll]
    exact .fn1 hg ha
  | .call (.name f) [], h => by simp [closed] at h
  | .call (.name f) (_ :: _ :: _), h => by simp [closed] at h
  | .call (.num _) _, h => by simp [closed] at h
  | .call (.bin _ _ _) _, h => by simp [closed] at h
  | .call (.un _ _) _, h => by simp [closed] at h
  | .call (.call _ _) _, h => by simp [closed] at h

/-! ### Names -/

mutual
/-- The names in a tree. -/
def names : Tree → List Text
  | .num _ => []
  | .name s => [s]
  | .bin _ a b => names a ++ names b
  | .un _ a => names a
  | .call f l => names f ++ namesAll l
/-- The names in a list of arguments. -/
def namesAll : List Tree → List Text
  | [] => []
  | a :: l => names a ++ namesAll l
end

mutual
theorem mentions_of_mem : ∀ (t : Tree) {s : Text}, s ∈ names t → Mentions (String.ofList s) t.py
  | .num _, s, h => by simp [names] at h
  | .name u, s, h => by
    simp only [names, List.mem_singleton] at h
    subst h; unfold Tree.py; exact .name
  | .bin op a b, s, h => by
    simp only [names, List.mem_append] at h
    unfold Tree.py
    exact h.elim (fun h => .left (mentions_of_mem a h)) fun h => .right (mentions_of_mem b h)
  | .un op a, s, h => by
    simp only [names] at h
    unfold Tree.py
    exact .un (mentions_of_mem a h)
  | .call f l, s, h => by
    simp only [names, List.mem_append] at h
    unfold Tree.py
    refine h.elim (fun h => .func (mentions_of_mem f h)) fun h => ?_
    obtain ⟨a, ha, hm⟩ := mentions_of_memAll l h
    exact .arg ha hm
theorem mentions_of_memAll : ∀ (l : List Tree) {s : Text}, s ∈ namesAll l →
    ∃ a ∈ pyAll l, Mentions (String.ofList s) a
  | [], s, h => by simp [namesAll] at h
  | a :: l, s, h => by
    simp only [namesAll, List.mem_append] at h
    rcases h with h | h
    · exact ⟨_, List.mem_cons_self, mentions_of_mem a h⟩
    · obtain ⟨b, hb, hm⟩ := mentions_of_memAll l h
      exact ⟨b, List.mem_cons_of_mem _ hb, hm⟩
end

end Welleng.Ftext
