import Verif.Model.InterpTvd
import Mathlib.Tactic.Linarith

/-! The bisection of `np.searchsorted` on any list, ascending or not. -/

namespace Welleng.Tvd

/-- What the bisection gives on any list: the entry before the result is not above the value, the entry
at the result is. -/
theorem bisectRight_spec (l : List ℝ) (v : ℝ) : ∀ (fuel lo hi : ℕ), lo ≤ hi → hi ≤ l.length →
    hi - lo ≤ fuel → (∀ a, 0 < lo → l[lo - 1]? = some a → a ≤ v) → (∀ a, l[hi]? = some a → v < a) →
    lo ≤ bisectRight l v fuel lo hi ∧ bisectRight l v fuel lo hi ≤ hi ∧
    (∀ a, 0 < bisectRight l v fuel lo hi → l[bisectRight l v fuel lo hi - 1]? = some a → a ≤ v) ∧
    (∀ a, l[bisectRight l v fuel lo hi]? = some a → v < a) := by
  intro fuel
  induction fuel with
  | zero =>
    intro lo hi h1 h2 h3 hb ha
    have : hi = lo := by omega
    subst this
    exact ⟨le_refl _, le_refl _, hb, ha⟩
  | succ n ih =>
    intro lo hi h1 h2 h3 hb ha
    simp only [bisectRight]
    split
    · rename_i hlt
      have hm : lo + (hi - lo) / 2 < hi := by omega
      have hg : l.getD (lo + (hi - lo) / 2) 0 = l[lo + (hi - lo) / 2]'(by omega) :=
        List.getD_eq_getElem _ _ _
      split
      · rename_i hle
        obtain ⟨r1, r2, r3, r4⟩ := ih (lo + (hi - lo) / 2 + 1) hi (by omega) h2 (by omega)
          (by
            intro a _ he
            rw [Nat.add_sub_cancel, List.getElem?_eq_getElem (by omega), Option.some.injEq] at he
            rw [← he, ← hg]; exact hle) ha
        exact ⟨by omega, r2, r3, r4⟩
      · rename_i hle
        obtain ⟨r1, r2, r3, r4⟩ := ih lo (lo + (hi - lo) / 2) (by omega) (by omega) (by omega) hb
          (by
            intro a he
            rw [List.getElem?_eq_getElem (by omega), Option.some.injEq] at he
            rw [← he, ← hg]; exact not_le.mp hle)
        exact ⟨r1, by omega, r3, r4⟩
    · have : hi = lo := by omega
      subst this
      exact ⟨le_refl _, le_refl _, hb, ha⟩

theorem searchsortedRight_spec (l : List ℝ) (v : ℝ) :
    searchsortedRight l v ≤ l.length ∧
    (∀ a, 0 < searchsortedRight l v → l[searchsortedRight l v - 1]? = some a → a ≤ v) ∧
    (∀ a, l[searchsortedRight l v]? = some a → v < a) := by
  obtain ⟨-, h2, h3, h4⟩ := bisectRight_spec l v l.length 0 l.length (Nat.zero_le _) (le_refl _)
    (by omega) (by omega) (by simp)
  exact ⟨h2, h3, h4⟩

end Welleng.Tvd
