import Verif.Model.Interpolate

namespace Welleng

theorem takeWhile_length_spec {α : Type*} (p : α → Bool) (l : List α) :
    (∀ j a, j < (l.takeWhile p).length → l[j]? = some a → p a = true) ∧
    (∀ a, l[(l.takeWhile p).length]? = some a → p a = false) := by
  induction l with
  | nil => simp
  | cons b t ih =>
    by_cases hb : p b = true
    · rw [List.takeWhile_cons_of_pos hb]
      refine ⟨?_, ?_⟩
      · rintro (_ | j) a hj ha
        · simp at ha; rw [← ha]; exact hb
        · exact ih.1 j a (by simpa using hj) (by simpa using ha)
      · intro a ha
        exact ih.2 a (by simpa using ha)
    · rw [List.takeWhile_cons_of_neg hb]
      refine ⟨by simp, fun a ha => ?_⟩
      simp at ha
      rw [← ha]; simpa using hb

theorem searchsortedLeft_spec (l : List ℝ) (v : ℝ) :
    (∀ j a, j < searchsortedLeft l v → l[j]? = some a → a < v) ∧
    (∀ a, l[searchsortedLeft l v]? = some a → v ≤ a) := by
  have h := takeWhile_length_spec (fun y => decide (y < v)) l
  exact ⟨fun j a hj ha => by simpa using h.1 j a hj ha, fun a ha => by simpa using h.2 a ha⟩

theorem searchsortedLeft_le (l : List ℝ) (v : ℝ) : searchsortedLeft l v ≤ l.length :=
  List.Sublist.length_le (List.takeWhile_sublist _)

/-- In a strictly increasing list the insertion point of an entry is its index. -/
theorem searchsortedLeft_eq {l : List ℝ} (hs : l.Pairwise (· < ·)) {i : ℕ} {v : ℝ}
    (h : l[i]? = some v) : searchsortedLeft l v = i := by
  obtain ⟨hi, hv⟩ := List.getElem?_eq_some_iff.mp h
  have hs' := List.pairwise_iff_getElem.mp hs
  obtain ⟨h1, h2⟩ := searchsortedLeft_spec l v
  rcases lt_trichotomy (searchsortedLeft l v) i with hlt | he | hgt
  · have hk : searchsortedLeft l v < l.length := by omega
    have := h2 _ (List.getElem?_eq_getElem hk)
    have := hs' _ _ hk hi hlt
    rw [hv] at this
    linarith
  · exact he
  · have := h1 i v hgt h
    exact absurd this (lt_irrefl _)

end Welleng
