import Verif.Props.Tortuosity
import Verif.Model.TiData

/-! C395: tortuosity down to a station (`/repo/welleng/survey.py` 1521-1717). -/

namespace Welleng.Props

open Real Welleng Spec Ti

/-- Sections of a well and of its upper part: the boundaries above the last one agree. -/
theorem sections_agree {cut cut' : ℕ → Prop} {n n' N N' : ℕ} {E E' : ℕ → ℕ}
    (h : Sections cut n N E) (h' : Sections cut' n' N' E') (hn : 1 ≤ n) (hnn : n ≤ n')
    (hc : ∀ j, 0 < j → j < n → (cut j ↔ cut' j)) {m : ℕ} (hm : m < N) :
    m < N' ∧ E' m = E m := by
  induction m with
  | zero =>
    refine ⟨?_, by rw [h.first, h'.first]⟩
    rcases Nat.eq_zero_or_pos N' with e | e
    · have := h'.last
      rw [e, h'.first] at this
      omega
    · exact e
  | succ m ih =>
    obtain ⟨i1, i2⟩ := ih (by omega)
    have lt1 : E m < E (m + 1) := h.mono m (by omega)
    have lt2 : E (m + 1) < n := by
      have := h.mono (m + 1) hm
      have := h.le_n (m := m + 1 + 1) (by omega)
      omega
    have hcut : cut (E (m + 1)) := (h.mem _ (by omega) lt2).2 ⟨m + 1, by omega, hm, rfl⟩
    obtain ⟨k, k0, k1, k2⟩ := (h'.mem _ (by omega) (by omega)).1 ((hc _ (by omega) lt2).1 hcut)
    have hkm : m < k := by
      by_contra hcon
      have := h'.le_of_le (a := k) (b := m) (by omega) (by omega)
      omega
    rcases (show m + 1 ≤ k from hkm).lt_or_eq with hlt | heq
    · exfalso
      have a1 : E' m < E' (m + 1) := h'.mono m (by omega)
      have a2 : E' (m + 1) < E' (m + 1 + 1) := h'.mono (m + 1) (by omega)
      have a3 := h'.le_of_le (a := m + 1 + 1) (b := k) (by omega) (by omega)
      have hc' : cut' (E' (m + 1)) :=
        (h'.mem _ (by omega) (by omega)).2 ⟨m + 1, by omega, by omega, rfl⟩
      obtain ⟨i, i0, i3, i4⟩ := (h.mem _ (by omega) (by omega)).1 ((hc _ (by omega) (by omega)).2 hc')
      have : m < i := by
        by_contra hcon
        have := h.le_of_le (a := i) (b := m) (by omega) (by omega)
        omega
      have := h.le_of_le (a := m + 1) (b := i) (by omega) (by omega)
      omega
    · subst heq
      exact ⟨k1, k2⟩

/-- Each station of the upper part is in the same section of the whole well. -/
theorem sections_reach {cut cut' : ℕ → Prop} {n n' N N' : ℕ} {E E' : ℕ → ℕ}
    (h : Sections cut n N E) (h' : Sections cut' n' N' E') (hn : 1 ≤ n) (hnn : n ≤ n')
    (hc : ∀ j, 0 < j → j < n → (cut j ↔ cut' j)) {m : ℕ} (hm : m < N) :
    E (m + 1) ≤ E' (m + 1) := by
  obtain ⟨i1, i2⟩ := sections_agree h h' hn hnn hc hm
  by_cases hm1 : m + 1 < N
  · exact (sections_agree h h' hn hnn hc hm1).2.ge
  have hN : m + 1 = N := by omega
  rw [hN, h.last, ← hN]
  by_contra hlt
  by_cases hN' : m + 1 = N'
  · rw [hN', h'.last] at hlt
    omega
  have a1 : E' m < E' (m + 1) := h'.mono m i1
  have hc' : cut' (E' (m + 1)) :=
    (h'.mem _ (by omega) (by omega)).2 ⟨m + 1, by omega, by omega, rfl⟩
  obtain ⟨i, i0, i3, i4⟩ := (h.mem _ (by omega) (by omega)).1 ((hc _ (by omega) (by omega)).2 hc')
  have := h.le_of_le (a := i) (b := m) (by omega) (by omega)
  omega

/-- Every station is in a section. -/
theorem sections_find {cut : ℕ → Prop} {n N : ℕ} {E : ℕ → ℕ} (h : Sections cut n N E) {j : ℕ}
    (h0 : 0 < j) (hj : j ≤ n) : ∃ m, m < N ∧ E m < j ∧ j ≤ E (m + 1) := by
  have key : ∀ k, k ≤ N → j ≤ E k → ∃ m, m < N ∧ E m < j ∧ j ≤ E (m + 1) := by
    intro k
    induction k with
    | zero => intro _ hk; rw [h.first] at hk; omega
    | succ k ih =>
      intro hk hjk
      by_cases hle : j ≤ E k
      · exact ih (by omega) hle
      · exact ⟨k, by omega, by omega, hjk⟩
  exact key N le_rfl (by rw [h.last]; exact hj)

theorem index_take {l l' : List Bool} {n n' : ℕ} (hn : l.length + 1 = n) (hn' : l'.length + 1 = n')
    (hnn : n ≤ n') {md md' : ℕ → ℝ} (hmd : ∀ i j, i < j → j ≤ n' → md' i < md' j)
    (hm : ∀ k, k ≤ n → md k = md' k) (hl : ∀ j, 0 < j → j < n → l[j - 1]? = l'[j - 1]?)
    {ex ex' : ℕ → ℕ → ℝ} (hex : ∀ s e, s ≤ n → e ≤ n → ex s e = ex' s e) (scale : ℝ → ℝ) :
    ∃ out out', index ex scale md n l = some out ∧ index ex' scale md' n' l' = some out' ∧
      out = out'.take (n + 1) := by
  obtain ⟨out, N, E, hS, ho, len, z, hv⟩ := index_value hn (md := md) (fun i j hij hj => by
    rw [hm i (by omega), hm j hj]; exact hmd i j hij (by omega)) ex scale
  obtain ⟨out', N', E', hS', ho', len', z', hv'⟩ := index_value hn' hmd ex' scale
  refine ⟨out, out', ho, ho', ?_⟩
  have hc : ∀ j, 0 < j → j < n → (l[j - 1]? = some false ↔ l'[j - 1]? = some false) := by
    intro j h0 h1
    rw [hl j h0 h1]
  have h1n : 1 ≤ n := by omega
  apply List.ext_getElem?
  intro j
  by_cases hj : n < j
  · rw [List.getElem?_eq_none (by omega), List.getElem?_eq_none (by
      rw [List.length_take]; omega)]
  rw [List.getElem?_take_of_lt (by omega)]
  rcases Nat.eq_zero_or_pos j with rfl | h0
  · rw [z, z']
  obtain ⟨m, m1, m2, m3⟩ := sections_find hS h0 (by omega)
  obtain ⟨i1, i2⟩ := sections_agree hS hS' h1n hnn hc m1
  have r := sections_reach hS hS' h1n hnn hc m1
  rw [hv m j m1 m2 m3, hv' m j i1 (by omega) (by omega)]
  have e : sectionTotal ex E m j = sectionTotal ex' E' m j := by
    unfold sectionTotal
    congr 1
    · apply Finset.sum_congr rfl
      intro i hi
      rw [Finset.mem_range] at hi
      rw [(sections_agree hS hS' h1n hnn hc (m := i) (by omega)).2,
        (sections_agree hS hS' h1n hnn hc (m := i + 1) (by omega)).2]
      exact hex _ _ (hS.le_n (by omega)) (hS.le_n (by omega))
    · rw [i2]
      exact hex _ _ (hS.le_n (by omega)) (by omega)
  rw [e, hm j (by omega), hm 0 (by omega)]

theorem tiContinuous_count (rtol : ℝ) (dlsTol : Option ℝ) (sv : ℕ → Sec.Row) {n : ℕ} (hn : 1 ≤ n) :
    (tiContinuous rtol dlsTol sv n).length + 1 = n := by
  unfold tiContinuous
  rw [List.length_map, List.length_range']
  omega

theorem tiContinuous_agree (rtol : ℝ) (dlsTol : Option ℝ) {sv sv' : ℕ → Sec.Row} {n n' : ℕ}
    (hnn : n ≤ n') (h : ∀ k, k ≤ n → sv k = sv' k) {j : ℕ} (h0 : 0 < j) (hj : j < n) :
    (tiContinuous rtol dlsTol sv n)[j - 1]? = (tiContinuous rtol dlsTol sv' n')[j - 1]? := by
  unfold tiContinuous
  rw [List.getElem?_map, List.getElem?_map, List.getElem?_range' (by omega),
    List.getElem?_range' (by omega)]
  simp only [Option.map_some]
  have e : 1 + 1 * (j - 1) = j := by omega
  rw [e, h (j - 1) (by omega), h j (by omega), h (j + 1) (by omega)]

/-- **C395** The tortuosity indices at a station depend only on the well down to it: if two surveys
agree down to station `n`, the indices of the one that ends there are the first `n + 1` of the
other's. -/
theorem C395_causal (coeff kappa rtol : ℝ) (dlsTol : Option ℝ) {sv sv' : ℕ → Sec.Row} {n n' : ℕ}
    (hn : 1 ≤ n) (hnn : n ≤ n') (h : ∀ k, k ≤ n → sv k = sv' k)
    (hmd : ∀ i j, i < j → j ≤ n' → (sv' i).st.md < (sv' j).st.md) :
    (∃ out out', tiOf coeff kappa rtol dlsTol sv n = some out ∧
      tiOf coeff kappa rtol dlsTol sv' n' = some out' ∧ out = out'.take (n + 1)) ∧
    (∃ out out', mtiOf coeff kappa rtol dlsTol sv n = some out ∧
      mtiOf coeff kappa rtol dlsTol sv' n' = some out' ∧ out = out'.take (n + 1)) := by
  constructor
  · unfold tiOf tortuosityIndex
    refine index_take (md := fun k => (sv k).st.md) (tiContinuous_count rtol dlsTol sv hn)
      (tiContinuous_count rtol dlsTol sv' (by omega)) hnn hmd (fun k hk => by rw [h k hk])
      (fun j h0 hj => tiContinuous_agree rtol dlsTol hnn h h0 hj) (fun s e hs he => ?_) _
    simp only [excessTi, h s hs, h e he]
  · unfold mtiOf modifiedTortuosityIndex
    refine index_take (md := fun k => (sv k).st.md) (tiContinuous_count rtol dlsTol sv hn)
      (tiContinuous_count rtol dlsTol sv' (by omega)) hnn hmd (fun k hk => by rw [h k hk])
      (fun j h0 hj => tiContinuous_agree rtol dlsTol hnn h h0 hj) (fun s e hs he => ?_) _
    simp only [excessMti, h s hs, h e he]

/-- Non-vacuity: two surveys of three stations that agree at the first two. -/
example : ∃ sv sv' : ℕ → Sec.Row, (∀ k, k ≤ 1 → sv k = sv' k) ∧ sv 2 ≠ sv' 2 ∧
    ∀ i j, i < j → j ≤ 2 → (sv' i).st.md < (sv' j).st.md := by
  refine ⟨fun k => ⟨⟨k, 0, 0⟩, ⟨0, 0, k⟩, 0, 0⟩,
    fun k => if k ≤ 1 then ⟨⟨k, 0, 0⟩, ⟨0, 0, k⟩, 0, 0⟩ else ⟨⟨k + 1, 0, 0⟩, ⟨0, 0, k + 1⟩, 0, 0⟩,
    fun k hk => by simp [hk], fun e => ?_, fun i j hij hj => ?_⟩
  · have := congrArg (fun r => r.st.md) e
    norm_num at this
  · interval_cases j <;> interval_cases i <;> norm_num

end Welleng.Props
