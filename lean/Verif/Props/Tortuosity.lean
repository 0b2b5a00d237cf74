import Verif.Model.Tortuosity
import Verif.Spec.Tortuosity
import Verif.Lemmas.Searchsorted
import Verif.Props.Trajectory
import Verif.Props.InterpTvd
import Mathlib.Algebra.Order.BigOperators.Group.Finset
import Mathlib.Data.List.GetD

/-!
C116-C120: tortuosity indices and directional difficulty
(`/repo/welleng/survey.py` 1521-1717).
-/

namespace Welleng.Props

open Real Welleng Spec Ti

/-! ### Section boundaries -/

theorem mem_breaks {k j : ℕ} {l : List Bool} :
    j ∈ breaks k l ↔ k ≤ j ∧ l[j - k]? = some false := by
  induction l generalizing k with
  | nil => simp [breaks]
  | cons c t ih =>
    have key : j ∈ breaks (k + 1) t ↔ k < j ∧ t[j - (k + 1)]? = some false := ih
    unfold breaks
    rcases Nat.lt_trichotomy j k with h | h | h
    · split_ifs <;> simp only [List.mem_cons, key] <;> constructor <;> intro h' <;> omega
    · subst h
      split_ifs with hc <;> simp [key, hc]
    · obtain ⟨d, rfl⟩ : ∃ d, j = k + (d + 1) := ⟨j - k - 1, by omega⟩
      have e1 : k + (d + 1) - k = d + 1 := by omega
      have e2 : k + (d + 1) - (k + 1) = d := by omega
      rw [e2] at key
      rw [e1, List.getElem?_cons_succ]
      split_ifs <;> simp only [List.mem_cons, key] <;> constructor
      · rintro (h' | h')
        · omega
        · exact ⟨by omega, h'.2⟩
      · intro h'; exact Or.inr ⟨by omega, h'.2⟩
      · intro h'; exact ⟨by omega, h'.2⟩
      · intro h'; exact ⟨by omega, h'.2⟩

theorem breaks_sorted (k : ℕ) (l : List Bool) : (breaks k l).Pairwise (· < ·) := by
  induction l generalizing k with
  | nil => exact List.Pairwise.nil
  | cons c t ih =>
    unfold breaks
    split_ifs
    · exact List.Pairwise.cons (fun j hj => (mem_breaks.mp hj).1) (ih (k + 1))
    · exact ih (k + 1)

theorem starts_sorted (l : List Bool) : (starts l).Pairwise (· < ·) :=
  List.Pairwise.cons (fun j hj => (mem_breaks.mp hj).1) (breaks_sorted 1 l)

/-- The boundaries used by the code. -/
def bound (l : List Bool) (n m : ℕ) : ℕ := (starts l).getD m n

theorem starts_lt {l : List Bool} {n : ℕ} (hn : l.length + 1 = n) {j : ℕ} (hj : j ∈ starts l) :
    j < n := by
  unfold starts at hj
  rcases List.mem_cons.mp hj with h | h
  · omega
  · obtain ⟨h1, h2⟩ := mem_breaks.mp h
    have := (List.getElem?_eq_some_iff.mp h2).1
    omega

/-- The code's section boundaries are the first station, the stations at which the well is not
continuous, and the last station. -/
theorem bound_sections {l : List Bool} {n : ℕ} (hn : l.length + 1 = n) :
    Sections (fun j => l[j - 1]? = some false) n (starts l).length (bound l n) := by
  have hs := List.pairwise_iff_getElem.mp (starts_sorted l)
  refine ⟨rfl, by simp [bound, List.getD], ?_, ?_⟩
  · intro m hm
    unfold bound
    rw [List.getD_eq_getElem _ _ hm]
    rcases Nat.lt_or_ge (m + 1) (starts l).length with h | h
    · rw [List.getD_eq_getElem _ _ h]; exact hs _ _ _ _ (Nat.lt_succ_self m)
    · rw [List.getD_eq_default _ _ h]
      exact starts_lt hn (List.getElem_mem hm)
  · intro j h0 h1
    constructor
    · intro hj
      have hmem : j ∈ breaks 1 l := mem_breaks.mpr ⟨h0, hj⟩
      obtain ⟨m, hm, he⟩ := List.mem_iff_getElem.mp hmem
      refine ⟨m + 1, by omega, by simp [starts]; exact hm, ?_⟩
      unfold bound starts
      rw [List.getD_cons_succ, List.getD_eq_getElem _ _ hm, he]
    · rintro ⟨m, m0, m1, he⟩
      obtain ⟨m, rfl⟩ : ∃ d, m = d + 1 := ⟨m - 1, by omega⟩
      have hm : m < (breaks 1 l).length := by simpa [starts] using m1
      unfold bound starts at he
      rw [List.getD_cons_succ, List.getD_eq_getElem _ _ hm] at he
      exact (mem_breaks.mp (he ▸ List.getElem_mem hm)).2

/-- Strictly increasing along the boundaries. -/
theorem _root_.Welleng.Spec.Sections.le_of_le {cut : ℕ → Prop} {n N : ℕ} {E : ℕ → ℕ} (h : Sections cut n N E)
    {a b : ℕ} (hab : a ≤ b) (hb : b ≤ N) : E a ≤ E b := by
  induction b, hab using Nat.le_induction with
  | base => exact le_rfl
  | succ b _ ih => exact (ih (by omega)).trans (h.mono b (by omega)).le

theorem _root_.Welleng.Spec.Sections.le_n {cut : ℕ → Prop} {n N : ℕ} {E : ℕ → ℕ}
    (h : Sections cut n N E) {m : ℕ} (hm : m ≤ N) : E m ≤ n := by
  have := h.le_of_le hm le_rfl
  rwa [h.last] at this

/-- The number of the section of a station, counted from 1. -/
theorem sectionNo_eq {l : List Bool} {n : ℕ} (hn : l.length + 1 = n) {md : ℕ → ℝ}
    (hmd : ∀ i j, i < j → j ≤ n → md i < md j) {m j : ℕ} (hm : m < (starts l).length)
    (h0 : bound l n m < j) (h1 : j ≤ bound l n (m + 1)) :
    sectionNo md (starts l) j = m + 1 := by
  have hS := bound_sections hn
  have hjn : j ≤ n := h1.trans (hS.le_n hm)
  obtain ⟨g1, g2⟩ := searchsortedLeft_spec ((starts l).map md) (md j)
  have hle := searchsortedLeft_le ((starts l).map md) (md j)
  rw [List.length_map] at hle
  have hb : ∀ i, (hi : i < (starts l).length) →
      ((starts l).map md)[i]? = some (md (bound l n i)) := by
    intro i hi
    unfold bound
    rw [List.getElem?_map, List.getElem?_eq_getElem hi, List.getD_eq_getElem _ _ hi]; rfl
  unfold sectionNo
  rcases Nat.lt_trichotomy (searchsortedLeft ((starts l).map md) (md j)) (m + 1) with h | h | h
  · have hi : searchsortedLeft ((starts l).map md) (md j) < (starts l).length := by omega
    have a1 := g2 _ (hb _ hi)
    have a2 := hS.le_of_le (show searchsortedLeft ((starts l).map md) (md j) ≤ m by omega) hm.le
    have := hmd _ j (lt_of_le_of_lt a2 h0) hjn
    linarith
  · exact h
  · have hi : m + 1 < (starts l).length := by omega
    have a1 := g1 _ _ h (hb _ hi)
    have hlt : bound l n (m + 1) ≤ n := hS.le_n hi.le
    rcases h1.eq_or_lt with h' | h'
    · rw [← h'] at a1; exact absurd a1 (lt_irrefl _)
    · have := hmd _ _ h' hlt; linarith

theorem sectionStart_eq {l : List Bool} {n : ℕ} (hn : l.length + 1 = n) {md : ℕ → ℝ}
    (hmd : ∀ i j, i < j → j ≤ n → md i < md j) {m j : ℕ} (hm : m < (starts l).length)
    (h0 : bound l n m < j) (h1 : j ≤ bound l n (m + 1)) :
    sectionStart md (starts l) j = bound l n m := by
  unfold sectionStart bound
  rw [sectionNo_eq hn hmd hm h0 h1, Nat.add_sub_cancel, List.getD_eq_getElem _ _ hm,
    List.getD_eq_getElem _ _ hm]

/-! ### The loop -/

/-- The stations of one section. -/
theorem filter_section {cut : ℕ → Prop} {n N : ℕ} {E : ℕ → ℕ} (hS : Sections cut n N E)
    {g : ℕ → ℕ} (hg : ∀ m j, m < N → E m < j → j ≤ E (m + 1) → g j = m + 1) {m : ℕ} (hm : m < N) :
    (List.range' 1 n).filter (fun j => g j = m + 1)
      = List.range' (E m + 1) (E (m + 1) - E m) := by
  have h01 := hS.mono m hm
  have hn : E (m + 1) ≤ n := by rw [← hS.last]; exact hS.le_of_le hm le_rfl
  have hsplit : List.range' 1 n = List.range' 1 (E m) ++
      (List.range' (E m + 1) (E (m + 1) - E m) ++ List.range' (E (m + 1) + 1) (n - E (m + 1))) := by
    have e1 : List.range' (E m + 1) (E (m + 1) - E m) ++ List.range' (E (m + 1) + 1)
        (n - E (m + 1)) = List.range' (E m + 1) (n - E m) := by
      have := List.range'_append_1 (s := E m + 1) (m := E (m + 1) - E m) (n := n - E (m + 1))
      rw [show E m + 1 + (E (m + 1) - E m) = E (m + 1) + 1 by omega,
        show E (m + 1) - E m + (n - E (m + 1)) = n - E m by omega] at this
      exact this
    rw [e1]
    have := List.range'_append_1 (s := 1) (m := E m) (n := n - E m)
    rw [show 1 + E m = E m + 1 by omega, show E m + (n - E m) = n by omega] at this
    exact this.symm
  -- every station lies in some section
  have hex : ∀ j, 0 < j → j ≤ n → ∃ k, k < N ∧ E k < j ∧ j ≤ E (k + 1) := by
    intro j j0 j1
    have hP : ∃ k, j ≤ E k := ⟨N, by rw [hS.last]; exact j1⟩
    classical
    have hk := Nat.find_spec hP
    have hmin := fun i (hi : i < Nat.find hP) => Nat.find_min hP hi
    have hk0 : Nat.find hP ≠ 0 := by
      intro h; rw [h, hS.first] at hk; omega
    have hkN : Nat.find hP ≤ N := Nat.find_min' hP (by rw [hS.last]; exact j1)
    refine ⟨Nat.find hP - 1, by omega, not_le.mp (hmin _ (by omega)), ?_⟩
    rw [show Nat.find hP - 1 + 1 = Nat.find hP by omega]; exact hk
  rw [hsplit, List.filter_append, List.filter_append]
  have f1 : (List.range' 1 (E m)).filter (fun j => g j = m + 1) = [] := by
    rw [List.filter_eq_nil_iff]
    intro j hj
    rw [List.mem_range'_1] at hj
    obtain ⟨k, k0, k1, k2⟩ := hex j (by omega) (by omega)
    rw [hg k j k0 k1 k2]
    simp only [decide_eq_true_eq]
    intro h
    have : k = m := by omega
    subst this; omega
  have f3 : (List.range' (E (m + 1) + 1) (n - E (m + 1))).filter (fun j => g j = m + 1) = [] := by
    rw [List.filter_eq_nil_iff]
    intro j hj
    rw [List.mem_range'_1] at hj
    obtain ⟨k, k0, k1, k2⟩ := hex j (by omega) (by omega)
    rw [hg k j k0 k1 k2]
    simp only [decide_eq_true_eq]
    intro h
    have : k = m := by omega
    subst this; omega
  have f2 : (List.range' (E m + 1) (E (m + 1) - E m)).filter (fun j => g j = m + 1)
      = List.range' (E m + 1) (E (m + 1) - E m) := by
    rw [List.filter_eq_self]
    intro j hj
    rw [List.mem_range'_1] at hj
    simp only [decide_eq_true_eq]
    exact hg m j hm (by omega) (by omega)
  rw [f1, f2, f3]; simp

/-- After `m` sections the loop holds the totals of the stations down to the end of the `m`-th. -/
theorem loop_inv {cut : ℕ → Prop} {n N : ℕ} {E : ℕ → ℕ} (hS : Sections cut n N E)
    {g : ℕ → ℕ} (hg : ∀ m j, m < N → E m < j → j ≤ E (m + 1) → g j = m + 1)
    {ex : ℕ → ℕ → ℝ} {bv : ℕ → ℝ}
    (hb : ∀ m j, m < N → E m < j → j ≤ E (m + 1) → bv j = ex (E m) j) (m : ℕ) (hm : m ≤ N) :
    ∃ a, (List.range' 1 m).foldlM (sectionTurn ((List.range' 1 n).map fun j => (g j, bv j)))
        ([], 0) = some (a, ∑ i ∈ Finset.range m, ex (E i) (E (i + 1))) ∧
      a.length = E m ∧
      ∀ k j, k < m → E k < j → j ≤ E (k + 1) → a[j - 1]? = some (sectionTotal ex E k j) := by
  induction m with
  | zero => exact ⟨[], rfl, by simp [hS.first], by intro k j hk; omega⟩
  | succ m ih =>
    obtain ⟨a, ha, hlen, hval⟩ := ih (by omega)
    have hmN : m < N := by omega
    have h01 := hS.mono m hmN
    have hfilt : (((List.range' 1 n).map fun j => (g j, bv j)).filter
        (fun e => e.1 = m + 1)) = (List.range' (E m + 1) (E (m + 1) - E m)).map
          fun j => (g j, bv j) := by
      rw [List.filter_map]
      congr 1
      exact filter_section hS hg hmN
    have hget : ∀ j, E m < j → j ≤ E (m + 1) →
        (a ++ (((List.range' 1 n).map fun j => (g j, bv j)).filter (fun e => e.1 = m + 1)).map
          (fun e => e.2 + ∑ i ∈ Finset.range m, ex (E i) (E (i + 1))))[j - 1]?
          = some (sectionTotal ex E m j) := by
      intro j j0 j1
      rw [hfilt, List.getElem?_append_right (by omega), hlen, List.map_map, List.getElem?_map,
        List.getElem?_range' (by omega)]
      simp only [Option.map_some, Function.comp, one_mul]
      rw [show E m + 1 + (j - 1 - E m) = j by omega, hb m j hmN j0 j1]
      unfold sectionTotal
      rw [add_comm]
    set A := a ++ (((List.range' 1 n).map fun j => (g j, bv j)).filter (fun e => e.1 = m + 1)).map
          (fun e => e.2 + ∑ i ∈ Finset.range m, ex (E i) (E (i + 1))) with hA
    have hAl : A.length = E (m + 1) := by
      rw [hA, hfilt]; simp [hlen]; omega
    refine ⟨A, ?_, hAl, ?_⟩
    · rw [List.range'_1_concat, List.foldlM_append, ha]
      simp only [Option.bind_eq_bind, Option.bind_some, List.foldlM_cons, List.foldlM_nil]
      unfold sectionTurn
      simp only
      rw [show 1 + m = m + 1 by omega, ← hA, List.getLast?_eq_getElem?, hAl,
        hget (E (m + 1)) h01 le_rfl]
      simp only [Option.map_some, Option.bind_some, sectionTotal]
      rw [Finset.sum_range_succ]
      rfl
    · intro k j hk j0 j1
      rcases Nat.lt_or_ge k m with h | h
      · have : j ≤ E m := j1.trans (hS.le_of_le (by omega) hmN.le)
        rw [hA, List.getElem?_append_left (by omega)]
        exact hval k j h j0 j1
      · have : k = m := by omega
        subst this
        exact hget j j0 j1

/-- Both indices, at every station. -/
theorem index_value {l : List Bool} {n : ℕ} (hn : l.length + 1 = n) {md : ℕ → ℝ}
    (hmd : ∀ i j, i < j → j ≤ n → md i < md j) (ex : ℕ → ℕ → ℝ) (scale : ℝ → ℝ) :
    ∃ out N E, Sections (fun j => l[j - 1]? = some false) n N E ∧
      index ex scale md n l = some out ∧ out.length = n + 1 ∧ out[0]? = some 0 ∧
      ∀ m j, m < N → E m < j → j ≤ E (m + 1) → out[j]? = some
        (((m : ℝ) + 1) / ((m : ℝ) + 2) * scale (md j - md 0) * sectionTotal ex E m j) := by
  have hS := bound_sections hn
  obtain ⟨a, ha, hlen, hval⟩ := loop_inv hS
    (g := sectionNo md (starts l)) (fun m j hm h0 h1 => sectionNo_eq hn hmd hm h0 h1)
    (ex := ex) (bv := fun j => ex (sectionStart md (starts l) j) j)
    (fun m j hm h0 h1 => by simp only [sectionStart_eq hn hmd hm h0 h1]) _ le_rfl
  rw [hS.last] at hlen
  refine ⟨0 :: List.zipWith (fun j x => (sectionNo md (starts l) j : ℝ) /
      ((sectionNo md (starts l) j : ℝ) + 1) * scale (md j - md 0) * x) (List.range' 1 n) a,
    (starts l).length, bound l n, hS, ?_, ?_, rfl, ?_⟩
  · unfold index accumulate
    simp only [ha, Option.map_some, hlen, if_true]
  · simp [hlen]
  · intro m j hm h0 h1
    obtain ⟨d, rfl⟩ : ∃ d, j = d + 1 := ⟨j - 1, by omega⟩
    have hjn : d + 1 ≤ n := h1.trans (hS.le_n hm)
    rw [List.getElem?_cons_succ, List.getElem?_zipWith, List.getElem?_range' (by omega)]
    have := hval m (d + 1) hm h0 h1
    rw [Nat.add_sub_cancel] at this
    rw [this]
    simp only [one_mul]
    rw [show 1 + d = d + 1 by omega, sectionNo_eq hn hmd hm h0 h1]
    congr 3
    push_cast
    ring

/-! ### The indices -/

/-- C116: the tortuosity index of a station in the `m`-th section (from 0) is `(m+1)/(m+2)` times
`kappa` over the drilled length, times the total over the sections of drilled length over
straight-line length, less one. -/
theorem C116_tortuosity_index {l : List Bool} {n : ℕ} (hn : l.length + 1 = n) {md : ℕ → ℝ}
    (hmd : ∀ i j, i < j → j ≤ n → md i < md j) (pos : ℕ → V3) {coeff : ℝ} (hc : coeff ≠ 0)
    (kappa : ℝ) :
    ∃ out N E, Sections (fun j => l[j - 1]? = some false) n N E ∧
      tortuosityIndex coeff kappa md pos n l = some out ∧ out.length = n + 1 ∧
      out[0]? = some 0 ∧
      ∀ m j, m < N → E m < j → j ≤ E (m + 1) → out[j]? = some
        (((m : ℝ) + 1) / ((m : ℝ) + 2) * (kappa / ((md j - md 0) / coeff)) *
          sectionTotal (fun s e => (md e - md s) / V3.norm (pos e - pos s) - 1) E m j) := by
  have hex : excessTi coeff md pos = fun s e => (md e - md s) / V3.norm (pos e - pos s) - 1 := by
    funext s e
    unfold excessTi
    rw [div_div_div_cancel_right₀ hc]
  have := index_value hn hmd (excessTi coeff md pos) (fun l => kappa / (l / coeff))
  rw [hex] at this
  unfold tortuosityIndex
  rw [hex]
  exact this

/-- C116: the modified index multiplies by the drilled length instead, and divides each
section's excess by its drilled length. -/
theorem C116_modified_index {l : List Bool} {n : ℕ} (hn : l.length + 1 = n) {md : ℕ → ℝ}
    (hmd : ∀ i j, i < j → j ≤ n → md i < md j) (pos : ℕ → V3) {coeff : ℝ} (hc : coeff ≠ 0)
    (kappa : ℝ) :
    ∃ out N E, Sections (fun j => l[j - 1]? = some false) n N E ∧
      modifiedTortuosityIndex coeff kappa md pos n l = some out ∧ out.length = n + 1 ∧
      out[0]? = some 0 ∧
      ∀ m j, m < N → E m < j → j ≤ E (m + 1) → out[j]? = some
        (((m : ℝ) + 1) / ((m : ℝ) + 2) * (kappa * (md j - md 0)) *
          sectionTotal (fun s e => ((md e - md s) / V3.norm (pos e - pos s) - 1) / (md e - md s))
            E m j) := by
  obtain ⟨out, N, E, hS, ho, h1, h2, hv⟩ :=
    index_value hn hmd (excessMti coeff md pos) (fun l => kappa * (l / coeff))
  refine ⟨out, N, E, hS, ho, h1, h2, fun m j hm h0 hj => ?_⟩
  rw [hv m j hm h0 hj]
  congr 1
  have hex : ∀ s e, excessMti coeff md pos s e
      = coeff * (((md e - md s) / V3.norm (pos e - pos s) - 1) / (md e - md s)) := by
    intro s e
    unfold excessMti
    rw [div_div_div_cancel_right₀ hc, div_div_eq_mul_div]
    ring
  have htot : sectionTotal (excessMti coeff md pos) E m j = coeff * sectionTotal
      (fun s e => ((md e - md s) / V3.norm (pos e - pos s) - 1) / (md e - md s)) E m j := by
    unfold sectionTotal
    rw [mul_add, Finset.mul_sum]
    simp only [hex]
  rw [htot]
  field_simp

/-- Non-vacuity: four stations, a break at the second. -/
example : ([false, true] : List Bool).length + 1 = 3 ∧
    (∀ i j : ℕ, i < j → j ≤ 3 → (fun k : ℕ => (k : ℝ) * 30) i < (fun k : ℕ => (k : ℝ) * 30) j) ∧
    starts [false, true] = [0, 1] := by
  refine ⟨rfl, fun i j h _ => ?_, rfl⟩
  have : (i : ℝ) < j := by exact_mod_cast h
  simp only
  linarith

/-! ### Sign -/

section sign
variable {st : List Station} {sx sn : V3} {u : LenUnit} {sv : SurveyG} {xyz : List V3}

/-- Measured depth and position of each station of a survey. -/
noncomputable def stMd (st : List Station) (j : ℕ) : ℝ := (st.map Station.md).getD j 0
/-- See `stMd`. -/
noncomputable def nevAt (sv : SurveyG) (j : ℕ) : V3 := sv.nev.getD j 0

theorem stMd_lt (hs : st.Pairwise (fun a b => a.md < b.md)) :
    ∀ i j, i < j → j ≤ st.length - 1 → stMd st i < stMd st j := by
  intro i j hij hj
  have h1 : j < st.length := by omega
  have := List.pairwise_iff_getElem.mp hs i j (by omega) h1 hij
  unfold stMd
  rw [List.getD_eq_getElem _ _ (by simp; omega), List.getD_eq_getElem _ _ (by simpa using h1)]
  simpa using this

/-- The straight line between two stations is not longer than the hole between them. -/
theorem chord_le (h : surveyG st sx sn u = .ok (sv, xyz))
    (hs : st.Pairwise (fun a b => a.md < b.md)) {i j : ℕ} (hij : i ≤ j) (hj : j < st.length) :
    V3.norm (nevAt sv j - nevAt sv i) ≤ stMd st j - stMd st i := by
  have h' := h
  unfold surveyG at h
  split at h
  · rename_i out ho
    injection h with h
    injection h with h1 h2
    have hlen : out.poss.length = st.length := C07_every_station_has_position ho
    have := C07_displacement_le_md ho (hs.imp le_of_lt) hij
      (List.getElem?_eq_getElem (by omega)) (List.getElem?_eq_getElem hj)
      (List.getElem?_eq_getElem (by omega)) (List.getElem?_eq_getElem (by omega))
    have e1 : ∀ k, (hk : k < st.length) → nevAt sv k = getNev (out.poss[k]'(by omega)) sx sn := by
      intro k hk
      unfold nevAt
      rw [← h1]
      rw [List.getD_eq_getElem _ _ (by simp; omega)]
      simp
    have e2 : ∀ k, (hk : k < st.length) → stMd st k = st[k].md := by
      intro k hk
      unfold stMd
      rw [List.getD_eq_getElem _ _ (by simpa using hk)]
      simp
    rw [e1 j hj, e1 i (by omega), e2 j hj, e2 i (by omega)]
    refine le_trans (le_of_eq ?_) this
    unfold V3.norm V3.dot getNev
    congr 1
    simp
    ring
  · cases h

/-- C117: on every survey the tortuosity index is nowhere negative, and it is zero at a station
exactly if every section down to it is as long as the straight line between its ends. -/
theorem C117_not_negative (h : surveyG st sx sn u = .ok (sv, xyz))
    (hs : st.Pairwise (fun a b => a.md < b.md)) {l : List Bool} (hl : l.length + 2 = st.length)
    (hne : ∀ i j, i < j → j < st.length → nevAt sv i ≠ nevAt sv j)
    {coeff kappa : ℝ} (hc : 0 < coeff) (hk : 0 < kappa) :
    ∃ out N E, Sections (fun j => l[j - 1]? = some false) (st.length - 1) N E ∧
      tortuosityIndex coeff kappa (stMd st) (nevAt sv) (st.length - 1) l = some out ∧
      out.length = st.length ∧ (∀ x ∈ out, 0 ≤ x) ∧
      ∀ m j, m < N → E m < j → j ≤ E (m + 1) →
        (out[j]? = some 0 ↔
          (∀ i < m, V3.norm (nevAt sv (E (i + 1)) - nevAt sv (E i))
            = stMd st (E (i + 1)) - stMd st (E i)) ∧
          V3.norm (nevAt sv j - nevAt sv (E m)) = stMd st j - stMd st (E m)) := by
  have hmd := stMd_lt hs
  obtain ⟨out, N, E, hS, ho, hlen, h0, hv⟩ := C116_tortuosity_index (l := l)
    (n := st.length - 1) (by omega) hmd (nevAt sv) hc.ne' kappa
  -- one section's excess
  have hpos : ∀ s e, s < e → e < st.length → 0 < V3.norm (nevAt sv e - nevAt sv s) := by
    intro s e hse he
    rcases (V3.norm_nonneg (nevAt sv e - nevAt sv s)).eq_or_lt with h' | h'
    · exfalso
      apply hne s e hse he
      have h2 := V3.norm_sq (nevAt sv e - nevAt sv s)
      rw [← h'] at h2
      simp only [V3.dot, V3.sub_x, V3.sub_y, V3.sub_z] at h2
      apply V3.ext <;> nlinarith [sq_nonneg ((nevAt sv e).x - (nevAt sv s).x),
        sq_nonneg ((nevAt sv e).y - (nevAt sv s).y), sq_nonneg ((nevAt sv e).z - (nevAt sv s).z)]
    · exact h'
  have hex0 : ∀ s e, s < e → e < st.length →
      0 ≤ (stMd st e - stMd st s) / V3.norm (nevAt sv e - nevAt sv s) - 1 := by
    intro s e hse he
    have := (one_le_div (hpos s e hse he)).mpr (chord_le h hs hse.le he)
    linarith
  have hexz : ∀ s e, s < e → e < st.length →
      ((stMd st e - stMd st s) / V3.norm (nevAt sv e - nevAt sv s) - 1 = 0 ↔
        V3.norm (nevAt sv e - nevAt sv s) = stMd st e - stMd st s) := by
    intro s e hse he
    rw [sub_eq_zero, div_eq_one_iff_eq (hpos s e hse he).ne', eq_comm]
  have hEn : ∀ m, m ≤ N → E m < st.length := by
    intro m hm; have := hS.le_n hm; omega
  -- one station's total
  have htot : ∀ m j, m < N → E m < j → j ≤ E (m + 1) →
      0 ≤ sectionTotal (fun s e => (stMd st e - stMd st s) /
        V3.norm (nevAt sv e - nevAt sv s) - 1) E m j := by
    intro m j hm h0 h1
    have := hEn (m + 1) hm
    refine add_nonneg (Finset.sum_nonneg fun i hi => ?_) (hex0 _ _ h0 (by omega))
    have hi' := Finset.mem_range.mp hi
    exact hex0 _ _ (hS.mono i (by omega)) (hEn _ (by omega))
  have hfac : ∀ m j, m < N → E m < j → j ≤ E (m + 1) →
      0 < ((m : ℝ) + 1) / ((m : ℝ) + 2) * (kappa / ((stMd st j - stMd st 0) / coeff)) := by
    intro m j hm h0 h1
    have := hEn (m + 1) hm
    have : 0 < stMd st j - stMd st 0 := by
      have := hmd 0 j (by omega) (by omega); linarith
    positivity
  have hcover : ∀ j, 0 < j → j ≤ st.length - 1 → ∃ m, m < N ∧ E m < j ∧ j ≤ E (m + 1) := by
    intro j j0 j1
    have hP : ∃ k, j ≤ E k := ⟨N, by rw [hS.last]; exact j1⟩
    classical
    have hk := Nat.find_spec hP
    have hk0 : Nat.find hP ≠ 0 := by
      intro h; rw [h, hS.first] at hk; omega
    have hkN : Nat.find hP ≤ N := Nat.find_min' hP (by rw [hS.last]; exact j1)
    refine ⟨Nat.find hP - 1, by omega, not_le.mp (Nat.find_min hP (by omega)), ?_⟩
    rw [show Nat.find hP - 1 + 1 = Nat.find hP by omega]; exact hk
  refine ⟨out, N, E, hS, ho, by omega, ?_, ?_⟩
  · intro x hx
    obtain ⟨j, hj, rfl⟩ := List.mem_iff_getElem.mp hx
    have hj' : out[j]? = some out[j] := List.getElem?_eq_getElem hj
    rcases Nat.eq_zero_or_pos j with rfl | hjp
    · rw [h0, Option.some.injEq] at hj'; rw [← hj']
    · obtain ⟨m, m0, m1, m2⟩ := hcover j hjp (by omega)
      rw [hv m j m0 m1 m2, Option.some.injEq] at hj'
      rw [← hj']
      exact mul_nonneg (hfac m j m0 m1 m2).le (htot m j m0 m1 m2)
  · intro m j m0 m1 m2
    have hjl : j < st.length := by have := hEn (m + 1) m0; omega
    rw [hv m j m0 m1 m2, Option.some.injEq, mul_eq_zero,
      or_iff_right (hfac m j m0 m1 m2).ne']
    unfold sectionTotal
    have hsum : ∀ i ∈ Finset.range m, 0 ≤ (stMd st (E (i + 1)) - stMd st (E i)) /
        V3.norm (nevAt sv (E (i + 1)) - nevAt sv (E i)) - 1 := fun i hi => by
      have hi' := Finset.mem_range.mp hi
      exact hex0 _ _ (hS.mono i (by omega)) (hEn _ (by omega))
    rw [add_eq_zero_iff_of_nonneg (Finset.sum_nonneg hsum) (hex0 _ _ m1 hjl),
      Finset.sum_eq_zero_iff_of_nonneg hsum, hexz _ _ m1 hjl]
    constructor
    · rintro ⟨a, b⟩
      refine ⟨fun i hi => ?_, b⟩
      exact (hexz _ _ (hS.mono i (by omega)) (hEn _ (by omega))).mp
        (a i (Finset.mem_range.mpr hi))
    · rintro ⟨a, b⟩
      refine ⟨fun i hi => ?_, b⟩
      have hi' := Finset.mem_range.mp hi
      exact (hexz _ _ (hS.mono i (by omega)) (hEn _ (by omega))).mpr (a i hi')

/-- Non-vacuity: a vertical well of two stations. -/
example : ∃ sv xyz, surveyG [⟨0, 0, 0⟩, ⟨100, 0, 0⟩] 0 0 .meters = .ok (sv, xyz) ∧
    ∀ i j, i < j → j < 2 → nevAt sv i ≠ nevAt sv j := by
  obtain ⟨sv, xyz, h, h1, h2⟩ := two_station_survey ⟨0, 0, 0⟩ ⟨100, 0, 0⟩
  have hst : minCurveStep (100 - 0) 0 0 0 0 = ⟨0, 0, 100⟩ := by
    rw [minCurveStep_same rfl]; ext <;> simp [tangent]
  simp only [hst] at h2
  refine ⟨sv, xyz, h, fun i j hij hj => ?_⟩
  obtain rfl : j = 1 := by omega
  obtain rfl : i = 0 := by omega
  unfold nevAt
  rw [h2]
  intro h0
  have := congrArg V3.z h0
  simp at this

end sign

/-! ### Units -/

/-- The positions in another unit. -/
def scaleMd (r : ℝ) (md : ℕ → ℝ) : ℕ → ℝ := fun j => r * md j
/-- See `scaleMd`. -/
noncomputable def scalePos (r : ℝ) (pos : ℕ → V3) : ℕ → V3 := fun j => r • pos j

theorem norm_scale {r : ℝ} (hr : 0 < r) (pos : ℕ → V3) (e s : ℕ) :
    V3.norm (scalePos r pos e - scalePos r pos s) = r * V3.norm (pos e - pos s) := by
  have : scalePos r pos e - scalePos r pos s = r • (pos e - pos s) := by
    unfold scalePos; apply V3.ext <;> simp <;> ring
  rw [this, V3.norm_smul, abs_of_pos hr]

theorem sectionNo_scale {r : ℝ} (hr : 0 < r) (md : ℕ → ℝ) (sts : List ℕ) (j : ℕ) :
    sectionNo (scaleMd r md) sts j = sectionNo md sts j := by
  unfold sectionNo searchsortedLeft
  induction sts with
  | nil => rfl
  | cons s t ih =>
    simp only [List.map_cons, List.takeWhile_cons]
    have hiff : scaleMd r md s < scaleMd r md j ↔ md s < md j := mul_lt_mul_iff_right₀ hr
    by_cases hlt : md s < md j
    · rw [if_pos (by simpa using hiff.mpr hlt), if_pos (by simpa using hlt)]
      simp only [List.length_cons, ih]
    · rw [if_neg (by simpa using mt hiff.mp hlt), if_neg (by simpa using hlt)]

theorem sectionStart_scale {r : ℝ} (hr : 0 < r) (md : ℕ → ℝ) (sts : List ℕ) (j : ℕ) :
    sectionStart (scaleMd r md) sts j = sectionStart md sts j := by
  unfold sectionStart; rw [sectionNo_scale hr]

theorem sectionTurn_scale (α : ℝ) (b : List (ℕ × ℝ)) (a : List ℝ) (c : ℝ) (k : ℕ) :
    sectionTurn (b.map fun e => (e.1, α * e.2)) (a.map (α * ·), α * c) k
      = (sectionTurn b (a, c) k).map fun p => (p.1.map (α * ·), α * p.2) := by
  have h : (a.map (α * ·)) ++ ((b.map fun e => (e.1, α * e.2)).filter (fun e => e.1 = k)).map
      (fun e => e.2 + α * c)
      = (a ++ (b.filter (fun e => e.1 = k)).map (fun e => e.2 + c)).map (α * ·) := by
    rw [List.map_append, List.filter_map, List.map_map, List.map_map]
    congr 1
    apply List.map_congr_left
    intro e _
    simp only [Function.comp]
    ring
  unfold sectionTurn
  simp only
  rw [h, List.getLast?_map, Option.map_map, Option.map_map]
  congr 1

theorem accumulate_scale (α : ℝ) (b : List (ℕ × ℝ)) (N : ℕ) :
    accumulate (b.map fun e => (e.1, α * e.2)) N = (accumulate b N).map (List.map (α * ·)) := by
  have key : ∀ (ks : List ℕ) (a : List ℝ) (c : ℝ),
      ks.foldlM (sectionTurn (b.map fun e => (e.1, α * e.2))) (a.map (α * ·), α * c)
        = (ks.foldlM (sectionTurn b) (a, c)).map fun p => (p.1.map (α * ·), α * p.2) := by
    intro ks
    induction ks with
    | nil => intro a c; rfl
    | cons k t ih =>
      intro a c
      rw [List.foldlM_cons, List.foldlM_cons, sectionTurn_scale]
      cases sectionTurn b (a, c) k with
      | none => rfl
      | some p => exact ih p.1 p.2
  have := key (List.range' 1 N) [] 0
  rw [List.map_nil, mul_zero] at this
  unfold accumulate
  rw [this, Option.map_map, Option.map_map]
  rfl

/-- Both indices in another unit: if each section's excess is multiplied by `α` and the depth
factor by `β`, the index is multiplied by `α β`. -/
theorem index_scale {r : ℝ} (hr : 0 < r) {ex ex' : ℕ → ℕ → ℝ} {scale scale' : ℝ → ℝ} {α β : ℝ}
    (hex : ∀ s e, ex' s e = α * ex s e) (hsc : ∀ x, scale' (r * x) = β * scale x)
    (md : ℕ → ℝ) (n : ℕ) (l : List Bool) :
    index ex' scale' (scaleMd r md) n l = (index ex scale md n l).map (List.map (α * β * ·)) := by
  unfold index
  simp only [sectionNo_scale hr, sectionStart_scale hr, hex]
  have hb : ((List.range' 1 n).map fun j => (sectionNo md (starts l) j,
      α * ex (sectionStart md (starts l) j) j))
      = ((List.range' 1 n).map fun j => (sectionNo md (starts l) j,
        ex (sectionStart md (starts l) j) j)).map fun e => (e.1, α * e.2) := by
    rw [List.map_map]; rfl
  rw [hb, accumulate_scale]
  cases accumulate ((List.range' 1 n).map fun j => (sectionNo md (starts l) j,
      ex (sectionStart md (starts l) j) j)) (starts l).length with
  | none => rfl
  | some a =>
    simp only [Option.map_some, List.length_map]
    split_ifs
    · simp only [Option.map_some, Option.some.injEq, List.map_cons, mul_zero, List.cons.injEq,
        true_and, List.map_zipWith, List.zipWith_map_right]
      congr 1
      funext j x
      have : scaleMd r md j - scaleMd r md 0 = r * (md j - md 0) := by unfold scaleMd; ring
      rw [this, hsc]
      ring
    · rfl

/-- C118: the modified index does not depend on the unit of length, and not on `coeff`. -/
theorem C118_modified_unit_free {r coeff coeff' : ℝ} (hr : 0 < r) (hc : coeff ≠ 0)
    (hc' : coeff' ≠ 0) (md : ℕ → ℝ) (pos : ℕ → V3) (n : ℕ) (l : List Bool) (kappa : ℝ) :
    modifiedTortuosityIndex coeff' kappa (scaleMd r md) (scalePos r pos) n l
      = modifiedTortuosityIndex coeff kappa md pos n l := by
  unfold modifiedTortuosityIndex
  rw [index_scale (ex := excessMti coeff md pos) (scale := fun l => kappa * (l / coeff))
    (α := coeff' / (r * coeff)) (β := r * coeff / coeff') hr]
  · have : coeff' / (r * coeff) * (r * coeff / coeff') = 1 := by field_simp
    rw [this]
    simp
  · intro s e
    unfold excessMti
    rw [norm_scale hr, div_div_div_cancel_right₀ hc, div_div_div_cancel_right₀ hc']
    have : scaleMd r md e - scaleMd r md s = r * (md e - md s) := by unfold scaleMd; ring
    rw [this, mul_div_mul_left _ _ hr.ne']
    rw [div_div_eq_mul_div, div_div_eq_mul_div]
    field_simp
  · intro x
    field_simp

/-- The tortuosity index is inversely proportional to the number of units in a length. -/
theorem C119_scale {r coeff : ℝ} (hr : 0 < r) (hc : coeff ≠ 0)
    (md : ℕ → ℝ) (pos : ℕ → V3) (n : ℕ) (l : List Bool) (kappa : ℝ) :
    tortuosityIndex coeff kappa (scaleMd r md) (scalePos r pos) n l
      = (tortuosityIndex coeff kappa md pos n l).map (List.map (r⁻¹ * ·)) := by
  unfold tortuosityIndex
  rw [index_scale (ex := excessTi coeff md pos) (scale := fun l => kappa / (l / coeff))
    (α := 1) (β := r⁻¹) hr, one_mul]
  · intro s e
    unfold excessTi
    rw [norm_scale hr, div_div_div_cancel_right₀ hc, div_div_div_cancel_right₀ hc]
    have : scaleMd r md e - scaleMd r md s = r * (md e - md s) := by unfold scaleMd; ring
    rw [this, mul_div_mul_left _ _ hr.ne', one_mul]
  · intro x
    simp only [div_div_eq_mul_div]
    rw [div_mul_eq_div_div]
    field_simp

/-- C119 (partial): the two units give the same index if `coeff` is given in the survey's unit. -/
theorem C119_same_with_coeff_partial {r coeff : ℝ} (hr : 0 < r) (hc : coeff ≠ 0)
    (md : ℕ → ℝ) (pos : ℕ → V3) (n : ℕ) (l : List Bool) (kappa : ℝ) :
    tortuosityIndex (r * coeff) kappa (scaleMd r md) (scalePos r pos) n l
      = tortuosityIndex coeff kappa md pos n l := by
  unfold tortuosityIndex
  rw [index_scale (ex := excessTi coeff md pos) (scale := fun l => kappa / (l / coeff))
    (α := 1) (β := 1) hr]
  · simp
  · intro s e
    unfold excessTi
    rw [norm_scale hr, div_div_div_cancel_right₀ hc,
      div_div_div_cancel_right₀ (mul_ne_zero hr.ne' hc)]
    have : scaleMd r md e - scaleMd r md s = r * (md e - md s) := by unfold scaleMd; ring
    rw [this, mul_div_mul_left _ _ hr.ne', one_mul]
  · intro x
    simp only [mul_div_mul_left _ _ hr.ne', one_mul]

/-- C119 is false as it stands: with the default `coeff` a survey in feet gets another index than
the same survey in metres, wherever the index is not zero. -/
theorem C119_unit_dependent {md : ℕ → ℝ} {pos : ℕ → V3} {n : ℕ} {l : List Bool}
    {out : List ℝ} (h : tortuosityIndex 0.3048 1e7 md pos n l = some out)
    (hne : ∃ x ∈ out, x ≠ 0) :
    tortuosityIndex 0.3048 1e7 (scaleMd (1 / 0.3048) md) (scalePos (1 / 0.3048) pos) n l
      ≠ some out := by
  rw [C119_scale (by norm_num) (by norm_num), h]
  simp only [Option.map_some, ne_eq, Option.some.injEq]
  intro he
  obtain ⟨x, hx, hx0⟩ := hne
  obtain ⟨j, hj, rfl⟩ := List.mem_iff_getElem.mp hx
  have hj' : j < (out.map ((1 / 0.3048 : ℝ)⁻¹ * ·)).length := by simpa using hj
  have h1 : (out.map ((1 / 0.3048 : ℝ)⁻¹ * ·))[j] = out[j] := by
    simp only [he]
  rw [List.getElem_map] at h1
  have h2 : (1 - (1 / 0.3048 : ℝ)⁻¹) * out[j] = 0 := by linear_combination -h1
  rcases mul_eq_zero.mp h2 with h3 | h3
  · norm_num at h3
  · exact hx0 h3

/-- Non-vacuity: a well of two stations, drilled length 2 and straight-line length 1. -/
example : ∃ out, tortuosityIndex 0.3048 1e7 (fun j => 2 * j) (fun j => ⟨0, 0, j⟩) 1 []
    = some out ∧ ∃ x ∈ out, x ≠ 0 := by
  obtain ⟨out, N, E, hS, ho, hlen, -, hv⟩ := C116_tortuosity_index (l := []) (n := 1) rfl
    (md := fun j => 2 * j) (by
      intro i j h _
      have : (i : ℝ) < j := by exact_mod_cast h
      linarith) (fun j => ⟨0, 0, j⟩) (coeff := 0.3048) (by norm_num) 1e7
  have hN : 0 < N := by
    rcases Nat.eq_zero_or_pos N with h | h
    · have := hS.last; rw [h, hS.first] at this; omega
    · exact h
  have hm := hS.mono 0 hN
  rw [hS.first] at hm
  have := hv 0 1 hN (by rw [hS.first]; omega) (by rw [zero_add] at hm ⊢; omega)
  refine ⟨out, ho, _, List.mem_of_getElem? this, ?_⟩
  have hnorm : V3.norm ((⟨0, 0, ((1 : ℕ) : ℝ)⟩ : V3) - ⟨0, 0, ((0 : ℕ) : ℝ)⟩) = 1 := by
    unfold V3.norm V3.dot; simp
  unfold sectionTotal
  rw [hS.first]
  simp only [Finset.range_zero, Finset.sum_empty, hnorm]
  norm_num

/-! ### Directional difficulty -/

/-- C120: the directional difficulty index is the decimal logarithm of measured depth times
horizontal displacement times total turn over vertical depth, lengths in feet and angles in
degrees, and 0 where that is not a positive number. -/
theorem C120_ddi (md north east tvd turned : ℝ) :
    let q := (md / 0.3048) * (√(north ^ 2 + east ^ 2) / 0.3048) * (turned * 180 / π)
      / (tvd / 0.3048)
    (0 < q → ddi md north east tvd turned = log q / log 10) ∧
    (tvd = 0 ∨ q ≤ 0 → ddi md north east tvd turned = 0) := by
  have hd : degrees turned = turned * 180 / π := by unfold degrees; ring
  intro q
  have hq : toFeet md * toFeet (√(north ^ 2 + east ^ 2)) * degrees turned / toFeet tvd = q := by
    rw [hd]; rfl
  constructor
  · intro h
    have ht : tvd ≠ 0 := by
      rintro rfl
      simp [q] at h
    unfold ddi
    simp only
    rw [if_neg ht, hq, if_neg (not_le.mpr h), logb]
  · rintro (h | h)
    · unfold ddi; rw [if_pos h]
    · unfold ddi
      split_ifs with ht
      · rfl
      · rw [hq, if_pos h]

example : 0 < ((1000 : ℝ) / 0.3048) * (√(300 ^ 2 + 400 ^ 2) / 0.3048) * (1 * 180 / π)
    / (800 / 0.3048) := by
  have := pi_pos
  positivity

/-- C121 (partial): in a unit that is `1/r` as long, the index of a well with positive depth,
displacement and turn is larger by `log10 r`. -/
theorem C121_scale_partial {r md north east tvd turned : ℝ} (hr : 0 < r) (h1 : 0 < md)
    (h2 : 0 < north ^ 2 + east ^ 2) (h3 : 0 < tvd) (h4 : 0 < turned) :
    ddi (r * md) (r * north) (r * east) (r * tvd) turned
      = ddi md north east tvd turned + logb 10 r := by
  have hpi := pi_pos
  have hs : √((r * north) ^ 2 + (r * east) ^ 2) = r * √(north ^ 2 + east ^ 2) := by
    rw [show (r * north) ^ 2 + (r * east) ^ 2 = r ^ 2 * (north ^ 2 + east ^ 2) by ring,
      sqrt_mul (sq_nonneg r), sqrt_sq hr.le]
  have hd : 0 < degrees turned := by unfold degrees; positivity
  have hsq : 0 < √(north ^ 2 + east ^ 2) := sqrt_pos.mpr h2
  have hq : 0 < toFeet md * toFeet (√(north ^ 2 + east ^ 2)) * degrees turned / toFeet tvd := by
    unfold toFeet; positivity
  have he : toFeet (r * md) * toFeet (r * √(north ^ 2 + east ^ 2)) * degrees turned
      / toFeet (r * tvd)
      = (toFeet md * toFeet (√(north ^ 2 + east ^ 2)) * degrees turned / toFeet tvd) * r := by
    unfold toFeet; field_simp
  unfold ddi
  simp only
  rw [hs, if_neg (mul_pos hr h3).ne', if_neg h3.ne', he, if_neg (not_le.mpr hq),
    if_neg (not_le.mpr (mul_pos hq hr)), logb_mul hq.ne' hr.ne']

/-- C121 is false: a survey in feet gets another index than the same survey in metres. -/
theorem C121_unit_dependent {md north east tvd turned : ℝ} (h1 : 0 < md)
    (h2 : 0 < north ^ 2 + east ^ 2) (h3 : 0 < tvd) (h4 : 0 < turned) :
    ddi (1 / 0.3048 * md) (1 / 0.3048 * north) (1 / 0.3048 * east) (1 / 0.3048 * tvd) turned
      ≠ ddi md north east tvd turned := by
  rw [C121_scale_partial (by norm_num) h1 h2 h3 h4]
  have : 0 < logb 10 (1 / 0.3048 : ℝ) := logb_pos (by norm_num) (by norm_num)
  linarith

end Welleng.Props
