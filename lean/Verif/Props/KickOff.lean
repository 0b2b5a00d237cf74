import Verif.Model.KickOff
import Verif.Lemmas.Searchsorted

/-!
C371: the part of the reference well that is examined when a kick-off depth is given.
-/

namespace Welleng.Props

open Clr

theorem kopIndex_pos {mds : List ℝ} {m0 kop : ℝ} (h0 : mds[0]? = some m0) (h : m0 < kop) : kopIndex mds kop ≠ 0 := by
  intro hz
  have := (searchsortedLeft_spec mds kop).2 m0 (by
    unfold kopIndex at hz
    rw [hz]; exact h0)
  linarith

theorem kopIndex_all {mds : List ℝ} {kop : ℝ} (h : ∀ m ∈ mds, m < kop) : kopIndex mds kop = mds.length := by
  by_contra hne
  have hlt : kopIndex mds kop < mds.length := lt_of_le_of_ne (searchsortedLeft_le mds kop) hne
  have := (searchsortedLeft_spec mds kop).2 _ (List.getElem?_eq_getElem hlt)
  linarith [h _ (List.getElem_mem hlt)]

/-- Above the index the depths are less than the kick-off depth, from it on they are not. -/
theorem drop_kopIndex {mds : List ℝ} (hs : mds.Pairwise (· < ·)) (kop : ℝ) :
    open Classical in mds.drop (kopIndex mds kop) = mds.filter fun m => decide (kop ≤ m) := by
  classical
  unfold kopIndex searchsortedLeft
  induction mds with
  | nil => rfl
  | cons a t ih =>
    obtain ⟨h1, h2⟩ := List.pairwise_cons.1 hs
    by_cases ha : a < kop
    · rw [List.takeWhile_cons_of_pos (by simpa using ha), List.length_cons, List.drop_succ_cons, ih h2,
        List.filter_cons_of_neg (by simpa using ha)]
    · rw [List.takeWhile_cons_of_neg (by simpa using ha), List.length_nil, List.drop_zero]
      refine (List.filter_eq_self.2 fun m hm => ?_).symm
      rcases List.mem_cons.1 hm with rfl | hm
      · simpa using ha
      · have := h1 m hm
        simp only [decide_eq_true_eq]
        linarith

theorem refStations_zero {mds : List ℝ} {kop : ℝ} (h : kopIndex mds kop = 0) :
    refStations mds (some kop) = .ok mds := if_pos h

theorem refStations_some {mds : List ℝ} {kop x : ℝ} (h : kopIndex mds kop ≠ 0)
    (hx : mds[kopIndex mds kop]? = some x) :
    refStations mds (some kop) = .ok (mds.drop (kopIndex mds kop)) := by
  unfold refStations kopStart
  rw [if_neg h, hx]

theorem refStations_none {mds : List ℝ} {kop : ℝ} (h : kopIndex mds kop ≠ 0)
    (hx : mds[kopIndex mds kop]? = none) : refStations mds (some kop) = .error .indexError := by
  unfold refStations kopStart
  rw [if_neg h, hx]

/-- **C371** Without a kick-off depth the whole reference well is examined. -/
theorem C371_default (mds : List ℝ) : refStations mds none = .ok mds := by simp [refStations, kopStart]

/-- **C371** The stations examined are those at or below the kick-off depth, and a kick-off depth below the
end of the well is refused. -/
theorem C371_stations {mds : List ℝ} (hs : mds.Pairwise (· < ·)) (hne : mds ≠ []) (kop : ℝ) :
    (∀ l, refStations mds (some kop) = .ok l → ∀ m, m ∈ l ↔ m ∈ mds ∧ kop ≤ m) ∧
    (∀ l, refStations mds (some kop) = .ok l → l.Sublist mds ∧ l ≠ []) ∧
    (refStations mds (some kop) = .error .indexError ↔ ∀ m ∈ mds, m < kop) := by
  classical
  have hd := drop_kopIndex hs kop
  have hlen := searchsortedLeft_le mds kop
  have hmem : ∀ l, refStations mds (some kop) = .ok l → l = mds.drop (kopIndex mds kop) ∧ l ≠ [] := by
    intro l hl
    by_cases h0 : kopIndex mds kop = 0
    · rw [refStations_zero h0, Except.ok.injEq] at hl
      rw [h0, ← hl]
      exact ⟨rfl, hne⟩
    · cases hk : mds[kopIndex mds kop]? with
      | none => rw [refStations_none h0 hk] at hl; cases hl
      | some x =>
        rw [refStations_some h0 hk, Except.ok.injEq] at hl
        refine ⟨hl.symm, ?_⟩
        have := (List.getElem?_eq_some_iff.1 hk).1
        rw [← hl, Ne, List.drop_eq_nil_iff]
        omega
  refine ⟨fun l hl m => ?_, fun l hl => ?_, ?_⟩
  · rw [(hmem l hl).1, hd]
    simp
  · exact ⟨by rw [(hmem l hl).1]; exact List.drop_sublist _ _, (hmem l hl).2⟩
  · constructor
    · intro he m hm
      by_cases h0 : kopIndex mds kop = 0
      · rw [refStations_zero h0] at he; cases he
      · cases hk : mds[kopIndex mds kop]? with
        | some x => rw [refStations_some h0 hk] at he; cases he
        | none =>
          have hge := List.getElem?_eq_none_iff.1 hk
          obtain ⟨i, hi, rfl⟩ := List.getElem_of_mem hm
          exact (searchsortedLeft_spec mds kop).1 i _ (lt_of_lt_of_le hi hge) (List.getElem?_eq_getElem hi)
    · intro h
      have h1 := kopIndex_all h
      refine refStations_none (by rw [h1]; exact fun h => hne (List.length_eq_zero_iff.1 h)) ?_
      rw [h1, List.getElem?_eq_none le_rfl]

/-- **C371** (partial) The part examined starts at the kick-off depth if there is a station. -/
theorem C371_station_partial {mds : List ℝ} (hs : mds.Pairwise (· < ·)) {kop : ℝ} (hk : kop ∈ mds) :
    ∃ t, refStations mds (some kop) = .ok (kop :: t) := by
  obtain ⟨i, hi, he⟩ := List.getElem_of_mem hk
  have hx : mds[i]? = some kop := by rw [List.getElem?_eq_getElem hi, he]
  have h1 : kopIndex mds kop = i := searchsortedLeft_eq hs hx
  have hdrop : mds.drop i = kop :: mds.drop (i + 1) := by rw [List.drop_eq_getElem_cons hi, he]
  refine ⟨mds.drop (i + 1), ?_⟩
  rw [← hdrop]
  by_cases h0 : i = 0
  · rw [refStations_zero (h1.trans h0), h0, List.drop_zero]
  · rw [refStations_some (by rwa [h1]) (by rw [h1]; exact hx), h1]

/-- C371 is false: a kick-off depth between two stations leaves out the well from there to the next station,
however far that is. -/
theorem C371_gap {mds : List ℝ} (hs : mds.Pairwise (· < ·)) {i : ℕ} {a b kop : ℝ} (ha : mds[i]? = some a)
    (hb : mds[i + 1]? = some b) (h1 : a < kop) (h2 : kop ≤ b) :
    ∃ t, refStations mds (some kop) = .ok (b :: t) ∧ ∀ m ∈ b :: t, b ≤ m := by
  have hi : kopIndex mds kop = i + 1 := by
    obtain ⟨g1, g2⟩ := searchsortedLeft_spec mds kop
    have hlt := (List.getElem?_eq_some_iff.1 hb).1
    rw [List.pairwise_iff_getElem] at hs
    unfold kopIndex
    rcases lt_trichotomy (searchsortedLeft mds kop) (i + 1) with h | h | h
    · have hk : searchsortedLeft mds kop < mds.length := by omega
      have := g2 _ (List.getElem?_eq_getElem hk)
      have hle : mds[searchsortedLeft mds kop] ≤ a := by
        obtain ⟨q1, q2⟩ := List.getElem?_eq_some_iff.1 ha
        rcases (Nat.lt_succ_iff.1 h).lt_or_eq with h3 | h3
        · rw [← q2]; exact (hs _ _ hk q1 h3).le
        · rw [← q2]; simp [h3]
      linarith
    · exact h
    · have := g1 (i + 1) b h hb
      linarith
  have hlt := (List.getElem?_eq_some_iff.1 hb).1
  have hdrop : mds.drop (i + 1) = b :: mds.drop (i + 2) := by
    rw [List.drop_eq_getElem_cons hlt, (List.getElem?_eq_some_iff.1 hb).2]
  refine ⟨mds.drop (i + 2), ?_, ?_⟩
  · rw [refStations_some (by rw [hi]; exact Nat.succ_ne_zero i) (by rw [hi]; exact hb), hi, hdrop]
  · rw [← hdrop]
    intro m hm
    have hp := hs.sublist (List.drop_sublist (i + 1) mds)
    rw [hdrop] at hp hm
    rcases List.mem_cons.1 hm with rfl | hm
    · exact le_rfl
    · exact ((List.pairwise_cons.1 hp).1 m hm).le

/-- Not vacuous: a kick-off at 1010 m with stations at 1000 and 1100 m leaves out 90 m. -/
example : ∃ t, refStations [0, 1000, 1100, 1200] (some 1010) = .ok (1100 :: t) ∧ ∀ m ∈ 1100 :: t, (1100 : ℝ) ≤ m :=
  C371_gap (i := 1) (a := 1000) (b := 1100) (by norm_num) rfl rfl (by norm_num) (by norm_num)

end Welleng.Props
