import Verif.Model.Slice
import Verif.Props.Trajectory

/-!
C380: slices of a survey.
-/

namespace Welleng.Props

open Clr Slc Sv

theorem positions_drop (p : V3) : ∀ (s : List Station) (i : ℕ) {q : V3}, (positions p s)[i]? = some q →
    (positions p s).drop i = positions q (s.drop i)
  | [], _, _, h => by simp [positions] at h
  | [a], 0, q, h => by simp [positions, pairwise, cumsumFrom] at h ⊢; exact h
  | [a], i + 1, q, h => by simp [positions, pairwise, cumsumFrom] at h
  | a :: b :: t, 0, q, h => by
    rw [positions_cons2] at h
    simp only [List.getElem?_cons_zero, Option.some.injEq] at h
    subst h; rfl
  | a :: b :: t, i + 1, q, h => by
    rw [positions_cons2] at h ⊢
    simp only [List.getElem?_cons_succ] at h
    rw [List.drop_succ_cons, List.drop_succ_cons]
    exact positions_drop _ (b :: t) i h

theorem positions_take (p : V3) (s : List Station) (j : ℕ) :
    (positions p s).take j = positions p (s.take j) := by
  have h := positions_append p (s.take j) (s.drop j)
  rw [List.take_append_drop, List.prefix_iff_eq_take, positions_length] at h
  rw [h, List.length_take, List.take_eq_take_iff, positions_length]
  omega

theorem pairwise_drop {α β : Type*} (f : α → α → β) : ∀ (l : List α) (i : ℕ),
    (pairwise f l).drop i = pairwise f (l.drop i)
  | [], _ => by simp [pairwise]
  | [a], 0 => rfl
  | [a], i + 1 => by simp [pairwise]
  | a :: b :: t, 0 => rfl
  | a :: b :: t, i + 1 => by
    rw [pairwise, List.drop_succ_cons, List.drop_succ_cons]
    exact pairwise_drop f (b :: t) i

theorem pairwise_take {α β : Type*} (f : α → α → β) : ∀ (l : List α) (j : ℕ),
    (pairwise f l).take j = pairwise f (l.take (j + 1))
  | [], _ => by simp [pairwise]
  | [a], j => by simp [pairwise]
  | a :: b :: t, 0 => by simp [pairwise]
  | a :: b :: t, j + 1 => by
    have := pairwise_take f (b :: t) j
    rw [pairwise, List.take_succ_cons, this]
    simp [pairwise]

theorem cut_length {α : Type*} (a : ℕ) (b : Option ℕ) (l : List α) :
    (cut a b l).length = (b.elim l.length fun e => min e l.length) - a := by
  cases b <;> simp [cut]

theorem cut_map {α β : Type*} (f : α → β) (a : ℕ) (b : Option ℕ) (l : List α) :
    cut a b (l.map f) = (cut a b l).map f := by
  cases b <;> simp [cut, List.map_take, List.map_drop]

theorem cut_positions (p : V3) (s : List Station) (a : ℕ) (b : Option ℕ) {q : V3}
    (h : (cut a b (positions p s)).head? = some q) :
    cut a b (positions p s) = positions q (cut a b s) := by
  cases b with
  | none =>
    simp only [cut, List.head?_drop] at h ⊢
    exact positions_drop p s a h
  | some e =>
    simp only [cut, List.head?_drop, positions_take] at h ⊢
    exact positions_drop p _ a h

theorem placed_ok {gsf : ℝ} {u : LenUnit} {start : V3} {st : List Station} {s : Placed}
    (h : construct gsf u none start st = .ok s) : ∃ out, minCurve st 0 u = .ok out ∧
    s = ⟨st, out.poss.map (nevAttr 0 start), out.poss.map (posNev gsf start), out.poss, out.dls⟩ := by
  simp only [construct] at h
  split at h
  · simp at h
  · rename_i out ho
    simp only [Except.ok.injEq, Option.getD_none] at h
    exact ⟨out, ho, h.symm⟩

theorem slice_ok {gsf : ℝ} {u : LenUnit} {s t : Placed} {a : ℕ} {b : Option ℕ}
    (h : sliceSurvey gsf u s a b = .ok t) : ∃ p out, (cut a b s.nev).head? = some p ∧
    minCurve (cut a b s.st) 0 u = .ok out ∧
    t = ⟨cut a b s.st, cut a b s.nev, out.poss.map (posNev gsf p), out.poss, out.dls⟩ := by
  unfold sliceSurvey at h
  generalize cut a b s.nev = nev at h ⊢
  cases nev with
  | nil => simp at h
  | cons p r =>
    simp only [construct] at h
    split at h
    · simp at h
    · rename_i out ho
      simp only [Except.ok.injEq, Option.getD_some] at h
      exact ⟨p, out, rfl, ho, h.symm⟩

/-- **C380** (when it works): a slice can be taken exactly if there are at least two stations in its range. -/
theorem C380_refused {gsf gsf' : ℝ} {u : LenUnit} {start : V3} {st : List Station} {s : Placed}
    (h : construct gsf u none start st = .ok s) (a : ℕ) (b : Option ℕ) :
    (∃ t, sliceSurvey gsf' u s a b = .ok t) ↔ 2 ≤ (cut a b st).length := by
  obtain ⟨out, ho, rfl⟩ := placed_ok h
  have hu := ((C07_succeeds_iff st 0 u).1 ⟨out, ho⟩).1
  have hl : (cut a b (out.poss.map (nevAttr 0 start))).length = (cut a b st).length := by
    rw [cut_length, cut_length, List.length_map, C07_every_station_has_position ho]
  constructor
  · rintro ⟨t, ht⟩
    obtain ⟨p, out', -, ho', -⟩ := slice_ok ht
    exact ((C07_succeeds_iff _ 0 u).1 ⟨out', ho'⟩).2
  · intro h2
    obtain ⟨out', ho'⟩ := (C07_succeeds_iff (cut a b st) 0 u).2 ⟨hu, h2⟩
    unfold sliceSurvey
    simp only
    generalize cut a b (out.poss.map (nevAttr 0 start)) = nev at hl ⊢
    cases nev with
    | nil => simp only [List.length_nil] at hl; omega
    | cons p r => simp only [construct, ho']; exact ⟨_, rfl⟩

/-- **C380**, the part that holds: a slice of a survey without grid scaling has the stations, both position
tables and, below its first station, the severities that the survey has in its range. -/
theorem C380_slice_partial {u : LenUnit} {start : V3} {st : List Station} {s t : Placed}
    (h : construct 1 u none start st = .ok s) {a : ℕ} {b : Option ℕ} (ht : sliceSurvey 1 u s a b = .ok t) :
    t.st = cut a b s.st ∧ t.nev = cut a b s.nev ∧ t.posNev = cut a b s.posNev ∧
    t.dls.tail = (cut a b s.dls).tail := by
  obtain ⟨out, ho, rfl⟩ := placed_ok h
  obtain ⟨p, out', hp, ho', rfl⟩ := slice_ok ht
  refine ⟨rfl, rfl, ?_, ?_⟩
  · simp only at hp ho' ⊢
    rw [cut_map, List.head?_map, Option.map_eq_some_iff] at hp
    obtain ⟨q, hq, rfl⟩ := hp
    rw [minCurve_poss ho] at hq
    rw [cut_map, minCurve_poss ho', minCurve_poss ho, cut_positions 0 st a b hq]
    have := positions_translate 0 q (cut a b st)
    rw [zero_add] at this
    rw [this, List.map_map]
    refine List.map_congr_left fun x _ => ?_
    ext <;> simp [posNev, nevAttr, getNev] <;> ring
  · simp only at ho' ⊢
    obtain ⟨s0, s1, rest, e⟩ := minCurve_ok_length ho
    obtain ⟨s0', s1', rest', e'⟩ := minCurve_ok_length ho'
    have key : ∀ (l : List Station) (o : MinCurveOut), minCurve l 0 u = .ok o →
        o.dls.tail = pairwise (fun a b => dlsOf (if u = .meters then 30 else 100) (dogleg2 a b) (b.md - a.md)) l ∧
        ∃ d, o.dls = d :: o.dls.tail := by
      intro l o hl
      obtain ⟨x, y, r, rfl⟩ := minCurve_ok_length hl
      cases u <;> simp only [minCurve, reduceCtorEq, Except.ok.injEq] at hl
      all_goals subst hl; exact ⟨rfl, _, rfl⟩
    obtain ⟨k1, d, k2⟩ := key _ _ ho
    rw [(key _ _ ho').1, k2, k1]
    cases b with
    | none =>
      simp only [cut]
      rw [List.tail_drop, List.drop_succ_cons, pairwise_drop]
    | some e =>
      simp only [cut]
      cases e with
      | zero => simp [pairwise]
      | succ e =>
        rw [List.take_succ_cons, List.tail_drop, List.drop_succ_cons, pairwise_take, pairwise_drop]

/-- The end of a slice of a slice. -/
def stopOf (a : ℕ) : Option ℕ → Option ℕ → Option ℕ
  | some b, some d => some (min (a + d) b)
  | some b, none => some b
  | none, some d => some (a + d)
  | none, none => none

theorem cut_cut {α : Type*} (l : List α) (a c : ℕ) (b d : Option ℕ) :
    cut c d (cut a b l) = cut (a + c) (stopOf a b d) l := by
  cases b <;> cases d <;> simp [cut, stopOf, List.take_drop, List.drop_drop, List.take_take]

/-- **C380** (slices of slices): a slice of a slice is the slice of the survey with the indices added up. -/
theorem C380_twice {gsf : ℝ} {u : LenUnit} {s t : Placed} {a : ℕ} {b : Option ℕ}
    (h : sliceSurvey gsf u s a b = .ok t) (c : ℕ) (d : Option ℕ) :
    sliceSurvey gsf u t c d = sliceSurvey gsf u s (a + c) (stopOf a b d) := by
  obtain ⟨p, out, -, -, rfl⟩ := slice_ok h
  simp only [sliceSurvey, cut_cut]

/-- C380 is false of `x, y, z`: those of a slice are counted from its first station. -/
theorem C380_xyz {gsf : ℝ} {u : LenUnit} {start : V3} {st : List Station} {s t : Placed}
    (h : construct gsf u none start st = .ok s) {a : ℕ} {b : Option ℕ} (ht : sliceSurvey gsf u s a b = .ok t) :
    ∃ q, (cut a b s.xyz).head? = some q ∧ cut a b s.xyz = t.xyz.map (· + q) := by
  obtain ⟨out, ho, rfl⟩ := placed_ok h
  obtain ⟨p, out', hp, ho', rfl⟩ := slice_ok ht
  simp only at hp ho' ⊢
  rw [cut_map, List.head?_map, Option.map_eq_some_iff] at hp
  obtain ⟨q, hq, rfl⟩ := hp
  refine ⟨q, hq, ?_⟩
  rw [minCurve_poss ho] at hq ⊢
  rw [minCurve_poss ho', cut_positions 0 st a b hq]
  have := positions_translate 0 q (cut a b st)
  rwa [zero_add] at this

/-- C380 is false with a grid scale factor: a level well to the north, scaled by 2, has its second station at
60 in the table `pos_nev` of the survey, and at 30 in that of a slice that starts there. -/
theorem C380_scaled : ∃ s t, construct 2 .meters none 0
      [⟨0, Real.pi / 2, 0⟩, ⟨30, Real.pi / 2, 0⟩, ⟨60, Real.pi / 2, 0⟩] = .ok s ∧
    sliceSurvey 2 .meters s 1 none = .ok t ∧
    (cut 1 none s.posNev).head?.map V3.x = some 60 ∧ t.posNev.head?.map V3.x = some 30 := by
  have hd : deltaXyz ⟨0, Real.pi / 2, 0⟩ ⟨30, Real.pi / 2, 0⟩ = ⟨0, 30, 0⟩ := by
    have := C06_straight 30 (i1 := Real.pi / 2) (a1 := 0) (i2 := Real.pi / 2) (a2 := 0) rfl
    unfold minCurveStep at this
    simp only [deltaXyz, dogleg2, sub_zero, this]
    ext <;> simp [Spec.tangent]
  refine ⟨_, _, rfl, rfl, ?_, ?_⟩
  · simp [cut, cumsumFrom, pairwise, hd, posNev, getNev]
    norm_num
  · simp [cut, cumsumFrom, pairwise, hd, posNev, nevAttr, getNev]

/-- Non-vacuity: three stations, the lower two as a slice. -/
example : ∃ s t, construct 1 .meters none ⟨100, 200, 0⟩ [⟨0, 0, 0⟩, ⟨30, 0.1, 1⟩, ⟨60, 0.2, 1⟩] = .ok s ∧
    sliceSurvey 1 .meters s 1 none = .ok t :=
  ⟨_, _, rfl, rfl⟩

end Welleng.Props
