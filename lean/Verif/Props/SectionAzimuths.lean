import Verif.Props.VerticalSection

/-!
C368: vertical sections at different azimuths.
-/

namespace Welleng.Props

open Real Welleng Welleng.Sv Spec

theorem cumsumR_lin (x y : ℝ) {α : Type*} (f g h : α → ℝ) : ∀ (l : List α) (A B C : ℝ),
    (∀ a ∈ l, h a = x * f a + y * g a) → C = x * A + y * B →
    cumsumR C (l.map h) = List.zipWith (fun u v => x * u + y * v) (cumsumR A (l.map f)) (cumsumR B (l.map g))
  | [], _, _, _, _, _ => rfl
  | a :: t, A, B, C, hl, hC => by
    have ha := hl a (by simp)
    have hC' : C + h a = x * (A + f a) + y * (B + g a) := by rw [hC, ha]; ring
    simp only [List.map_cons, cumsumR, List.zipWith_cons_cons]
    rw [cumsumR_lin x y f g h t (A + f a) (B + g a) (C + h a) (fun b hb => hl b (by simp [hb])) hC', hC']

theorem pairwise_pairs {α β : Type*} (f : α → α → β) : ∀ l : List α,
    pairwise f l = (pairwise Prod.mk l).map fun q => f q.1 q.2
  | [] => rfl
  | [_] => rfl
  | a :: b :: t => by
    have := pairwise_pairs f (b :: t)
    simp only [pairwise, List.map_cons] at this ⊢
    rw [this]

theorem mem_pairs {α : Type*} {q : α × α} : ∀ {l : List α}, q ∈ pairwise Prod.mk l → q.1 ∈ l ∧ q.2 ∈ l
  | a :: b :: t, h => by
    simp only [pairwise, List.mem_cons] at h
    rcases h with rfl | h
    · simp
    · have := mem_pairs h
      exact ⟨List.mem_cons_of_mem _ this.1, List.mem_cons_of_mem _ this.2⟩

/-- **C368** In a well without a vertical station the section at any azimuth is that along north times the
cosine plus that along east times the sine. -/
theorem C368_azimuths_partial (ref : AziRef) (a : ℝ) {rows : List Row} (h : ∀ r ∈ rows, r.inc ≠ 0) :
    (getVerticalSection ref a rows).2
      = List.zipWith (fun n e => cos a * n + sin a * e) (getVerticalSection ref 0 rows).2
          (getVerticalSection ref (π / 2) rows).2 := by
  rw [section_eq, section_eq, section_eq]
  simp only [cumsumR, List.zipWith_cons_cons]
  refine congrArg₂ List.cons (by simp) ?_
  rw [pairwise_pairs (legSection ref a), pairwise_pairs (legSection ref 0), pairwise_pairs (legSection ref (π / 2))]
  refine cumsumR_lin _ _ _ _ _ _ _ _ _ (fun q hq => ?_) (by simp)
  obtain ⟨h1, h2⟩ := mem_pairs hq
  have e : ∀ v, ∀ r ∈ rows, seen ref v r = r.azi.get ref false := fun v r hr => if_neg (h r hr)
  simp only [legSection, e _ _ h1, e _ _ h2]
  rw [cos_sub a, cos_sub 0, cos_sub (π / 2)]
  simp only [cos_zero, sin_zero, cos_pi_div_two, sin_pi_div_two]
  ring

/-- **C368** In a well without a vertical station, the section at the opposite azimuth is the negative. -/
theorem C368_opposite_partial (ref : AziRef) (a : ℝ) {rows : List Row} (h : ∀ r ∈ rows, r.inc ≠ 0) :
    (getVerticalSection ref (a + π) rows).2 = (getVerticalSection ref a rows).2.map (-·) := by
  rw [C368_azimuths_partial ref (a + π) h, C368_azimuths_partial ref a h, cos_add_pi, sin_add_pi,
    List.map_zipWith]
  congr 1
  funext n e
  ring

/-- C368 is false: for a vertical station followed by one that is `L` to the north, the section towards
north is `L` and the section towards south is zero. -/
theorem C368_vertical_station (ref : AziRef) {L i : ℝ} (hL : 0 < L) (hi : i ≠ 0) (z : Azis) (w : Azis)
    (hw : w.get ref false = 0) :
    (getVerticalSection ref 0 [⟨0, z, 0, 0⟩, ⟨i, w, L, 0⟩]).2 = [0, L] ∧
    (getVerticalSection ref π [⟨0, z, 0, 0⟩, ⟨i, w, L, 0⟩]).2 = [0, 0] := by
  constructor
  · rw [section_eq]
    simp [pairwise, legSection, seen, hi, hw, cumsumR, sqrt_sq hL.le]
  · rw [section_eq]
    have : cos (π - π / 2) = 0 := by rw [show π - π / 2 = π / 2 by ring, cos_pi_div_two]
    simp [pairwise, legSection, seen, hi, hw, cumsumR, this]

/-- Not vacuous. -/
example : ∃ w : Azis, w.get .grid false = 0 := ⟨⟨0, 0, 0, 0, 0, 0⟩, rfl⟩

example : ∀ r ∈ [(⟨0.1, ⟨0, 0, 0, 0, 0, 0⟩, 0, 0⟩ : Row), ⟨0.2, ⟨0, 0, 0, 0, 0, 0⟩, 3, 4⟩], r.inc ≠ 0 := by
  intro r hr
  simp only [List.mem_cons, List.not_mem_nil, or_false] at hr
  rcases hr with rfl | rfl <;> norm_num

end Welleng.Props
