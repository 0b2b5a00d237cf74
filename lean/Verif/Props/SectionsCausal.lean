import Verif.Props.Tortuosity
import Verif.Model.Sections

/-! C396: control points of a well that is drilled on (`/repo/welleng/survey.py` 2192-2366). -/

namespace Welleng.Props

open Real Welleng Spec Ti Sec

theorem pairwise_prefix {α β : Type*} (f : α → α → β) (A B : List α) :
    ∃ C, pairwise f (A ++ B) = pairwise f A ++ C := by
  induction A with
  | nil => exact ⟨_, rfl⟩
  | cons a t ih =>
    cases t with
    | nil => exact ⟨_, rfl⟩
    | cons b t =>
      obtain ⟨C, hC⟩ := ih
      refine ⟨C, ?_⟩
      simp only [List.cons_append] at hC ⊢
      simp only [pairwise, hC, List.cons_append]

theorem pairwise_last {α β : Type*} (f : α → α → β) (a : α) (A : List α) (x : α) :
    ∃ y, pairwise f (a :: A ++ [x]) = pairwise f (a :: A) ++ [y] := by
  induction A generalizing a with
  | nil => exact ⟨_, rfl⟩
  | cons b t ih =>
    obtain ⟨y, hy⟩ := ih b
    refine ⟨y, ?_⟩
    simp only [List.cons_append] at hy ⊢
    simp only [pairwise, hy, List.cons_append]

theorem pairwise_agree {β : Type*} {f g : ℕ → ℕ → β} {n : ℕ} {A : List ℕ} (hs : A.Pairwise (· < ·))
    (hl : ∀ a ∈ A, a < n) (h : ∀ a b, a < b → b < n → f a b = g a b) :
    pairwise f A = pairwise g A := by
  induction A with
  | nil => rfl
  | cons a t ih =>
    cases t with
    | nil => rfl
    | cons b t =>
      rw [List.pairwise_cons] at hs
      simp only [pairwise]
      rw [h a b (hs.1 b (by simp)) (hl b (by simp)), ih hs.2 fun c hc => hl c (List.mem_cons_of_mem _ hc)]

theorem breaks_append (k : ℕ) (l l' : List Bool) :
    breaks k (l ++ l') = breaks k l ++ breaks (k + l.length) l' := by
  induction l generalizing k with
  | nil => simp [breaks]
  | cons c t ih =>
    simp only [List.cons_append, breaks, ih (k + 1), List.length_cons]
    rw [show k + 1 + t.length = k + (t.length + 1) by omega]
    split_ifs <;> simp

/-- The survey of the first `n` intervals agrees with the whole one: everything at the stations above
the last one, and everything but the toolface at the last one. -/
structure DrilledOn (sv sv' : ℕ → Row) (n : ℕ) : Prop where
  above : ∀ k, k < n → sv k = sv' k
  st : (sv n).st = (sv' n).st
  pos : (sv n).pos = (sv' n).pos
  dls : (sv n).dls = (sv' n).dls

theorem continuous_append (rtol atol : ℝ) (dlsCont : Bool) (around : ℝ → ℝ) {sv sv' : ℕ → Row}
    {n n' : ℕ} (hnn : n ≤ n') (h : DrilledOn sv sv' n) :
    ∃ t, continuous rtol atol dlsCont around sv' n' = continuous rtol atol dlsCont around sv n ++ t := by
  have e : List.range' 1 (n' - 1) = List.range' 1 (n - 1) ++ List.range' (1 + (n - 1)) (n' - 1 - (n - 1)) := by
    rw [List.range'_append_1]
    congr 1
    omega
  unfold Sec.continuous
  rw [e, List.map_append]
  refine ⟨_, congrArg (· ++ _) ?_⟩
  apply List.map_congr_left
  intro k hk
  rw [List.mem_range'_1] at hk
  have s0 := h.above (k - 1) (by omega)
  have s1 := h.above k (by omega)
  have s2 : (sv (k + 1)).st = (sv' (k + 1)).st ∧ (sv (k + 1)).dls = (sv' (k + 1)).dls := by
    by_cases hk1 : k + 1 = n
    · rw [hk1]; exact ⟨h.st, h.dls⟩
    · rw [h.above (k + 1) (by omega)]; exact ⟨rfl, rfl⟩
  rw [s0, s1, s2.1, s2.2]

/-- **C396** Drilling on leaves the control points alone, except for the one at the end of the well:
the listing of the shorter survey without its last point is the beginning of that of the longer
survey. -/
theorem C396_drilled_on (rtol atol : ℝ) (dlsCont : Bool) (around : ℝ → ℝ) (u : LenUnit)
    {sv sv' : ℕ → Row} {n n' : ℕ} (hn : 1 ≤ n) (hnn : n ≤ n') (h : DrilledOn sv sv' n) :
    ∃ l l' : List TurnPoint, getSections rtol atol dlsCont around u sv n = some l ∧
      getSections rtol atol dlsCont around u sv' n' = some l' ∧ l.dropLast <+: l' ∧ l.length ≤ l'.length := by
  obtain ⟨t, ht⟩ := continuous_append rtol atol dlsCont around hnn h
  set cont := Sec.continuous rtol atol dlsCont around sv n with hc
  have hlen : cont.length + 1 = n := by
    rw [hc]; unfold Sec.continuous
    rw [List.length_map, List.length_range']; omega
  refine ⟨_, _, by rw [getSections, if_neg (by omega)], by rw [getSections, if_neg (by omega)], ?_⟩
  rw [ht, ← hc]
  have hf : firstPoint sv = firstPoint sv' := by unfold firstPoint; rw [h.above 0 (by omega)]
  have hag : pairwise (point u sv) (Ti.starts cont) = pairwise (point u sv') (Ti.starts cont) := by
    refine pairwise_agree (starts_sorted cont) (fun a ha => starts_lt hlen ha) (fun a b hab hb => ?_)
    unfold point
    rw [h.above a (by omega), h.above b hb, h.above (a + 1) (by omega)]
  have hst : Ti.starts (cont ++ t) = Ti.starts cont ++ breaks (1 + cont.length) t := by
    unfold Ti.starts
    rw [breaks_append, List.cons_append]
  obtain ⟨y, hy⟩ := pairwise_last (point u sv) 0 (breaks 1 cont) n
  obtain ⟨C, hC⟩ := pairwise_prefix (point u sv') (Ti.starts cont) (breaks (1 + cont.length) t)
  have hne : ∃ z, pairwise (point u sv') (Ti.starts (cont ++ t) ++ [n']) =
      pairwise (point u sv') (Ti.starts cont) ++ C ++ [z] := by
    obtain ⟨z, hz⟩ := pairwise_last (point u sv') 0 (breaks 1 (cont ++ t)) n'
    refine ⟨z, ?_⟩
    rw [← hC, ← hst]
    exact hz
  obtain ⟨z, hz⟩ := hne
  unfold sectionsOf Sec.starts
  rw [hz]
  have hy' : pairwise (point u sv) (Ti.starts cont ++ [n]) =
      pairwise (point u sv') (Ti.starts cont) ++ [y] := by rw [← hag]; exact hy
  rw [hy', hf]
  constructor
  · rw [← List.cons_append, ← List.cons_append, List.dropLast_concat]
    exact ⟨C ++ [z], by simp⟩
  · simp

/-- Non-vacuity: a survey with three stations and its first two. -/
example : DrilledOn (fun k => ⟨⟨k, 0, 0⟩, ⟨0, 0, k⟩, 0, 0⟩)
    (fun k => if k < 1 then ⟨⟨k, 0, 0⟩, ⟨0, 0, k⟩, 0, 0⟩ else ⟨⟨k, 0, 0⟩, ⟨0, 0, k⟩, 0, π⟩) 1 :=
  ⟨fun k hk => by simp [hk], by simp, by simp, by simp⟩

end Welleng.Props
