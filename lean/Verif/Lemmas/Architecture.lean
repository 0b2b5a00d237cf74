import Verif.Model.Architecture
import Verif.Spec.Tiling
import Mathlib.Data.List.Chain
import Mathlib.Data.List.Perm.Basic
import Mathlib.Algebra.Order.Group.Basic
import Mathlib.Tactic.Linarith

set_option linter.unusedSectionVars false

namespace Welleng.Arch

open Spec

variable {α V : Type} [AddCommGroup α] [LinearOrder α]

theorem bind_ok {ε β γ : Type} {x : Except ε β} {f : β → Except ε γ} {c : γ} :
    (x >>= f) = .ok c ↔ ∃ b, x = .ok b ∧ f b = .ok c := by
  cases x with
  | error e => simp [bind, Except.bind]
  | ok b => simp [bind, Except.bind]

theorem need_ok {o : Option α} {a : α} : need o = .ok a ↔ o = some a := by
  cases o <;> simp [need]

theorem check_ok {b : Bool} {u : Unit} : check b = .ok u ↔ b = true := by
  cases b <;> simp [check]

/-- Spans of a list of sections that all have both depths. -/
def HasSpans (l : List (Sec α V)) (spans : List (α × α)) : Prop :=
  l.map (fun s => (s.top, s.bottom)) = spans.map (fun p => (some p.1, some p.2))

theorem HasSpans.cons {v : Sec α V} {t b : α} {l : List (Sec α V)} {sp : List (α × α)}
    (ht : v.top = some t) (hb : v.bottom = some b) (h : HasSpans l sp) :
    HasSpans (v :: l) ((t, b) :: sp) := by
  unfold HasSpans at *
  simp [ht, hb, h]

theorem checkTopDownFrom_ok {bottom : α} {prev : Sec α V} {l : List (Sec α V)} {t b : α}
    (ht : prev.top = some t) (hb : prev.bottom = some b)
    (h : checkTopDownFrom bottom prev l = .ok ()) :
    ∃ spans, HasSpans l spans ∧ GapFree ((t, b) :: spans) ∧ ∀ p ∈ spans, p.2 ≤ bottom := by
  induction l generalizing prev t b with
  | nil => exact ⟨[], rfl, by simp [GapFree], by simp⟩
  | cons v r ih =>
    simp only [checkTopDownFrom, bind_ok, need_ok, check_ok, decide_eq_true_eq] at h
    obtain ⟨vt, hvt, pb, hpb, _, rfl, vb, hvb, _, hle, hr⟩ := h
    rw [hb] at hpb
    injection hpb with hpb
    subst hpb
    obtain ⟨sp, h1, h2, h3⟩ := ih hvt hvb hr
    refine ⟨(b, vb) :: sp, h1.cons hvt hvb, ?_, ?_⟩
    · simpa [GapFree] using h2
    · rintro p hp
      rcases List.mem_cons.mp hp with rfl | hp
      · exact hle
      · exact h3 p hp

theorem checkTopDown_ok {top bottom : α} {l : List (Sec α V)}
    (h : checkTopDown top bottom l = .ok ()) :
    ∃ spans, HasSpans l spans ∧ GapFree spans ∧ (∀ p ∈ spans, p.2 ≤ bottom) ∧
      ∀ p, spans.head? = some p → p.1 = top := by
  cases l with
  | nil => exact ⟨[], rfl, by simp [GapFree], by simp, by simp⟩
  | cons v r =>
    simp only [checkTopDown, bind_ok, need_ok, check_ok, decide_eq_true_eq] at h
    obtain ⟨vt, hvt, _, rfl, vb, hvb, _, hle, hr⟩ := h
    obtain ⟨sp, h1, h2, h3⟩ := checkTopDownFrom_ok hvt hvb hr
    refine ⟨(vt, vb) :: sp, h1.cons hvt hvb, h2, ?_, ?_⟩
    · rintro p hp
      rcases List.mem_cons.mp hp with rfl | hp
      · exact hle
      · exact h3 p hp
    · rintro p hp
      simp at hp
      rw [← hp]

theorem checkBottomUp_ok {top bottom : α} {l : List (Sec α V)}
    (h : checkBottomUp top bottom l = .ok ()) :
    ∃ spans, HasSpans l spans ∧ GapFree spans ∧ (∀ p ∈ spans, top ≤ p.1) ∧
      ∀ p, spans.getLast? = some p → p.2 = bottom := by
  induction l with
  | nil => exact ⟨[], rfl, by simp [GapFree], by simp, by simp⟩
  | cons v r ih =>
    cases r with
    | nil =>
      simp only [checkBottomUp, bind_ok, need_ok, check_ok, decide_eq_true_eq] at h
      obtain ⟨vb, hvb, _, rfl, vt, hvt, hle⟩ := h
      refine ⟨[(vt, vb)], HasSpans.cons hvt hvb rfl, by simp [GapFree], by simpa using hle, ?_⟩
      rintro p hp; simp at hp; rw [← hp]
    | cons w r =>
      simp only [checkBottomUp, bind_ok, need_ok, check_ok, decide_eq_true_eq] at h
      obtain ⟨vb, hvb, wt, hwt, _, rfl, vt, hvt, _, hle, hr⟩ := h
      obtain ⟨sp, h1, h2, h3, h4⟩ := ih hr
      cases sp with
      | nil => simp [HasSpans] at h1
      | cons q sp =>
        have hq : q.1 = vb := by
          simp only [HasSpans, List.map_cons, List.cons.injEq, Prod.mk.injEq] at h1
          rw [hwt] at h1
          injection h1.1.1 with h; exact h.symm
        refine ⟨(vt, vb) :: q :: sp, h1.cons hvt hvb, ?_, ?_, ?_⟩
        · simp only [GapFree, List.isChain_cons_cons]
          exact ⟨hq.symm, h2⟩
        · rintro p hp
          rcases List.mem_cons.mp hp with rfl | hp
          · exact hle
          · exact h3 p hp
        · intro p hp
          rw [List.getLast?_cons_cons] at hp
          exact h4 p hp

/-! sorting and re-indexing keep the sections -/

theorem insertBy_perm {β : Type} (e : α × β) (l : List (α × β)) : (insertBy e l).Perm (e :: l) := by
  induction l with
  | nil => exact .refl _
  | cons f t ih =>
    unfold insertBy
    split
    · exact .refl _
    · exact (ih.cons f).trans (.swap ..)

theorem sortBy_perm {β : Type} (l : List (α × β)) : (sortBy l).Perm l := by
  induction l with
  | nil => exact .refl _
  | cons e t ih => exact (insertBy_perm e _).trans (ih.cons e)

theorem insertBy_sorted {β : Type} (e : α × β) {l : List (α × β)}
    (h : l.Pairwise (fun a b => a.1 ≤ b.1)) :
    (insertBy e l).Pairwise (fun a b => a.1 ≤ b.1) := by
  induction l with
  | nil => simp [insertBy]
  | cons f t ih =>
    unfold insertBy
    rw [List.pairwise_cons] at h
    split
    · rename_i hle
      rw [List.pairwise_cons, List.pairwise_cons]
      refine ⟨fun x hx => ?_, h⟩
      rcases List.mem_cons.mp hx with rfl | hx
      · exact hle
      · exact hle.trans (h.1 x hx)
    · rename_i hle
      rw [List.pairwise_cons]
      refine ⟨fun x hx => ?_, ih h.2⟩
      rcases List.mem_cons.mp ((insertBy_perm e t).mem_iff.mp hx) with rfl | hx
      · exact (not_le.mp hle).le
      · exact h.1 x hx

theorem sortBy_sorted {β : Type} (l : List (α × β)) :
    (sortBy l).Pairwise (fun a b => a.1 ≤ b.1) := by
  induction l with
  | nil => simp [sortBy]
  | cons e t ih => exact insertBy_sorted e ih

theorem decorate_ok {key : Sec α V → Option α} {d : List (ℕ × Sec α V)}
    {l : List (α × (ℕ × Sec α V))} (h : decorate key d = .ok l) :
    l.map Prod.snd = d ∧ ∀ e ∈ l, key e.2.2 = some e.1 := by
  induction d generalizing l with
  | nil => simp [decorate] at h; subst h; simp
  | cons e t ih =>
    unfold decorate at h
    split at h
    · rename_i k r hk hr
      injection h with h
      subst h
      have := ih hr
      refine ⟨by simp [this.1], ?_⟩
      intro x hx
      rcases List.mem_cons.mp hx with rfl | hx
      · exact need_ok.mp hk
      · exact this.2 x hx
    · cases h
    · cases h

theorem sortSections_ok {key : Sec α V → Option α} {d r : List (ℕ × Sec α V)}
    (h : sortSections key d = .ok r) :
    r.Perm d ∧ r.Pairwise (fun a b => ∀ x y, key a.2 = some x → key b.2 = some y → x ≤ y) := by
  unfold sortSections at h
  split at h
  · rename_i l hl
    injection h with h
    subst h
    obtain ⟨h1, h2⟩ := decorate_ok hl
    refine ⟨?_, ?_⟩
    · rw [← h1]
      exact (sortBy_perm l).map _
    · rw [List.pairwise_map]
      refine (sortBy_sorted l).imp_of_mem ?_
      intro a b ha hb hab x y hx hy
      rw [h2 a ((sortBy_perm l).mem_iff.mp ha)] at hx
      rw [h2 b ((sortBy_perm l).mem_iff.mp hb)] at hy
      injection hx with hx
      injection hy with hy
      rwa [← hx, ← hy]
  · cases h

theorem reindex_map_snd (i : ℕ) (d : List (ℕ × Sec α V)) :
    (reindex i d).map Prod.snd = d.map Prod.snd := by
  induction d generalizing i with
  | nil => rfl
  | cons e t ih => simp [reindex, ih]

theorem reindex_map_fst (i : ℕ) (d : List (ℕ × Sec α V)) :
    (reindex i d).map Prod.fst = List.range' i d.length := by
  induction d generalizing i with
  | nil => rfl
  | cons e t ih => simp [reindex, ih, List.range'_succ]

theorem reindex_length (i : ℕ) (d : List (ℕ × Sec α V)) : (reindex i d).length = d.length := by
  have := congrArg List.length (reindex_map_fst i d)
  simpa using this

/-- Keys of a string whose calls all succeeded so far. -/
def Indexed (s : Str α V) : Prop := s.sections.map Prod.fst = List.range s.sections.length

theorem lookup_none_of_indexed {s : Str α V} (h : Indexed s) (v : Sec α V) :
    dictSet s.sections s.sections.length v = s.sections ++ [(s.sections.length, v)] := by
  unfold dictSet
  rw [if_neg]
  simp only [List.any_eq_true, beq_iff_eq, not_exists, not_and]
  intro e he hk
  have : e.1 ∈ s.sections.map Prod.fst := List.mem_map_of_mem he
  rw [h, hk] at this
  simp at this

theorem lookup_reindexed (d : List (ℕ × Sec α V)) (i j : ℕ)
    (h : d.map Prod.fst = List.range' i d.length) (hj : j < d.length) :
    d.lookup (i + j) = (d.map Prod.snd)[j]? := by
  induction d generalizing i j with
  | nil => simp at hj
  | cons e t ih =>
    rw [List.map_cons, List.length_cons, List.range'_succ, List.cons.injEq] at h
    obtain ⟨k, v⟩ := e
    simp only at h
    cases j with
    | zero => simp [List.lookup, h.1]
    | succ j =>
      have hne : ¬ (i + (j + 1) = k) := by omega
      rw [List.lookup, show (i + (j + 1) == k) = false by simpa using hne]
      rw [List.map_cons, List.getElem?_cons_succ]
      rw [show i + (j + 1) = i + 1 + j by omega]
      exact ih (i + 1) j h.2 (by simpa using hj)

theorem dictGet_indexed {s : Str α V} (h : Indexed s) {j : ℕ} {v : Sec α V} :
    dictGet s.sections j = .ok v ↔ (s.sections.map Prod.snd)[j]? = some v := by
  have hr : s.sections.map Prod.fst = List.range' 0 s.sections.length := by
    rw [h, List.range_eq_range']
  unfold dictGet
  by_cases hj : j < s.sections.length
  · have := lookup_reindexed s.sections 0 j hr hj
    rw [zero_add] at this
    rw [this]
    cases hc : (s.sections.map Prod.snd)[j]? <;> simp
  · have hno : s.sections.lookup j = none := by
      rw [List.lookup_eq_none_iff]
      intro e he
      have : e.1 ∈ s.sections.map Prod.fst := List.mem_map_of_mem he
      rw [h] at this
      simp only [List.mem_range] at this
      simp
      omega
    rw [hno]
    have : (s.sections.map Prod.snd)[j]? = none := by
      rw [List.getElem?_eq_none_iff]; simpa using hj
    simp [this]

/-! one successful call -/

/-- What a successful `add_section_top_down` leaves. -/
theorem addTopDown_ok {s s' : Str α V} {kw : Kw α V} (hi : Indexed s)
    (h : addTopDown s kw = (s', .ok ())) :
    Indexed s' ∧ s'.kind = s.kind ∧ s'.top = s.top ∧ s'.bottom = s.bottom ∧
    s'.method = s.method ∧
    (∃ spans, HasSpans (s'.sections.map Prod.snd) spans ∧ GapFree spans ∧
      (∀ p ∈ spans, p.2 ≤ s.bottom) ∧ (∀ p, spans.head? = some p → p.1 = s.top) ∧
      spans ≠ [] ∧ spans.Pairwise (fun a b => a.1 ≤ b.1) ∧
      (∀ p, spans.getLast? = some p → p.2 = s.bottom → s'.complete = true) ∧
      (s'.complete = true → s.complete = true ∨ ∃ p ∈ spans, p.2 = s.bottom)) ∧
    ∃ sec : Sec α V, sec.other = kw.other ∧ sec.length = kw.length ∧ sec.bottom = kw.bottom ∧
      (∀ t, kw.top = some t → sec.top = some t) ∧
      (s'.sections.map Prod.snd).Perm (sec :: s.sections.map Prod.snd) := by
  unfold addTopDown at h
  simp only at h
  split at h
  · simp at h
  rename_i top htop
  rw [lookup_none_of_indexed hi] at h
  split at h
  · simp at h
  rename_i sorted hsort
  obtain ⟨hperm, hsrt⟩ := sortSections_ok hsort
  split at h
  · simp at h
  rename_i hchk
  split at h
  · simp at h
  rename_i k last hlast
  split at h
  · simp at h
  rename_i b hb
  rw [need_ok] at hb
  injection h with h _
  subst h
  obtain ⟨spans, h1, h2, h3, h4⟩ := checkTopDown_ok hchk
  have hlen : spans.length = (reindex 0 sorted).length := by
    have := congrArg List.length h1; simpa using this.symm
  refine ⟨?_, rfl, rfl, rfl, rfl, ⟨spans, h1, h2, h3, h4, ?_, ?_, ?_, ?_⟩, ?_⟩
  · unfold Indexed
    simp only
    rw [reindex_map_fst, reindex_length, List.range_eq_range']
  · intro hn
    rw [hn] at hlen
    have : reindex 0 sorted = [] := List.eq_nil_of_length_eq_zero hlen.symm
    rw [this] at hlast; simp at hlast
  · -- sorted tops
    have hk : (sorted.map Prod.snd).Pairwise
        (fun a b => ∀ x y, a.top = some x → b.top = some y → x ≤ y) :=
      List.pairwise_map.mpr hsrt
    rw [← reindex_map_snd 0 sorted] at hk
    have hk2 : (((reindex 0 sorted).map Prod.snd).map (fun s => (s.top, s.bottom))).Pairwise
        (fun a b => ∀ x y, a.1 = some x → b.1 = some y → x ≤ y) := List.pairwise_map.mpr hk
    rw [h1, List.pairwise_map] at hk2
    exact hk2.imp (fun {a b} h => h a.1 b.1 rfl rfl)
  · intro p hp hpb
    have : last.bottom = some p.2 := by
      have e1 : (((reindex 0 sorted).map Prod.snd).map (fun s => (s.top, s.bottom))).getLast?
          = some (last.top, last.bottom) := by
        simp [List.getLast?_map, hlast]
      rw [h1, List.getLast?_map, hp] at e1
      simp at e1
      exact e1.2.symm
    rw [hb] at this
    injection this with this
    rw [this, if_pos hpb]
  · intro hc
    simp only at hc
    by_cases hbb : b = s.bottom
    · right
      have hm : last ∈ (reindex 0 sorted).map Prod.snd :=
        List.mem_map.mpr ⟨(k, last), List.mem_of_getLast? hlast, rfl⟩
      have hm2 : (last.top, last.bottom) ∈
          ((reindex 0 sorted).map Prod.snd).map (fun s => (s.top, s.bottom)) :=
        List.mem_map_of_mem hm
      rw [h1] at hm2
      obtain ⟨p, hp, hpe⟩ := List.mem_map.mp hm2
      refine ⟨p, hp, ?_⟩
      simp only [Prod.mk.injEq] at hpe
      have := hpe.2
      rw [hb] at this
      injection this with this
      rw [this, hbb]
    · rw [if_neg hbb] at hc; exact Or.inl hc
  · refine ⟨⟨some (kw.top.getD top), kw.bottom, kw.length, kw.other⟩, rfl, rfl, rfl, ?_, ?_⟩
    · intro t ht; simp [ht]
    · simp only
      rw [reindex_map_snd]
      refine (hperm.map _).trans ?_
      rw [List.map_append]
      exact List.perm_append_singleton _ _

/-- What a successful `add_section_bottom_up` leaves. -/
theorem addBottomUp_ok {s s' : Str α V} {kw : Kw α V} (hi : Indexed s)
    (h : addBottomUp s kw = (s', .ok ())) :
    Indexed s' ∧ s'.kind = s.kind ∧ s'.top = s.top ∧ s'.bottom = s.bottom ∧
    s'.method = s.method ∧
    (∃ spans, HasSpans (s'.sections.map Prod.snd) spans ∧ GapFree spans ∧
      (∀ p ∈ spans, s.top ≤ p.1) ∧ (∀ p, spans.getLast? = some p → p.2 = s.bottom) ∧
      spans ≠ [] ∧ spans.Pairwise (fun a b => a.2 ≤ b.2) ∧
      (∀ p, spans.head? = some p → p.1 = s.top → s'.complete = true) ∧
      (s'.complete = true → s.complete = true ∨ ∃ p ∈ spans, p.1 = s.top)) ∧
    ∃ sec : Sec α V, sec.other = kw.other ∧ sec.length = kw.length ∧
      (∀ t, kw.top = some t → sec.top = some t) ∧
      (∀ t, kw.bottom = some t → sec.bottom = some t) ∧
      (s'.sections.map Prod.snd).Perm (sec :: s.sections.map Prod.snd) := by
  unfold addBottomUp at h
  simp only at h
  split at h
  · simp at h
  rename_i bottom hbot
  split at h
  · simp at h
  · simp at h
  rename_i top htop
  rw [lookup_none_of_indexed hi] at h
  split at h
  · simp at h
  rename_i sorted hsort
  obtain ⟨hperm, hsrt⟩ := sortSections_ok hsort
  split at h
  · simp at h
  rename_i hchk
  split at h
  · simp at h
  rename_i k first hfirst
  split at h
  · simp at h
  rename_i b hb
  rw [need_ok] at hb
  injection h with h _
  subst h
  obtain ⟨spans, h1, h2, h3, h4⟩ := checkBottomUp_ok hchk
  have hlen : spans.length = (reindex 0 sorted).length := by
    have := congrArg List.length h1; simpa using this.symm
  refine ⟨?_, rfl, rfl, rfl, rfl, ⟨spans, h1, h2, h3, h4, ?_, ?_, ?_, ?_⟩, ?_⟩
  · unfold Indexed
    simp only
    rw [reindex_map_fst, reindex_length, List.range_eq_range']
  · intro hn
    rw [hn] at hlen
    have : reindex 0 sorted = [] := List.eq_nil_of_length_eq_zero hlen.symm
    rw [this] at hfirst; simp at hfirst
  · have hk : (sorted.map Prod.snd).Pairwise
        (fun a b => ∀ x y, a.bottom = some x → b.bottom = some y → x ≤ y) :=
      List.pairwise_map.mpr hsrt
    rw [← reindex_map_snd 0 sorted] at hk
    have hk2 : (((reindex 0 sorted).map Prod.snd).map (fun s => (s.top, s.bottom))).Pairwise
        (fun a b => ∀ x y, a.2 = some x → b.2 = some y → x ≤ y) := List.pairwise_map.mpr hk
    rw [h1, List.pairwise_map] at hk2
    exact hk2.imp (fun {a b} h => h a.2 b.2 rfl rfl)
  · intro p hp hpb
    have : first.top = some p.1 := by
      have e1 : (((reindex 0 sorted).map Prod.snd).map (fun s => (s.top, s.bottom))).head?
          = some (first.top, first.bottom) := by
        simp [List.head?_map, hfirst]
      rw [h1, List.head?_map, hp] at e1
      simp at e1
      exact e1.1.symm
    rw [hb] at this
    injection this with this
    rw [this, if_pos hpb]
  · intro hc
    simp only at hc
    by_cases hbb : b = s.top
    · right
      have hm : first ∈ (reindex 0 sorted).map Prod.snd :=
        List.mem_map.mpr ⟨(k, first), List.mem_of_head? hfirst, rfl⟩
      have hm2 : (first.top, first.bottom) ∈
          ((reindex 0 sorted).map Prod.snd).map (fun s => (s.top, s.bottom)) :=
        List.mem_map_of_mem hm
      rw [h1] at hm2
      obtain ⟨p, hp, hpe⟩ := List.mem_map.mp hm2
      refine ⟨p, hp, ?_⟩
      simp only [Prod.mk.injEq] at hpe
      have := hpe.1
      rw [hb] at this
      injection this with this
      rw [this, hbb]
    · rw [if_neg hbb] at hc; exact Or.inl hc
  · refine ⟨⟨some (kw.top.getD top), some (kw.bottom.getD bottom), kw.length, kw.other⟩,
      rfl, rfl, ?_, ?_, ?_⟩
    · intro t ht; simp [ht]
    · intro t ht; simp [ht]
    · simp only
      rw [reindex_map_snd]
      refine (hperm.map _).trans ?_
      rw [List.map_append]
      exact List.perm_append_singleton _ _

end Welleng.Arch
