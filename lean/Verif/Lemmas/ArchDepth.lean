import Verif.Lemmas.Architecture
import Mathlib.Algebra.Order.Field.Basic

set_option linter.unusedSectionVars false

namespace Welleng.Arch

open Spec

variable {α V : Type} [Field α] [LinearOrder α] [IsStrictOrderedRing α]

/-- The sections produced by stacking pieces from depth `b` upwards (bottom-up order). -/
def stackSecs (top b : α) : List (α × List (String × V)) → List (Sec α V)
  | [] => []
  | (l, p) :: r => ⟨some (max top (b - l)), some b, some l, p⟩ :: stackSecs top (max top (b - l)) r

theorem sortBy_snoc {β : Type} (l : List (α × β)) (x : α × β)
    (hs : l.Pairwise (fun a b => a.1 ≤ b.1)) (hx : ∀ e ∈ l, x.1 < e.1) :
    sortBy (l ++ [x]) = x :: l := by
  induction l with
  | nil => rfl
  | cons e t ih =>
    rw [List.pairwise_cons] at hs
    rw [List.cons_append, sortBy, ih hs.2 (fun a ha => hx a (List.mem_cons_of_mem _ ha))]
    have h1 : ¬ e.1 ≤ x.1 := not_le.mpr (hx e (by simp))
    rw [insertBy, if_neg h1]
    congr 1
    cases t with
    | nil => rfl
    | cons f t => rw [insertBy, if_pos (hs.1 f (by simp))]

theorem decorate_append {key : Sec α V → Option α} {d : List (ℕ × Sec α V)}
    {l : List (α × (ℕ × Sec α V))} {e : ℕ × Sec α V} {k : α}
    (h : decorate key d = .ok l) (he : key e.2 = some k) :
    decorate key (d ++ [e]) = .ok (l ++ [(k, e)]) := by
  induction d generalizing l with
  | nil => simp [decorate] at h; subst h; simp [decorate, he, need]
  | cons f t ih =>
    unfold decorate at h
    split at h
    · rename_i k' r hk hr
      injection h with h
      subst h
      rw [List.cons_append, decorate, hk, ih hr]
      rfl
    · cases h
    · cases h

theorem decorate_of_spans {d : List (ℕ × Sec α V)} {spans : List (α × α)}
    (h : HasSpans (d.map Prod.snd) spans) :
    ∃ l, decorate Sec.bottom d = .ok l ∧ l.map Prod.fst = spans.map Prod.snd ∧
      l.map Prod.snd = d := by
  induction d generalizing spans with
  | nil =>
    cases spans with
    | nil => exact ⟨[], rfl, rfl, rfl⟩
    | cons _ _ => simp [HasSpans] at h
  | cons e t ih =>
    cases spans with
    | nil => simp [HasSpans] at h
    | cons p sp =>
      simp only [HasSpans, List.map_cons, List.cons.injEq, Prod.mk.injEq] at h
      obtain ⟨l, h1, h2, h3⟩ := ih (spans := sp) h.2
      refine ⟨(p.2, e) :: l, ?_, by simp [h2], by simp [h3]⟩
      rw [decorate, h.1.2, h1]
      rfl

theorem checkBottomUp_of_spans {top bottom : α} {l : List (Sec α V)} {spans : List (α × α)}
    (h1 : HasSpans l spans) (h2 : GapFree spans) (h3 : ∀ p ∈ spans, top ≤ p.1)
    (h4 : ∀ p, spans.getLast? = some p → p.2 = bottom) :
    checkBottomUp top bottom l = .ok () := by
  induction l generalizing spans with
  | nil => rfl
  | cons v r ih =>
    cases spans with
    | nil => simp [HasSpans] at h1
    | cons p sp =>
      simp only [HasSpans, List.map_cons, List.cons.injEq, Prod.mk.injEq] at h1
      obtain ⟨⟨hvt, hvb⟩, hr⟩ := h1
      cases r with
      | nil =>
        cases sp with
        | cons _ _ => simp at hr
        | nil =>
          have e := h4 p rfl
          have e2 := h3 p (by simp)
          simp [checkBottomUp, hvt, hvb, need, check, bind, Except.bind, e, e2]
      | cons w r =>
        cases sp with
        | nil => simp at hr
        | cons q sp =>
          have hr' := hr
          simp only [List.map_cons, List.cons.injEq, Prod.mk.injEq] at hr'
          simp only [GapFree, List.isChain_cons_cons] at h2
          have e2 := h3 p (by simp)
          have := ih (spans := q :: sp) hr h2.2 (fun x hx => h3 x (List.mem_cons_of_mem _ hx))
            (fun x hx => h4 x (by rwa [List.getLast?_cons_cons]))
          simp only [checkBottomUp, hvt, hvb, hr'.1.1, need, bind, Except.bind, check, h2.1,
            decide_true, if_true, e2, this]

/-- A string being built from the bottom up: its sections are `L`, and the next section will end
at `cur`. -/
structure Building (s : Str α V) (L : List (Sec α V)) (cur : α) : Prop where
  idx : Indexed s
  kind : s.kind = .string
  meth : s.method = .bottomUp
  secs : s.sections.map Prod.snd = L
  spans : ∃ spans, HasSpans L spans ∧ GapFree spans ∧ (∀ p ∈ spans, s.top ≤ p.1 ∧ p.1 < p.2) ∧
    ((spans.head?.map Prod.fst).getD s.bottom = cur) ∧
    (∀ p, spans.getLast? = some p → p.2 = s.bottom)

theorem chain_lt {spans : List (α × α)} {c : α} (h : GapFree spans) (hp : ∀ p ∈ spans, p.1 < p.2)
    (hc : ∀ p, spans.head? = some p → p.1 = c) :
    (∀ p ∈ spans, c < p.2) ∧ (spans.map Prod.snd).Pairwise (· ≤ ·) := by
  induction spans generalizing c with
  | nil => simp
  | cons p sp ih =>
    have hpc : p.1 = c := hc p rfl
    have hpp := hp p (by simp)
    have hch : GapFree sp := by
      unfold GapFree at *
      exact h.tail
    have hnext : ∀ q, sp.head? = some q → q.1 = p.2 := by
      intro q hq
      cases sp with
      | nil => simp at hq
      | cons r sp =>
        simp only [GapFree, List.isChain_cons_cons] at h
        simp at hq
        rw [← hq, h.1]
    have := ih hch (fun q hq => hp q (List.mem_cons_of_mem _ hq)) hnext
    refine ⟨?_, ?_⟩
    · intro q hq
      rcases List.mem_cons.mp hq with rfl | hq
      · rwa [← hpc]
      · rw [← hpc]; exact hpp.trans (this.1 q hq)
    · rw [List.map_cons, List.pairwise_cons]
      refine ⟨?_, this.2⟩
      intro x hx
      obtain ⟨q, hq, rfl⟩ := List.mem_map.mp hx
      exact (this.1 q hq).le

theorem max_ite {a b : α} : (if b < a then a else b) = max a b := by
  split
  · rename_i h; rw [max_eq_left h.le]
  · rename_i h; rw [max_eq_right (not_lt.mp h)]

/-- One bottom-up `add_section` whose top is computed as `nt`. -/
theorem add_step (d0 : V) {s : Str α V} {L : List (Sec α V)} {cur nt : α} {l : Option α}
    (hB : Building s L cur) (p : List (String × V))
    (htop : localTop s ⟨none, none, l, p⟩ cur = .ok (some nt)) (hnt : s.top ≤ nt)
    (hntlt : nt < cur) :
    ∃ s', addSection d0 s ⟨none, none, l, p⟩ = (s', .ok ()) ∧
      Building s' (⟨some nt, some cur, l, p⟩ :: L) nt ∧
      s'.top = s.top ∧ s'.bottom = s.bottom ∧
      s'.complete = (if nt = s.top then true else s.complete) := by
  obtain ⟨hidx, hkind, hmeth, hsecs, spans, hs1, hs2, hs3, hs4, hs5⟩ := hB
  have hhead : ∀ q, spans.head? = some q → q.1 = cur := by
    intro q hq; rw [hq] at hs4; simpa using hs4
  obtain ⟨c1, c2⟩ := chain_lt hs2 (fun q hq => (hs3 q hq).2) hhead
  -- start depth
  have hstart : (if s.sections = [] then (.ok s.bottom : Except Err α)
      else do need (← dictGet s.sections 0).top) = .ok cur := by
    by_cases he : s.sections = []
    · rw [if_pos he]
      rw [he] at hsecs
      rw [← hsecs] at hs1
      cases spans with
      | cons _ _ => simp [HasSpans] at hs1
      | nil => simp at hs4; rw [hs4]
    · rw [if_neg he]
      cases hL : L with
      | nil => rw [hL] at hsecs; simp at hsecs; exact absurd hsecs he
      | cons v r =>
        rw [hL] at hsecs hs1
        have : dictGet s.sections 0 = .ok v := by
          rw [dictGet_indexed hidx, hsecs]; rfl
        rw [this]
        cases spans with
        | nil => simp [HasSpans] at hs1
        | cons q sp =>
          simp only [HasSpans, List.map_cons, List.cons.injEq, Prod.mk.injEq] at hs1
          simp [bind, Except.bind, hs1.1.1, need]
          exact hhead q rfl
  set new : Sec α V := ⟨some nt, some cur, l, p⟩ with hnew
  -- sorting puts the new section first
  obtain ⟨dl, hd1, hd2, hd3⟩ := decorate_of_spans (d := s.sections) (by rw [hsecs]; exact hs1)
  have hsort : sortSections Sec.bottom (s.sections ++ [(s.sections.length, new)])
      = .ok ((s.sections.length, new) :: s.sections) := by
    unfold sortSections
    rw [decorate_append hd1 (k := cur) (by simp [hnew])]
    simp only
    rw [sortBy_snoc]
    · simp [hd3]
    · rw [← List.pairwise_map (f := Prod.fst) (R := (· ≤ ·)), hd2]; exact c2
    · intro e he
      have : e.1 ∈ dl.map Prod.fst := List.mem_map_of_mem he
      rw [hd2] at this
      obtain ⟨q, hq, hqe⟩ := List.mem_map.mp this
      rw [← hqe]; exact c1 q hq
  have hspans' : HasSpans (new :: L) ((nt, cur) :: spans) := hs1.cons rfl rfl
  have hgap : GapFree ((nt, cur) :: spans) := by
    cases spans with
    | nil => simp [GapFree]
    | cons q sp =>
      simp only [GapFree, List.isChain_cons_cons]
      exact ⟨(hhead q rfl).symm, hs2⟩
  have hin : ∀ q ∈ (nt, cur) :: spans, s.top ≤ q.1 ∧ q.1 < q.2 := by
    intro q hq
    rcases List.mem_cons.mp hq with rfl | hq
    · exact ⟨hnt, hntlt⟩
    · exact hs3 q hq
  have hlast : ∀ q, ((nt, cur) :: spans).getLast? = some q → q.2 = s.bottom := by
    intro q hq
    cases spans with
    | nil => simp at hq hs4; rw [← hq]; simp [hs4]
    | cons r sp => rw [List.getLast?_cons_cons] at hq; exact hs5 q hq
  have hchk : checkBottomUp s.top s.bottom (new :: L) = .ok () :=
    checkBottomUp_of_spans hspans' hgap (fun q hq => (hin q hq).1) hlast
  refine ⟨{ s with
      sections := reindex 0 ((s.sections.length, new) :: s.sections)
      complete := if nt = s.top then true else s.complete }, ?_, ⟨?_, hkind, hmeth, ?_, ?_⟩, rfl, rfl,
    rfl⟩
  · unfold addSection
    simp only [hkind, hmeth]
    unfold addBottomUp
    simp only [hstart, htop]
    simp only [Option.getD_none]
    rw [lookup_none_of_indexed hidx, hsort]
    simp only
    rw [reindex_map_snd, List.map_cons, hsecs, hchk]
    simp [reindex, need, hnew, hkind, hmeth]
  · unfold Indexed
    simp only
    rw [reindex_map_fst, reindex_length, List.range_eq_range']
  · simp only [reindex_map_snd, List.map_cons, hsecs]
  · exact ⟨_, hspans', hgap, hin, by simp, hlast⟩

/-- One `add_section(length=l, …)` below the string's top. -/
theorem add_len_step (d0 : V) {s : Str α V} {L : List (Sec α V)} {cur l : α}
    (hB : Building s L cur) (hcur : s.top < cur) (hl : 0 < l) (p : List (String × V)) :
    ∃ s', addSection d0 s ⟨none, none, some l, p⟩ = (s', .ok ()) ∧
      Building s' (⟨some (max s.top (cur - l)), some cur, some l, p⟩ :: L) (max s.top (cur - l)) ∧
      s'.top = s.top ∧ s'.bottom = s.bottom ∧
      s'.complete = (if max s.top (cur - l) = s.top then true else s.complete) := by
  refine add_step d0 hB p ?_ (le_max_left _ _) (by rw [max_lt_iff]; exact ⟨hcur, by linarith⟩)
  unfold localTop
  simp only [ne_eq, hl.ne', not_false_eq_true, if_true]
  rw [max_ite]

/-- Keyword arguments of `add_section(length=l, **p)`. -/
def lenKw (x : α × List (String × V)) : Kw α V := ⟨none, none, some x.1, x.2⟩

theorem sum_nonneg' {l : List α} (h : ∀ x ∈ l, 0 < x) : 0 ≤ l.sum := by
  induction l with
  | nil => simp
  | cons a t ih =>
    rw [List.sum_cons]
    exact add_nonneg (h a (by simp)).le (ih fun x hx => h x (List.mem_cons_of_mem _ hx))

theorem sum_dropLast_nonneg {l : List α} (h : ∀ x ∈ l, 0 < x) : 0 ≤ l.dropLast.sum :=
  sum_nonneg' (fun x hx => h x (List.dropLast_subset l hx))

/-- Depth reached after stacking pieces upwards from `cur`. -/
def curAfter (top cur : α) : List (α × List (String × V)) → α
  | [] => cur
  | x :: r => curAfter top (max top (cur - x.1)) r

theorem build_run (d0 : V) (pieces : List (α × List (String × V))) :
    ∀ {s : Str α V} {L : List (Sec α V)} {cur : α}, Building s L cur →
      (∀ x ∈ pieces, 0 < x.1) → (pieces ≠ [] → (pieces.map Prod.fst).dropLast.sum < cur - s.top) →
      ∃ s', addAll d0 s (pieces.map lenKw) = (s', .ok ()) ∧
        Building s' ((stackSecs s.top cur pieces).reverse ++ L) (curAfter s.top cur pieces) ∧
        s'.top = s.top ∧ s'.bottom = s.bottom ∧
        (s'.complete = true ↔ s.complete = true ∨
          (pieces ≠ [] ∧ cur - s.top ≤ (pieces.map Prod.fst).sum)) := by
  induction pieces with
  | nil =>
    intro s L cur hB _ _
    exact ⟨s, rfl, hB, rfl, rfl, by simp⟩
  | cons x r ih =>
    intro s L cur hB hpos hsum
    have hx := hpos x (by simp)
    have hsum' := hsum (by simp)
    have hrpos : ∀ y ∈ r.map Prod.fst, 0 < y := by
      intro y hy
      obtain ⟨z, hz, rfl⟩ := List.mem_map.mp hy
      exact hpos z (List.mem_cons_of_mem _ hz)
    have hcur : s.top < cur := by
      have := sum_dropLast_nonneg (l := (x :: r).map Prod.fst) (by
        intro y hy
        rcases List.mem_cons.mp hy with rfl | hy
        · exact hx
        · exact hrpos y hy)
      linarith
    obtain ⟨s1, e1, hB1, t1, b1, c1⟩ := add_len_step d0 hB hcur hx x.2
    have hstep : ∀ _ : r ≠ [], x.1 + (r.map Prod.fst).dropLast.sum < cur - s.top := by
      intro hr
      have : ((x :: r).map Prod.fst).dropLast = x.1 :: (r.map Prod.fst).dropLast := by
        rw [List.map_cons, List.dropLast_cons_of_ne_nil (by simpa using hr)]
      rw [this, List.sum_cons] at hsum'
      exact hsum'
    have hmax : ∀ _ : r ≠ [], max s.top (cur - x.1) = cur - x.1 := by
      intro hr
      have := hstep hr
      have h2 := sum_dropLast_nonneg hrpos
      apply max_eq_right
      linarith
    obtain ⟨s', e2, hB2, t2, b2, c2⟩ := ih hB1 (fun y hy => hpos y (List.mem_cons_of_mem _ hy)) (by
      intro hr
      rw [t1, hmax hr]
      have := hstep hr
      linarith)
    refine ⟨s', ?_, ?_, by rw [t2, t1], by rw [b2, b1], ?_⟩
    · rw [List.map_cons, addAll]
      have : addSection d0 s (lenKw x) = (s1, .ok ()) := e1
      rw [this]
      exact e2
    · rw [t1] at hB2
      simp only [stackSecs, curAfter, List.reverse_cons, List.append_assoc, List.singleton_append]
      exact hB2
    · rw [c2, c1, t1]
      by_cases hr : r = []
      · subst hr
        simp only [ne_eq, not_true_eq_false, false_and, or_false, List.map_cons, List.map_nil,
          List.sum_cons, List.sum_nil, add_zero, reduceCtorEq, not_false_eq_true, true_and]
        by_cases hc : cur - s.top ≤ x.1
        · rw [if_pos (max_eq_left (by linarith))]; simp [hc]
        · rw [if_neg]
          · simp [hc]
          · rw [max_eq_right (by linarith)]; intro h; apply hc; linarith
      · rw [hmax hr]
        have h1 := hstep hr
        have h2 := sum_dropLast_nonneg hrpos
        rw [if_neg (by intro h; linarith)]
        simp only [ne_eq, hr, not_false_eq_true, true_and, List.map_cons, List.sum_cons,
          reduceCtorEq]
        constructor
        · rintro (h | h)
          · exact Or.inl h
          · exact Or.inr (by linarith)
        · rintro (h | h)
          · exact Or.inl h
          · exact Or.inr (by linarith)

/-- Drops the derived `buoyancy_factor` entry of a piece, as `depth` does. -/
def dropBf (x : α × List (String × V)) : α × List (String × V) :=
  (x.1, x.2.filter (fun p => p.1 != "buoyancy_factor"))

theorem depth_run (d0 : V) (pieces : List (α × List (String × V))) :
    ∀ {s : Str α V} {L : List (Sec α V)} {cur b0 : α} {es : List (ℕ × Sec α V)}, Building s L cur →
      es.map Prod.snd = stackSecs s.top b0 pieces →
      (∀ x ∈ pieces, 0 < x.1) → s.top < cur → cur - s.top ≤ (pieces.map Prod.fst).sum →
      ∃ s' k, depthLoop d0 s.top es s = .ok s' ∧ 1 ≤ k ∧ k ≤ pieces.length ∧
        ((pieces.take (k - 1)).map Prod.fst).sum < cur - s.top ∧
        cur - s.top ≤ ((pieces.take k).map Prod.fst).sum ∧
        Building s' ((stackSecs s.top cur ((pieces.take k).map dropBf)).reverse ++ L) s.top ∧
        s'.top = s.top ∧ s'.bottom = s.bottom ∧ s'.complete = true := by
  induction pieces with
  | nil =>
    intro s L cur b0 es hB _ _ hcur hsum
    simp at hsum
    linarith
  | cons x r ih =>
    intro s L cur b0 es hB hes hpos hcur hsum
    have hx := hpos x (by simp)
    cases es with
    | nil => simp [stackSecs] at hes
    | cons e es =>
      simp only [List.map_cons, stackSecs, List.cons.injEq] at hes
      obtain ⟨he, hes⟩ := hes
      obtain ⟨s1, e1, hB1, t1, b1, c1⟩ := add_len_step d0 hB hcur hx (dropBf x).2
      have hget : ∃ f, dictGet s1.sections 0 = .ok f ∧ f.top = some (max s.top (cur - x.1)) := by
        refine ⟨⟨some (max s.top (cur - x.1)), some cur, some x.1, (dropBf x).2⟩,
          (dictGet_indexed hB1.idx).mpr ?_, rfl⟩
        rw [hB1.secs]; rfl
      obtain ⟨f, hf, hft⟩ := hget
      have hunf : depthLoop d0 s.top (e :: es) s =
          if max s.top (cur - x.1) = s.top then .ok s1 else depthLoop d0 s.top es s1 := by
        rw [depthLoop]
        simp only [he, need, bind, Except.bind]
        have : addSection d0 s ⟨none, none, some x.1,
            x.2.filter (fun p => p.1 != "buoyancy_factor")⟩ = (s1, .ok ()) := e1
        rw [this]
        simp only [hf, hft]
      rw [hunf]
      by_cases hc : cur - s.top ≤ x.1
      · have hm : max s.top (cur - x.1) = s.top := max_eq_left (by linarith)
        rw [if_pos hm]
        refine ⟨s1, 1, rfl, le_rfl, by simp, by simpa using hcur, by simpa using hc, ?_, t1, b1, ?_⟩
        · rw [hm] at hB1
          simp only [List.take_succ_cons, List.take_zero, List.map_cons, List.map_nil, stackSecs,
            List.reverse_cons, List.reverse_nil, List.nil_append, List.singleton_append]
          show Building s1 (⟨some (max s.top (cur - x.1)), _, _, _⟩ :: L) s.top
          rw [hm]
          exact hB1
        · rw [c1, if_pos hm]
      · have hm : max s.top (cur - x.1) = cur - x.1 := max_eq_right (by linarith)
        rw [if_neg (by rw [hm]; intro h; apply hc; linarith)]
        rw [hm] at hB1
        rw [List.map_cons, List.sum_cons] at hsum
        obtain ⟨s', k, h1, h2, h3, h4, h5, h6, h7, h8, h9⟩ := ih (s := s1) hB1
          (b0 := max s.top (b0 - x.1)) (es := es) (by rw [t1]; exact hes)
          (fun y hy => hpos y (List.mem_cons_of_mem _ hy)) (by rw [t1]; linarith)
          (by rw [t1]; linarith)
        rw [t1] at h1 h4 h5 h6
        refine ⟨s', k + 1, h1, by omega, by simpa using h3, ?_, ?_, ?_, by rw [h7, t1],
          by rw [h8, b1], h9⟩
        · obtain ⟨k, rfl⟩ : ∃ j, k = j + 1 := ⟨k - 1, by omega⟩
          simp only [Nat.add_sub_cancel, List.take_succ_cons, List.map_cons, List.sum_cons] at h4 ⊢
          linarith
        · rw [List.take_succ_cons, List.map_cons, List.sum_cons]; linarith
        · rw [List.take_succ_cons, List.map_cons]
          show Building s' ((stackSecs s.top cur ((x.1, (dropBf x).2) :: _)).reverse ++ L) s.top
          rw [stackSecs, hm, List.reverse_cons, List.append_assoc, List.singleton_append]
          exact h6

theorem building_init (top bottom : α) :
    Building (Str.init .string top bottom .bottomUp : Str α V) [] bottom :=
  ⟨rfl, rfl, rfl, rfl, [], rfl, by simp [GapFree], by simp, rfl, by simp⟩

end Welleng.Arch
