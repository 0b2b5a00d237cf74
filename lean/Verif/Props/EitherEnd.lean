import Verif.Props.Architecture

/-!
C350: a string built from the top and the same string built from the bottom.
-/

namespace Welleng.Props

open Welleng.Spec Arch

variable {α V : Type} [Field α] [LinearOrder α] [IsStrictOrderedRing α]

/-- Sections of given lengths and properties below each other, from depth `top` downwards. -/
def piled (top : α) : List (α × List (String × V)) → List (Sec α V)
  | [] => []
  | (l, p) :: r => ⟨some top, some (top + l), some l, p⟩ :: piled (top + l) r

/-- The calls `add_section(bottom=…, length=…, …)` that add these sections from the top. -/
def downKws (top : α) : List (α × List (String × V)) → List (Kw α V)
  | [] => []
  | (l, p) :: r => ⟨none, some (top + l), some l, p⟩ :: downKws (top + l) r

/-- The total length. -/
def total (pieces : List (α × List (String × V))) : α := (pieces.map Prod.fst).sum

theorem total_nonneg {pieces : List (α × List (String × V))} (h : ∀ x ∈ pieces, 0 < x.1) : 0 ≤ total pieces :=
  sum_nonneg' fun y hy => by
    obtain ⟨z, hz, rfl⟩ := List.mem_map.mp hy
    exact h z hz

theorem piled_snoc (top : α) (pre : List (α × List (String × V))) (x : α × List (String × V)) :
    piled top (pre ++ [x]) = piled top pre ++
      [⟨some (top + total pre), some (top + total pre + x.1), some x.1, x.2⟩] := by
  induction pre generalizing top with
  | nil => simp [piled, total]
  | cons y r ih =>
    simp only [List.cons_append, piled, ih, total, List.map_cons, List.sum_cons, add_assoc]

theorem piled_length (top : α) (pieces : List (α × List (String × V))) :
    (piled top pieces).length = pieces.length := by
  induction pieces generalizing top with
  | nil => rfl
  | cons y r ih => simp [piled, ih]

theorem checkFrom_piled {bottom c : α} {prev : Sec α V} (hp : prev.bottom = some c)
    (pieces : List (α × List (String × V))) (hpos : ∀ x ∈ pieces, 0 < x.1)
    (h : c + total pieces ≤ bottom) : checkTopDownFrom bottom prev (piled c pieces) = .ok () := by
  induction pieces generalizing c prev with
  | nil => rfl
  | cons y r ih =>
    have hr : 0 ≤ total r := total_nonneg fun x hx => hpos x (List.mem_cons_of_mem _ hx)
    have e : total (y :: r) = y.1 + total r := rfl
    rw [e] at h
    have h1 : c + y.1 ≤ bottom := by linarith
    simp only [piled, checkTopDownFrom, need, hp, bind, Except.bind, check, decide_true, if_true, h1]
    exact ih rfl (fun x hx => hpos x (List.mem_cons_of_mem _ hx)) (by linarith)

theorem check_piled {top bottom : α} (pieces : List (α × List (String × V)))
    (hpos : ∀ x ∈ pieces, 0 < x.1) (h : top + total pieces ≤ bottom) :
    checkTopDown top bottom (piled top pieces) = .ok () := by
  cases pieces with
  | nil => rfl
  | cons y r =>
    have hr : 0 ≤ total r := total_nonneg fun x hx => hpos x (List.mem_cons_of_mem _ hx)
    have e : total (y :: r) = y.1 + total r := rfl
    rw [e] at h
    have h1 : top + y.1 ≤ bottom := by linarith
    simp only [piled, checkTopDown, need, bind, Except.bind, check, decide_true, if_true, h1]
    exact checkFrom_piled rfl r (fun x hx => hpos x (List.mem_cons_of_mem _ hx)) (by linarith)

theorem sort_ordered {β : Type} (l : List (α × β)) (h : l.Pairwise fun a b => a.1 ≤ b.1) : sortBy l = l := by
  induction l with
  | nil => rfl
  | cons e t ih =>
    rw [List.pairwise_cons] at h
    rw [sortBy, ih h.2]
    cases t with
    | nil => rfl
    | cons f t => rw [insertBy, if_pos (h.1 f (by simp))]

theorem decorate_piled (pieces : List (α × List (String × V))) (hpos : ∀ x ∈ pieces, 0 < x.1) (c : α)
    (d : List (ℕ × Sec α V)) (hd : d.map Prod.snd = piled c pieces) :
    ∃ l, decorate Sec.top d = .ok l ∧ l.map Prod.snd = d ∧ (l.Pairwise fun a b => a.1 ≤ b.1) ∧
      ∀ e ∈ l, c ≤ e.1 := by
  induction pieces generalizing c d with
  | nil =>
    have : d = [] := by simpa [piled] using hd
    subst this
    exact ⟨[], rfl, rfl, List.Pairwise.nil, by simp⟩
  | cons y r ih =>
    cases d with
    | nil => simp [piled] at hd
    | cons e t =>
      simp only [List.map_cons, piled, List.cons.injEq] at hd
      obtain ⟨l, h1, h2, h3, h4⟩ := ih (fun x hx => hpos x (List.mem_cons_of_mem _ hx)) _ t hd.2
      have hy := hpos y (by simp)
      refine ⟨(c, e) :: l, ?_, by simp [h2], ?_, ?_⟩
      · rw [decorate, hd.1, h1]; rfl
      · refine List.pairwise_cons.mpr ⟨fun a ha => ?_, h3⟩
        have := h4 a ha
        linarith
      · intro a ha
        rcases List.mem_cons.mp ha with rfl | ha
        · exact le_rfl
        · have := h4 a ha; linarith

/-- A string built from the top as far as `pre`. -/
structure Descending (s : Str α V) (pre : List (α × List (String × V))) : Prop where
  idx : Indexed s
  kind : s.kind = .string
  meth : s.method = .topDown
  secs : s.sections.map Prod.snd = piled s.top pre

theorem add_below (d0 : V) {s : Str α V} {pre : List (α × List (String × V))} (hD : Descending s pre)
    (x : α × List (String × V)) (hpos : ∀ y ∈ pre ++ [x], 0 < y.1) (h : s.top + total (pre ++ [x]) ≤ s.bottom) :
    ∃ s', addSection d0 s ⟨none, some (s.top + total pre + x.1), some x.1, x.2⟩ = (s', .ok ()) ∧
      Descending s' (pre ++ [x]) ∧ s'.top = s.top ∧ s'.bottom = s.bottom ∧
      s'.complete = (if s.top + total pre + x.1 = s.bottom then true else s.complete) := by
  obtain ⟨hidx, hkind, hmeth, hsecs⟩ := hD
  have hlen : s.sections.length = pre.length := by
    have := congrArg List.length hsecs
    rwa [List.length_map, piled_length] at this
  have hstart : (if s.sections = [] then (.ok s.top : Except Arch.Err α)
      else do need (← dictGet s.sections (s.sections.length - 1)).bottom) = .ok (s.top + total pre) := by
    rcases List.eq_nil_or_concat pre with rfl | ⟨pre', y, rfl⟩
    · have : s.sections = [] := by simpa using hlen
      rw [if_pos this]; simp [total]
    · have hne : s.sections ≠ [] := by
        intro h0
        rw [h0] at hlen
        simp at hlen
      rw [if_neg hne]
      have : dictGet s.sections (s.sections.length - 1)
          = .ok ⟨some (s.top + total pre'), some (s.top + total pre' + y.1), some y.1, y.2⟩ := by
        rw [dictGet_indexed hidx, hsecs, List.concat_eq_append, piled_snoc, hlen]
        rw [List.getElem?_append_right (by simp [piled_length])]
        simp [piled_length]
      rw [this]
      simp [bind, Except.bind, need, total, add_assoc]
  set new : Sec α V := ⟨some (s.top + total pre), some (s.top + total pre + x.1), some x.1, x.2⟩ with hnew
  have hall : (s.sections ++ [(s.sections.length, new)]).map Prod.snd = piled s.top (pre ++ [x]) := by
    rw [List.map_append, hsecs, piled_snoc]; rfl
  obtain ⟨l, h1, h2, h3, -⟩ := decorate_piled (pre ++ [x]) hpos s.top _ hall
  have hsort : sortSections Sec.top (s.sections ++ [(s.sections.length, new)])
      = .ok (s.sections ++ [(s.sections.length, new)]) := by
    unfold sortSections
    rw [h1]
    simp only
    rw [sort_ordered l h3, h2]
  have hchk : checkTopDown s.top s.bottom (piled s.top (pre ++ [x])) = .ok () := check_piled _ hpos h
  have hlast : (reindex 0 (s.sections ++ [(s.sections.length, new)])).getLast?
      = some (s.sections.length, new) := by
    have h1 : ∀ (d : List (ℕ × Sec α V)) (i k : ℕ), (reindex i (d ++ [(k, new)])).getLast?
        = some (i + d.length, new) := by
      intro d
      induction d with
      | nil => intro i k; simp [reindex]
      | cons e t ih =>
        intro i k
        rw [List.cons_append, reindex]
        have := ih (i + 1) k
        cases hq : reindex (i + 1) (t ++ [(k, new)]) with
        | nil => rw [hq] at this; simp at this
        | cons a b =>
          rw [List.getLast?_cons_cons, ← hq, this]
          simp; omega
    rw [h1]; simp
  refine ⟨{ s with
      sections := reindex 0 (s.sections ++ [(s.sections.length, new)])
      complete := if s.top + total pre + x.1 = s.bottom then true else s.complete }, ?_,
    ⟨?_, hkind, hmeth, ?_⟩, rfl, rfl, rfl⟩
  · unfold addSection
    simp only [hkind, hmeth]
    unfold addTopDown
    simp only [hstart]
    simp only [Option.getD_none]
    rw [lookup_none_of_indexed hidx, ← hnew, hsort]
    simp only
    rw [reindex_map_snd, hall, hchk]
    simp only [hlast]
    simp only [need, hnew, hkind, hmeth]
  · unfold Indexed
    simp only
    rw [reindex_map_fst, reindex_length, List.range_eq_range']
  · simp only [reindex_map_snd, hall]

theorem build_down (d0 : V) (rest : List (α × List (String × V))) :
    ∀ {s : Str α V} {pre : List (α × List (String × V))}, Descending s pre →
      (∀ y ∈ pre ++ rest, 0 < y.1) → s.top + total (pre ++ rest) ≤ s.bottom →
      ∃ s', addAll d0 s (downKws (s.top + total pre) rest) = (s', .ok ()) ∧ Descending s' (pre ++ rest) ∧
        s'.top = s.top ∧ s'.bottom = s.bottom ∧
        (s'.complete = true ↔ s.complete = true ∨ (rest ≠ [] ∧ s.top + total (pre ++ rest) = s.bottom)) := by
  induction rest with
  | nil => intro s pre hD _ _; exact ⟨s, rfl, by simpa using hD, rfl, rfl, by simp⟩
  | cons x r ih =>
    intro s pre hD hpos hsum
    have hassoc : pre ++ x :: r = (pre ++ [x]) ++ r := by simp
    have hr : 0 ≤ total r := total_nonneg fun y hy => hpos y (by simp [hy])
    have htot : total (pre ++ x :: r) = total (pre ++ [x]) + total r := by
      simp only [total, List.map_append, List.map_cons, List.map_nil, List.sum_append, List.sum_cons,
        List.sum_nil]
      ring
    have hsnoc : total (pre ++ [x]) = total pre + x.1 := by simp [total]
    obtain ⟨s1, e1, hD1, t1, b1, c1⟩ := add_below d0 hD x
      (fun y hy => hpos y (by
        rcases List.mem_append.mp hy with h | h
        · simp [h]
        · simp at h; simp [h]))
      (by linarith)
    obtain ⟨s2, e2, hD2, t2, b2, c2⟩ := ih hD1 (by rw [← hassoc]; exact hpos) (by
      rw [← hassoc, t1, b1]; exact hsum)
    refine ⟨s2, ?_, by rw [hassoc]; exact hD2, by rw [t2, t1], by rw [b2, b1], ?_⟩
    · simp only [downKws, addAll, e1]
      rw [t1, hsnoc, ← add_assoc] at e2
      exact e2
    · rw [c2, c1, t1, b1, ← hassoc]
      cases r with
      | nil =>
        simp only [ne_eq, not_true_eq_false, false_and, or_false, reduceCtorEq, not_false_eq_true, true_and]
        rw [hsnoc, ← add_assoc]
        split_ifs with h <;> simp [h]
      | cons z r' =>
        have hz := hpos z (by simp)
        have hr' : 0 ≤ total r' := total_nonneg fun y hy => hpos y (by simp [hy])
        have hzr : total (z :: r') = z.1 + total r' := rfl
        rw [if_neg (by intro h; linarith)]
        simp

theorem stacked_piled (top : α) (pieces : List (α × List (String × V))) (hpos : ∀ x ∈ pieces, 0 < x.1) :
    (stackSecs top (top + total pieces) pieces.reverse).reverse = piled top pieces := by
  induction pieces using List.reverseRecOn with
  | nil => rfl
  | append_singleton pre x ih =>
    have hp : ∀ y ∈ pre, 0 < y.1 := fun y hy => hpos y (by simp [hy])
    have h0 := total_nonneg hp
    have hsnoc : total (pre ++ [x]) = total pre + x.1 := by simp [total]
    rw [piled_snoc, ← ih hp, List.reverse_append]
    simp only [List.reverse_cons, List.reverse_nil, List.nil_append, List.singleton_append, stackSecs]
    rw [hsnoc, show top + (total pre + x.1) - x.1 = top + total pre by ring, max_eq_right (by linarith),
      add_assoc]

theorem indexed_ext {s t : Str α V} (hs : Indexed s) (ht : Indexed t)
    (h : s.sections.map Prod.snd = t.sections.map Prod.snd) : s.sections = t.sections := by
  have hl : s.sections.length = t.sections.length := by simpa using congrArg List.length h
  have hf : s.sections.map Prod.fst = t.sections.map Prod.fst := by
    unfold Indexed at hs ht; rw [hs, ht, hl]
  have e : ∀ d : List (ℕ × Sec α V), (d.map Prod.fst).zip (d.map Prod.snd) = d := fun d => by
    induction d with
    | nil => rfl
    | cons a t ih => simp [ih]
  rw [← e s.sections, ← e t.sections, hf, h]

/-- **C350** Sections that fill a string can be added from the top, each with its bottom and its length, or
from the bottom, each with its length: both succeed, both strings are complete and have the same sections,
and both are the same when run to a shallower depth. -/
theorem C350_either_end (d0 : V) {top bottom : α} {pieces : List (α × List (String × V))}
    (hne : pieces ≠ []) (hpos : ∀ x ∈ pieces, 0 < x.1) (hsum : total pieces = bottom - top) :
    ∃ down up, addAll d0 (Str.init .string top bottom .topDown) (downKws top pieces) = (down, .ok ()) ∧
      addAll d0 (Str.init .string top bottom .bottomUp) (pieces.reverse.map lenKw) = (up, .ok ()) ∧
      down.complete = true ∧ up.complete = true ∧ down.sections = up.sections ∧
      down.sections.map Prod.snd = piled top pieces ∧ ∀ md, depth d0 down md = depth d0 up md := by
  have htot : total ([] : List (α × List (String × V))) = 0 := rfl
  obtain ⟨down, e1, hD, t1, b1, c1⟩ := build_down d0 pieces (s := Str.init .string top bottom .topDown)
    (pre := []) ⟨rfl, rfl, rfl, rfl⟩ (by simpa using hpos) (by
      simp only [Str.init, List.nil_append]; linarith)
  rw [htot, add_zero] at e1
  have hrev : ∀ x ∈ pieces.reverse, 0 < x.1 := fun x hx => hpos x (by simpa using hx)
  have hrsum : (pieces.reverse.map Prod.fst).sum = bottom - top := by
    rw [List.map_reverse, List.sum_reverse]; exact hsum
  have hdrop : (pieces.reverse.map Prod.fst).dropLast.sum < bottom - top := by
    have hne' : pieces.reverse.map Prod.fst ≠ [] := by simpa using hne
    have h1 := congrArg List.sum (List.dropLast_append_getLast hne')
    rw [List.sum_append, hrsum] at h1
    have h2 : 0 < (pieces.reverse.map Prod.fst).getLast hne' := by
      obtain ⟨z, hz, e⟩ := List.mem_map.mp (List.getLast_mem hne')
      rw [← e]; exact hrev z hz
    simp only [List.sum_cons, List.sum_nil, add_zero] at h1
    linarith
  obtain ⟨up, e2, hB, t2, b2, c2⟩ := build_run d0 pieces.reverse (building_init top bottom) hrev fun _ => hdrop
  have ht : (Str.init .string top bottom .bottomUp : Str α V).top = top := rfl
  rw [ht, List.append_nil] at hB
  have hsec : down.sections = up.sections := by
    refine indexed_ext hD.idx hB.idx ?_
    rw [hD.secs, hB.secs, t1, List.nil_append, show bottom = top + total pieces by rw [hsum]; ring,
      stacked_piled top pieces hpos]
    rfl
  refine ⟨down, up, e1, e2, ?_, ?_, hsec, by rw [hD.secs, t1]; rfl, fun md => ?_⟩
  · rw [c1]
    right
    refine ⟨hne, ?_⟩
    simp only [List.nil_append, Str.init]
    linarith
  · rw [c2]
    right
    refine ⟨by simpa using hne, ?_⟩
    rw [hrsum]
    exact le_refl _
  · unfold depth
    rw [hsec, t1, t2, b1, b2]
    rfl

/-- Non-vacuity: 60 m of one pipe above 40 m of another. -/
example : ∃ down up : Str ℚ ℕ,
    addAll 0 (Str.init .string 0 100 .topDown) (downKws 0 [(60, [("od", 1)]), (40, [("od", 2)])]) = (down, .ok ()) ∧
    addAll 0 (Str.init .string 0 100 .bottomUp) (([(60, [("od", 1)]), (40, [("od", 2)])] : List _).reverse.map lenKw)
      = (up, .ok ()) ∧ down.sections = up.sections := by
  obtain ⟨down, up, h1, h2, -, -, h3, -⟩ := C350_either_end (0 : ℕ) (top := (0 : ℚ)) (bottom := 100)
    (pieces := [(60, [("od", 1)]), (40, [("od", 2)])]) (by simp) (by simp) (by norm_num [total])
  exact ⟨down, up, h1, h2, h3⟩

end Welleng.Props
