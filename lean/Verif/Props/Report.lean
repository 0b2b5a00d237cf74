import Verif.Model.Report
import Mathlib.Data.List.Nodup
import Mathlib.Data.String.Basic
import Mathlib.Tactic.SplitIfs

/-! C288, C289: the printed reports of the two validation programs. -/

namespace Welleng.Props

open Welleng Report Ingest

/-! ### C288 -/

theorem pyMax_spec {α R : Type} [LinearOrder α] (key : R → α) : ∀ (l : List R),
    (pyMax key l = none ↔ l = []) ∧ ∀ r, pyMax key l = some r →
      r ∈ l ∧ ∀ x ∈ l, key x ≤ key r
  | [] => by simp [pyMax]
  | a :: t => by
    have key' : ∀ (t : List R) (b : R),
        let r := t.foldl (fun b x => if key b < key x then x else b) b
        (r = b ∨ r ∈ t) ∧ key b ≤ key r ∧ ∀ x ∈ t, key x ≤ key r := by
      intro t
      induction t with
      | nil => intro b; simp
      | cons y t ih =>
        intro b
        obtain ⟨h1, h2, h3⟩ := ih (if key b < key y then y else b)
        simp only [List.foldl_cons, List.mem_cons, forall_eq_or_imp]
        split_ifs at h1 h2 h3 with h
        · simp only [h, if_true]
          exact ⟨.inr (by tauto), h.le.trans h2, h2, h3⟩
        · simp only [h, if_false]
          exact ⟨by tauto, h2, (not_lt.1 h).trans h2, h3⟩
    refine ⟨by simp [pyMax], fun r hr => ?_⟩
    simp only [pyMax, Option.some.injEq] at hr
    obtain ⟨h1, h2, h3⟩ := key' t a
    rw [hr] at h1 h2 h3
    refine ⟨?_, ?_⟩
    · rcases h1 with h | h <;> simp [h]
    · simp only [List.mem_cons, forall_eq_or_imp]
      exact ⟨h2, h3⟩

theorem groupAdd_mem (d : List (String × List Bool)) (c : String × Bool) :
    (∀ k, k ∈ (groupAdd d c).map (·.1) ↔ k = c.1 ∨ k ∈ d.map (·.1)) ∧
    ((d.map (·.1)).Nodup → ((groupAdd d c).map (·.1)).Nodup) := by
  induction d with
  | nil => simp [groupAdd]
  | cons kv t ih =>
    obtain ⟨k, l⟩ := kv
    simp only [groupAdd]
    split_ifs with h
    · subst h
      simp
    · constructor
      · intro x
        have := ih.1 x
        simp only [List.map_cons, List.mem_cons, this]
        tauto
      · intro hd
        simp only [List.map_cons, List.nodup_cons] at hd ⊢
        refine ⟨?_, ih.2 hd.2⟩
        rw [ih.1]
        rintro (h' | h')
        · exact h h'
        · exact hd.1 h'

theorem groupAdd_entry (d : List (String × List Bool)) (c : String × Bool)
    (hd : (d.map (·.1)).Nodup) (k : String) (b : Bool) :
    (∃ l, (k, l) ∈ groupAdd d c ∧ b ∈ l) ↔ (∃ l, (k, l) ∈ d ∧ b ∈ l) ∨ (k, b) = c := by
  induction d with
  | nil =>
    obtain ⟨c1, c2⟩ := c
    simp [groupAdd]
  | cons kv t ih =>
    obtain ⟨k', l'⟩ := kv
    obtain ⟨c1, c2⟩ := c
    have ih := ih (List.nodup_cons.1 hd).2
    simp only [groupAdd]
    split_ifs with h
    · subst h
      simp only [List.mem_cons, Prod.mk.injEq]
      constructor
      · rintro ⟨l, ⟨rfl, rfl⟩ | hl, hb⟩
        · rcases List.mem_append.1 hb with hb | hb
          · exact .inl ⟨l', .inl ⟨rfl, rfl⟩, hb⟩
          · exact .inr ⟨rfl, by simpa using hb⟩
        · exact .inl ⟨l, .inr hl, hb⟩
      · rintro (⟨l, ⟨rfl, rfl⟩ | hl, hb⟩ | ⟨rfl, rfl⟩)
        · exact ⟨_, .inl ⟨rfl, rfl⟩, List.mem_append_left _ hb⟩
        · exact ⟨l, .inr hl, hb⟩
        · exact ⟨_, .inl ⟨rfl, rfl⟩, by simp⟩
    · simp only [List.mem_cons, or_and_right, exists_or, ih, or_assoc]

theorem group_fold (rows : List (String × Bool)) : ∀ (d : List (String × List Bool)),
    (d.map (·.1)).Nodup →
    ((rows.foldl groupAdd d).map (·.1)).Nodup ∧
    (∀ k, k ∈ (rows.foldl groupAdd d).map (·.1) ↔ k ∈ d.map (·.1) ∨ k ∈ rows.map (·.1)) ∧
    ∀ k b, (∃ l, (k, l) ∈ rows.foldl groupAdd d ∧ b ∈ l) ↔
      (∃ l, (k, l) ∈ d ∧ b ∈ l) ∨ (k, b) ∈ rows := by
  induction rows with
  | nil => intro d hd; simpa using hd
  | cons c t ih =>
    intro d hd
    obtain ⟨h1, h2, h3⟩ := ih (groupAdd d c) ((groupAdd_mem d c).2 hd)
    refine ⟨h1, ?_, ?_⟩
    · intro k
      rw [List.foldl_cons, h2, (groupAdd_mem d c).1]
      simp only [List.map_cons, List.mem_cons]
      tauto
    · intro k b
      rw [List.foldl_cons, h3, groupAdd_entry d c hd, List.mem_cons, or_assoc]

theorem passFail_spec (rows : List (String × Bool)) :
    ((passFail rows).map (·.1)).Nodup ∧
    (∀ k, k ∈ (passFail rows).map (·.1) ↔ k ∈ rows.map (·.1)) ∧
    ∀ k v, (k, v) ∈ passFail rows → (v = true ↔ ∀ b, (k, b) ∈ rows → b = true) := by
  obtain ⟨h1, h2, h3⟩ := group_fold rows [] (by simp)
  have hm : (passFail rows).map (·.1) = (rows.foldl groupAdd []).map (·.1) := by
    simp [passFail]
  refine ⟨by rw [hm]; exact h1, fun k => by rw [hm, h2]; simp, ?_⟩
  intro k v hv
  simp only [passFail, List.mem_map, Prod.mk.injEq, Prod.exists] at hv
  obtain ⟨k', l, hl, rfl, rfl⟩ := hv
  rw [List.all_eq_true]
  constructor
  · intro h b hb
    obtain ⟨l', hl', hb'⟩ := (h3 k' b).2 (.inr hb)
    have : l' = l := by
      have := List.inj_on_of_nodup_map h1 hl' hl rfl
      simpa using this
    subst this
    simpa using h b hb'
  · intro h b hb
    have := (h3 k' b).1 ⟨l, hl, hb⟩
    simp only [List.not_mem_nil, false_and, exists_false, false_or] at this
    simpa using h b this

/-- C288. The summary of a validation has one line for each source compared, in alphabetical
order. The source is marked as passed exactly when all its rows pass, and the depth and errors
shown are those of one of its rows, one with the largest absolute error. -/
theorem C288_sources {α : Type} [LinearOrder α] (rows : List (SRow α)) :
    let lines := sourceLines rows
    (lines.map (·.code)).Pairwise (· < ·) ∧
    (∀ c, c ∈ lines.map (·.code) ↔ ∃ r ∈ rows, r.code = c) ∧
    ∀ ln ∈ lines, (ln.pass = true ↔ ∀ r ∈ rows, r.code = ln.code → r.ok = true) ∧
      ∃ w ∈ rows, w.code = ln.code ∧ (ln.md, ln.absErr, ln.relErr) = (w.md, w.absErr, w.relErr) ∧
        ∀ r ∈ rows, r.code = ln.code → r.absErr ≤ w.absErr := by
  intro lines
  obtain ⟨h1, h2, h3⟩ := passFail_spec (rows.map fun r => (r.code, r.ok))
  set pf := passFail (rows.map fun r => (r.code, r.ok)) with hpf
  set srt := pf.mergeSort fun a b => decide (a.1 ≤ b.1) with hsrt
  have hp : srt.Perm pf := List.mergeSort_perm _ _
  have hle : srt.Pairwise fun a b => decide (a.1 ≤ b.1) = true :=
    List.pairwise_mergeSort (le := fun a b : String × Bool => decide (a.1 ≤ b.1))
      (fun a b c h1 h2 => by simpa using le_trans (by simpa using h1) (by simpa using h2))
      (fun a b => by simpa using le_total a.1 b.1) _
  have hnd : (srt.map (·.1)).Nodup := (hp.map _).nodup_iff.2 h1
  have hlt : (srt.map (·.1)).Pairwise (· < ·) := by
    rw [List.pairwise_map]
    rw [List.Nodup, List.pairwise_map] at hnd
    exact (hle.and hnd).imp fun {a b} h => lt_of_le_of_ne (by simpa using h.1) h.2
  have hworst : ∀ kv ∈ srt, ∃ w,
      pyMax SRow.absErr (rows.filter fun r => decide (r.code = kv.1)) = some w := by
    intro kv hkv
    have : kv.1 ∈ (rows.map fun r => (r.code, r.ok)).map (·.1) :=
      (h2 _).1 (List.mem_map_of_mem (hp.mem_iff.1 hkv))
    simp only [List.map_map, List.mem_map, Function.comp_apply] at this
    obtain ⟨r, hr, hrc⟩ := this
    rcases hc : pyMax SRow.absErr (rows.filter fun r => decide (r.code = kv.1)) with _ | w
    · have := (pyMax_spec _ _).1.1 hc
      rw [List.filter_eq_nil_iff] at this
      exact absurd (by simpa using hrc) (this r hr)
    · exact ⟨w, rfl⟩
  have hcodes : lines.map (·.code) = srt.map (·.1) := by
    have : ∀ l : List (String × Bool), (∀ kv ∈ l, ∃ w,
        pyMax SRow.absErr (rows.filter fun r => decide (r.code = kv.1)) = some w) →
        (l.filterMap fun kv =>
          (pyMax SRow.absErr (rows.filter fun r => decide (r.code = kv.1))).map fun w =>
            (⟨kv.2, kv.1, w.md, w.absErr, w.relErr⟩ : SLine α)).map (·.code) = l.map (·.1) := by
      intro l
      induction l with
      | nil => simp
      | cons kv t ih =>
        intro h
        obtain ⟨w, hw⟩ := h kv (by simp)
        simp only [List.filterMap_cons, hw, Option.map_some, List.map_cons]
        rw [ih fun kv h' => h kv (by simp [h'])]
    exact this srt hworst
  refine ⟨by rw [hcodes]; exact hlt, fun c => ?_, ?_⟩
  · rw [hcodes, (hp.map _).mem_iff, h2]
    simp
  · intro ln hln
    simp only [lines, sourceLines, List.mem_filterMap, Option.map_eq_some_iff] at hln
    obtain ⟨kv, hkv, w, hw, rfl⟩ := hln
    have hv := h3 kv.1 kv.2 (hp.mem_iff.1 hkv)
    obtain ⟨hw1, hw2⟩ := (pyMax_spec _ _).2 w hw
    simp only [List.mem_filter, decide_eq_true_eq] at hw1 hw2
    refine ⟨?_, w, hw1.1, hw1.2, rfl, fun r hr hc => hw2 r ⟨hr, hc⟩⟩
    rw [hv]
    constructor
    · intro h r hr hc
      exact h r.ok (List.mem_map.2 ⟨r, hr, by simp only at hc; rw [hc]⟩)
    · intro h b hb
      obtain ⟨r, hr, he⟩ := List.mem_map.1 hb
      simp only [Prod.mk.injEq] at he
      rw [← he.2]
      exact h r hr he.1

/-- C288, the line of the totals: how many stations pass, of how many, and one with the largest
error. -/
theorem C288_totals {α : Type} [LinearOrder α] (rows : List (TRow α)) :
    (totalsLine rows = none ↔ rows = []) ∧
    ∀ passing n w, totalsLine rows = some (passing, n, w) →
      passing = rows.countP (·.ok) ∧ n = rows.length ∧
      (passing = n ↔ ∀ t ∈ rows, t.ok = true) ∧ w ∈ rows ∧ ∀ t ∈ rows, t.absErr ≤ w.absErr := by
  refine ⟨by rw [totalsLine, Option.map_eq_none_iff]; exact (pyMax_spec _ _).1, ?_⟩
  intro passing n w h
  simp only [totalsLine, Option.map_eq_some_iff, Prod.mk.injEq] at h
  obtain ⟨w', hw, rfl, rfl, rfl⟩ := h
  obtain ⟨h1, h2⟩ := (pyMax_spec _ _).2 _ hw
  refine ⟨List.countP_eq_length_filter.symm, rfl, ?_, h1, h2⟩
  rw [← List.countP_eq_length_filter, List.countP_eq_length]

/-- Two sources, one of which fails at one depth. -/
def exampleRows : List (SRow ℚ) :=
  [⟨"MSZ", 100, 1, 2, true⟩, ⟨"ABZ", 100, 3, 1, true⟩, ⟨"MSZ", 200, 5, 4, false⟩]

example : sourceLines exampleRows = [⟨true, "ABZ", 100, 3, 1⟩, ⟨false, "MSZ", 200, 5, 4⟩] := by
  simp [sourceLines, exampleRows, passFail, groupAdd, List.mergeSort,
    List.MergeSort.Internal.splitInTwo, pyMax]

/-! ### C289 -/

theorem bump_cell (d : List (Conf.Verdict × ℕ)) (k : Conf.Verdict) (n : ℕ) (v : Conf.Verdict) :
    cell (bump d k n) v = cell d v + if v = k then n else 0 := by
  unfold cell
  induction d with
  | nil =>
    simp only [bump, List.lookup]
    by_cases h : v = k
    · simp [h]
    · simp [beq_eq_false_iff_ne.2 h, h]
  | cons kv t ih =>
    obtain ⟨k', m⟩ := kv
    simp only [bump]
    by_cases h : k' = k
    · subst h
      by_cases h' : v = k'
      · simp [h', List.lookup]
      · simp [beq_eq_false_iff_ne.2 h', h', List.lookup]
    · rw [if_neg h]
      by_cases h' : v = k'
      · subst h'
        simp [List.lookup, h]
      · simp only [List.lookup, beq_eq_false_iff_ne.2 h']
        exact ih

theorem bump_total (d : List (Conf.Verdict × ℕ)) (k : Conf.Verdict) (n : ℕ) :
    total (bump d k n) = total d + n := by
  unfold total
  induction d with
  | nil => simp [bump]
  | cons kv t ih =>
    obtain ⟨k', m⟩ := kv
    simp only [bump]
    split_ifs with h
    · simp; omega
    · simp only [List.map_cons, List.sum_cons, ih]; omega

theorem bump_keys (d : List (Conf.Verdict × ℕ)) (k : Conf.Verdict) (n : ℕ) :
    (∀ x, x ∈ (bump d k n).map (·.1) ↔ x = k ∨ x ∈ d.map (·.1)) ∧
    ((d.map (·.1)).Nodup → ((bump d k n).map (·.1)).Nodup) := by
  induction d with
  | nil => simp [bump]
  | cons kv t ih =>
    obtain ⟨k', m⟩ := kv
    simp only [bump]
    split_ifs with h
    · subst h; simp
    · refine ⟨fun x => ?_, fun hd => ?_⟩
      · have := ih.1 x
        simp only [List.map_cons, List.mem_cons, this]
        tauto
      · simp only [List.map_cons, List.nodup_cons] at hd ⊢
        refine ⟨?_, ih.2 hd.2⟩
        rw [ih.1]
        rintro (h' | h')
        · exact h h'
        · exact hd.1 h'

theorem counts_fold (l : List Conf.Verdict) : ∀ (d : List (Conf.Verdict × ℕ)),
    (d.map (·.1)).Nodup →
    ((l.foldl (fun d v => bump d v 1) d).map (·.1)).Nodup ∧
    (∀ v, cell (l.foldl (fun d v => bump d v 1) d) v = cell d v + l.count v) ∧
    total (l.foldl (fun d v => bump d v 1) d) = total d + l.length := by
  induction l with
  | nil => intro d hd; simpa using hd
  | cons a t ih =>
    intro d hd
    obtain ⟨h1, h2, h3⟩ := ih (bump d a 1) ((bump_keys d a 1).2 hd)
    refine ⟨h1, fun v => ?_, ?_⟩
    · rw [List.foldl_cons, h2, bump_cell, List.count_cons]
      by_cases h : v = a
      · subst h; simp; omega
      · simp [h, Ne.symm h]
    · rw [List.foldl_cons, h3, bump_total, List.length_cons]; omega

theorem merge_fold (c : List (Conf.Verdict × ℕ)) : ∀ (d : List (Conf.Verdict × ℕ)),
    (c.map (·.1)).Nodup →
    (∀ v, cell (c.foldl (fun d kv => bump d kv.1 kv.2) d) v = cell d v + cell c v) ∧
    total (c.foldl (fun d kv => bump d kv.1 kv.2) d) = total d + total c := by
  induction c with
  | nil => intro d _; simp [cell, total]
  | cons kv t ih =>
    intro d hc
    obtain ⟨k, n⟩ := kv
    simp only [List.map_cons, List.nodup_cons] at hc
    obtain ⟨h2, h3⟩ := ih (bump d k n) hc.2
    refine ⟨fun v => ?_, ?_⟩
    · rw [List.foldl_cons, h2, bump_cell, add_assoc]
      congr 1
      unfold cell
      by_cases h : v = k
      · subst h
        have : t.lookup v = none := by
          rw [List.lookup_eq_none_iff]
          intro p hp
          rw [bne_iff_ne]
          rintro rfl
          exact hc.1 (List.mem_map_of_mem hp)
        simp [List.lookup, this]
      · simp [List.lookup, beq_eq_false_iff_ne.2 h, h]
    · rw [List.foldl_cons, h3, bump_total]
      simp only [total, List.map_cons, List.sum_cons]
      omega

/-- C289. In the coverage matrix each cell of a model is the number of its terms with that verdict
and its total the number of its terms; in the last row each cell is the sum of the column and the
total the number of terms of all models. -/
theorem C289_matrix (models : List (List Conf.Verdict)) :
    (∀ l ∈ models, (∀ v, cell (counts l) v = l.count v) ∧ total (counts l) = l.length) ∧
    (∀ v, cell (aggregate models) v = (models.map fun l => cell (counts l) v).sum) ∧
    total (aggregate models) = (models.map List.length).sum := by
  have hc : ∀ l : List Conf.Verdict, ((counts l).map (·.1)).Nodup ∧
      (∀ v, cell (counts l) v = l.count v) ∧ total (counts l) = l.length := by
    intro l
    obtain ⟨h1, h2, h3⟩ := counts_fold l [] (by simp)
    exact ⟨h1, fun v => by rw [counts, h2]; simp [cell], by rw [counts, h3]; simp [total]⟩
  have hagg : ∀ (ms : List (List Conf.Verdict)) (d : List (Conf.Verdict × ℕ)),
      (∀ v, cell (ms.foldl (fun d l => (counts l).foldl (fun d kv => bump d kv.1 kv.2) d) d) v
        = cell d v + (ms.map fun l => cell (counts l) v).sum) ∧
      total (ms.foldl (fun d l => (counts l).foldl (fun d kv => bump d kv.1 kv.2) d) d)
        = total d + (ms.map List.length).sum := by
    intro ms
    induction ms with
    | nil => intro d; simp
    | cons l t ih =>
      intro d
      obtain ⟨h1, h2⟩ := ih ((counts l).foldl (fun d kv => bump d kv.1 kv.2) d)
      obtain ⟨g1, g2⟩ := merge_fold (counts l) d (hc l).1
      refine ⟨fun v => ?_, ?_⟩
      · rw [List.foldl_cons, h1, g1, List.map_cons, List.sum_cons, add_assoc]
      · rw [List.foldl_cons, h2, g2, (hc l).2.2, List.map_cons, List.sum_cons, add_assoc]
  obtain ⟨h1, h2⟩ := hagg models []
  refine ⟨fun l _ => (hc l).2, fun v => ?_, ?_⟩
  · rw [aggregate, h1]; simp [cell]
  · rw [aggregate, h2]; simp [total]

example : aggregate [[.matches_, .noLegacy, .matches_], [.noLegacy]]
    = [(.matches_, 2), (.noLegacy, 2)] := by decide

end Welleng.Props
