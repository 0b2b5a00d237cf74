import Verif.Model.WbpParent
import Mathlib.Data.List.Infix

/-!
C378: reading a parent file.
-/

namespace Welleng.Props

open Wbp

theorem infix_blanks {w : Text} (hw : w ≠ []) (hl : w.getLast hw ≠ ' ') (s : Text) (n : ℕ) :
    w <:+: s ++ List.replicate n ' ' ↔ w <:+: s := by
  induction n with
  | zero => simp
  | succ n ih =>
    rw [List.replicate_succ', ← List.append_assoc, List.infix_concat_iff, ih, List.suffix_concat_iff]
    constructor
    · rintro ((h | ⟨t, rfl, -⟩) | h)
      · exact absurd h hw
      · simp at hl
      · exact h
    · exact .inr

theorem rstrip_blanks (s : Text) : ∃ n, s = rstrip s ++ List.replicate n ' ' := by
  refine ⟨(s.reverse.takeWhile (· = ' ')).length, ?_⟩
  have h : s.reverse.takeWhile (· = ' ') = List.replicate (s.reverse.takeWhile (· = ' ')).length ' ' := by
    refine List.eq_replicate_iff.2 ⟨rfl, fun b hb => ?_⟩
    have := List.all_eq_true.1 (List.all_takeWhile (p := fun c : Char => decide (c = ' ')) (l := s.reverse)) b hb
    simpa using this
  rw [← List.reverse_inj, List.reverse_append, List.reverse_replicate, rstrip, List.reverse_reverse, ← h,
    List.takeWhile_append_dropWhile]

theorem heading_rstrip (s : Text) :
    mentions "WELLPLANS".toList (rstrip s) = mentions "WELLPLANS".toList s := by
  obtain ⟨n, h⟩ := rstrip_blanks s
  have := infix_blanks (w := "WELLPLANS".toList) (by decide) (by decide) (rstrip s) n
  rw [← h] at this
  simp only [mentions, this]

theorem parentFrom_false (l : List Text) :
    parentFrom false l = l.filter fun x => !mentions "WELLPLANS".toList x := by
  induction l with
  | nil => rfl
  | cons x t ih =>
    rw [parentFrom, List.filter_cons]
    generalize mentions "WELLPLANS".toList x = m
    cases m
    · simpa using ih
    · simpa using ih

theorem parentFrom_true {a : List Text} (ha : ∀ x ∈ a, mentions "WELLPLANS".toList x = false) (l : List Text) :
    parentFrom true (a ++ l) = parentFrom true l := by
  induction a with
  | nil => rfl
  | cons x t ih =>
    simp only [List.cons_append, parentFrom, ha x (by simp), Bool.false_eq_true, if_false, if_true]
    exact ih fun y hy => ha y (by simp [hy])

theorem filter_rstrip (b : List Text) :
    (b.map rstrip).filter (fun x => !mentions "WELLPLANS".toList x)
      = (b.filter fun x => !mentions "WELLPLANS".toList x).map rstrip := by
  rw [List.filter_map]
  congr 1
  exact List.filter_congr fun x _ => by rw [Function.comp_apply, heading_rstrip]

/-- **C378** (what is refused): a parent file is refused exactly if its name does not end in `.wbp`, whatever
is in it. -/
theorem C378_refused (read : Text → List Text) (name : Text) :
    getParent read (some name) = .error .assertionError ↔ ¬ ".wbp".toList <:+ name := by
  have h : name.drop (name.length - 4) = ".wbp".toList ↔ ".wbp".toList <:+ name := by
    rw [List.suffix_iff_eq_drop, show ".wbp".toList.length = 4 from rfl, eq_comm]
  simp only [getParent]
  split_ifs with hd
  · exact ⟨fun e => by simp at e, fun e => absurd (h.1 hd) e⟩
  · exact ⟨fun _ hs => hd (h.2 hs), fun _ => rfl⟩

/-- **C378** (what is read): of a parent file with a heading `WELLPLANS` the lines below the heading are read,
in order and without trailing blanks, other than lines with that word. -/
theorem C378_lines (read : Text → List Text) {name : Text} (hn : ".wbp".toList <:+ name)
    {above below : List Text} {heading : Text} (hr : read name = above ++ heading :: below)
    (ha : ∀ x ∈ above, ¬ "WELLPLANS".toList <:+: x) (hh : "WELLPLANS".toList <:+: heading) :
    getParent read (some name)
      = .ok (some ((below.filter fun x => !decide ("WELLPLANS".toList <:+: x)).map rstrip)) := by
  have h : name.drop (name.length - 4) = ".wbp".toList := by
    rw [List.suffix_iff_eq_drop, show ".wbp".toList.length = 4 from rfl] at hn
    exact hn.symm
  have hm : mentions "WELLPLANS".toList (rstrip heading) = true := by
    rw [heading_rstrip]; exact decide_eq_true hh
  have hfb := filter_rstrip below
  simp only [getParent, h, if_true, parentLines, hr, List.map_append, List.map_cons]
  rw [parentFrom_true]
  · simp only [parentFrom, hm, if_true, parentFrom_false, hfb]
    rfl
  · intro x hx
    obtain ⟨y, hy, rfl⟩ := List.mem_map.1 hx
    rw [heading_rstrip]
    exact decide_eq_false (ha y hy)

/-- **C378** (no heading): of a file without the heading nothing is read, which is no error; and without a
name there is no parent. -/
theorem C378_no_heading (read : Text → List Text) {name : Text} (hn : ".wbp".toList <:+ name)
    (ha : ∀ x ∈ read name, ¬ "WELLPLANS".toList <:+: x) :
    getParent read (some name) = .ok (some []) ∧ getParent read none = .ok none := by
  have h : name.drop (name.length - 4) = ".wbp".toList := by
    rw [List.suffix_iff_eq_drop, show ".wbp".toList.length = 4 from rfl] at hn
    exact hn.symm
  refine ⟨?_, rfl⟩
  simp only [getParent, h, if_true, parentLines]
  rw [← List.append_nil ((read name).map rstrip), parentFrom_true]
  · rfl
  · intro x hx
    obtain ⟨y, hy, rfl⟩ := List.mem_map.1 hx
    rw [heading_rstrip]
    exact decide_eq_false (ha y hy)

/-- Non-vacuity: a file with a heading and two lines of a plan, one of them with trailing blanks; and a name
in capitals, which is refused. -/
example : getParent (fun _ => ["DEPTH 1".toList, "WELLPLANS:".toList, "W: A  ".toList, "L: 0 0 0".toList])
      (some "a.wbp".toList) = .ok (some ["W: A".toList, "L: 0 0 0".toList]) ∧
    getParent (fun _ => []) (some "A.WBP".toList) = .error .assertionError := by
  constructor
  · rw [C378_lines (above := ["DEPTH 1".toList]) (heading := "WELLPLANS:".toList)
      (below := ["W: A  ".toList, "L: 0 0 0".toList]) _ (by decide) rfl (by decide) (by decide)]
    decide
  · rw [C378_refused]; decide

end Welleng.Props
