import Verif.Spec.Workbook
import Verif.Props.WbpMore
import Mathlib.Data.List.TakeWhile

/-!
Labels of rows: blanks at the ends, brackets and lower case.
-/

namespace Welleng.Ingest

open Props (Trimmed strip_pad)
open Wbp (strip)

theorem blanks_replicate {a : List Char} (h : ∀ c ∈ a, c = ' ') :
    a = List.replicate a.length ' ' := List.eq_replicate_iff.2 ⟨rfl, h⟩

theorem strip_unique {s a t b : List Char} (hs : s = a ++ t ++ b) (ha : ∀ c ∈ a, c = ' ')
    (hb : ∀ c ∈ b, c = ' ') (ht : Trimmed t) : strip s = t := by
  rw [hs, blanks_replicate ha, blanks_replicate hb]
  exact strip_pad ht _ _

theorem dropWhile_split (s : List Char) : ∃ a, (∀ c ∈ a, c = ' ') ∧
    s = a ++ s.dropWhile (· = ' ') := by
  refine ⟨s.takeWhile (· = ' '), fun c hc => ?_, (List.takeWhile_append_dropWhile).symm⟩
  simpa using List.mem_takeWhile_imp hc

theorem strip_split (s : List Char) : ∃ a b, s = a ++ strip s ++ b ∧ (∀ c ∈ a, c = ' ') ∧
    (∀ c ∈ b, c = ' ') ∧ Trimmed (strip s) := by
  obtain ⟨a, ha, e1⟩ := dropWhile_split s
  obtain ⟨b, hb, e2⟩ := dropWhile_split (s.dropWhile (· = ' ')).reverse
  have e3 : s.dropWhile (· = ' ') = strip s ++ b.reverse := by
    have := congrArg List.reverse e2
    rw [List.reverse_reverse, List.reverse_append] at this
    exact this
  refine ⟨a, b.reverse, ?_, ha, fun c hc => hb c (List.mem_reverse.1 hc), ?_, ?_⟩
  · rw [List.append_assoc, ← e3]; exact e1
  · intro h
    have h1 : (s.dropWhile (· = ' ')).head? = some ' ' := by
      rw [e3]; rcases hh : strip s with _ | ⟨c, t⟩
      · rw [hh] at h; cases h
      · rw [hh] at h; exact h
    have := List.head?_dropWhile_not (fun c => decide (c = ' ')) s
    rw [h1] at this
    simp at this
  · intro h
    have h1 : ((s.dropWhile (· = ' ')).reverse.dropWhile (· = ' ')).head? = some ' ' := by
      rw [← h, strip, List.getLast?_reverse]
    have := List.head?_dropWhile_not (fun c => decide (c = ' ')) (s.dropWhile (· = ' ')).reverse
    rw [h1] at this
    simp at this

theorem strip_pads {a x b : List Char} (ha : ∀ c ∈ a, c = ' ') (hb : ∀ c ∈ b, c = ' ') :
    strip (a ++ x ++ b) = strip x := by
  obtain ⟨a', b', e, ha', hb', ht⟩ := strip_split x
  refine strip_unique (a := a ++ a') (b := b' ++ b) ?_ ?_ ?_ ht
  · conv_lhs => rw [e]
    simp
  · intro c hc; rcases List.mem_append.1 hc with h | h
    exacts [ha c h, ha' c h]
  · intro c hc; rcases List.mem_append.1 hc with h | h
    exacts [hb' c h, hb c h]

/-- Taking off the blanks before the bracket is looked for makes no difference. -/
theorem strip_takeWhile (s : List Char) :
    strip ((strip s).takeWhile (· ≠ '(')) = strip (s.takeWhile (· ≠ '(')) := by
  obtain ⟨a, b, e, ha, hb, -⟩ := strip_split s
  generalize strip s = m at e
  subst e
  have h1 : (a ++ m ++ b).takeWhile (· ≠ '(') = a ++ (m ++ b).takeWhile (· ≠ '(') := by
    rw [List.append_assoc, List.takeWhile_append_of_pos]
    intro c hc; rw [ha c hc]; decide
  rw [h1]
  by_cases hm : '(' ∈ m
  · have h2 : (m ++ b).takeWhile (· ≠ '(') = m.takeWhile (· ≠ '(') := by
      obtain ⟨u, v, rfl, hu⟩ : ∃ u v, m = u ++ '(' :: v ∧ '(' ∉ u := by
        obtain ⟨u, v, h, h'⟩ := List.eq_append_cons_of_mem hm
        exact ⟨u, v, h, h'⟩
      have hu' : ∀ c ∈ u, decide (c ≠ '(') = true := by
        intro c hc; simp; rintro rfl; exact hu hc
      rw [List.append_assoc, List.takeWhile_append_of_pos hu', List.takeWhile_append_of_pos hu']
      simp
    rw [h2]
    have := strip_pads (a := a) (x := m.takeWhile (· ≠ '(')) (b := []) ha (by simp)
    rw [List.append_nil] at this
    exact this.symm
  · have hm' : ∀ c ∈ m, decide (c ≠ '(') = true := by
      intro c hc; simp; rintro rfl; exact hm hc
    have h2 : (m ++ b).takeWhile (· ≠ '(') = m ++ b := by
      rw [List.takeWhile_append_of_pos hm', List.takeWhile_eq_self_iff.2]
      intro c hc; rw [hb c hc]; decide
    rw [h2, List.takeWhile_eq_self_iff.2 hm', ← List.append_assoc, strip_pads ha hb]

theorem names_iff (s key : List Char) :
    Spec.Names s key ↔ lower (strip ((strip s).takeWhile (· ≠ '('))) = key := by
  rw [strip_takeWhile]
  constructor
  · rintro ⟨a, name, b, rest, rfl, ha, hb, hr, hn, h1, h2, h3⟩
    have e : (a ++ name ++ b ++ rest).takeWhile (· ≠ '(') = a ++ name ++ b := by
      rw [List.takeWhile_append_of_pos]
      · rcases hr with rfl | hr
        · simp
        · cases rest with
          | nil => simp
          | cons c t => simp at hr; subst hr; simp
      · intro c hc
        simp only [List.mem_append] at hc
        rcases hc with (hc | hc) | hc
        · rw [ha c hc]; decide
        · simp; rintro rfl; exact hn hc
        · rw [hb c hc]; decide
    rw [e, strip_unique rfl ha hb ⟨h1, h2⟩]
    exact h3
  · intro h
    obtain ⟨a, b, e, ha, hb, ht⟩ := strip_split (s.takeWhile (· ≠ '('))
    refine ⟨a, strip (s.takeWhile (· ≠ '(')), b, s.dropWhile (· ≠ '('), ?_, ha, hb, ?_, ?_, ht.1,
      ht.2, h⟩
    · rw [← e, List.takeWhile_append_dropWhile]
    · rcases hd : s.dropWhile (· ≠ '(') with _ | ⟨c, t⟩
      · exact Or.inl rfl
      · right
        have := List.head?_dropWhile_not (fun c => decide (c ≠ '(')) s
        rw [hd] at this
        simpa using this
    · intro hmem
      have : '(' ∈ s.takeWhile (· ≠ '(') := by
        rw [e]; exact List.mem_append_left _ (List.mem_append_right _ hmem)
      have := List.mem_takeWhile_imp this
      simp at this

theorem toLower_paren (c : Char) : c.toLower = '(' ↔ c = '(' := by
  constructor
  · intro h
    unfold Char.toLower at h
    split_ifs at h with hc
    · exfalso
      have h' := congrArg (fun c : Char => c.val.toNat) h
      have h1 : (65 : ℕ) ≤ c.val.toNat := hc.1
      have h2 : c.val.toNat ≤ 90 := hc.2
      have e : ('a'.val - 'A'.val : UInt32) = 32 := by decide
      simp only [e, UInt32.toNat_add] at h'
      have e2 : ('('.val.toNat) = 40 := by decide
      have e3 : (32 : UInt32).toNat = 32 := by decide
      rw [e2, e3] at h'
      omega
    · exact h
  · rintro rfl; decide

theorem lower_takeWhile (s : List Char) :
    lower (s.takeWhile (· ≠ '(')) = (lower s).takeWhile (· ≠ '(') := by
  induction s with
  | nil => rfl
  | cons c t ih =>
    by_cases h : c = '('
    · subst h; rfl
    · have h' : c.toLower ≠ '(' := fun e => h ((toLower_paren c).1 e)
      have ih' : List.map Char.toLower (t.takeWhile (· ≠ '(')) =
        (t.map Char.toLower).takeWhile (· ≠ '(') := ih
      simp only [lower, List.map_cons]
      rw [List.takeWhile_cons_of_pos (by simpa using h),
        List.takeWhile_cons_of_pos (by simpa using h'), List.map_cons, ih']

/-- A label that begins with the word `w` names something that begins with `w`. -/
theorem prefix_of_label {s w key : List Char} (hn : Spec.Names s key) (hw : '(' ∉ w)
    (hw2 : w.head? ≠ some ' ') (hp : w <+: lower (strip s)) :
    ∃ n, w <+: key ++ List.replicate n ' ' := by
  rw [names_iff] at hn
  obtain ⟨a, b, e, ha, hb, ht⟩ := strip_split ((strip s).takeWhile (· ≠ '('))
  have hp' : w <+: lower ((strip s).takeWhile (· ≠ '(')) := by
    rw [lower_takeWhile]
    obtain ⟨v, hv⟩ := hp
    rw [← hv, List.takeWhile_append_of_pos]
    · exact List.prefix_append _ _
    · intro c hc; simp; rintro rfl; exact hw hc
  rw [e] at hp'
  simp only [lower, List.map_append] at hp'
  change w <+: List.map Char.toLower a ++ lower _ ++ List.map Char.toLower b at hp'
  rw [hn] at hp'
  have hb' : b.map Char.toLower = List.replicate b.length ' ' := by
    rw [blanks_replicate hb]; simp
  rw [hb'] at hp'
  cases a with
  | nil => exact ⟨_, hp'⟩
  | cons c t =>
    have hc := ha c (by simp)
    subst hc
    cases w with
    | nil => exact ⟨0, List.nil_prefix⟩
    | cons d u =>
      exfalso
      simp only [List.map_cons, List.cons_append, List.cons_prefix_cons] at hp'
      exact hw2 (by rw [hp'.1]; rfl)

/-- A label that names `key` begins with it. -/
theorem label_of_names {s key : List Char} (hk : key ≠ []) (hn : Spec.Names s key) :
    key <+: lower (strip s) := by
  rw [names_iff] at hn
  obtain ⟨a, b, e, ha, hb, ht⟩ := strip_split ((strip s).takeWhile (· ≠ '('))
  obtain ⟨-, -, -, -, -, hs⟩ := strip_split s
  have ha' : a = [] := by
    cases a with
    | nil => rfl
    | cons c t =>
      exfalso
      have hc := ha c (by simp)
      subst hc
      rcases h : strip s with _ | ⟨d, u⟩
      · rw [h] at e; simp at e
      · rw [h] at e hs
        by_cases hd : d = '('
        · subst hd; simp at e
        · rw [List.takeWhile_cons_of_pos (by simpa using hd)] at e
          simp only [List.cons_append, List.cons.injEq] at e
          exact hs.1 (by simp [e.1])
  subst ha'
  have : strip ((strip s).takeWhile (· ≠ '(')) <+: strip s := by
    refine List.IsPrefix.trans ?_ (List.takeWhile_prefix (· ≠ '('))
    conv_rhs => rw [e]
    simp
  rw [← hn]
  exact this.map _

end Welleng.Ingest
