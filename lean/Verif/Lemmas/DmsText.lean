import Verif.Model.DmsText
import Verif.Lemmas.WbpText

/-! How the pattern of `dms_from_string` runs. -/

namespace Welleng.Dms

open Wbp (Text digits? parseUnsigned)

/-- `r` matches at the front of `s`, and the match preferred leaves `t` and the groups `c`. -/
def Best (r : Re) (s t : Text) (c : Caps) : Prop := (r.run s).head? = some (t, c)

theorem best_cons {r : Re} {s t : Text} {c : Caps} (h : Best r s t c) :
    ∃ l, r.run s = (t, c) :: l := by
  unfold Best at h
  cases e : r.run s with
  | nil => simp [e] at h
  | cons a l => rw [e] at h; simp at h; exact ⟨l, by rw [h]⟩

theorem best_seq {a b : Re} {s t u : Text} {c d : Caps} (h1 : Best a s t c) (h2 : Best b t u d) :
    Best (.seq a b) s u (c ++ d) := by
  obtain ⟨l, hl⟩ := best_cons h1
  obtain ⟨m, hm⟩ := best_cons h2
  simp [Best, Re.run, hl, hm]

theorem best_opt {a : Re} {s t : Text} {c : Caps} (h : Best a s t c) : Best (.opt a) s t c := by
  obtain ⟨l, hl⟩ := best_cons h
  simp [Best, Re.run, hl]

theorem best_opt_none {a : Re} {s : Text} (h : a.run s = []) : Best (.opt a) s s [] := by
  simp [Best, Re.run, h]

theorem best_alt_left {a b : Re} {s t : Text} {c : Caps} (h : Best a s t c) :
    Best (.alt a b) s t c := by
  obtain ⟨l, hl⟩ := best_cons h
  simp [Best, Re.run, hl]

theorem best_alt_right {a b : Re} {s t : Text} {c : Caps} (h0 : a.run s = [])
    (h : Best b s t c) : Best (.alt a b) s t c := by
  obtain ⟨l, hl⟩ := best_cons h
  simp [Best, Re.run, hl, h0]

theorem best_grp {a : Re} {i : ℕ} {u t : Text} {c : Caps} (h : Best a (u ++ t) t c) :
    Best (.grp i a) (u ++ t) t ((i, u) :: c) := by
  obtain ⟨l, hl⟩ := best_cons h
  simp [Best, Re.run, hl]

theorem best_chr {p : Char → Bool} {c : Char} {t : Text} (h : p c = true) :
    Best (.chr p) (c :: t) t [] := by
  simp [Best, Re.run, h]

/-- The first character of `t`, if there is one, is not in the class. -/
def Stops (p : Char → Bool) (t : Text) : Prop := ∀ c u, t = c :: u → p c = false

theorem manyRest_head {p : Char → Bool} {u t : Text} (hu : ∀ c ∈ u, p c = true)
    (ht : Stops p t) : (manyRest p (u ++ t)).head? = some t := by
  induction u with
  | nil =>
    cases t with
    | nil => rfl
    | cons c t => simp [manyRest, ht c t rfl]
  | cons c u ih =>
    have := ih fun d hd => hu d (List.mem_cons_of_mem _ hd)
    simp only [List.cons_append, manyRest, hu c List.mem_cons_self, if_true]
    rw [List.head?_append, this]; rfl

theorem best_many {p : Char → Bool} {u t : Text} (hu : ∀ c ∈ u, p c = true) (ht : Stops p t) :
    Best (.many p) (u ++ t) t [] := by
  have := manyRest_head hu ht
  simp [Best, Re.run, this]

theorem best_many_nil {p : Char → Bool} {t : Text} (ht : Stops p t) : Best (.many p) t t [] :=
  best_many (u := []) (by simp) ht

theorem best_digits {u t : Text} (h0 : u ≠ []) (hu : ∀ c ∈ u, isD c = true) (ht : Stops isD t) :
    Best digitsRe (u ++ t) t [] := by
  cases u with
  | nil => exact absurd rfl h0
  | cons c u =>
    exact best_seq (best_chr (hu c List.mem_cons_self))
      (best_many (fun d hd => hu d (List.mem_cons_of_mem _ hd)) ht)

theorem chr_fails {p : Char → Bool} {t : Text} (ht : Stops p t) : (Re.chr p).run t = [] := by
  cases t with
  | nil => rfl
  | cons c t => simp [Re.run, ht c t rfl]

theorem seq_fails {a b : Re} {t : Text} (h : a.run t = []) : (Re.seq a b).run t = [] := by
  simp [Re.run, h]

theorem grp_fails {i : ℕ} {a : Re} {t : Text} (h : a.run t = []) : (Re.grp i a).run t = [] := by
  simp [Re.run, h]

theorem alt_fails {a b : Re} {t : Text} (h : a.run t = []) (h' : b.run t = []) :
    (Re.alt a b).run t = [] := by
  simp [Re.run, h, h']

/-! ### The end of the pattern -/

/-- `(\S+)?$`. -/
def lastRe : Re :=
  .seq (.opt (.grp 5 (.seq (.chr fun c => !isS c) (.many fun c => !isS c)))) .eos

theorem manyRest_mem {p : Char → Bool} {y t : Text} {b : Char} (hb : p b = false) {r : Text}
    (h : r ∈ manyRest p (y ++ b :: t)) : ∃ y', r = y' ++ b :: t := by
  induction y with
  | nil =>
    simp only [List.nil_append, manyRest, hb, Bool.false_eq_true, if_false, List.mem_singleton] at h
    exact ⟨[], h⟩
  | cons c y ih =>
    simp only [List.cons_append, manyRest] at h
    split at h
    · rw [List.mem_append, List.mem_singleton] at h
      rcases h with h | h
      · exact ih h
      · exact ⟨c :: y, h⟩
    · rw [List.mem_singleton] at h
      exact ⟨c :: y, h⟩

theorem eos_fails {y t : Text} (h0 : t ≠ []) (ht : ∀ c ∈ t, isS c = false) :
    Re.eos.run (y ++ t) = [] := by
  simp only [Re.run]
  rw [if_neg]
  rintro (h | h)
  · simp [h0] at h
  · have hm : ∃ c, c ∈ t := List.exists_mem_of_ne_nil t h0
    obtain ⟨c, hc⟩ := hm
    have : c ∈ y ++ t := List.mem_append_right _ hc
    rw [h, List.mem_singleton] at this
    have h2 := ht c hc
    rw [this] at h2
    revert h2; decide

/-- Before a blank that is followed by a word, the last word is not found yet. -/
theorem last_fails {y t : Text} {b : Char} (hb : isS b = true) (h0 : t ≠ [])
    (ht : ∀ c ∈ t, isS c = false) : lastRe.run (y ++ b :: t) = [] := by
  unfold lastRe
  simp only [Re.run, List.flatMap_eq_nil_iff, List.map_eq_nil_iff]
  have key : ∀ r : Text, (∃ y', r = y' ++ b :: t) → Re.eos.run r = [] := by
    rintro r ⟨y', rfl⟩
    rw [show y' ++ b :: t = (y' ++ [b]) ++ t by simp]
    exact eos_fails h0 ht
  intro m hm
  refine key m.1 ?_
  rw [List.mem_append, List.mem_map, List.mem_singleton] at hm
  rcases hm with ⟨q, hq, rfl⟩ | rfl
  · cases y with
    | nil => simp [hb] at hq
    | cons c y =>
      simp only [List.cons_append] at hq
      split at hq
      · simp only [List.flatMap_cons, List.flatMap_nil, List.append_nil, List.map_map,
          List.mem_map] at hq
        obtain ⟨z, hz, rfl⟩ := hq
        exact manyRest_mem (p := fun c => !isS c) (by simp [hb]) hz
      · simp at hq
  · exact ⟨y, rfl⟩

theorem best_last {t : Text} (h0 : t ≠ []) (ht : ∀ c ∈ t, isS c = false) :
    Best lastRe t [] [(5, t)] := by
  cases t with
  | nil => exact absurd rfl h0
  | cons c t =>
    refine best_seq (t := []) (c := [(5, c :: t)]) (d := []) (best_opt ?_) ?_
    · have : Best (.seq (.chr fun c => !isS c) (.many fun c => !isS c)) ((c :: t) ++ []) [] [] := by
        simp only [List.append_nil]
        have hc : (fun c => !isS c) c = true := by simp [ht c List.mem_cons_self]
        refine best_seq (best_chr (p := fun c => !isS c) hc) ?_
        have := best_many (p := fun c => !isS c) (u := t) (t := [])
          (fun d hd => by simp [ht d (List.mem_cons_of_mem _ hd)]) (by intro _ _ h; simp at h)
        simpa using this
      simpa using best_grp (i := 5) this
    · simp [Best, Re.run]

/-- `.*?(\S+)?$`. -/
def finalRe : Re := .seq (.few fun c => c != '\n') lastRe

theorem run_final (s : Text) : finalRe.run s =
    (fewRest (fun c => c != '\n') s).flatMap lastRe.run := by
  simp [finalRe, Re.run, List.flatMap_map]

theorem best_final_nil : Best finalRe [] [] [] := by
  simp [Best, finalRe, lastRe, Re.run, fewRest]

theorem fewRest_cons (p : Char → Bool) (s : Text) : ∃ l, fewRest p s = s :: l := by
  cases s with
  | nil => exact ⟨[], rfl⟩
  | cons c t => exact ⟨_, rfl⟩

theorem best_final {y t : Text} (h0 : t ≠ []) (ht : ∀ c ∈ t, isS c = false)
    (hy : ∀ c ∈ y, c ≠ '\n') (hl : y = [] ∨ ∃ z b, isS b = true ∧ y = z ++ [b]) :
    Best finalRe (y ++ t) [] [(5, t)] := by
  unfold Best
  rw [run_final]
  induction y with
  | nil =>
    obtain ⟨l, h⟩ := fewRest_cons (fun c => c != '\n') t
    obtain ⟨m, hm⟩ := best_cons (best_last h0 ht)
    rw [List.nil_append, h, List.flatMap_cons, hm]; rfl
  | cons c y ih =>
    have hc : c ≠ '\n' := hy c List.mem_cons_self
    obtain ⟨z, b, hb, e⟩ := hl.resolve_left (by simp)
    have hf : lastRe.run ((c :: y) ++ t) = [] := by
      rw [e, List.append_assoc]; exact last_fails hb h0 ht
    have h1 : (c != '\n') = true := by simpa using hc
    rw [List.cons_append, fewRest, List.flatMap_cons, ← List.cons_append, hf, List.nil_append,
      if_pos h1]
    refine ih (fun d hd => hy d (List.mem_cons_of_mem _ hd)) ?_
    cases z with
    | nil => left; simp at e; exact e.2
    | cons c' z => right; simp at e; exact ⟨z, b, hb, e.2⟩

/-- What follows the seconds, if it does not begin with a blank or the letter `s`. -/
theorem best_tail_other {y t : Text} (h0 : t ≠ []) (ht : ∀ c ∈ t, isS c = false)
    (hy : ∀ c ∈ y, c ≠ '\n') (hl : y = [] ∨ ∃ z b, isS b = true ∧ y = z ++ [b])
    (hs : Stops isS (y ++ t)) (hs' : Stops (fun d => d.toLower == 's') (y ++ t)) :
    Best tailRe (y ++ t) [] [(5, t)] :=
  best_seq (c := []) (best_many_nil hs)
    (best_seq (c := []) (best_opt_none (grp_fails (seq_fails (chr_fails hs'))))
      (best_seq (c := []) (best_many_nil hs) (best_final h0 ht hy hl)))

theorem best_sec (t : Text) :
    Best (.opt (.grp 4 (wordRe 's' 'e' 'c'))) ("sec".toList ++ t) t [(4, "sec".toList)] :=
  best_opt (best_grp (c := []) (by simp [Best, Re.run, wordRe, letter]))

theorem blank_isS : ∀ c ∈ [' '], isS c = true := by decide

theorem stops_sec (t : Text) : Stops isS ("sec".toList ++ t) := by
  exact fun c u h => (List.cons.inj h).1 ▸ (by decide)

/-- ` sec` and nothing more. -/
theorem best_tail_sec : Best tailRe " sec".toList [] [(4, "sec".toList)] := by
  have h1 : Best (.many isS) ([' '] ++ ("sec".toList ++ [])) ("sec".toList ++ []) [] :=
    best_many blank_isS (stops_sec _)
  exact best_seq (c := []) h1 (best_seq (c := [(4, "sec".toList)]) (best_sec [])
    (best_seq (c := []) (best_many_nil (by intro _ _ h; simp at h)) best_final_nil))

/-- ` sec` and a word. -/
theorem best_tail_sec_dir {t : Text} (h0 : t ≠ []) (ht : ∀ c ∈ t, isS c = false) :
    Best tailRe (" sec ".toList ++ t) [] [(4, "sec".toList), (5, t)] := by
  have h1 : Best (.many isS) ([' '] ++ ("sec".toList ++ (' ' :: t))) ("sec".toList ++ (' ' :: t))
      [] := best_many blank_isS (stops_sec _)
  have h2 : Best (.many isS) ([' '] ++ t) t [] := by
    refine best_many blank_isS ?_
    rintro c u rfl
    exact ht c List.mem_cons_self
  exact best_seq (c := []) h1 (best_seq (c := [(4, "sec".toList)]) (best_sec _)
    (best_seq (c := []) h2 (best_final (y := []) h0 ht (by simp) (Or.inl rfl))))

/-! ### The front of the pattern -/

theorem stops_cons {p : Char → Bool} {c : Char} {t : Text} (h : p c = false) :
    Stops p (c :: t) := by
  intro d u e
  rw [← (List.cons.inj e).1]; exact h

theorem best_deg_symbol {D : Text} (h0 : D ≠ []) (hD : ∀ c ∈ D, isD c = true) (t : Text) :
    Best degRe (D ++ '°' :: t) t [(1, D)] :=
  best_seq (best_grp (c := []) (best_digits h0 hD (stops_cons (by decide))))
    (best_seq (c := []) (best_many_nil (stops_cons (by decide)))
      (best_opt (best_alt_left (best_chr (by decide)))))

theorem best_deg_word {D : Text} (h0 : D ≠ []) (hD : ∀ c ∈ D, isD c = true) (t : Text) :
    Best degRe (D ++ " deg".toList ++ t) t [(1, D)] := by
  rw [List.append_assoc]
  have h1 : Best (.many isS) ([' '] ++ ("deg".toList ++ t)) ("deg".toList ++ t) [] :=
    best_many blank_isS (stops_cons (by decide))
  refine best_seq (best_grp (c := []) (best_digits h0 hD (stops_cons (by decide))))
    (best_seq (c := []) h1 (best_opt (best_alt_right (chr_fails (stops_cons (by decide))) ?_)))
  simp [Best, Re.run, wordRe, letter]

theorem best_min_symbol {M : Text} (h0 : M ≠ []) (hM : ∀ c ∈ M, isD c = true) (t : Text) :
    Best minRe (' ' :: (M ++ '\'' :: t)) t [(2, M)] := by
  have hb : Stops isS (M ++ '\'' :: t) := by
    cases M with
    | nil => exact absurd rfl h0
    | cons c M =>
      refine stops_cons ?_
      have := hM c List.mem_cons_self
      by_contra h
      rw [Bool.not_eq_false] at h
      simp only [isS, Char.isWhitespace, Bool.or_eq_true, decide_eq_true_eq] at h
      rcases h with ((rfl | rfl) | rfl) | rfl <;> revert this <;> decide
  exact best_seq (c := []) (best_many (u := [' ']) blank_isS hb)
    (best_seq (best_grp (c := []) (best_digits h0 hM (stops_cons (by decide))))
    (best_seq (c := []) (best_many_nil (stops_cons (by decide)))
      (best_opt (best_alt_left (best_chr (by decide))))))

theorem digit_not_blank {c : Char} (h : isD c = true) : isS c = false := by
  by_contra hs
  rw [Bool.not_eq_false] at hs
  simp only [isS, Char.isWhitespace, Bool.or_eq_true, decide_eq_true_eq] at hs
  rcases hs with ((rfl | rfl) | rfl) | rfl <;> revert h <;> decide

theorem stops_digits {M : Text} (h0 : M ≠ []) (hM : ∀ c ∈ M, isD c = true) (t : Text) :
    Stops isS (M ++ t) := by
  cases M with
  | nil => exact absurd rfl h0
  | cons c M => exact stops_cons (digit_not_blank (hM c List.mem_cons_self))

theorem best_min_word {M : Text} (h0 : M ≠ []) (hM : ∀ c ∈ M, isD c = true) (t : Text) :
    Best minRe (' ' :: (M ++ " min".toList ++ t)) t [(2, M)] := by
  rw [List.append_assoc]
  have h1 : Best (.many isS) ([' '] ++ ("min".toList ++ t)) ("min".toList ++ t) [] :=
    best_many blank_isS (stops_cons (by decide))
  refine best_seq (c := []) (best_many (u := [' ']) blank_isS (stops_digits h0 hM _))
    (best_seq (best_grp (c := []) (best_digits h0 hM (stops_cons (by decide))))
    (best_seq (c := []) h1 (best_opt (best_alt_right (chr_fails (stops_cons (by decide))) ?_))))
  simp [Best, Re.run, wordRe, letter]

theorem best_sec_whole {S T : Text} (h0 : S ≠ []) (hS : ∀ c ∈ S, isD c = true)
    (hT : Stops isD T) (hT' : Stops (· == '.') T) :
    Best secRe (' ' :: (S ++ T)) T [(3, S)] := by
  refine best_seq (c := []) (best_many (u := [' ']) blank_isS (stops_digits h0 hS _))
    (best_grp (c := []) (best_seq (c := []) (best_digits h0 hS hT) (best_opt_none (seq_fails
      (chr_fails ?_)))))
  exact hT'

theorem best_sec_point {S F T : Text} (h0 : S ≠ []) (hS : ∀ c ∈ S, isD c = true)
    (h1 : F ≠ []) (hF : ∀ c ∈ F, isD c = true) (hT : Stops isD T) :
    Best secRe (' ' :: (S ++ '.' :: F ++ T)) T [(3, S ++ '.' :: F)] := by
  have h : Stops isS (S ++ '.' :: F ++ T) := by
    rw [List.append_assoc]; exact stops_digits h0 hS _
  refine best_seq (c := []) (best_many (u := [' ']) blank_isS h) (best_grp (c := []) ?_)
  rw [List.append_assoc]
  exact best_seq (c := []) (best_digits h0 hS (stops_cons (by decide)))
    (best_opt (best_seq (c := []) (best_chr (by decide)) (best_digits h1 hF hT)))

/-- The whole pattern, piece by piece. -/
theorem best_pattern {s1 s2 s3 s4 D M S : Text} {c : Caps}
    (hd : Best degRe s1 (',' :: s2) [(1, D)]) (hm : Best minRe s2 (',' :: s3) [(2, M)])
    (hs : Best secRe s3 s4 [(3, S)]) (ht : Best tailRe s4 [] c) :
    Best pattern s1 [] ((1, D) :: (2, M) :: (3, S) :: c) :=
  best_seq hd (best_seq (c := []) (best_chr (by decide)) (best_seq hm
    (best_seq (c := []) (best_chr (by decide)) (best_seq hs ht))))

theorem search_of_best {r : Re} {s t : Text} {c : Caps} (h : Best r s t c) :
    r.search s = some c := by
  unfold Best at h
  cases s with
  | nil => simp [Re.search, h]
  | cons a s => simp [Re.search, h]

theorem search_skip {r : Re} {a : Char} {s : Text} (h : r.run (a :: s) = []) :
    r.search (a :: s) = r.search s := by
  simp [Re.search, h]

theorem pattern_fails {a : Char} {s : Text} (h : isD a = false) : pattern.run (a :: s) = [] :=
  seq_fails (seq_fails (grp_fails (seq_fails (chr_fails (stops_cons h)))))

/-! ### No match -/

/-- No piece of the expression matches the character. -/
def Re.Avoids (x : Char) : Re → Prop
  | .chr p => p x = false
  | .seq a b => a.Avoids x ∧ b.Avoids x
  | .alt a b => a.Avoids x ∧ b.Avoids x
  | .opt a => a.Avoids x
  | .many p => p x = false
  | .few p => p x = false
  | .grp _ a => a.Avoids x
  | .eos => True

theorem manyRest_avoids {p : Char → Bool} {x : Char} (h : p x = false) {s r : Text}
    (hr : r ∈ manyRest p s) : ∃ u, s = u ++ r ∧ x ∉ u := by
  induction s with
  | nil => exact ⟨[], by simpa [manyRest, eq_comm] using hr, by simp⟩
  | cons c t ih =>
    rw [manyRest] at hr
    split at hr
    · rename_i hc
      rw [List.mem_append, List.mem_singleton] at hr
      rcases hr with hr | rfl
      · obtain ⟨u, rfl, hu⟩ := ih hr
        refine ⟨c :: u, rfl, ?_⟩
        rw [List.mem_cons]
        rintro (rfl | h')
        · rw [h] at hc; simp at hc
        · exact hu h'
      · exact ⟨[], rfl, by simp⟩
    · rw [List.mem_singleton] at hr
      exact ⟨[], hr.symm, by simp⟩

theorem fewRest_avoids {p : Char → Bool} {x : Char} (h : p x = false) {s r : Text}
    (hr : r ∈ fewRest p s) : ∃ u, s = u ++ r ∧ x ∉ u := by
  induction s with
  | nil => exact ⟨[], by simpa [fewRest, eq_comm] using hr, by simp⟩
  | cons c t ih =>
    rw [fewRest, List.mem_cons] at hr
    rcases hr with rfl | hr
    · exact ⟨[], rfl, by simp⟩
    · split at hr
      · rename_i hc
        obtain ⟨u, rfl, hu⟩ := ih hr
        refine ⟨c :: u, rfl, ?_⟩
        rw [List.mem_cons]
        rintro (rfl | h')
        · rw [h] at hc; simp at hc
        · exact hu h'
      · simp at hr

theorem run_avoids {x : Char} {r : Re} (h : r.Avoids x) {s : Text} {m : Text × Caps}
    (hm : m ∈ r.run s) : ∃ u, s = u ++ m.1 ∧ x ∉ u := by
  induction r generalizing s m with
  | chr p =>
    cases s with
    | nil => simp [Re.run] at hm
    | cons c t =>
      simp only [Re.run] at hm
      split at hm
      · rename_i hc
        rw [List.mem_singleton] at hm
        subst hm
        refine ⟨[c], rfl, ?_⟩
        rw [List.mem_singleton]; rintro rfl
        rw [h] at hc; simp at hc
      · simp at hm
  | seq a b iha ihb =>
    simp only [Re.run, List.mem_flatMap, List.mem_map] at hm
    obtain ⟨r, hr, q, hq, rfl⟩ := hm
    obtain ⟨u, e, hu⟩ := iha h.1 hr
    obtain ⟨v, e', hv⟩ := ihb h.2 hq
    exact ⟨u ++ v, by rw [e, e', List.append_assoc], by simp [hu, hv]⟩
  | alt a b iha ihb =>
    simp only [Re.run, List.mem_append] at hm
    exact hm.elim (iha h.1) (ihb h.2)
  | opt a ih =>
    simp only [Re.run, List.mem_append, List.mem_singleton] at hm
    rcases hm with hm | rfl
    · exact ih h hm
    · exact ⟨[], rfl, by simp⟩
  | many p =>
    simp only [Re.run, List.mem_map] at hm
    obtain ⟨t, ht, rfl⟩ := hm
    exact manyRest_avoids h ht
  | few p =>
    simp only [Re.run, List.mem_map] at hm
    obtain ⟨t, ht, rfl⟩ := hm
    exact fewRest_avoids h ht
  | grp i a ih =>
    simp only [Re.run, List.mem_map] at hm
    obtain ⟨q, hq, rfl⟩ := hm
    exact ih (m := q) h hq
  | eos =>
    simp only [Re.run] at hm
    split at hm
    · rw [List.mem_singleton] at hm; subst hm; exact ⟨[], rfl, by simp⟩
    · simp at hm

theorem mem_run_lit {c : Char} {s : Text} {m : Text × Caps} (h : m ∈ (lit c).run s) :
    s = c :: m.1 := by
  cases s with
  | nil => simp [lit, Re.run] at h
  | cons d t =>
    simp only [lit, Re.run] at h
    split at h
    · rename_i hd
      rw [List.mem_singleton] at h
      subst h
      simpa using hd
    · simp at h

theorem mem_run_seq {a b : Re} {s : Text} {m : Text × Caps} (h : m ∈ (Re.seq a b).run s) :
    ∃ r q, r ∈ a.run s ∧ q ∈ b.run r.1 ∧ q.1 = m.1 := by
  simp only [Re.run, List.mem_flatMap, List.mem_map] at h
  obtain ⟨r, hr, q, hq, rfl⟩ := h
  exact ⟨r, q, hr, hq, rfl⟩

/-- A text that matches has two commas with no point between them. -/
theorem pattern_commas {s : Text} (h : pattern.run s ≠ []) :
    ∃ u v w, s = u ++ ',' :: (v ++ ',' :: w) ∧ ',' ∉ u ∧ ',' ∉ v ∧ '.' ∉ v := by
  obtain ⟨m, hm⟩ := List.exists_mem_of_ne_nil _ h
  obtain ⟨r1, q1, h1, h2, -⟩ := mem_run_seq hm
  obtain ⟨r2, q2, h3, h4, -⟩ := mem_run_seq h2
  obtain ⟨r3, q3, h5, h6, -⟩ := mem_run_seq h4
  obtain ⟨r4, q4, h7, -, -⟩ := mem_run_seq h6
  have a1 : degRe.Avoids ',' := by simp [degRe, Re.Avoids, digitsRe, wordRe, letter, lit]; decide
  have a2 : minRe.Avoids ',' := by simp [minRe, Re.Avoids, digitsRe, wordRe, letter, lit]; decide
  have a3 : minRe.Avoids '.' := by simp [minRe, Re.Avoids, digitsRe, wordRe, letter, lit]; decide
  obtain ⟨u, e1, hu⟩ := run_avoids a1 h1
  have e2 := mem_run_lit h3
  obtain ⟨v, e3, hv⟩ := run_avoids a2 h5
  obtain ⟨v', e3', hv'⟩ := run_avoids a3 h5
  have ev : v = v' := List.append_cancel_right (e3.symm.trans e3')
  have e4 := mem_run_lit h7
  exact ⟨u, v, r4.1, by rw [e1, e2, e3, e4], hu, hv, ev ▸ hv'⟩

theorem search_none {r : Re} {s : Text} (h : ∀ p t, s = p ++ t → r.run t = []) :
    r.search s = none := by
  induction s with
  | nil => simp [Re.search, h [] [] rfl]
  | cons c s ih =>
    rw [search_skip (h [] _ rfl)]
    exact ih fun p t e => h (c :: p) t (by rw [e]; rfl)

theorem split_at {x : Char} {a b s t : Text} (ha : x ∉ a) (hb : x ∉ b)
    (h : a ++ x :: s = b ++ x :: t) : a = b ∧ s = t := by
  induction a generalizing b with
  | nil =>
    cases b with
    | nil => simpa using h
    | cons c b => simp at h; simp [h.1] at hb
  | cons c a ih =>
    cases b with
    | nil => simp at h; simp [h.1] at ha
    | cons d b =>
      simp only [List.cons_append, List.cons.injEq] at h
      obtain ⟨rfl, rfl⟩ := ih (fun h' => ha (List.mem_cons_of_mem _ h'))
        (fun h' => hb (List.mem_cons_of_mem _ h')) h.2
      exact ⟨by rw [h.1], rfl⟩

theorem no_match {A B C : Text} (hA : ',' ∉ A) (hB : ',' ∉ B) (hC : ',' ∉ C) (hp : '.' ∈ B) :
    pattern.search (A ++ ',' :: (B ++ ',' :: C)) = none := by
  refine search_none fun p t e => ?_
  by_contra hne
  obtain ⟨u, v, w, rfl, hu, hv, hv'⟩ := pattern_commas hne
  have hc := congrArg (List.count ',') e
  simp only [List.count_append, List.count_cons_self, List.count_eq_zero_of_not_mem hA,
    List.count_eq_zero_of_not_mem hB, List.count_eq_zero_of_not_mem hC,
    List.count_eq_zero_of_not_mem hu, List.count_eq_zero_of_not_mem hv] at hc
  have hp0 : ',' ∉ p := List.count_eq_zero.1 (by omega)
  rw [← List.append_assoc] at e
  obtain ⟨-, e2⟩ := split_at hA (by simp [hp0, hu]) e
  obtain ⟨e3, -⟩ := split_at hB hv e2
  exact hv' (e3 ▸ hp)

end Welleng.Dms
