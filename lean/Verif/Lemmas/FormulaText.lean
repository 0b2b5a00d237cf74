import Verif.Spec.FormulaText
import Verif.Lemmas.WbpText
import Mathlib.Data.List.Chain
import Mathlib.Tactic.Linarith
import Mathlib.Tactic.SplitIfs

/-! A written formula as a list of symbols with blanks; what rewriting and reading do to it. -/

namespace Welleng.Ftext

open Wbp (Text)

/-- The symbols of a written formula; `fn` is a name followed by a parenthesis. -/
inductive Sym
  | num (s : Text) (q : ℚ)
  | var (s : Text)
  | fn (f : Text)
  | plus | minus | star | slash | caret | lpar | rpar | comma

namespace Sym

/-- The characters, with `p` for the power sign. -/
def text (p : Text) : Sym → Text
  | num s _ => s
  | var s => s
  | fn f => f
  | plus => ['+']
  | minus => ['-']
  | star => ['*']
  | slash => ['/']
  | caret => p
  | lpar => ['(']
  | rpar => [')']
  | comma => [',']

/-- The token. -/
def tok : Sym → Tok
  | num _ q => .num q
  | var s => .name s
  | fn f => .name f
  | plus => .plus
  | minus => .minus
  | star => .star
  | slash => .slash
  | caret => .dstar
  | lpar => .lpar
  | rpar => .rpar
  | comma => .comma

/-- Ends an operand. -/
def closing : Sym → Bool
  | num _ _ | var _ | rpar => true
  | _ => false

/-- Begins an operand. -/
def opening : Sym → Bool
  | num _ _ | var _ | fn _ | lpar | minus => true
  | _ => false

/-- Made of word characters (or a number). -/
def word : Sym → Bool
  | num _ _ | var _ | fn _ => true
  | _ => false

/-- `b` can follow `a`. -/
def ok (a b : Sym) : Prop :=
  match a with
  | fn _ => b = lpar
  | _ => if a.closing then b.word = false ∧ b ≠ lpar else b.opening = true

/-- A name. -/
def IsWord (s : Text) : Prop :=
  (∃ c t, s = c :: t ∧ (c.isAlpha = true ∨ c = '_') ∧ ∀ d ∈ t, wordChar d = true)

/-- The text of a number or of a name is one. -/
def valid : Sym → Prop
  | num s q => (∃ c t, s = c :: t ∧ c.isDigit = true ∧ ∀ d ∈ t, numChar d = true) ∧
      numTok s = some (.num q)
  | var s => IsWord s ∧ s ∉ keywords
  | fn f => IsWord f ∧ f ∉ keywords
  | _ => True

end Sym

/-- A written formula: symbols with the number of blanks behind each. -/
abbrev Items := List (Sym × ℕ)

/-- The characters. -/
def spell (p : Text) (l : Items) : Text :=
  l.flatMap fun x => x.1.text p ++ List.replicate x.2 ' '

theorem spell_cons (p : Text) (x : Sym × ℕ) (l : Items) :
    spell p (x :: l) = x.1.text p ++ (List.replicate x.2 ' ' ++ spell p l) := by
  simp [spell]

theorem spell_append (p : Text) (l m : Items) : spell p (l ++ m) = spell p l ++ spell p m := by
  simp [spell]

/-- Neighbours fit and texts are what they should be. -/
structure Fit (l : Items) : Prop where
  chain : List.IsChain Sym.ok (l.map Prod.fst)
  valid : ∀ x ∈ l, x.1.valid
  last : ∀ x ∈ l.getLast?, x.1.closing = true

theorem Fit.tail {x : Sym × ℕ} {l : Items} (h : Fit (x :: l)) : Fit l :=
  ⟨by have := h.chain; simp only [List.map_cons] at this; exact this.tail,
    fun y hy => h.valid y (List.mem_cons_of_mem _ hy), fun y hy => h.last y (by
      cases l with
      | nil => simp at hy
      | cons z l => simpa [List.getLast?_cons] using hy)⟩

theorem Fit.next {x y : Sym × ℕ} {l : Items} (h : Fit (x :: y :: l)) : x.1.ok y.1 := by
  have := h.chain
  simp only [List.map_cons] at this
  exact (List.isChain_cons_cons.1 this).1

/-! ### Substitution of one function name -/

/-- Characters at which no function name starts. -/
theorem callAt_head {g : Text} {c d : Char} {g' s : Text} (hg : g = d :: g') (h : d ≠ c) :
    callAt g (c :: s) = none := by
  subst hg
  have : (d :: g').isPrefixOf (c :: s) = false := by simp [List.isPrefixOf, h]
  simp [callAt, this]

theorem subst_pass {g py : Text} {prev : Bool} {c : Char} {t : Text}
    (h : prev = true ∨ callAt g (c :: t) = none) :
    subst g py 0 prev (c :: t) = c :: subst g py 0 (wordChar c) t := by
  rcases h with h | h
  · subst h; simp [subst]
  · rw [subst, h]; simp

theorem subst_skip {g py : Text} (u s : Text) (b : Bool) :
    subst g py u.length b (u ++ s) = subst g py 0 ((u.getLast?.map wordChar).getD b) s := by
  induction u generalizing b with
  | nil => rfl
  | cons c u ih =>
    simp only [List.length_cons, List.cons_append, subst]
    rw [ih]
    cases u with
    | nil => simp
    | cons d u => simp [List.getLast?_cons]

/-- Characters that are no word characters pass, and so do digits and points. -/
theorem subst_other {g py g' : Text} {d : Char} (hg : g = d :: g') (hd : d.isUpper = true) (u s : Text)
    (hu : ∀ c ∈ u, c.isUpper = false) (prev : Bool) :
    subst g py 0 prev (u ++ s) = u ++ subst g py 0 ((u.getLast?.map wordChar).getD prev) s := by
  induction u generalizing prev with
  | nil => rfl
  | cons c u ih =>
    have hc : d ≠ c := by
      rintro rfl
      have := hu d List.mem_cons_self
      simp [hd] at this
    rw [List.cons_append, subst_pass (Or.inr (callAt_head hg hc)),
      ih (fun c hc => hu c (List.mem_cons_of_mem _ hc))]
    cases u with
    | nil => simp
    | cons e u => simp [List.getLast?_cons]

/-- The rest of a word passes. -/
theorem subst_rest {g py : Text} (u s : Text) (hu : ∀ c ∈ u, wordChar c = true) :
    subst g py 0 true (u ++ s) = u ++ subst g py 0 true s := by
  induction u with
  | nil => rfl
  | cons c u ih =>
    rw [List.cons_append, subst_pass (Or.inl rfl), hu c List.mem_cons_self,
      ih fun c hc => hu c (List.mem_cons_of_mem _ hc), List.cons_append]

theorem blank_notUpper (n : ℕ) : ∀ c ∈ List.replicate n ' ', c.isUpper = false := by
  intro c hc
  rw [List.eq_of_mem_replicate hc]; decide

theorem last_blanks (n : ℕ) (b : Bool) :
    (((List.replicate n ' ').getLast?).map wordChar).getD b = (if n = 0 then b else false) := by
  cases n with
  | zero => simp
  | succ n => simp [List.getLast?_replicate]; decide

/-- What follows a symbol that is not a function name starts with no parenthesis and no word
character. -/
theorem afterParen_none {p : Text} {n : ℕ} {l : Items} (hp : ∀ c ∈ p.head?, c = '^' ∨ c = '*')
    (h : ∀ y ∈ l.head?, y.1.word = false ∧ y.1 ≠ .lpar) (hpn : p ≠ []) :
    afterParen (List.replicate n ' ' ++ spell p l) = none := by
  induction n with
  | zero =>
    cases l with
    | nil => simp [spell, afterParen]
    | cons y l =>
      rw [List.replicate_zero, List.nil_append, spell_cons]
      obtain ⟨y, m⟩ := y
      have := h (y, m) (by simp)
      obtain ⟨pc, p', rfl⟩ := List.exists_cons_of_ne_nil hpn
      have hpc := hp pc (by simp)
      cases y <;> simp_all [Sym.text, Sym.word, afterParen]
      rcases hpc with rfl | rfl
      · rw [if_neg (by decide), if_neg (by decide)]
      · rw [if_neg (by decide), if_neg (by decide)]
  | succ n ih =>
    rw [List.replicate_succ, List.cons_append, afterParen, ih, if_neg (by decide), ite_self]

/-- A word is left alone unless it is the function and a parenthesis follows. -/
theorem callAt_word {g w r : Text} (hg : ∀ c ∈ g, wordChar c = true)
    (hr : ∀ c ∈ r.head?, wordChar c = false) (hw : ∀ c ∈ w, wordChar c = true)
    (h : w = g → afterParen r = none) : callAt g (w ++ r) = none := by
  unfold callAt
  split_ifs with hp
  · rw [List.isPrefixOf_iff_prefix] at hp
    rcases List.prefix_or_prefix_of_prefix hp (List.prefix_append w r) with h1 | h1
    · obtain ⟨v, rfl⟩ := h1
      rw [List.append_assoc, List.drop_left]
      cases v with
      | nil => simpa using h (by simp)
      | cons c v =>
        have hc := hw c (by simp)
        rw [List.cons_append, afterParen]
        have h1 : (c == '(') = false := by
          rw [beq_eq_false_iff_ne]; rintro rfl; revert hc; decide
        have h2 : c.isWhitespace = false := by
          unfold wordChar at hc
          by_contra hne
          rw [Bool.not_eq_false, Char.isWhitespace] at hne
          simp only [Bool.or_eq_true, decide_eq_true_eq] at hne
          rcases hne with ((rfl | rfl) | rfl) | rfl <;> revert hc <;> decide
        rw [h1, h2]; rfl
    · obtain ⟨v, rfl⟩ := h1
      cases v with
      | nil =>
        rw [List.append_nil, List.drop_left]
        exact h (by simp)
      | cons c v =>
        exfalso
        rw [List.prefix_append_right_inj] at hp
        obtain ⟨z, rfl⟩ := hp
        have := hr c (by simp)
        rw [hg c (by simp)] at this
        cases this
  · rfl

theorem head_nonword {p : Text} {n : ℕ} {l : Items} (hp : ∀ c ∈ p.head?, c = '^' ∨ c = '*')
    (h : ∀ y ∈ l.head?, y.1.word = false) (hpn : p ≠ []) :
    ∀ c ∈ (List.replicate n ' ' ++ spell p l).head?, wordChar c = false ∧ c ≠ '.' := by
  cases n with
  | succ n =>
    intro c hc
    rw [List.replicate_succ] at hc
    simp only [List.cons_append, List.head?_cons, Option.mem_some_iff] at hc
    subst hc; exact ⟨by decide, by decide⟩
  | zero =>
    cases l with
    | nil => intro c hc; simp [spell] at hc
    | cons y l =>
      intro c hc
      rw [List.replicate_zero, List.nil_append, spell_cons] at hc
      obtain ⟨y, m⟩ := y
      have hy := h (y, m) (by simp)
      obtain ⟨pc, p', rfl⟩ := List.exists_cons_of_ne_nil hpn
      have hpc := hp pc (by simp)
      cases y <;> simp only [Sym.text, Sym.word, List.cons_append, List.head?_cons,
        Option.mem_some_iff, Bool.true_eq_false, List.nil_append] at hc hy
      case caret =>
        subst hc
        rcases hpc with rfl | rfl <;> exact ⟨by decide, by decide⟩
      all_goals (subst hc; exact ⟨by decide, by decide⟩)

/-- The effect of `re.sub` for one function: the blanks behind the name go too. -/
def ren (g py : Text) (x : Sym × ℕ) : Sym × ℕ :=
  match x.1 with
  | .fn f => if f = g then (.fn py, 0) else x
  | _ => x

theorem word_pass {g py w r : Text} {prev : Bool} (hw : Sym.IsWord w) (hprev : prev = false)
    (h : callAt g (w ++ r) = none) :
    subst g py 0 prev (w ++ r) = w ++ subst g py 0 true r := by
  obtain ⟨c, t, rfl, hc, ht⟩ := hw
  have hcw : wordChar c = true := by
    unfold wordChar Char.isAlphanum
    rcases hc with hc | rfl
    · simp [hc]
    · decide
  rw [List.cons_append, subst_pass (Or.inr (by rw [← List.cons_append]; exact h)), hcw,
    subst_rest _ _ ht, List.cons_append]

theorem IsWord.chars {w : Text} (hw : Sym.IsWord w) : ∀ c ∈ w, wordChar c = true := by
  obtain ⟨c, t, rfl, hc, ht⟩ := hw
  intro d hd
  rcases List.mem_cons.1 hd with rfl | hd
  · unfold wordChar Char.isAlphanum
    rcases hc with hc | rfl
    · simp [hc]
    · decide
  · exact ht d hd

theorem last_append (u : Text) (n : ℕ) (b : Bool) (hn : n ≠ 0) :
    ((u ++ List.replicate n ' ').getLast?.map wordChar).getD b = false := by
  rw [List.getLast?_append, List.getLast?_replicate, if_neg hn]
  rfl

theorem numChar_notUpper {c : Char} (h : numChar c = true) : c.isUpper = false := by
  by_contra hne
  rw [Bool.not_eq_false] at hne
  unfold numChar at h
  rw [Bool.or_eq_true, beq_iff_eq] at h
  rcases h with h | rfl
  · simp only [Char.isDigit, Char.isUpper, Bool.and_eq_true, decide_eq_true_eq] at h hne
    have h1 := h.2; have h2 := hne.1
    rw [ge_iff_le] at h2
    rw [UInt32.le_iff_toNat_le] at h1 h2
    revert h1 h2
    show c.val.toNat ≤ 57 → 65 ≤ c.val.toNat → False
    omega
  · revert hne; decide

theorem subst_items {g py g' : Text} {d : Char} (hg : g = d :: g') (hd : d.isUpper = true)
    (hgw : ∀ c ∈ g, wordChar c = true) (l : Items) (hl : Fit l) (prev : Bool)
    (hprev : prev = true → ∀ x ∈ l.head?, x.1.word = false) :
    subst g py 0 prev (spell ['^'] l) = spell ['^'] (l.map (ren g py)) := by
  induction l generalizing prev with
  | nil => simp [spell, subst]
  | cons x l ih =>
    obtain ⟨x, n⟩ := x
    have hp : ∀ c ∈ (['^'] : Text).head?, c = '^' ∨ c = '*' := by simp
    have sign : ∀ c : Char, c.isUpper = false → wordChar c = false →
        subst g py 0 prev ([c] ++ (List.replicate n ' ' ++ spell ['^'] l))
          = [c] ++ (List.replicate n ' ' ++ spell ['^'] (l.map (ren g py))) := by
      intro c h1 h2
      rw [← List.append_assoc, subst_other hg hd _ _ (by
        intro e he
        rcases List.mem_append.1 he with he | he
        · rw [List.mem_singleton.1 he]; exact h1
        · exact blank_notUpper n e he), ih hl.tail, List.append_assoc]
      intro h
      exfalso
      by_cases hn : n = 0
      · subst hn; simp [h2] at h
      · rw [last_append _ _ _ hn] at h; cases h
    have word : ∀ w : Text, Sym.IsWord w → prev = false →
        callAt g (w ++ (List.replicate n ' ' ++ spell ['^'] l)) = none →
        (n = 0 → ∀ y ∈ l.head?, y.1.word = false) →
        subst g py 0 prev (w ++ (List.replicate n ' ' ++ spell ['^'] l))
          = w ++ (List.replicate n ' ' ++ spell ['^'] (l.map (ren g py))) := by
      intro w h1 h2 h3 h4
      rw [word_pass h1 h2 h3, subst_other hg hd _ _ (blank_notUpper n), last_blanks, ih hl.tail]
      intro h
      by_cases hn : n = 0
      · exact h4 hn
      · rw [if_neg hn] at h; cases h
    have hv := hl.valid (x, n) (by simp)
    have next : ∀ y ∈ l.head?, x.ok y.1 := by
      intro y hy
      cases l with
      | nil => simp at hy
      | cons z l =>
        simp only [List.head?_cons, Option.mem_some_iff] at hy
        subst hy
        exact hl.next
    cases x with
    | num s q =>
      rw [spell_cons, List.map_cons, spell_cons]
      show subst g py 0 prev (s ++ (List.replicate n ' ' ++ spell ['^'] l))
        = s ++ (List.replicate n ' ' ++ spell ['^'] (l.map (ren g py)))
      obtain ⟨⟨c, t, rfl, hc, ht⟩, -⟩ := hv
      rw [← List.append_assoc, subst_other hg hd _ _ (by
        intro e he
        rcases List.mem_append.1 he with he | he
        · apply numChar_notUpper
          rcases List.mem_cons.1 he with rfl | he
          · simp [numChar, hc]
          · exact ht e he
        · exact blank_notUpper n e he), ih hl.tail, List.append_assoc]
      intro _ y hy
      exact (next y hy).1
    | var s =>
      rw [spell_cons, List.map_cons, spell_cons]
      refine word s hv.1 ?_ ?_ fun _ y hy => (next y hy).1
      · cases prev
        · rfl
        · have := hprev rfl (.var s, n) (by simp); simp [Sym.word] at this
      · exact callAt_word hgw (fun c hc => (head_nonword hp (fun y hy => (next y hy).1)
          (by simp) c hc).1) (IsWord.chars hv.1)
          fun _ => afterParen_none hp (fun y hy => next y hy) (by simp)
    | fn f =>
      have hpf : prev = false := by
        cases prev
        · rfl
        · have := hprev rfl (.fn f, n) (by simp); simp [Sym.word] at this
      by_cases hfg : f = g
      · subst hfg
        cases l with
        | nil =>
          have := hl.last (.fn f, n) (by simp)
          simp [Sym.closing] at this
        | cons y l =>
          obtain ⟨y, m⟩ := y
          have hy : y = .lpar := next (y, m) (by simp)
          subst hy
          have ihf := ih hl.tail false (by simp)
          rw [List.map_cons, spell_cons, spell_cons] at ihf
          simp only [Sym.text, ren] at ihf
          have hnone : callAt f ('(' :: (List.replicate m ' ' ++ spell ['^'] l)) = none :=
            callAt_head hg (by rintro rfl; revert hd; decide)
          rw [List.singleton_append, List.singleton_append, subst_pass (Or.inr hnone),
            List.cons.injEq] at ihf
          have hren : ren f py (.fn f, n) = (.fn py, 0) := by simp [ren]
          have hren2 : ren f py (.lpar, m) = (.lpar, m) := rfl
          rw [spell_cons, spell_cons, List.map_cons, List.map_cons, hren, hren2, spell_cons,
            spell_cons]
          simp only [Sym.text, List.replicate_zero, List.nil_append, List.singleton_append]
          rw [← ihf.2]
          generalize List.replicate m ' ' ++ spell ['^'] l = rest
          have hap : afterParen (List.replicate n ' ' ++ '(' :: rest) = some rest := by
            clear * -
            induction n with
            | zero => simp [afterParen]
            | succ n ih =>
              rw [List.replicate_succ, List.cons_append, afterParen, ih, if_neg (by decide),
                if_pos (by decide)]
          have hcall : callAt f (f ++ (List.replicate n ' ' ++ '(' :: rest)) = some rest := by
            unfold callAt
            rw [if_pos (by simp), List.drop_left, hap]
          rw [hpf]
          subst hg
          rw [List.cons_append] at hcall ⊢
          rw [subst, if_neg (by simp), hcall]
          have hlen : (g' ++ (List.replicate n ' ' ++ '(' :: rest)).length - rest.length
              = (g' ++ List.replicate n ' ' ++ ['(']).length := by simp; omega
          show py ++ '(' :: subst (d :: g') py
            ((g' ++ (List.replicate n ' ' ++ '(' :: rest)).length - rest.length) (wordChar d)
            (g' ++ (List.replicate n ' ' ++ '(' :: rest)) = _
          rw [hlen]
          have hsplit : g' ++ (List.replicate n ' ' ++ '(' :: rest)
              = (g' ++ List.replicate n ' ' ++ ['(']) ++ rest := by simp
          rw [hsplit, subst_skip]
          simp only [List.getLast?_append, List.getLast?_singleton, Option.some_or, Option.map_some,
            Option.getD_some]
      · have hren : ren g py (.fn f, n) = (.fn f, n) := by simp [ren, hfg]
        rw [spell_cons, List.map_cons, hren, spell_cons]
        have hnw : ∀ y ∈ l.head?, y.1.word = false := by
          intro y hy
          have : y.1 = .lpar := next y hy
          rw [this]; rfl
        refine word f hv.1 hpf ?_ fun _ => hnw
        exact callAt_word hgw (fun c hc => (head_nonword hp hnw (by simp) c hc).1)
          (IsWord.chars hv.1) fun h => absurd h hfg
    | plus => rw [spell_cons, List.map_cons, spell_cons]; exact sign '+' (by decide) (by decide)
    | minus => rw [spell_cons, List.map_cons, spell_cons]; exact sign '-' (by decide) (by decide)
    | star => rw [spell_cons, List.map_cons, spell_cons]; exact sign '*' (by decide) (by decide)
    | slash => rw [spell_cons, List.map_cons, spell_cons]; exact sign '/' (by decide) (by decide)
    | caret => rw [spell_cons, List.map_cons, spell_cons]; exact sign '^' (by decide) (by decide)
    | lpar => rw [spell_cons, List.map_cons, spell_cons]; exact sign '(' (by decide) (by decide)
    | rpar => rw [spell_cons, List.map_cons, spell_cons]; exact sign ')' (by decide) (by decide)
    | comma => rw [spell_cons, List.map_cons, spell_cons]; exact sign ',' (by decide) (by decide)

/-! ### All substitutions -/

theorem ren_fst_ok (g py : Text) (a b : Sym × ℕ) (h : a.1.ok b.1) :
    (ren g py a).1.ok (ren g py b).1 := by
  obtain ⟨a, n⟩ := a
  obtain ⟨b, m⟩ := b
  cases a <;> cases b <;> simp only [ren] <;> (try split_ifs) <;>
    simp_all [Sym.ok, Sym.closing, Sym.opening, Sym.word]

theorem Fit.ren {g py : Text} (hpy : Sym.IsWord py ∧ py ∉ keywords) {l : Items} (h : Fit l) :
    Fit (l.map (ren g py)) := by
  refine ⟨?_, ?_, ?_⟩
  · have := h.chain
    rw [List.isChain_map] at this
    rw [List.map_map, List.isChain_map]
    exact this.imp fun a b hab => ren_fst_ok g py a b hab
  · intro x hx
    obtain ⟨y, hy, rfl⟩ := List.mem_map.1 hx
    have := h.valid y hy
    obtain ⟨y, n⟩ := y
    cases y <;> simp only [Ftext.ren] <;> (try split_ifs) <;> first | exact this | exact hpy
  · intro x hx
    rw [List.getLast?_map] at hx
    simp only [Option.mem_def, Option.map_eq_some_iff] at hx
    obtain ⟨y, hy, rfl⟩ := hx
    have := h.last y hy
    obtain ⟨y, n⟩ := y
    cases y <;> simp_all [Sym.closing, Ftext.ren]

/-- What is needed of the table of functions. -/
def tableOk (p : Text × Text) : Bool :=
  (match p.1 with
    | [] => false
    | d :: _ => d.isUpper) && p.1.all wordChar &&
  (match p.2 with
    | [] => false
    | c :: t => c.isAlpha && t.all wordChar) && !keywords.contains p.2

theorem excelFuncs_ok : ∀ p ∈ excelFuncs, tableOk p = true := by decide

theorem fold_subst (fs : List (Text × Text)) (hfs : ∀ p ∈ fs, tableOk p = true) (l : Items)
    (hl : Fit l) :
    fs.foldl (fun s p => subst p.1 p.2 0 false s) (spell ['^'] l)
      = spell ['^'] (fs.foldl (fun l p => l.map (ren p.1 p.2)) l) ∧
    Fit (fs.foldl (fun l p => l.map (ren p.1 p.2)) l) := by
  induction fs generalizing l with
  | nil => exact ⟨rfl, hl⟩
  | cons p fs ih =>
    have hp := hfs p List.mem_cons_self
    obtain ⟨g, py⟩ := p
    simp only [tableOk, Bool.and_eq_true] at hp
    obtain ⟨⟨⟨h1, h2⟩, h3⟩, h4⟩ := hp
    cases g with
    | nil => simp at h1
    | cons d g' =>
      cases py with
      | nil => simp at h3
      | cons c t =>
        simp only [Bool.and_eq_true, List.all_eq_true] at h2 h3
        have hpy : Sym.IsWord (c :: t) ∧ (c :: t) ∉ keywords :=
          ⟨⟨c, t, rfl, Or.inl h3.1, h3.2⟩, by simpa using h4⟩
        rw [List.foldl_cons, List.foldl_cons]
        dsimp only
        rw [subst_items rfl h1 h2 l hl false (by simp)]
        exact ih (fun p hp => hfs p (List.mem_cons_of_mem _ hp)) _ (hl.ren hpy)

theorem fold_map {α : Type} {β : Type} (fs : List α) (r : α → β → β) (l : List β) :
    fs.foldl (fun l p => l.map (r p)) l = l.map fun x => fs.foldl (fun x p => r p x) x := by
  induction fs generalizing l with
  | nil => simp
  | cons p fs ih => rw [List.foldl_cons, ih, List.map_map]; rfl

/-- The name of a function in Python. -/
def pyName (f : Text) : Text := (excelFuncs.lookup f).getD f

/-- The token of a symbol after the substitutions. -/
def pyTok : Sym → Tok
  | .fn f => .name (pyName f)
  | x => x.tok

/-- A function of the table. -/
def known : Sym → Prop
  | .fn f => f ∈ excelFuncs.map Prod.fst
  | _ => True

theorem ren_fold (x : Sym × ℕ) (h : known x.1) :
    ((excelFuncs.foldl (fun x p => ren p.1 p.2 x) x).1).tok = pyTok x.1 := by
  obtain ⟨x, n⟩ := x
  cases x with
  | fn f =>
    simp only [known, excelFuncs, List.map_cons, List.map_nil, List.mem_cons, List.not_mem_nil,
      or_false] at h
    rcases h with rfl | rfl | rfl | rfl | rfl | rfl | rfl | rfl | rfl | rfl | rfl | rfl | rfl <;> rfl
  | _ => rfl

/-! ### The power sign -/

theorem carets_append (s t : Text) : carets (s ++ t) = carets s ++ carets t := by
  simp [carets]

theorem carets_id {s : Text} (h : '^' ∉ s) : carets s = s := by
  induction s with
  | nil => rfl
  | cons c s ih =>
    simp only [List.mem_cons, not_or] at h
    have : carets (c :: s) = [c] ++ carets s := by
      show (if c == '^' then ['*', '*'] else [c]) ++ carets s = _
      rw [if_neg (by simpa using fun hc => h.1 hc.symm)]
    rw [this, ih h.2]; rfl

theorem carets_spell (l : Items) (h : ∀ x ∈ l, x.1.valid) :
    carets (spell ['^'] l) = spell ['*', '*'] l := by
  induction l with
  | nil => rfl
  | cons x l ih =>
    rw [spell_cons, spell_cons, carets_append, carets_append,
      ih fun x hx => h x (List.mem_cons_of_mem _ hx), carets_id (s := List.replicate _ _)]
    · congr 1
      obtain ⟨x, n⟩ := x
      have hx := h (x, n) List.mem_cons_self
      cases x with
      | num s q =>
        refine carets_id fun hm => ?_
        obtain ⟨⟨c, t, rfl, hc, ht⟩, -⟩ := hx
        rcases List.mem_cons.1 hm with h | hm
        · subst h; revert hc; decide
        · have := ht _ hm; revert this; decide
      | var s =>
        refine carets_id fun hm => ?_
        have := IsWord.chars hx.1 _ hm; revert this; decide
      | fn s =>
        refine carets_id fun hm => ?_
        have := IsWord.chars hx.1 _ hm; revert this; decide
      | _ => rfl
    · intro hm
      have := List.eq_of_mem_replicate hm
      revert this; decide

/-! ### Tokens -/

theorem lex_blanks (f n : ℕ) (s : Text) : lexAux (f + n) (List.replicate n ' ' ++ s) = lexAux f s := by
  induction n with
  | zero => rfl
  | succ n ih =>
    rw [List.replicate_succ, List.cons_append, ← Nat.add_assoc, lexAux, if_pos (by decide), ih]

theorem while_append {P : Char → Bool} {u r : Text} (hu : ∀ c ∈ u, P c = true)
    (hr : ∀ c ∈ r.head?, P c = false) :
    (u ++ r).takeWhile P = u ∧ (u ++ r).dropWhile P = r := by
  induction u with
  | nil =>
    cases r with
    | nil => exact ⟨rfl, rfl⟩
    | cons c r =>
      have := hr c (by simp)
      simp [this]
  | cons c u ih =>
    have h := hu c List.mem_cons_self
    obtain ⟨h1, h2⟩ := ih fun c hc => hu c (List.mem_cons_of_mem _ hc)
    simp [h, h1, h2]

theorem lex_word {w r : Text} (hw : Sym.IsWord w) (hk : w ∉ keywords)
    (hr : ∀ c ∈ r.head?, wordChar c = false ∧ c ≠ '.') (f : ℕ) :
    lexAux (f + 1) (w ++ r) = (lexAux f r).map (.name w :: ·) := by
  have hchars := IsWord.chars hw
  obtain ⟨c, t, rfl, hc, ht⟩ := hw
  have hcw := hchars c (by simp)
  obtain ⟨h1, h2⟩ := while_append ht fun c hc => (hr c hc).1
  have hne : ∀ d : Char, wordChar d = false → (c == d) = false := by
    intro d hd
    rw [beq_eq_false_iff_ne]
    rintro rfl
    rw [hd] at hcw; cases hcw
  have hcc : (c.isAlpha || c == '_') = true := by simpa using hc
  rw [List.cons_append, lexAux]
  simp only [hne ' ' (by decide), hne '+' (by decide), hne '-' (by decide), hne '(' (by decide),
    hne ')' (by decide), hne ',' (by decide), hne '/' (by decide), hne '*' (by decide), hcc,
    Bool.false_eq_true, if_false, if_true, h1, h2]
  rw [if_neg hk]

theorem digit_props {c : Char} (hc : c.isDigit = true) : (c.isAlpha || c == '_') = false ∧
    numChar c = true := by
  refine ⟨?_, by simp [numChar, hc]⟩
  simp only [Char.isDigit, Bool.and_eq_true, decide_eq_true_eq] at hc
  have h1 := hc.2
  have h2 := hc.1
  rw [ge_iff_le] at h2
  rw [UInt32.le_iff_toNat_le] at h1 h2
  change c.val.toNat ≤ 57 at h1
  change 48 ≤ c.val.toNat at h2
  rw [Bool.or_eq_false_iff]
  constructor
  · by_contra hne
    rw [Bool.not_eq_false, Char.isAlpha, Char.isUpper, Char.isLower] at hne
    simp only [Bool.or_eq_true, Bool.and_eq_true, decide_eq_true_eq, ge_iff_le,
      UInt32.le_iff_toNat_le] at hne
    change (65 ≤ c.val.toNat ∧ c.val.toNat ≤ 90) ∨ (97 ≤ c.val.toNat ∧ c.val.toNat ≤ 122) at hne
    omega
  · rw [beq_eq_false_iff_ne]
    rintro rfl
    revert h1; decide

theorem lex_num {s r : Text} {q : ℚ} (hs : (Sym.num s q).valid)
    (hr : ∀ c ∈ r.head?, wordChar c = false ∧ c ≠ '.') (f : ℕ) :
    lexAux (f + 1) (s ++ r) = (lexAux f r).map (.num q :: ·) := by
  obtain ⟨⟨c, t, rfl, hc, ht⟩, hq⟩ := hs
  obtain ⟨hca, hcn⟩ := digit_props hc
  have hnum : ∀ d ∈ r.head?, numChar d = false := by
    intro d hd
    obtain ⟨h1, h2⟩ := hr d hd
    rw [wordChar, Char.isAlphanum] at h1
    simp only [Bool.or_eq_false_iff] at h1
    simp [numChar, h1.1.2, h2]
  obtain ⟨h1, h2⟩ := while_append ht hnum
  have hne : ∀ d : Char, numChar d = false → (c == d) = false := by
    intro d hd
    rw [beq_eq_false_iff_ne]
    rintro rfl
    rw [hd] at hcn; cases hcn
  have hrw : (r.head?.map wordChar).getD false = false := by
    cases r with
    | nil => rfl
    | cons d r => exact (hr d (by simp)).1
  rw [List.cons_append, lexAux]
  simp only [hne ' ' (by decide), hne '+' (by decide), hne '-' (by decide), hne '(' (by decide),
    hne ')' (by decide), hne ',' (by decide), hne '/' (by decide), hne '*' (by decide), hca, hc,
    Bool.false_eq_true, if_false, if_true, h1, h2, hq, hrw]

/-- An operand never starts with one of the characters `*` and `/`. -/
theorem head_opening {p : Text} {n : ℕ} {l : Items} (hv : ∀ x ∈ l, x.1.valid)
    (h : ∀ y ∈ l.head?, y.1.opening = true) :
    ∀ c ∈ (List.replicate n ' ' ++ spell p l).head?, c ≠ '*' ∧ c ≠ '/' := by
  cases n with
  | succ n =>
    intro c hc
    rw [List.replicate_succ] at hc
    simp only [List.cons_append, List.head?_cons, Option.mem_some_iff] at hc
    subst hc; exact ⟨by decide, by decide⟩
  | zero =>
    cases l with
    | nil => intro c hc; simp [spell] at hc
    | cons y l =>
      intro c hc
      rw [List.replicate_zero, List.nil_append, spell_cons] at hc
      obtain ⟨y, m⟩ := y
      have hy := h (y, m) (by simp)
      have hvy := hv (y, m) (by simp)
      have hword : ∀ w, Sym.IsWord w → c ∈ (w ++ (List.replicate m ' ' ++ spell p l)).head? →
          c ≠ '*' ∧ c ≠ '/' := by
        intro w hw hc
        have := IsWord.chars hw
        obtain ⟨d, t, rfl, -, -⟩ := hw
        simp only [List.cons_append, List.head?_cons, Option.mem_some_iff] at hc
        subst hc
        have := this d (by simp)
        constructor <;> (rintro rfl; revert this; decide)
      cases y <;> simp only [Sym.opening, Bool.false_eq_true] at hy
      case num s q =>
        obtain ⟨⟨d, t, rfl, hd, -⟩, -⟩ := hvy
        simp only [Sym.text, List.cons_append, List.head?_cons, Option.mem_some_iff] at hc
        subst hc
        constructor <;> (rintro rfl; revert hd; decide)
      case var s => exact hword s hvy.1 hc
      case fn s => exact hword s hvy.1 hc
      all_goals
        simp only [Sym.text, List.cons_append, List.head?_cons, Option.mem_some_iff] at hc
        subst hc
        constructor <;> decide

theorem lex_items (l : Items) (hl : Fit l) (f : ℕ) (hf : (spell ['*', '*'] l).length < f) :
    lexAux f (spell ['*', '*'] l) = some (l.map fun x => x.1.tok) := by
  induction l generalizing f with
  | nil =>
    obtain ⟨f, rfl⟩ : ∃ g, f = g + 1 := ⟨f - 1, by omega⟩
    rfl
  | cons x l ih =>
    obtain ⟨x, n⟩ := x
    have hp : ∀ c ∈ (['*', '*'] : Text).head?, c = '^' ∨ c = '*' := by simp
    have hv := hl.valid (x, n) (by simp)
    have next : ∀ y ∈ l.head?, x.ok y.1 := by
      intro y hy
      cases l with
      | nil => simp at hy
      | cons z l =>
        simp only [List.head?_cons, Option.mem_some_iff] at hy
        subst hy
        exact hl.next
    have hlast := hl.last
    obtain ⟨f, rfl⟩ : ∃ g, f = g + 1 := ⟨f - 1, by omega⟩
    rw [spell_cons] at hf ⊢
    simp only [List.length_append, List.length_replicate] at hf
    have rest : ∀ f, (spell ['*', '*'] l).length + n < f →
        lexAux f (List.replicate n ' ' ++ spell ['*', '*'] l) = some (l.map fun x => x.1.tok) := by
      intro f hf
      obtain ⟨g, rfl⟩ : ∃ g, f = g + n := ⟨f - n, by omega⟩
      rw [lex_blanks, ih hl.tail _ (by omega)]
    have tailv : ∀ x ∈ l, x.1.valid := fun x hx => hl.valid x (List.mem_cons_of_mem _ hx)
    cases x with
    | num s q =>
      have hr := head_nonword (n := n) hp (fun y hy => (next y hy).1) (by simp)
      have : 0 < s.length := by
        obtain ⟨⟨c, t, rfl, -⟩, -⟩ := hv
        simp
      simp only [Sym.text] at hf ⊢
      rw [lex_num hv hr, rest f (by omega)]; rfl
    | var s =>
      have hr := head_nonword (n := n) hp (fun y hy => (next y hy).1) (by simp)
      have : 0 < s.length := by
        obtain ⟨⟨c, t, rfl, -⟩, -⟩ := hv
        simp
      simp only [Sym.text] at hf ⊢
      rw [lex_word hv.1 hv.2 hr, rest f (by omega)]; rfl
    | fn s =>
      have hnw : ∀ y ∈ l.head?, y.1.word = false := by
        intro y hy
        have : y.1 = .lpar := next y hy
        rw [this]; rfl
      have hr := head_nonword (n := n) hp hnw (by simp)
      have : 0 < s.length := by
        obtain ⟨⟨c, t, rfl, -⟩, -⟩ := hv
        simp
      simp only [Sym.text] at hf ⊢
      rw [lex_word hv.1 hv.2 hr, rest f (by omega)]; rfl
    | slash =>
      have ho := head_opening (p := ['*', '*']) (n := n) tailv fun y hy => next y hy
      simp only [Sym.text, List.length_singleton, List.singleton_append] at hf ⊢
      have : ¬ (List.replicate n ' ' ++ spell ['*', '*'] l).head? = some '/' :=
        fun h => (ho '/' h).2 rfl
      rw [lexAux, if_neg (by decide), if_neg (by decide), if_neg (by decide), if_neg (by decide),
        if_neg (by decide), if_neg (by decide), if_pos (by decide), if_neg this, rest f (by omega)]
      rfl
    | star =>
      have ho := head_opening (p := ['*', '*']) (n := n) tailv fun y hy => next y hy
      simp only [Sym.text, List.length_singleton, List.singleton_append] at hf ⊢
      have : ¬ (List.replicate n ' ' ++ spell ['*', '*'] l).head? = some '*' :=
        fun h => (ho '*' h).1 rfl
      rw [lexAux, if_neg (by decide), if_neg (by decide), if_neg (by decide), if_neg (by decide),
        if_neg (by decide), if_neg (by decide), if_neg (by decide), if_pos (by decide), if_neg this,
        rest f (by omega)]
      rfl
    | caret =>
      simp only [Sym.text, List.length_cons, List.length_nil] at hf ⊢
      rw [show (['*', '*'] : Text) ++ (List.replicate n ' ' ++ spell ['*', '*'] l)
        = '*' :: '*' :: (List.replicate n ' ' ++ spell ['*', '*'] l) from rfl, lexAux]
      simp [rest f (by omega), Sym.tok]
    | _ =>
      simp only [Sym.text, List.length_singleton, List.singleton_append] at hf ⊢
      rw [lexAux]
      simp [rest f (by omega), Sym.tok]

theorem lex_rewrite (l : Items) (hl : Fit l) (hk : ∀ x ∈ l, known x.1) :
    lex (rewrite (spell ['^'] l)) = some (l.map fun x => pyTok x.1) := by
  obtain ⟨h1, h2⟩ := fold_subst excelFuncs excelFuncs_ok l hl
  have hrw : rewrite (spell ['^'] l)
      = spell ['*', '*'] (excelFuncs.foldl (fun l p => l.map (ren p.1 p.2)) l) := by
    unfold rewrite
    rw [h1, carets_spell _ h2.valid]
  have htok : ((excelFuncs.foldl (fun l p => l.map (ren p.1 p.2)) l).map fun x => x.1.tok)
      = l.map fun x => pyTok x.1 := by
    rw [fold_map, List.map_map]
    exact List.map_congr_left fun x hx => ren_fold x (hk x hx)
  rw [hrw, lex, if_neg, lex_items _ h2 _ (by omega), htok]
  generalize excelFuncs.foldl (fun l p => l.map (ren p.1 p.2)) l = m at h2
  cases m with
  | nil => simp [spell]
  | cons x m =>
    obtain ⟨x, n⟩ := x
    have hv := h2.valid (x, n) (by simp)
    rw [spell_cons]
    cases x with
    | num s q =>
      obtain ⟨⟨c, t, rfl, hc, -⟩, -⟩ := hv
      simp only [Sym.text, List.cons_append, List.head?_cons, Option.some.injEq]
      rintro rfl; revert hc; decide
    | var s =>
      have := IsWord.chars hv.1
      obtain ⟨⟨c, t, rfl, hc, -⟩, -⟩ := hv
      simp only [Sym.text, List.cons_append, List.head?_cons, Option.some.injEq]
      rintro rfl; have := this ' ' (by simp); revert this; decide
    | fn s =>
      have := IsWord.chars hv.1
      obtain ⟨⟨c, t, rfl, hc, -⟩, -⟩ := hv
      simp only [Sym.text, List.cons_append, List.head?_cons, Option.some.injEq]
      rintro rfl; have := this ' ' (by simp); revert this; decide
    | _ => simp [Sym.text]

end Welleng.Ftext
