import Verif.Lemmas.FormulaText

/-! The reader returns the tree of a written formula. -/

namespace Welleng.Ftext

open Wbp (Text)
open Welleng.Spec (Formula Level Written Numeral Blank)

/-- The tree of a formula. -/
def tree : Formula → Tree
  | .num q => .num q
  | .var s => .name s.toList
  | .neg a => .un .usub (tree a)
  | .add a b => .bin .add (tree a) (tree b)
  | .sub a b => .bin .sub (tree a) (tree b)
  | .mul a b => .bin .mult (tree a) (tree b)
  | .div a b => .bin .div (tree a) (tree b)
  | .pow a b => .bin .pow (tree a) (tree b)
  | .fn1 f a => .call (.name (pyName f.toList)) [tree a]
  | .fn2 f a b => .call (.name (pyName f.toList)) [tree a, tree b]

/-! ### The parser -/

/-- What follows does not start with one of `bad`. -/
def Off (bad : List Tok) (rest : List Tok) : Prop := ∀ t ∈ rest.head?, t ∉ bad

theorem Off.nil (bad : List Tok) : Off bad [] := by intro t ht; simp at ht

theorem Off.cons {bad : List Tok} {t : Tok} {r : List Tok} (h : t ∉ bad) : Off bad (t :: r) := by
  intro u hu
  simp only [List.head?_cons, Option.mem_some_iff] at hu
  exact hu ▸ h

theorem Off.mono {a b rest : List Tok} (h : Off a rest) (hab : ∀ t ∈ b, t ∈ a) : Off b rest :=
  fun t ht hb => h t ht (hab t hb)

/-- What the parser functions do on the tokens `ts` of a formula of level `l` with tree `e`. -/
def Reads : Level → List Tok → Tree → Prop
  | .atom, ts, e => Off [.plus, .minus] ts ∧ ∀ f rest, 8 * ts.length + 1 ≤ f → Off [.lpar] rest →
      pPrimary f (ts ++ rest) = some (e, rest)
  | .power, ts, e => Off [.plus, .minus] ts ∧ ∀ f rest, 8 * ts.length + 2 ≤ f →
      Off [.lpar, .dstar] rest → pPower f (ts ++ rest) = some (e, rest)
  | .sign, ts, e => ∀ f rest, 8 * ts.length + 3 ≤ f →
      Off [.lpar, .dstar] rest → pFactor f (ts ++ rest) = some (e, rest)
  | .term, ts, e => ∃ j, 1 ≤ j ∧ j ≤ ts.length ∧ ∀ f rest, 8 * ts.length + 4 ≤ f →
      Off [.lpar, .dstar] rest → pTerm f (ts ++ rest) = pTermTail (f - j) e rest
  | .sum, ts, e => ∃ j, 1 ≤ j ∧ j ≤ ts.length ∧ ∀ f rest, 8 * ts.length + 5 ≤ f →
      Off [.lpar, .dstar, .star, .slash] rest → pSum f (ts ++ rest) = pSumTail (f - j) e rest

theorem pCalls_stop {f : ℕ} {a : Tree} {rest : List Tok} (h : Off [.lpar] rest) :
    pCalls (f + 1) a rest = some (a, rest) := by
  rcases rest with _ | ⟨t, r⟩
  · rfl
  · have := h t (by simp)
    cases t <;> first | rfl | simp at this

theorem pTermTail_stop {f : ℕ} {a : Tree} {rest : List Tok} (h : Off [.star, .slash] rest) :
    pTermTail (f + 1) a rest = some (a, rest) := by
  rcases rest with _ | ⟨t, r⟩
  · rfl
  · have := h t (by simp)
    cases t <;> first | rfl | simp at this

theorem pSumTail_stop {f : ℕ} {a : Tree} {rest : List Tok} (h : Off [.plus, .minus] rest) :
    pSumTail (f + 1) a rest = some (a, rest) := by
  rcases rest with _ | ⟨t, r⟩
  · rfl
  · have := h t (by simp)
    cases t <;> first | rfl | simp at this

theorem pFactor_power {f : ℕ} {ts : List Tok} (h : Off [.plus, .minus] ts) :
    pFactor (f + 1) ts = pPower f ts := by
  rcases ts with _ | ⟨t, r⟩
  · rfl
  · have := h t (by simp)
    cases t <;> first | rfl | simp at this

theorem pPower_plain {f : ℕ} {ts rest : List Tok} {e : Tree} (h : pPrimary f ts = some (e, rest))
    (hr : Off [.dstar] rest) : pPower (f + 1) ts = some (e, rest) := by
  rw [pPower, h]
  rcases rest with _ | ⟨t, r⟩
  · rfl
  · have := hr t (by simp)
    cases t <;> first | rfl | simp at this

theorem pPower_pow {f : ℕ} {ts r rest : List Tok} {a b : Tree}
    (h : pPrimary f ts = some (a, .dstar :: r)) (hb : pFactor f r = some (b, rest)) :
    pPower (f + 1) ts = some (.bin .pow a b, rest) := by
  rw [pPower, h]
  show (pFactor f r).map _ = _
  rw [hb]; rfl

theorem pCalls_args {f : ℕ} {a : Tree} {r r' : List Tok} {as : List Tree} (h : Off [.rpar] r)
    (hr : pArgs f r = some (as, r')) :
    pCalls (f + 1) a (.lpar :: r) = pCalls f (.call a as) r' := by
  rcases r with _ | ⟨t, r⟩
  · simp only [pCalls, hr]
  · have := h t (by simp)
    cases t <;> first | (simp at this; done) | simp only [pCalls, hr]

theorem pArgs_last {f : ℕ} {ts r : List Tok} {a : Tree} (h : pSum f ts = some (a, .rpar :: r)) :
    pArgs (f + 1) ts = some ([a], r) := by
  simp only [pArgs, h]

theorem pArgs_more {f : ℕ} {ts r r' : List Tok} {a : Tree} {as : List Tree}
    (h : pSum f ts = some (a, .comma :: r)) (hr : Off [.rpar] r) (h' : pArgs f r = some (as, r')) :
    pArgs (f + 1) ts = some (a :: as, r') := by
  rcases r with _ | ⟨t, r⟩
  · simp only [pArgs, h, h']; rfl
  · have := hr t (by simp)
    cases t <;> first | (simp at this; done) | (simp only [pArgs, h, h']; rfl)

theorem off_append {bad ts rest : List Tok} (h : Off bad ts) (hn : ts ≠ []) : Off bad (ts ++ rest) := by
  intro t ht
  rw [List.head?_append_of_ne_nil _ hn] at ht
  exact h t ht

theorem Reads.sum_done {ts : List Tok} {e : Tree} (h : Reads .sum ts e) {f : ℕ} {rest : List Tok}
    (hf : 8 * ts.length + 5 ≤ f)
    (hr : Off [.lpar, .dstar, .star, .slash, .plus, .minus] rest) :
    pSum f (ts ++ rest) = some (e, rest) := by
  obtain ⟨j, h1, h2, h⟩ := h
  rw [h f rest hf (hr.mono (by simp)), show f - j = (f - j - 1) + 1 by omega]
  exact pSumTail_stop (hr.mono (by simp))

theorem Reads.term_done {ts : List Tok} {e : Tree} (h : Reads .term ts e) {f : ℕ} {rest : List Tok}
    (hf : 8 * ts.length + 4 ≤ f) (hr : Off [.lpar, .dstar, .star, .slash] rest) :
    pTerm f (ts ++ rest) = some (e, rest) := by
  obtain ⟨j, h1, h2, h⟩ := h
  rw [h f rest hf (hr.mono (by simp)), show f - j = (f - j - 1) + 1 by omega]
  exact pTermTail_stop (hr.mono (by simp))

theorem reads_num (q : ℚ) : Reads .atom [.num q] (.num q) := by
  refine ⟨Off.cons (by simp), fun f rest hf hr => ?_⟩
  obtain ⟨f, rfl⟩ : ∃ g, f = g + 2 := ⟨f - 2, by simp at hf; omega⟩
  exact pCalls_stop hr

theorem reads_name (s : Text) : Reads .atom [.name s] (.name s) := by
  refine ⟨Off.cons (by simp), fun f rest hf hr => ?_⟩
  obtain ⟨f, rfl⟩ : ∃ g, f = g + 2 := ⟨f - 2, by simp at hf; omega⟩
  exact pCalls_stop hr

theorem reads_paren {ts : List Tok} {e : Tree} (h : Reads .sum ts e) :
    Reads .atom (.lpar :: (ts ++ [.rpar])) e := by
  refine ⟨Off.cons (by simp), fun f rest hf hr => ?_⟩
  simp only [List.length_cons, List.length_append, List.length_nil] at hf
  obtain ⟨f, rfl⟩ : ∃ g, f = g + 2 := ⟨f - 2, by omega⟩
  have h1 : pSum (f + 1) (ts ++ .rpar :: rest) = some (e, .rpar :: rest) :=
    h.sum_done (by omega) (Off.cons (by simp))
  rw [List.cons_append, List.append_assoc]
  simp only [List.singleton_append, pPrimary, h1]
  exact pCalls_stop hr

theorem reads_call1 {g : Text} {ts : List Tok} {e : Tree} (h : Reads .sum ts e) (hn : ts ≠ [])
    (ho : Off [.rpar] ts) :
    Reads .atom (.name g :: .lpar :: (ts ++ [.rpar])) (.call (.name g) [e]) := by
  refine ⟨Off.cons (by simp), fun f rest hf hr => ?_⟩
  simp only [List.length_cons, List.length_append, List.length_nil] at hf
  obtain ⟨f, rfl⟩ : ∃ g, f = g + 5 := ⟨f - 5, by omega⟩
  have h1 : pSum (f + 2) (ts ++ .rpar :: rest) = some (e, .rpar :: rest) :=
    h.sum_done (by omega) (Off.cons (by simp))
  simp only [List.cons_append, List.append_assoc, List.nil_append, pPrimary]
  rw [pCalls_args (off_append ho hn) (pArgs_last h1)]
  exact pCalls_stop hr

theorem reads_call2 {g : Text} {ts us : List Tok} {a b : Tree} (ha : Reads .sum ts a)
    (hb : Reads .sum us b) (hn : ts ≠ []) (ho : Off [.rpar] ts) (hn' : us ≠ [])
    (ho' : Off [.rpar] us) :
    Reads .atom (.name g :: .lpar :: (ts ++ .comma :: (us ++ [.rpar]))) (.call (.name g) [a, b]) := by
  refine ⟨Off.cons (by simp), fun f rest hf hr => ?_⟩
  simp only [List.length_cons, List.length_append, List.length_nil] at hf
  obtain ⟨f, rfl⟩ : ∃ g, f = g + 6 := ⟨f - 6, by omega⟩
  have h1 : pSum (f + 3) (ts ++ .comma :: (us ++ .rpar :: rest))
      = some (a, .comma :: (us ++ .rpar :: rest)) :=
    ha.sum_done (by omega) (Off.cons (by simp))
  have h2 : pSum (f + 2) (us ++ .rpar :: rest) = some (b, .rpar :: rest) :=
    hb.sum_done (by omega) (Off.cons (by simp))
  simp only [List.cons_append, List.append_assoc, List.nil_append, pPrimary]
  rw [pCalls_args (off_append ho hn) (pArgs_more h1 (off_append ho' hn') (pArgs_last h2))]
  exact pCalls_stop hr

theorem Reads.power {ts : List Tok} {e : Tree} (h : Reads .atom ts e) : Reads .power ts e := by
  refine ⟨h.1, fun f rest hf hr => ?_⟩
  obtain ⟨f, rfl⟩ : ∃ g, f = g + 1 := ⟨f - 1, by omega⟩
  exact pPower_plain (h.2 f rest (by omega) (hr.mono (by simp))) (hr.mono (by simp))

theorem Reads.sign {ts : List Tok} {e : Tree} (h : Reads .power ts e) (hn : ts ≠ []) :
    Reads .sign ts e := by
  intro f rest hf hr
  obtain ⟨f, rfl⟩ : ∃ g, f = g + 1 := ⟨f - 1, by omega⟩
  rw [pFactor_power (off_append h.1 hn)]
  exact h.2 f rest (by omega) hr

theorem Reads.term {ts : List Tok} {e : Tree} (h : Reads .sign ts e) (hn : ts ≠ []) :
    Reads .term ts e := by
  refine ⟨1, le_rfl, List.length_pos_iff.2 hn, fun f rest hf hr => ?_⟩
  obtain ⟨f, rfl⟩ : ∃ g, f = g + 1 := ⟨f - 1, by omega⟩
  rw [pTerm, h f rest (by omega) hr]
  rfl

theorem Reads.sum {ts : List Tok} {e : Tree} (h : Reads .term ts e) (hn : ts ≠ []) :
    Reads .sum ts e := by
  refine ⟨1, le_rfl, List.length_pos_iff.2 hn, fun f rest hf hr => ?_⟩
  obtain ⟨f, rfl⟩ : ∃ g, f = g + 1 := ⟨f - 1, by omega⟩
  rw [pSum, h.term_done (by omega) hr]
  rfl

theorem reads_pow {ts us : List Tok} {a b : Tree} (ha : Reads .atom ts a) (hb : Reads .sign us b)
    (hn : ts ≠ []) : Reads .power (ts ++ .dstar :: us) (.bin .pow a b) := by
  refine ⟨off_append ha.1 hn, fun f rest hf hr => ?_⟩
  simp only [List.length_append, List.length_cons] at hf
  obtain ⟨f, rfl⟩ : ∃ g, f = g + 1 := ⟨f - 1, by omega⟩
  rw [List.append_assoc, List.cons_append]
  exact pPower_pow (ha.2 f _ (by omega) (Off.cons (by simp))) (hb f rest (by omega) hr)

theorem reads_neg {ts : List Tok} {a : Tree} (ha : Reads .sign ts a) :
    Reads .sign (.minus :: ts) (.un .usub a) := by
  intro f rest hf hr
  simp only [List.length_cons] at hf
  obtain ⟨f, rfl⟩ : ∃ g, f = g + 1 := ⟨f - 1, by omega⟩
  simp only [List.cons_append, pFactor, ha f rest (by omega) hr, Option.map_some]

theorem reads_mul {ts us : List Tok} {a b : Tree} (ha : Reads .term ts a) (hb : Reads .sign us b) :
    Reads .term (ts ++ .star :: us) (.bin .mult a b) := by
  obtain ⟨j, h1, h2, ha⟩ := ha
  refine ⟨j + 1, by omega, by simp; omega, fun f rest hf hr => ?_⟩
  simp only [List.length_append, List.length_cons] at hf
  rw [List.append_assoc, List.cons_append, ha f _ (by omega) (Off.cons (by simp)),
    show f - j = (f - (j + 1)) + 1 by omega, pTermTail, hb _ rest (by omega) hr]

theorem reads_div {ts us : List Tok} {a b : Tree} (ha : Reads .term ts a) (hb : Reads .sign us b) :
    Reads .term (ts ++ .slash :: us) (.bin .div a b) := by
  obtain ⟨j, h1, h2, ha⟩ := ha
  refine ⟨j + 1, by omega, by simp; omega, fun f rest hf hr => ?_⟩
  simp only [List.length_append, List.length_cons] at hf
  rw [List.append_assoc, List.cons_append, ha f _ (by omega) (Off.cons (by simp)),
    show f - j = (f - (j + 1)) + 1 by omega, pTermTail, hb _ rest (by omega) hr]

theorem reads_add {ts us : List Tok} {a b : Tree} (ha : Reads .sum ts a) (hb : Reads .term us b) :
    Reads .sum (ts ++ .plus :: us) (.bin .add a b) := by
  obtain ⟨j, h1, h2, ha⟩ := ha
  refine ⟨j + 1, by omega, by simp; omega, fun f rest hf hr => ?_⟩
  simp only [List.length_append, List.length_cons] at hf
  rw [List.append_assoc, List.cons_append, ha f _ (by omega) (Off.cons (by simp)),
    show f - j = (f - (j + 1)) + 1 by omega, pSumTail, hb.term_done (by omega) hr]

theorem reads_sub {ts us : List Tok} {a b : Tree} (ha : Reads .sum ts a) (hb : Reads .term us b) :
    Reads .sum (ts ++ .minus :: us) (.bin .sub a b) := by
  obtain ⟨j, h1, h2, ha⟩ := ha
  refine ⟨j + 1, by omega, by simp; omega, fun f rest hf hr => ?_⟩
  simp only [List.length_append, List.length_cons] at hf
  rw [List.append_assoc, List.cons_append, ha f _ (by omega) (Off.cons (by simp)),
    show f - j = (f - (j + 1)) + 1 by omega, pSumTail, hb.term_done (by omega) hr]

/-! ### Written formulas as symbols -/

/-- Symbols of a formula. -/
structure Good (l : Items) : Prop extends Fit l where
  ne : l ≠ []
  head : ∀ x ∈ l.head?, x.1.opening = true
  knows : ∀ x ∈ l, known x.1

theorem Good.off {l : Items} (h : Good l) : Off [.rpar] (l.map fun x => pyTok x.1) := by
  intro t ht
  obtain ⟨x, l, rfl⟩ := List.exists_cons_of_ne_nil h.ne
  have := h.head x (by simp)
  obtain ⟨x, n⟩ := x
  simp only [List.map_cons, List.head?_cons, Option.mem_some_iff] at ht
  subst ht
  cases x <;> simp_all [pyTok, Sym.opening, Sym.tok]

/-- Signs between or behind operands: neither operand ends, nor words, nor opening parentheses. -/
def IsSign (x : Sym) : Prop :=
  x = .plus ∨ x = .minus ∨ x = .star ∨ x = .slash ∨ x = .caret ∨ x = .comma

theorem ok_of_closing {x y : Sym} (hx : x.closing = true) (hy : y.word = false ∧ y ≠ .lpar) :
    x.ok y := by
  cases x <;> simp [Sym.closing] at hx <;> exact hy

theorem Good.join {l m : Items} (hl : Good l) (hm : Good m) {x : Sym} (hx : IsSign x) (n : ℕ) :
    Good (l ++ (x, n) :: m) := by
  have hxw : x.word = false ∧ x ≠ .lpar := by
    rcases hx with rfl | rfl | rfl | rfl | rfl | rfl <;> simp [Sym.word]
  obtain ⟨y, m, rfl⟩ := List.exists_cons_of_ne_nil hm.ne
  refine ⟨⟨?_, ?_, ?_⟩, by simp, ?_, ?_⟩
  · simp only [List.map_append, List.map_cons]
    rw [List.isChain_append]
    refine ⟨hl.chain, ?_, ?_⟩
    · have := hm.chain
      simp only [List.map_cons] at this
      refine List.isChain_cons_cons.2 ⟨?_, this⟩
      have := hm.head y (by simp)
      rcases hx with rfl | rfl | rfl | rfl | rfl | rfl <;> exact this
    · intro a ha b hb
      simp only [List.head?_cons, Option.mem_some_iff] at hb
      subst hb
      rw [List.getLast?_map] at ha
      simp only [Option.mem_def, Option.map_eq_some_iff] at ha
      obtain ⟨z, hz, rfl⟩ := ha
      exact ok_of_closing (hl.last z hz) hxw
  · intro z hz
    simp only [List.mem_append, List.mem_cons] at hz
    rcases hz with hz | rfl | rfl | hz
    · exact hl.valid z hz
    · rcases hx with h | h | h | h | h | h <;> (subst h; exact trivial)
    · exact hm.valid z (by simp)
    · exact hm.valid z (by simp [hz])
  · intro z hz
    apply hm.last z
    rw [List.getLast?_append_of_ne_nil _ (by simp), List.getLast?_cons_cons] at hz
    exact hz
  · intro z hz
    apply hl.head z
    rwa [List.head?_append_of_ne_nil _ hl.ne] at hz
  · intro z hz
    simp only [List.mem_append, List.mem_cons] at hz
    rcases hz with hz | rfl | rfl | hz
    · exact hl.knows z hz
    · rcases hx with h | h | h | h | h | h <;> (subst h; exact trivial)
    · exact hm.knows z (by simp)
    · exact hm.knows z (by simp [hz])

theorem Good.close {l : Items} (hl : Good l) (n : ℕ) : Good (l ++ [(.rpar, n)]) := by
  refine ⟨⟨?_, ?_, ?_⟩, by simp, ?_, ?_⟩
  · simp only [List.map_append, List.map_cons, List.map_nil]
    rw [List.isChain_append]
    refine ⟨hl.chain, by simp, ?_⟩
    intro a ha b hb
    simp only [List.head?_cons, Option.mem_some_iff] at hb
    subst hb
    rw [List.getLast?_map] at ha
    simp only [Option.mem_def, Option.map_eq_some_iff] at ha
    obtain ⟨z, hz, rfl⟩ := ha
    exact ok_of_closing (hl.last z hz) ⟨rfl, by simp⟩
  · intro z hz
    simp only [List.mem_append, List.mem_singleton] at hz
    rcases hz with hz | rfl
    · exact hl.valid z hz
    · exact trivial
  · intro z hz
    simp only [List.getLast?_append, List.getLast?_singleton, Option.some_or,
      Option.mem_some_iff] at hz
    subst hz; rfl
  · intro z hz
    apply hl.head z
    rwa [List.head?_append_of_ne_nil _ hl.ne] at hz
  · intro z hz
    simp only [List.mem_append, List.mem_singleton] at hz
    rcases hz with hz | rfl
    · exact hl.knows z hz
    · exact trivial

theorem Good.prefix {l : Items} (hl : Good l) {x : Sym} (hx : x.opening = true) (hv : x.valid)
    (hk : known x) (hok : ∀ y ∈ l.head?, x.ok y.1) (n : ℕ) : Good ((x, n) :: l) := by
  obtain ⟨y, l, rfl⟩ := List.exists_cons_of_ne_nil hl.ne
  refine ⟨⟨?_, ?_, ?_⟩, by simp, ?_, ?_⟩
  · have := hl.chain
    simp only [List.map_cons] at this ⊢
    exact List.isChain_cons_cons.2 ⟨hok y (by simp), this⟩
  · intro z hz
    rcases List.mem_cons.1 hz with rfl | hz
    · exact hv
    · exact hl.valid z hz
  · intro z hz
    apply hl.last z
    rwa [List.getLast?_cons_cons] at hz
  · intro z hz
    simp only [List.head?_cons, Option.mem_some_iff] at hz
    subst hz; exact hx
  · intro z hz
    rcases List.mem_cons.1 hz with rfl | hz
    · exact hk
    · exact hl.knows z hz

theorem Good.single {x : Sym} (hv : x.valid) (hx : x.closing = true) (ho : x.opening = true)
    (hk : known x) : Good [(x, 0)] := by
  refine ⟨⟨by simp, ?_, ?_⟩, by simp, ?_, ?_⟩ <;> intro z hz <;> simp at hz <;> subst hz
  exacts [hv, hx, ho, hk]

theorem blank_eq {u : Text} (h : Blank u) : u = List.replicate u.length ' ' :=
  List.eq_replicate_iff.2 ⟨rfl, h⟩

theorem numeral_valid {s : Text} {q : ℚ} (h : Numeral s q)
    (h0 : s.head? ≠ some '0' ∨ '.' ∈ s ∨ s = ['0']) : (Sym.num s q).valid := by
  have hp : Wbp.parseUnsigned s = some q := by
    cases h with
    | whole a ne ha =>
      have hd : s.dropWhile (· ≠ '.') = [] := by
        rw [List.dropWhile_eq_nil_iff]
        intro c hc
        simp only [ne_eq, decide_not, Bool.not_eq_eq_eq_not, Bool.not_true, decide_eq_false_iff_not]
        rintro rfl
        have := ha _ hc
        revert this; decide
      unfold Wbp.parseUnsigned
      rw [hd]
      simp only [Wbp.digits?]
      rw [if_pos ⟨ne, by simpa using ha⟩]
      rfl
    | point a f hne ha h1 hf =>
      refine Wbp.parseUnsigned_parts ?_ ?_ (by simpa using ha) <;> unfold Wbp.digits? <;>
        rw [if_pos]
      · exact ⟨hne, by simpa using ha⟩
      · exact ⟨h1, by simpa using hf⟩
  refine ⟨?_, ?_⟩
  · cases h with
    | whole a ne ha =>
      obtain ⟨c, t, rfl⟩ := List.exists_cons_of_ne_nil ne
      exact ⟨c, t, rfl, ha c (by simp), fun d hd => by simp [numChar, ha d (by simp [hd])]⟩
    | point a f hne ha h1 hf =>
      obtain ⟨c, t, rfl⟩ := List.exists_cons_of_ne_nil hne
      refine ⟨c, t ++ '.' :: f, rfl, ha c (by simp), fun d hd => ?_⟩
      simp only [List.mem_append, List.mem_cons] at hd
      rcases hd with hd | rfl | hd
      · simp [numChar, ha d (by simp [hd])]
      · decide
      · simp [numChar, hf d hd]
  · unfold numTok
    rw [if_neg, hp]
    · rfl
    · rintro ⟨h1, h2, h3⟩
      rcases h0 with h | h | h
      · exact h h1
      · exact h2 h
      · subst h; exact h3 (by decide)

theorem fn1_known {f : String} (h : (Spec.excelFn1 f).isSome) :
    f.toList ∈ excelFuncs.map Prod.fst := by
  unfold Spec.excelFn1 at h
  split at h <;> first | decide | simp at h

theorem fn2_known {f : String} (h : (Spec.excelFn2 f).isSome) :
    f.toList ∈ excelFuncs.map Prod.fst := by
  unfold Spec.excelFn2 at h
  split at h <;> first | decide | simp at h

/-- The Excel names are words and no reserved words. -/
theorem fn_valid {f : Text} (h : f ∈ excelFuncs.map Prod.fst) : (Sym.fn f).valid := by
  have key : ∀ g ∈ excelFuncs.map Prod.fst, (match g with
      | [] => false
      | c :: t => c.isAlpha && t.all wordChar) && !keywords.contains g := by decide
  have := key f h
  cases f with
  | nil => simp at this
  | cons c t =>
    simp only [Bool.and_eq_true, List.all_eq_true] at this
    exact ⟨⟨c, t, rfl, Or.inl this.1.1, this.1.2⟩, by simpa using this.2⟩

theorem spell_one (p : Text) (x : Sym) (n : ℕ) :
    spell p [(x, n)] = x.text p ++ List.replicate n ' ' := by simp [spell]

/-- The symbols of a written formula, and that they are read as its tree. -/
theorem written_items {l : Level} {e : Formula} {s : Text} (h : Written false l e s) :
    ∃ items, spell ['^'] items = s ∧ Good items ∧
      Reads l (items.map fun x => pyTok x.1) (tree e) := by
  have ne : ∀ {i : Items}, Good i → (i.map fun x => pyTok x.1) ≠ [] := by
    intro i hi h
    exact hi.ne (List.map_eq_nil_iff.1 h)
  induction h with
  | @num s q h h0 =>
    refine ⟨[(.num s q, 0)], by simp [spell, Sym.text], .single (numeral_valid h h0) rfl rfl trivial,
      reads_num q⟩
  | @var s h =>
    refine ⟨[(.var s, 0)], by simp [spell, Sym.text], .single ⟨?_, h.2⟩ rfl rfl trivial, ?_⟩
    · obtain ⟨⟨c, t, rfl, hc, ht⟩, -⟩ := h
      exact ⟨c, t, rfl, hc, fun d hd => by simpa [wordChar] using ht d hd⟩
    · have := reads_name s
      simpa [tree, pyTok, Sym.tok] using this
  | @paren e u s hu h ih =>
    obtain ⟨i, rfl, hg, hr⟩ := ih
    refine ⟨(.lpar, u.length) :: (i ++ [(.rpar, 0)]), ?_, ?_, ?_⟩
    · rw [spell_cons, spell_append, spell_one, ← blank_eq hu]
      simp [Sym.text]
    · refine (hg.close 0).prefix (x := .lpar) rfl trivial trivial ?_ _
      intro y hy
      rw [List.head?_append_of_ne_nil _ hg.ne] at hy
      exact hg.head y hy
    · have := reads_paren hr
      simpa [pyTok, Sym.tok] using this
  | @call1 f a u v s hf hu hv h ih =>
    obtain ⟨i, rfl, hg, hr⟩ := ih
    have hk := fn1_known hf
    refine ⟨(.fn f.toList, u.length) :: (.lpar, v.length) :: (i ++ [(.rpar, 0)]), ?_, ?_, ?_⟩
    · rw [spell_cons, spell_cons, spell_append, spell_one, ← blank_eq hu, ← blank_eq hv]
      simp [Sym.text]
    · refine ((hg.close 0).prefix (x := .lpar) rfl trivial trivial ?_ _).prefix rfl (fn_valid hk) hk
        ?_ _
      · intro y hy
        rw [List.head?_append_of_ne_nil _ hg.ne] at hy
        exact hg.head y hy
      · intro y hy
        simp only [List.head?_cons, Option.mem_some_iff] at hy
        subst hy; rfl
    · have := reads_call1 (g := pyName f.toList) hr (ne hg) hg.off
      simpa [pyTok, Sym.tok, tree] using this
  | @call2 f a b u v w s t hf hu hv hw ha hb iha ihb =>
    obtain ⟨i, rfl, hg, hr⟩ := iha
    obtain ⟨k, rfl, hg', hr'⟩ := ihb
    have hk := fn2_known hf
    refine ⟨(.fn f.toList, u.length) :: (.lpar, v.length) ::
      (i ++ (.comma, w.length) :: (k ++ [(.rpar, 0)])), ?_, ?_, ?_⟩
    · rw [spell_cons, spell_cons, spell_append, spell_cons, spell_append, spell_one, ← blank_eq hu,
        ← blank_eq hv, ← blank_eq hw]
      simp [Sym.text]
    · refine ((hg.join (hg'.close 0) (x := .comma) (by simp [IsSign]) _).prefix (x := .lpar) rfl
        trivial trivial ?_ _).prefix rfl (fn_valid hk) hk ?_ _
      · intro y hy
        rw [List.head?_append_of_ne_nil _ hg.ne] at hy
        exact hg.head y hy
      · intro y hy
        simp only [List.head?_cons, Option.mem_some_iff] at hy
        subst hy; rfl
    · have := reads_call2 (g := pyName f.toList) hr hr' (ne hg) hg.off (ne hg') hg'.off
      simpa [pyTok, Sym.tok, tree] using this
  | @pow a b u s t hu ha hb iha ihb =>
    obtain ⟨i, rfl, hg, hr⟩ := iha
    obtain ⟨k, rfl, hg', hr'⟩ := ihb
    refine ⟨i ++ (.caret, u.length) :: k, ?_, hg.join hg' (by simp [IsSign]) _, ?_⟩
    · rw [spell_append, spell_cons, ← blank_eq hu]; rfl
    · have := reads_pow hr (hr'.power.sign (ne hg')) (ne hg)
      simpa [pyTok, Sym.tok, tree] using this
  | @powNeg a b u v s t hu hv ha hb iha ihb =>
    obtain ⟨i, rfl, hg, hr⟩ := iha
    obtain ⟨k, rfl, hg', hr'⟩ := ihb
    refine ⟨i ++ (.caret, u.length) :: (.minus, v.length) :: k, ?_, ?_, ?_⟩
    · rw [spell_append, spell_cons, spell_cons, ← blank_eq hu, ← blank_eq hv]; rfl
    · exact hg.join (hg'.prefix (x := .minus) rfl trivial trivial (fun y hy => hg'.head y hy) _)
        (by simp [IsSign]) _
    · have := reads_pow hr (reads_neg (hr'.power.sign (ne hg'))) (ne hg)
      simpa [pyTok, Sym.tok, tree] using this
  | chain hc => cases hc
  | @neg a u s hu h ih =>
    obtain ⟨i, rfl, hg, hr⟩ := ih
    refine ⟨(.minus, u.length) :: i, ?_,
      hg.prefix (x := .minus) rfl trivial trivial (fun y hy => hg.head y hy) _, ?_⟩
    · rw [spell_cons, ← blank_eq hu]; rfl
    · exact reads_neg hr
  | @mul a b u s t hu ha hb iha ihb =>
    obtain ⟨i, rfl, hg, hr⟩ := iha
    obtain ⟨k, rfl, hg', hr'⟩ := ihb
    refine ⟨i ++ (.star, u.length) :: k, ?_, hg.join hg' (by simp [IsSign]) _, ?_⟩
    · rw [spell_append, spell_cons, ← blank_eq hu]; rfl
    · simpa [pyTok, Sym.tok, tree] using reads_mul hr hr'
  | @div a b u s t hu ha hb iha ihb =>
    obtain ⟨i, rfl, hg, hr⟩ := iha
    obtain ⟨k, rfl, hg', hr'⟩ := ihb
    refine ⟨i ++ (.slash, u.length) :: k, ?_, hg.join hg' (by simp [IsSign]) _, ?_⟩
    · rw [spell_append, spell_cons, ← blank_eq hu]; rfl
    · simpa [pyTok, Sym.tok, tree] using reads_div hr hr'
  | @add a b u s t hu ha hb iha ihb =>
    obtain ⟨i, rfl, hg, hr⟩ := iha
    obtain ⟨k, rfl, hg', hr'⟩ := ihb
    refine ⟨i ++ (.plus, u.length) :: k, ?_, hg.join hg' (by simp [IsSign]) _, ?_⟩
    · rw [spell_append, spell_cons, ← blank_eq hu]; rfl
    · simpa [pyTok, Sym.tok, tree] using reads_add hr hr'
  | @sub a b u s t hu ha hb iha ihb =>
    obtain ⟨i, rfl, hg, hr⟩ := iha
    obtain ⟨k, rfl, hg', hr'⟩ := ihb
    refine ⟨i ++ (.minus, u.length) :: k, ?_, hg.join hg' (by simp [IsSign]) _, ?_⟩
    · rw [spell_append, spell_cons, ← blank_eq hu]; rfl
    · simpa [pyTok, Sym.tok, tree] using reads_sub hr hr'
  | @blank l e s h ih =>
    obtain ⟨i, rfl, hg, hr⟩ := ih
    obtain ⟨i, ⟨x, n⟩, rfl⟩ : ∃ j y, i = j ++ [y] :=
      ⟨i.dropLast, i.getLast hg.ne, (List.dropLast_append_getLast hg.ne).symm⟩
    refine ⟨i ++ [(x, n + 1)], ?_, ?_, ?_⟩
    · rw [spell_append, spell_append, spell_one, spell_one, List.replicate_succ']
      simp
    · refine ⟨⟨?_, ?_, ?_⟩, by simp, ?_, ?_⟩
      · simpa using hg.chain
      · intro z hz
        simp only [List.mem_append, List.mem_singleton] at hz
        rcases hz with hz | rfl
        · exact hg.valid z (by simp [hz])
        · exact hg.valid (x, n) (by simp)
      · intro z hz
        simp only [List.getLast?_append, List.getLast?_singleton, Option.some_or,
          Option.mem_some_iff] at hz
        subst hz
        exact hg.last (x, n) (by simp)
      · intro z hz
        cases i with
        | nil =>
          simp only [List.nil_append, List.head?_cons, Option.mem_some_iff] at hz
          subst hz
          exact hg.head (x, n) (by simp)
        | cons y i => exact hg.head z (by simpa using hz)
      · intro z hz
        simp only [List.mem_append, List.mem_singleton] at hz
        rcases hz with hz | rfl
        · exact hg.knows z (by simp [hz])
        · exact hg.knows (x, n) (by simp)
    · simpa using hr
  | power h ih =>
    obtain ⟨i, hi, hg, hr⟩ := ih
    exact ⟨i, hi, hg, hr.power⟩
  | sign h ih =>
    obtain ⟨i, hi, hg, hr⟩ := ih
    exact ⟨i, hi, hg, hr.sign (ne hg)⟩
  | term h ih =>
    obtain ⟨i, hi, hg, hr⟩ := ih
    exact ⟨i, hi, hg, hr.term (ne hg)⟩
  | sum h ih =>
    obtain ⟨i, hi, hg, hr⟩ := ih
    exact ⟨i, hi, hg, hr.sum (ne hg)⟩

/-- A formula of any level is one of the lowest. -/
theorem written_sum {b : Bool} {l : Level} {e : Formula} {s : Text} (h : Written b l e s) :
    Written b .sum e s := by
  cases l with
  | atom => exact .sum (.term (.sign (.power h)))
  | power => exact .sum (.term (.sign h))
  | sign => exact .sum (.term h)
  | term => exact .sum h
  | sum => exact h

/-- A written formula is read as its tree. -/
theorem parse_written {l : Level} {e : Formula} {s : Text} (h : Written false l e s) :
    parse (rewrite s) = some (tree e) := by
  obtain ⟨i, rfl, hg, hr⟩ := written_items (written_sum h)
  unfold parse
  rw [lex_rewrite i hg.toFit hg.knows]
  have := hr.sum_done (f := 8 * (i.map fun x => pyTok x.1).length + 8) (rest := []) (by omega)
    (Off.nil _)
  rw [List.append_nil] at this
  simp only [this]

end Welleng.Ftext
