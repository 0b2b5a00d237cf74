import Verif.Model.WbpText
import Mathlib.Tactic.Ring
import Mathlib.Tactic.Linarith
import Mathlib.Tactic.FieldSimp
import Mathlib.Tactic.NormNum
import Mathlib.Tactic.Positivity
import Mathlib.Data.List.TakeWhile

/-!
Lemmas on the text of numbers and on the words of a line.
-/

namespace Welleng.Wbp

open Dms

/-! ### Numbers -/

theorem toDigits_all (n : ℕ) : (Nat.toDigits 10 n).all Char.isDigit = true := by
  rw [List.all_eq_true]
  intro c hc
  exact Nat.isDigit_of_mem_toDigits (by norm_num) le_rfl hc

theorem digits?_toDigits (n : ℕ) : digits? (Nat.toDigits 10 n) = some n := by
  rw [digits?, if_pos ⟨Nat.toDigits_ne_nil, toDigits_all n⟩, Nat.ofDigitChars_ten_toDigits]

theorem decimals_length {d n : ℕ} (hd : 0 < d) (hn : n < 10 ^ d) : (decimals d n).length = d := by
  have : (Nat.toDigits 10 n).length ≤ d := (Nat.length_toDigits_le_iff (by norm_num) hd).2 hn
  simp [decimals]; omega

theorem decimals_all (d n : ℕ) : (decimals d n).all Char.isDigit = true := by
  rw [List.all_eq_true]
  intro c hc
  rw [decimals, List.mem_append] at hc
  rcases hc with hc | hc
  · rw [(List.mem_replicate.1 hc).2]; decide
  · exact Nat.isDigit_of_mem_toDigits (by norm_num) le_rfl hc

theorem digits?_decimals {d n : ℕ} : digits? (decimals d n) = some n := by
  rw [digits?, if_pos ⟨by simp [decimals, Nat.toDigits_ne_nil], decimals_all d n⟩, decimals,
    Nat.ofDigitChars_append, Nat.ofDigitChars_replicate_zero, Nat.mul_zero,
    Nat.ofDigitChars_ten_toDigits]

theorem digit_ne {c : Char} (h : c.isDigit = true) : c ≠ '.' ∧ c ≠ '-' ∧ c ≠ ' ' ∧ c ≠ ':' := by
  refine ⟨?_, ?_, ?_, ?_⟩ <;> rintro rfl <;> revert h <;> decide

theorem roundEven_abs_close (x : ℚ) (hx : 0 ≤ x) :
    |(((roundEven x).toNat : ℕ) : ℚ) - x| ≤ 1 / 2 := by
  have h0 : 0 ≤ ⌊x⌋ := Int.floor_nonneg.2 hx
  have h1 : 0 ≤ roundEven x := by unfold roundEven; split_ifs <;> omega
  have h2 : (((roundEven x).toNat : ℕ) : ℚ) = ((roundEven x : ℤ) : ℚ) := by
    rw [← Int.cast_natCast, Int.toNat_of_nonneg h1]
  rw [h2]
  have e := Int.self_sub_floor x
  have l := Int.fract_nonneg x
  have u := Int.fract_lt_one x
  unfold roundEven
  split_ifs <;> push_cast <;> rw [abs_le] <;> constructor <;> linarith

/-- The value printed with `d` decimals, `f"{x:.df}"`. -/
def rnd (d : ℕ) (x : ℚ) : ℚ := (if x < 0 then -1 else 1) * ((scaled d x : ℚ) / 10 ^ d)

theorem rnd_close (d : ℕ) (x : ℚ) : |rnd d x - x| ≤ 1 / 2 / 10 ^ d := by
  have h := roundEven_abs_close (|x| * 10 ^ d) (by positivity)
  have p : (0 : ℚ) < 10 ^ d := by positivity
  have e : |(scaled d x : ℚ) / 10 ^ d - abs x| ≤ 1 / 2 / 10 ^ d := by
    rw [le_div_iff₀ p, ← abs_of_pos p, ← abs_mul, abs_of_pos p, sub_mul,
      div_mul_cancel₀ _ p.ne']
    exact h
  unfold rnd
  by_cases hx : x < 0
  · rw [if_pos hx]
    rw [abs_of_neg hx] at e
    rw [show -1 * ((scaled d x : ℚ) / 10 ^ d) - x = -((scaled d x : ℚ) / 10 ^ d - -x) by ring,
      abs_neg]
    exact e
  · rw [if_neg hx, one_mul]
    rwa [abs_of_nonneg (not_lt.1 hx)] at e

theorem parseUnsigned_parts {a f : Text} {i j : ℕ} (ha : digits? a = some i)
    (hf : digits? f = some j) (aa : a.all Char.isDigit = true) :
    parseUnsigned (a ++ '.' :: f) = some ((i : ℚ) + (j : ℚ) / 10 ^ f.length) := by
  have h1 : ∀ c ∈ a, (decide (c ≠ '.')) = true := by
    intro c hc
    rw [List.all_eq_true] at aa
    simpa using (digit_ne (aa c hc)).1
  have h2 : (a ++ '.' :: f).dropWhile (· ≠ '.') = '.' :: f := by
    rw [List.dropWhile_append_of_pos h1]; simp
  have h3 : (a ++ '.' :: f).takeWhile (· ≠ '.') = a := by
    rw [List.takeWhile_append_of_pos h1]; simp
  unfold parseUnsigned
  rw [h2]
  simp only
  rw [h3, ha, hf]

theorem parseFloat_of_digit {s : Text} (h : ∀ c t, s = c :: t → c ≠ '-') :
    parseFloat s = parseUnsigned s := by
  unfold parseFloat
  split
  · exact absurd rfl (h _ _ rfl)
  · rfl

/-- A printed number is read as its rounded value. -/
theorem parseFloat_fixed {d : ℕ} (hd : 0 < d) (x : ℚ) :
    parseFloat (fixed d x) = some (rnd d x) := by
  have p : 0 < 10 ^ d := by positivity
  have hu : parseUnsigned (Nat.toDigits 10 (scaled d x / 10 ^ d) ++
      '.' :: decimals d (scaled d x % 10 ^ d)) = some ((scaled d x : ℚ) / 10 ^ d) := by
    rw [parseUnsigned_parts (digits?_toDigits _) digits?_decimals (toDigits_all _),
      decimals_length hd (Nat.mod_lt _ p)]
    congr 1
    have := Nat.div_add_mod (scaled d x) (10 ^ d)
    have hq : (scaled d x : ℚ) = (10 : ℚ) ^ d * ((scaled d x / 10 ^ d : ℕ) : ℚ) +
        ((scaled d x % 10 ^ d : ℕ) : ℚ) := by
      exact_mod_cast this.symm
    rw [eq_div_iff (by positivity), add_mul, div_mul_cancel₀ _ (by positivity)]
    linarith
  unfold fixed rnd
  by_cases hx : x < 0
  · rw [if_pos hx, if_pos hx]
    simp only [List.cons_append, List.nil_append]
    rw [parseFloat, hu]
    simp
  · rw [if_neg hx, if_neg hx, List.nil_append, parseFloat_of_digit, hu, one_mul]
    intro c t h
    have : c ∈ Nat.toDigits 10 (scaled d x / 10 ^ d) := by
      cases h' : Nat.toDigits 10 (scaled d x / 10 ^ d) with
      | nil => exact absurd h' Nat.toDigits_ne_nil
      | cons a s => rw [h'] at h; simp at h; simp [h.1]
    exact (digit_ne (Nat.isDigit_of_mem_toDigits (by norm_num) le_rfl this)).2.1

/-- The characters of a printed number. -/
theorem fixed_chars {d : ℕ} {x : ℚ} {c : Char} (h : c ∈ fixed d x) : c ≠ ' ' ∧ c ≠ ':' := by
  unfold fixed at h
  simp only [List.mem_append, List.mem_cons] at h
  rcases h with (h | h) | rfl | h
  · split_ifs at h
    · simp at h; subst h; decide
    · simp at h
  · exact (digit_ne (Nat.isDigit_of_mem_toDigits (by norm_num) le_rfl h)).2.2
  · decide
  · exact (digit_ne (List.all_eq_true.1 (decimals_all _ _) c h)).2.2

theorem fixed_ne_nil (d : ℕ) (x : ℚ) : fixed d x ≠ [] := by
  simp [fixed]

/-- The length of a printed number. -/
theorem fixed_length {d k : ℕ} {x : ℚ} (hd : 0 < d) (hk : 0 < k) (h : |x| ≤ 10 ^ k - 1) :
    (fixed d x).length ≤ (if x < 0 then 1 else 0) + k + 1 + d := by
  have p : 0 < 10 ^ d := by positivity
  have hs : scaled d x / 10 ^ d < 10 ^ k := by
    rw [Nat.div_lt_iff_lt_mul p]
    have hc := (abs_le.1 (roundEven_abs_close (|x| * 10 ^ d) (by positivity))).2
    have h1 : (scaled d x : ℚ) ≤ (10 ^ k - 1) * 10 ^ d + 1 / 2 := by
      have : |x| * 10 ^ d ≤ (10 ^ k - 1) * 10 ^ d := by gcongr
      have : (scaled d x : ℚ) - |x| * 10 ^ d ≤ 1 / 2 := hc
      linarith
    have h2 : (1 : ℚ) ≤ 10 ^ d := one_le_pow₀ (by norm_num)
    have h3 : (scaled d x : ℚ) < 10 ^ k * 10 ^ d := by nlinarith
    exact_mod_cast h3
  have hl := (Nat.length_toDigits_le_iff (b := 10) (by norm_num) hk).2 hs
  unfold fixed
  rw [List.length_append, List.length_append, List.length_cons,
    decimals_length hd (Nat.mod_lt _ p)]
  split_ifs <;> simp <;> omega

/-! ### Words -/

theorem splitWs_word {w : Text} (hw : ∀ c ∈ w, c ≠ ' ') (cur s : Text) :
    splitWs cur (w ++ s) = splitWs (cur ++ w) s := by
  induction w generalizing cur with
  | nil => simp
  | cons a t ih =>
    rw [List.cons_append, splitWs, if_neg (hw a (by simp)), ih fun c hc => hw c (by simp [hc])]
    simp

theorem splitWs_append_blank (a b cur : Text) :
    splitWs cur (a ++ ' ' :: b) = splitWs cur a ++ words b := by
  induction a generalizing cur with
  | nil =>
    simp only [List.nil_append, splitWs, if_true]
    split_ifs <;> rfl
  | cons x t ih =>
    rw [List.cons_append, splitWs, splitWs, ih, ih]
    split_ifs <;> rfl

/-- A blank separates words. -/
theorem words_append_blank (a b : Text) : words (a ++ ' ' :: b) = words a ++ words b :=
  splitWs_append_blank a b []

theorem words_cons_blank (b : Text) : words (' ' :: b) = words b := by
  simpa [words, splitWs] using words_append_blank [] b

theorem words_blanks (n : ℕ) (s : Text) : words (List.replicate n ' ' ++ s) = words s := by
  induction n with
  | zero => rfl
  | succ n ih => rw [List.replicate_succ, List.cons_append, words_cons_blank, ih]

theorem words_trailing (n : ℕ) (s : Text) : words (s ++ List.replicate n ' ') = words s := by
  cases n with
  | zero => simp
  | succ n =>
    rw [List.replicate_succ, words_append_blank]
    have := words_blanks n []
    rw [List.append_nil] at this
    rw [this]; simp [words, splitWs]

theorem words_word {w : Text} (h0 : w ≠ []) (hw : ∀ c ∈ w, c ≠ ' ') : words w = [w] := by
  have := splitWs_word hw [] []
  rw [List.append_nil, List.nil_append] at this
  rw [words, this, splitWs, if_neg h0]

theorem words_rjust (w : ℕ) (s : Text) : words (rjust w s) = words s := words_blanks _ _

theorem words_ljust (w : ℕ) (s : Text) : words (ljust w s) = words s := words_trailing _ _

theorem words_fixed (d : ℕ) (x : ℚ) : words (fixed d x) = [fixed d x] :=
  words_word (fixed_ne_nil d x) fun _ h => (fixed_chars h).1

theorem words_col_append (a : Text) (w : ℕ) (s : Text) :
    words (a ++ col w s) = words a ++ words s := by
  rw [col, words_append_blank, words_rjust]

theorem rstrip_append_blanks (s : Text) (n : ℕ) : rstrip (s ++ List.replicate n ' ') = rstrip s := by
  unfold rstrip
  rw [List.reverse_append, List.reverse_replicate, List.dropWhile_append_of_pos]
  intro c hc; simpa using (List.mem_replicate.1 hc).2

/-- A line is its right strip and blanks. -/
theorem rstrip_split (s : Text) : ∃ n, s = rstrip s ++ List.replicate n ' ' := by
  induction s using List.reverseRecOn with
  | nil => exact ⟨0, rfl⟩
  | append_singleton t c ih =>
    by_cases h : c = ' '
    · subst h
      obtain ⟨n, hn⟩ := ih
      refine ⟨n + 1, ?_⟩
      rw [show t ++ [' '] = t ++ List.replicate 1 ' ' from rfl, rstrip_append_blanks]
      conv_lhs => rw [hn]
      rw [List.append_assoc, List.replicate_append_replicate]
    · exact ⟨0, by simp [rstrip, h]⟩

theorem words_rstrip (s : Text) : words (rstrip s) = words s := by
  obtain ⟨n, hn⟩ := rstrip_split s
  conv_rhs => rw [hn]
  rw [words_trailing]

theorem rstrip_of_last {s : Text} {c : Char} (h : c ≠ ' ') : rstrip (s ++ [c]) = s ++ [c] := by
  simp [rstrip, h]

/-- A line whose last character is not a blank is not changed. -/
theorem rstrip_append {a b : Text} (h0 : b ≠ []) (hb : ∀ c ∈ b, c ≠ ' ') :
    rstrip (a ++ b) = a ++ b := by
  induction b using List.reverseRecOn with
  | nil => exact absurd rfl h0
  | append_singleton t c _ => rw [← List.append_assoc, rstrip_of_last (hb c (by simp))]

theorem rstrip_prefix {a b : Text} {c : Char} (h : c ≠ ' ') :
    rstrip (a ++ c :: b) = a ++ c :: rstrip b := by
  obtain ⟨n, hn⟩ := rstrip_split b
  have h1 : rstrip (a ++ c :: b) = rstrip (a ++ c :: rstrip b) := by
    conv_lhs => rw [hn]
    rw [← List.cons_append, ← List.append_assoc, rstrip_append_blanks]
  rw [h1]
  have h2 : rstrip (rstrip b) = rstrip b := by
    have := rstrip_append_blanks (rstrip b) n
    rw [← hn] at this
    exact this.symm
  cases hb : rstrip b using List.reverseRecOn with
  | nil => rw [rstrip_of_last h]
  | append_singleton t d =>
    rw [← List.cons_append, ← List.append_assoc]
    apply rstrip_of_last
    rintro rfl
    rw [hb] at h2
    have h3 := rstrip_append_blanks t 1
    rw [show List.replicate 1 ' ' = [' '] from rfl, h2] at h3
    obtain ⟨k, hk⟩ := rstrip_split t
    have := congrArg List.length h3
    have h4 := congrArg List.length hk
    simp at this h4
    omega

theorem afterColon_code {k : Char} {body : Text} (hk : k ≠ ':') (hb : ∀ c ∈ body, c ≠ ':') :
    afterColon (k :: ':' :: body) = some body := by
  have h : body.takeWhile (· ≠ ':') = body := by
    rw [List.takeWhile_eq_self_iff]; intro c hc; simpa using hb c hc
  simp only [afterColon, ne_eq, List.dropWhile_cons, hk, not_false_eq_true, decide_true, if_true,
    not_true_eq_false, decide_false, if_false]
  exact congrArg some (by simpa using h)

theorem beforeColon_code {k : Char} {body : Text} (hk : k ≠ ':') :
    beforeColon (k :: ':' :: body) = [k] := by
  simp [beforeColon, hk]

theorem setLast_snoc {α : Type} (f : α → α) (l : List α) (a : α) :
    setLast f (l ++ [a]) = some (l ++ [f a]) := by
  induction l with
  | nil => rfl
  | cons b t ih =>
    cases t with
    | nil => rfl
    | cons c u =>
      rw [List.cons_append, List.cons_append, setLast]
      rw [List.cons_append] at ih
      rw [ih]; rfl

end Welleng.Wbp
