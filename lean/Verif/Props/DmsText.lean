import Verif.Lemmas.DmsText
import Verif.Spec.DmsText
import Verif.Props.Dms

/-!
C221-C225: printing degrees, minutes and seconds and reading them again.
-/

namespace Welleng.Props

open Welleng.Dms
open Welleng.Wbp (Text digits? parseUnsigned intText digits?_toDigits toDigits_all)
open Welleng.Spec (Numeral OneWord)

theorem numeral_parse {s : Text} {x : ℚ} (h : Numeral s x) : parseUnsigned s = some x := by
  cases h with
  | whole a h0 ha =>
    have hd : s.dropWhile (· ≠ '.') = [] := by
      rw [List.dropWhile_eq_nil_iff]
      intro c hc
      simpa using (Wbp.digit_ne (ha c hc)).1
    rw [parseUnsigned, hd]
    simp only [digits?, if_pos (⟨h0, List.all_eq_true.2 ha⟩ : s ≠ [] ∧ s.all Char.isDigit = true)]
    rfl
  | point a f h0 ha h1 hf =>
    exact Wbp.parseUnsigned_parts (by rw [digits?, if_pos ⟨h0, List.all_eq_true.2 ha⟩])
      (by rw [digits?, if_pos ⟨h1, List.all_eq_true.2 hf⟩]) (List.all_eq_true.2 ha)

theorem numeral_best {S T : Text} {x : ℚ} (h : Numeral S x) (hT : Stops isD T)
    (hT' : Stops (· == '.') T) : Best secRe (' ' :: (S ++ T)) T [(3, S)] := by
  cases h with
  | whole a h0 ha => exact best_sec_whole h0 ha hT hT'
  | point a f h0 ha h1 hf => exact best_sec_point h0 ha h1 hf hT

theorem toDigits_isD (n : ℕ) : ∀ c ∈ Nat.toDigits 10 n, isD c = true :=
  List.all_eq_true.1 (toDigits_all n)

/-- What is read if the rest of the text matches. -/
theorem fromString_of_best {text S : Text} {D M : ℕ} {x : ℚ} {c : Caps} (hx : Numeral S x)
    (h : pattern.search text =
      some ((1, Nat.toDigits 10 D) :: (2, Nat.toDigits 10 M) :: (3, S) :: c)) :
    fromString text = some ⟨D, M, x, if group c 5 = [] then none else some (group c 5)⟩ := by
  have g1 : ∀ c : Caps, group ((1, Nat.toDigits 10 D) :: c) 1 = Nat.toDigits 10 D := fun c => rfl
  simp only [fromString, h]
  have e1 : group ((1, Nat.toDigits 10 D) :: (2, Nat.toDigits 10 M) :: (3, S) :: c) 1
      = Nat.toDigits 10 D := rfl
  have e2 : group ((1, Nat.toDigits 10 D) :: (2, Nat.toDigits 10 M) :: (3, S) :: c) 2
      = Nat.toDigits 10 M := rfl
  have e3 : group ((1, Nat.toDigits 10 D) :: (2, Nat.toDigits 10 M) :: (3, S) :: c) 3 = S := rfl
  have e5 : group ((1, Nat.toDigits 10 D) :: (2, Nat.toDigits 10 M) :: (3, S) :: c) 5
      = group c 5 := rfl
  rw [e1, e2, e3, e5, digits?_toDigits, digits?_toDigits, numeral_parse hx]

/-- The text with symbols, matched up to what follows the seconds. -/
theorem best_symbols (D M : ℕ) {S T : Text} {x : ℚ} {c : Caps} (hx : Numeral S x)
    (hT : Stops isD T) (hT' : Stops (· == '.') T) (ht : Best tailRe T [] c) :
    Best pattern (Nat.toDigits 10 D ++ '°' :: ',' :: ' ' :: (Nat.toDigits 10 M ++
      '\'' :: ',' :: ' ' :: (S ++ T))) []
      ((1, Nat.toDigits 10 D) :: (2, Nat.toDigits 10 M) :: (3, S) :: c) :=
  best_pattern (best_deg_symbol Nat.toDigits_ne_nil (toDigits_isD D) _)
    (best_min_symbol Nat.toDigits_ne_nil (toDigits_isD M) _) (numeral_best hx hT hT') ht

/-- The text with words, matched up to what follows the seconds. -/
theorem best_words (D M : ℕ) {S T : Text} {x : ℚ} {c : Caps} (hx : Numeral S x)
    (hT : Stops isD T) (hT' : Stops (· == '.') T) (ht : Best tailRe T [] c) :
    Best pattern (Nat.toDigits 10 D ++ " deg".toList ++ (',' :: ' ' :: (Nat.toDigits 10 M ++
      " min".toList ++ (',' :: ' ' :: (S ++ T))))) []
      ((1, Nat.toDigits 10 D) :: (2, Nat.toDigits 10 M) :: (3, S) :: c) :=
  best_pattern (best_deg_word Nat.toDigits_ne_nil (toDigits_isD D) _)
    (best_min_word Nat.toDigits_ne_nil (toDigits_isD M) _) (numeral_best hx hT hT') ht

theorem print_symbols (deg min sec : Text) (dir : Option Text) :
    printDms true deg min sec dir = deg ++ '°' :: ',' :: ' ' :: (min ++
      '\'' :: ',' :: ' ' :: (sec ++ ('"' :: dirText dir))) := by
  simp [printDms]

theorem print_words (deg min sec : Text) (dir : Option Text) :
    printDms false deg min sec dir = deg ++ " deg".toList ++ (',' :: ' ' :: (min ++
      " min".toList ++ (',' :: ' ' :: (sec ++
        (" sec".toList ++ dirText dir))))) := by
  simp [printDms]

theorem stops_of {p : Char → Bool} {c : Char} (h : p c = false) (t : Text) : Stops p (c :: t) :=
  stops_cons h

/-- Printed with words, or printed with symbols and a direction, a tuple of non-negative numbers is
read back as it was. -/
theorem C221_round_trip (D M : ℕ) (S : Text) (x : ℚ) (hx : Numeral S x) (dir : Option Text)
    (hd : ∀ d ∈ dir, OneWord d) (symbols : Bool) (h : symbols = true → dir ≠ none) :
    fromString (printDms symbols (Nat.toDigits 10 D) (Nat.toDigits 10 M) S dir)
      = some ⟨D, M, x, dir⟩ := by
  cases symbols with
  | false =>
    rw [print_words]
    cases dir with
    | none =>
      rw [dirText, List.append_nil]
      exact fromString_of_best hx (search_of_best (best_words D M hx (stops_of (by decide) _)
        (stops_of (by decide) _) best_tail_sec))
    | some d =>
      obtain ⟨h0, hw⟩ := hd d rfl
      have := fromString_of_best hx (search_of_best (best_words D M (T := " sec".toList ++ ' ' :: d)
        hx (stops_of (by decide) _) (stops_of (by decide) _) (best_tail_sec_dir h0 hw)))
      rw [dirText, this]
      have e : group [(4, "sec".toList), (5, d)] 5 = d := rfl
      rw [e, if_neg h0]
  | true =>
    rw [print_symbols]
    cases dir with
    | none => exact absurd rfl (h rfl)
    | some d =>
      obtain ⟨h0, hw⟩ := hd d rfl
      have ht : Best tailRe (['"', ' '] ++ d) [] [(5, d)] :=
        best_tail_other h0 hw (by decide) (Or.inr ⟨['"'], ' ', by decide, rfl⟩)
          (stops_of (by decide) _) (stops_of (by decide) _)
      have := fromString_of_best hx (search_of_best (best_symbols D M (T := ['"', ' '] ++ d)
        hx (stops_of (by decide) _) (stops_of (by decide) _) ht))
      rw [dirText, show ('"' :: ' ' :: d : Text) = ['"', ' '] ++ d from rfl, this]
      have e : group [(5, d)] 5 = d := rfl
      rw [e, if_neg h0]

/-- Den Haag: `52°, 4', 43.1868" N`. -/
example : Numeral "43.1868".toList (43 + 1868 / 10 ^ 4) ∧ OneWord ['N'] ∧
    printDms true (Nat.toDigits 10 52) (Nat.toDigits 10 4) "43.1868".toList (some ['N'])
      = "52°, 4', 43.1868\" N".toList ∧
    fromString "52°, 4', 43.1868\" N".toList = some ⟨52, 4, 43 + 1868 / 10 ^ 4, some ['N']⟩ := by
  have h : Numeral "43.1868".toList (43 + 1868 / 10 ^ 4) := by
    have := Numeral.point ['4', '3'] ['1', '8', '6', '8'] (by decide) (by decide) (by decide)
      (by decide)
    simpa [Nat.ofDigitChars] using this
  have h' : OneWord ['N'] := ⟨by decide, by decide⟩
  refine ⟨h, h', by decide +kernel, ?_⟩
  have := C221_round_trip 52 4 _ _ h (some ['N']) (by simpa using h') true (by simp)
  rw [← this]
  congr 1

/-- Printed with symbols and without a direction, a tuple of three comes back as a tuple of four: the
sign of the seconds is taken for the direction.  The three numbers are right. -/
theorem C222_symbols_partial (D M : ℕ) (S : Text) (x : ℚ) (hx : Numeral S x) :
    fromString (printDms true (Nat.toDigits 10 D) (Nat.toDigits 10 M) S none)
      = some ⟨D, M, x, some ['"']⟩ := by
  rw [print_symbols]
  have ht : Best tailRe ([] ++ ['"']) [] [(5, ['"'])] :=
    best_tail_other (by decide) (by decide) (by simp) (Or.inl rfl)
      (stops_of (by decide) _) (stops_of (by decide) _)
  exact fromString_of_best hx (search_of_best (best_symbols D M (T := ['"'])
    hx (stops_of (by decide) _) (stops_of (by decide) _) ht))

/-- So no tuple of three is read back as it was printed with symbols. -/
theorem C222_never_three (D M : ℕ) (S : Text) (x : ℚ) (hx : Numeral S x) :
    fromString (printDms true (Nat.toDigits 10 D) (Nat.toDigits 10 M) S none)
      ≠ some ⟨D, M, x, none⟩ := by
  rw [C222_symbols_partial D M S x hx]
  simp

/-! ### Negative degrees -/

theorem search_minus (s : Text) : pattern.search ('-' :: s) = pattern.search s :=
  search_skip (pattern_fails (by decide))

theorem print_cons (symbols : Bool) (c : Char) (deg min sec : Text) (dir : Option Text) :
    printDms symbols (c :: deg) min sec dir = c :: printDms symbols deg min sec dir := by
  cases symbols <;> simp [printDms]

/-- The sign of the degrees is not read: south and west without a direction become north and
east. -/
theorem C223_sign_lost (d : ℤ) (min sec : Text) (dir : Option Text) (symbols : Bool) :
    fromString (printDms symbols (intText d) min sec dir)
      = fromString (printDms symbols (Nat.toDigits 10 d.natAbs) min sec dir) := by
  unfold intText
  split
  · rw [List.singleton_append, print_cons, fromString, fromString, search_minus]
  · rfl

theorem pyInt_natAbs (d : ℚ) : ((pyInt d).natAbs : ℤ) = pyInt |d| := by
  have h := abs_pyInt d
  have h2 : pyInt |d| = ⌊|d|⌋ := by rw [pyInt, if_pos (abs_nonneg d)]
  rw [h2, Int.natCast_natAbs]
  exact_mod_cast h

/-- From decimal degrees to text and back: the size is kept, the sign is not. -/
theorem C223_decimal_text_decimal_partial (d : ℚ) (S : Text) (dir : Text) (hw : OneWord dir)
    (hx : Numeral S (decimal2dms d).sec) (symbols : Bool) :
    ∃ r, fromString (printDms symbols (intText (decimal2dms d).deg) (intText (decimal2dms d).min) S
        (some dir)) = some r ∧ r.last = some dir ∧
      dms2decimal ⟨(r.deg : ℤ), (r.min : ℤ), r.sec⟩ = |d| := by
  have hm := C15_row_is_normalised d
  have em : intText (decimal2dms d).min = Nat.toDigits 10 (decimal2dms d).min.natAbs := by
    rw [intText, if_neg (not_lt.2 hm.1), List.nil_append]
  refine ⟨⟨(decimal2dms d).deg.natAbs, (decimal2dms d).min.natAbs, (decimal2dms d).sec, some dir⟩,
    ?_, rfl, ?_⟩
  · rw [C223_sign_lost, em]
    exact C221_round_trip _ _ S _ hx (some dir) (by simpa using hw) symbols (by simp)
  · have h2 : (⟨((decimal2dms d).deg.natAbs : ℤ), ((decimal2dms d).min.natAbs : ℤ),
        (decimal2dms d).sec⟩ : Row ℚ) = decimal2dms |d| := by
      ext
      · exact pyInt_natAbs d
      · show ((decimal2dms d).min.natAbs : ℤ) = _
        rw [Int.natCast_natAbs, abs_of_nonneg hm.1]; simp [decimal2dms]
      · simp [decimal2dms]
    show dms2decimal _ = _
    rw [h2]
    exact C15_round_trip_partial |d| (Or.inr (abs_nonneg d))

/-- So a negative angle is never recovered. -/
theorem C223_negative_not_recovered (d : ℚ) (hd : d < 0) (S : Text) (dir : Text) (hw : OneWord dir)
    (hx : Numeral S (decimal2dms d).sec) (symbols : Bool) (r : Read)
    (h : fromString (printDms symbols (intText (decimal2dms d).deg) (intText (decimal2dms d).min) S
        (some dir)) = some r) :
    dms2decimal ⟨(r.deg : ℤ), (r.min : ℤ), r.sec⟩ ≠ d := by
  obtain ⟨r', h1, -, h2⟩ := C223_decimal_text_decimal_partial d S dir hw hx symbols
  rw [h] at h1
  cases h1
  rw [h2, abs_of_neg hd]
  linarith

/-- `-33.5` is `-33`, `30`, `0`. -/
example : Numeral ['0'] (decimal2dms (-33.5 : ℚ)).sec ∧ (decimal2dms (-33.5 : ℚ)).deg = -33 ∧
    (decimal2dms (-33.5 : ℚ)).min = 30 := by
  have e : (decimal2dms (-33.5 : ℚ)) = ⟨-33, 30, 0⟩ := by
    ext <;> simp only <;> decide +kernel
  rw [e]
  refine ⟨?_, rfl, rfl⟩
  have := Numeral.whole ['0'] (by decide) (by decide)
  simpa [Nat.ofDigitChars] using this

/-! ### Rows of floats -/

/-- A text in which the minutes have a point is not read at all. -/
theorem C224_no_match (symbols : Bool) (deg min sec : Text) (dir : Option Text)
    (h1 : ',' ∉ deg) (h2 : ',' ∉ min) (h3 : ',' ∉ sec) (h4 : ∀ d ∈ dir, ',' ∉ d)
    (hp : '.' ∈ min) : fromString (printDms symbols deg min sec dir) = none := by
  have key : pattern.search (printDms symbols deg min sec dir) = none := by
    cases symbols with
    | true =>
      have hd : ',' ∉ dirText dir := by
        cases dir with
        | none => simp [dirText]
        | some d => simpa [dirText] using h4 d rfl
      have := no_match (A := deg ++ ['°']) (B := ' ' :: (min ++ ['\'']))
        (C := ' ' :: (sec ++ '"' :: dirText dir))
        (by simp [h1]) (by simp [h2]) (by simp [h3, hd]) (by simp [hp])
      rw [print_symbols]
      simpa using this
    | false =>
      have hd : ',' ∉ dirText dir := by
        cases dir with
        | none => simp [dirText]
        | some d => simpa [dirText] using h4 d rfl
      have := no_match (A := deg ++ " deg".toList) (B := ' ' :: (min ++ " min".toList))
        (C := ' ' :: (sec ++ (" sec".toList ++ dirText dir)))
        (by simp [h1]) (by simp [h2]) (by simp [h3, hd]) (by simp [hp])
      rw [print_words]
      simpa using this
  rw [fromString, key]

/-- `f"{x}"` of a whole number in an array of floats. -/
def floatText (n : ℤ) : Text := intText n ++ ['.', '0']

theorem intText_no_comma (n : ℤ) : ',' ∉ intText n := by
  unfold intText
  rw [List.mem_append]
  rintro (h | h)
  · split at h
    · revert h; decide
    · simp at h
  · have := toDigits_isD _ _ h
    revert this; decide

theorem numeral_no_comma {S : Text} {x : ℚ} (h : Numeral S x) : ',' ∉ S := by
  intro hc
  cases h with
  | whole a h0 ha => have := ha _ hc; revert this; decide
  | point a f h0 ha h1 hf =>
    rw [List.mem_append, List.mem_cons] at hc
    rcases hc with hc | hc | hc
    · have := ha _ hc; revert this; decide
    · revert hc; decide
    · have := hf _ hc; revert this; decide

/-- The row that `decimal2dms` returns for an angle without a direction is an array of floats, and
the text printed for it is not read. -/
theorem C224_row_not_read (d : ℚ) (nd : Option ℕ) (S : Text)
    (hx : Numeral S (decimal2dms d nd).sec) (symbols : Bool) :
    fromString (printDms symbols (floatText (decimal2dms d nd).deg)
      (floatText (decimal2dms d nd).min) S none) = none := by
  refine C224_no_match symbols _ _ _ _ ?_ ?_ (numeral_no_comma hx) (by simp) ?_
  · simp [floatText, intText_no_comma]
  · simp [floatText, intText_no_comma]
  · simp [floatText]

/-- With a direction it is an array of objects: whole numbers are printed without a point, and the
row is read back. -/
theorem C224_row_with_direction_partial (d : ℚ) (h0 : 0 ≤ d) (nd : Option ℕ) (S dir : Text)
    (hw : OneWord dir) (hx : Numeral S (decimal2dms d nd).sec) (symbols : Bool) :
    ∃ r, fromString (printDms symbols (intText (decimal2dms d nd).deg)
        (intText (decimal2dms d nd).min) S (some dir)) = some r ∧
      (⟨(r.deg : ℤ), (r.min : ℤ), r.sec⟩ : Row ℚ) = decimal2dms d nd ∧ r.last = some dir := by
  have hm : 0 ≤ (decimal2dms d nd).min := (C15_row_is_normalised d).1
  have hdg : 0 ≤ (decimal2dms d nd).deg := by
    simp only [decimal2dms, pyInt, if_pos h0]; exact Int.floor_nonneg.2 h0
  have em : intText (decimal2dms d nd).min = Nat.toDigits 10 (decimal2dms d nd).min.natAbs := by
    rw [intText, if_neg (not_lt.2 hm), List.nil_append]
  refine ⟨⟨(decimal2dms d nd).deg.natAbs, (decimal2dms d nd).min.natAbs, (decimal2dms d nd).sec,
    some dir⟩, ?_, ?_, rfl⟩
  · rw [C223_sign_lost, em]
    exact C221_round_trip _ _ S _ hx (some dir) (by simpa using hw) symbols (by simp)
  · ext
    · simp [abs_of_nonneg hdg]
    · simp [abs_of_nonneg hm]
    · rfl

/-- The two texts of `33.5` degrees. -/
example : floatText 30 = "30.0".toList ∧
    printDms true (floatText 33) (floatText 30) "0.0".toList none = "33.0°, 30.0', 0.0\"".toList ∧
    fromString "33.0°, 30.0', 0.0\"".toList = none ∧
    fromString "33°, 30', 0.0\" N".toList = some ⟨33, 30, 0, some ['N']⟩ := by
  decide +kernel

/-! ### Seconds printed with an exponent -/

/-- Seconds below one ten thousandth are printed with an exponent, and the exponent is not read: the
number read is the mantissa. -/
theorem C225_exponent_ignored (D M : ℕ) (S : Text) (x : ℚ) (hx : Numeral S x) (e : Text)
    (he : ∀ c ∈ e, c.isWhitespace = false) (dir : Text) (hw : OneWord dir) (symbols : Bool) :
    fromString (printDms symbols (Nat.toDigits 10 D) (Nat.toDigits 10 M) (S ++ 'e' :: e) (some dir))
      = some ⟨D, M, x, some dir⟩ := by
  obtain ⟨h0, hw⟩ := hw
  have hn : ∀ c ∈ e, c ≠ '\n' := by
    rintro c hc rfl
    have := he _ hc
    revert this; decide
  cases symbols with
  | true =>
    rw [print_symbols]
    have ht : Best tailRe (('e' :: e ++ ['"', ' ']) ++ dir) [] [(5, dir)] := by
      refine best_tail_other h0 hw ?_ (Or.inr ⟨'e' :: e ++ ['"'], ' ', by decide, by simp⟩)
        (stops_of (by decide) _) (stops_of (by decide) _)
      intro c hc
      simp only [List.cons_append, List.mem_cons, List.mem_append, List.not_mem_nil, or_false] at hc
      rcases hc with rfl | hc | rfl | rfl
      · decide
      · exact hn c hc
      · decide
      · decide
    have := fromString_of_best hx (search_of_best (best_symbols D M
      hx (stops_of (by decide) _) (stops_of (by decide) _) ht))
    have e5 : group [(5, dir)] 5 = dir := rfl
    rw [e5, if_neg h0] at this
    rw [← this]
    simp [dirText]
  | false =>
    rw [print_words]
    have ht : Best tailRe (('e' :: e ++ " sec ".toList) ++ dir) [] [(5, dir)] := by
      refine best_tail_other h0 hw ?_ (Or.inr ⟨'e' :: e ++ " sec".toList, ' ', by decide, by simp⟩)
        (stops_of (by decide) _) (stops_of (by decide) _)
      intro c hc
      rw [List.cons_append, List.mem_cons, List.mem_append] at hc
      rcases hc with rfl | hc | hc
      · decide
      · exact hn c hc
      · revert hc c; decide
    have := fromString_of_best hx (search_of_best (best_words D M
      hx (stops_of (by decide) _) (stops_of (by decide) _) ht))
    have e5 : group [(5, dir)] 5 = dir := rfl
    rw [e5, if_neg h0] at this
    rw [← this]
    simp [dirText]

/-- Printed without an exponent, the seconds are read back. -/
theorem C225_without_exponent_partial (D M : ℕ) (S : Text) (x : ℚ) (hx : Numeral S x) (dir : Text)
    (hw : OneWord dir) (symbols : Bool) :
    ∃ r, fromString (printDms symbols (Nat.toDigits 10 D) (Nat.toDigits 10 M) S (some dir))
      = some r ∧ r.sec = x :=
  ⟨_, C221_round_trip D M S x hx (some dir) (by simpa using hw) symbols (by simp), rfl⟩

/-- `5e-05` seconds are read as five seconds. -/
example : fromString (printDms true "52".toList "4".toList "5e-05".toList (some ['N']))
    = some ⟨52, 4, 5, some ['N']⟩ := by
  decide +kernel

end Welleng.Props
