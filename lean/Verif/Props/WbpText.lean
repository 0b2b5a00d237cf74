import Verif.Lemmas.WbpFile
import Verif.Spec.PlanFile
import Verif.Model.Sections
import Mathlib.Tactic.LinearCombination

/-!
C212-C220: writing well plans to a `.wbp` file and reading them back, character by character.
-/

namespace Welleng.Props

open Wbp Spec

/-! ### C212: the numbers -/

theorem near_rnd (d : ℕ) (x : ℚ) : Near d x (rnd d x) := rnd_close d x

theorem near_weaken {x y : ℚ} (h : Near 3 x y) : Near 2 x y := by
  unfold Near at *
  exact h.trans (by norm_num)

theorem locNear_back {l : Loc} : LocNear (some l) (some l.back) :=
  ⟨near_rnd _ _, near_rnd _ _, near_rnd _ _⟩

theorem stepNear_back {s : Step} {tie : Bool} (h : s.Fits tie) : StepNear s (s.back tie) := by
  cases s with
  | turn t =>
    obtain ⟨⟨l, hl, _⟩, _⟩ := h
    refine ⟨⟨near_rnd _ _, near_rnd _ _, near_rnd _ _⟩, near_rnd _ _, near_rnd _ _, near_rnd _ _,
      ?_, ?_, ?_⟩
    · intro hf
      show Near 3 t.toolface (rnd (toolfaceDecimals t.toolface) t.toolface)
      rw [toolfaceDecimals, if_neg (not_lt.2 hf)]
      exact near_rnd _ _
    · show Near 2 t.toolface (rnd (toolfaceDecimals t.toolface) t.toolface)
      rw [toolfaceDecimals]
      split_ifs
      · exact near_rnd _ _
      · exact near_weaken (near_rnd _ _)
    · show LocNear t.loc (t.loc.map Loc.back)
      rw [hl]; exact locNear_back
  | surv s =>
    obtain ⟨⟨l, hl, _⟩, hst⟩ := h
    obtain ⟨st, hst⟩ := Option.ne_none_iff_exists'.1 hst
    refine ⟨near_rnd _ _, near_rnd _ _, near_rnd _ _, near_rnd _ _, near_rnd _ _, near_rnd _ _,
      near_rnd _ _, near_rnd _ _, near_rnd _ _, ?_, ?_⟩
    · show StationNear s.station (s.station.map _)
      rw [hst]; exact ⟨near_rnd _ _, near_rnd _ _, near_rnd _ _⟩
    · show LocNear s.loc (s.loc.map Loc.back)
      rw [hl]; exact locNear_back

theorem forall₂_backSteps {l : List Step} (h : StepsFit true l) :
    List.Forall₂ StepNear l (backSteps true l) := by
  cases l with
  | nil => exact .nil
  | cons s t =>
    refine .cons (stepNear_back h.1) ?_
    rw [List.forall₂_map_right_iff, List.forall₂_same]
    intro x hx
    exact stepNear_back (h.2 x hx)

/-- C212: whatever plans are exported (with coordinates and names that fit their columns), loading
the file gives the same plans with the same steps, and every number is the original to half a unit
of the last decimal printed. -/
theorem C212_numbers (notes : List Text) {w : WPlan} {ws : List WPlan}
    (h : ∀ x ∈ w :: ws, x.Fits) (ht : ∀ t ∈ w.targets, t.Fits) (c : Option ℤ) :
    ∃ file k rs, exportText notes (w :: ws) = some file ∧
      loadText c file = some (.ok (k, rs)) ∧ PlansNear (w :: ws) rs := by
  obtain ⟨file, u, h1, _, h3⟩ := load_export notes h ht c
  refine ⟨file, _, _, h1, h3, .cons (forall₂_backSteps (h w (by simp)).2) ?_⟩
  rw [List.forall₂_map_right_iff, List.forall₂_same]
  intro x hx
  exact forall₂_backSteps (h x (by simp [hx])).2

/-- A plan of two turn points and a survey point. -/
def twoTurns : WPlan :=
  ⟨"surface", "curve_only", "None", some [], some "Well A".toList, none, 3, 0, some .meters,
    some .meters, [],
    [.turn ⟨0, 0, 0, 0, 0, 0, 0, false, some ['2'], none, some ⟨448320, 6742590, 0⟩⟩,
     .turn ⟨12345 / 10, 3599996 / 10000, 30, 3, -2, 3, -150, false, some "920".toList,
      some "TD 1".toList, some ⟨448320, 6742600, -1200⟩⟩,
     .surv ⟨⟨1 / 25, 3 / 50, 0, 1 / 10, 0, 0, 0, 0, 0⟩, "MWD  rev 5".toList,
      some (1500, 359, 31), some ⟨448320, 6742700, -1400⟩⟩]⟩

theorem twoTurns_fits : twoTurns.Fits := by
  refine ⟨⟨by decide +kernel, by decide +kernel, by decide +kernel, by decide +kernel,
    ⟨[], rfl, ⟨by simp, by simp⟩, by simp⟩, ⟨?_, by decide +kernel⟩, ⟨⟨by decide, by decide⟩,
    by decide⟩, by simp only [twoTurns]; norm_num, by simp only [twoTurns]; norm_num⟩, ?_, ?_⟩
  · exact ⟨by decide +kernel, by decide +kernel⟩
  · exact ⟨⟨_, rfl, by norm_num [Loc.Fits]⟩, by simp⟩
  · intro x hx
    rcases List.mem_cons.1 hx with rfl | hx
    · refine ⟨⟨_, rfl, by norm_num [Loc.Fits]⟩, fun _ => ⟨rfl, ?_⟩⟩
      exact ⟨by decide +kernel, by decide +kernel⟩
    · rcases List.mem_cons.1 hx with rfl | hx
      · exact ⟨⟨_, rfl, by norm_num [Loc.Fits]⟩, by simp⟩
      · simp at hx

example : ∃ file k rs, exportText ["a note".toList] [twoTurns, twoTurns] = some file ∧
    loadText none file = some (.ok (k, rs)) ∧ PlansNear [twoTurns, twoTurns] rs :=
  C212_numbers _ (by simpa using twoTurns_fits) (by simp [twoTurns]) none

/-- C212: a depth of a million or more fills its column, runs into the coordinate before it, and
the line cannot be read. -/
theorem C212_wide_depth :
    afterColon (locLine ⟨448320, 6742590, -1000000⟩) =
      some "    448320.00   6742590.00-1000000.00".toList ∧
    readLoc "    448320.00   6742590.00-1000000.00".toList = none := by
  constructor <;> decide +kernel

/-! ### C213: the names -/

/-- Single words separated by single blanks. -/
def Spaced (s : Text) : Prop := ∃ ws : List Text, (∀ w ∈ ws, w ≠ [] ∧ ∀ c ∈ w, c ≠ ' ') ∧
  s = List.intercalate [' '] ws

theorem words_intercalate : ∀ (ws : List Text), (∀ w ∈ ws, w ≠ [] ∧ ∀ c ∈ w, c ≠ ' ') →
    words (List.intercalate [' '] ws) = ws
  | [], _ => rfl
  | [w], h => by
    rw [show List.intercalate [' '] [w] = w by simp [List.intercalate]]
    exact words_word (h w (by simp)).1 (h w (by simp)).2
  | w :: v :: t, h => by
    have e : List.intercalate [' '] (w :: v :: t) = w ++ ' ' :: List.intercalate [' '] (v :: t) := by
      simp [List.intercalate, List.intersperse]
    rw [e, words_append_blank, words_word (h w (by simp)).1 (h w (by simp)).2,
      words_intercalate (v :: t) fun x hx => h x (by simp at hx ⊢; tauto)]
    rfl

/-- The names of a step are read as written: a turn point has a method, and its target if any is
one word; the words of a tool are separated by single blanks. -/
def NamesFit : Step → Prop
  | .turn t => t.method ≠ none ∧ ∀ g, t.target = some g → Word g
  | .surv s => Spaced s.tool

theorem names_back {s : Step} (h : NamesFit s) : names (s.back false) = names s := by
  cases s with
  | turn t =>
    obtain ⟨h1, h2⟩ := h
    obtain ⟨m, hm⟩ := Option.ne_none_iff_exists'.1 h1
    have ht : targetBack t.target = t.target := by
      cases hg : t.target with
      | none => rfl
      | some g =>
        have hw := h2 g hg
        have : g.takeWhile (· ≠ ':') = g := by
          rw [List.takeWhile_eq_self_iff]; intro c hc; simpa using (hw.2 c hc).2
        rw [targetBack, Option.getD_some, this, words_word' hw]; rfl
    simp [Step.back, names, hm, ht]
  | surv s =>
    obtain ⟨ws, h1, h2⟩ := h
    simp only [Step.back, names]
    rw [h2, words_intercalate ws h1]

/-- C213: in an exported and reloaded plan all steps after the first keep their method, target and
tool, if these fit. -/
theorem C213_names_partial (notes : List Text) {w : WPlan} {ws : List WPlan}
    (h : ∀ x ∈ w :: ws, x.Fits) (ht : ∀ t ∈ w.targets, t.Fits) (c : Option ℤ)
    (hn : ∀ x ∈ w :: ws, ∀ s ∈ x.steps, NamesFit s) :
    ∃ file k rs, exportText notes (w :: ws) = some file ∧ loadText c file = some (.ok (k, rs)) ∧
      List.Forall₂ (fun x r => r.steps.tail.map names = x.steps.tail.map names) (w :: ws) rs := by
  have key : ∀ (x : WPlan) (p : RPlan), x ∈ w :: ws →
      (x.finish p).steps.tail.map names = x.steps.tail.map names := by
    intro x p hx
    have hx' := hn x hx
    show (backSteps true x.steps).tail.map names = _
    cases hs : x.steps with
    | nil => rfl
    | cons s t =>
      simp only [backSteps, List.tail_cons, List.map_map]
      apply List.map_congr_left
      intro y hy
      exact names_back (hx' y (by rw [hs]; simp [hy]))
  obtain ⟨file, u, h1, _, h3⟩ := load_export notes h ht c
  refine ⟨file, _, _, h1, h3, .cons (key _ _ (by simp)) ?_⟩
  rw [List.forall₂_map_right_iff, List.forall₂_same]
  intro x hx
  exact key _ _ (by simp [hx])

/-- C213: the target `TD 1` comes back as `TD`, and the tool `MWD  rev 5` with one blank less. -/
theorem C213_cut : ∃ file k r, exportText [] [twoTurns] = some file ∧
    loadText none file = some (.ok (k, [r])) ∧
    twoTurns.steps.tail.map names = [(some "920".toList, some "TD 1".toList),
      (some "MWD  rev 5".toList, none)] ∧
    r.steps.tail.map names = [(some "920".toList, some "TD".toList),
      (some "MWD rev 5".toList, none)] := by
  obtain ⟨file, u, h1, _, h3⟩ := load_export [] (w := twoTurns) (ws := [])
    (by simpa using twoTurns_fits) (by simp [twoTurns]) none
  refine ⟨file, _, _, h1, h3, rfl, ?_⟩
  show (backSteps true twoTurns.steps).tail.map names = _
  decide +kernel

/-- The plan with other names. -/
def oneWord : WPlan :=
  { twoTurns with
    steps := [.turn ⟨0, 0, 0, 0, 0, 0, 0, false, some ['2'], none, some ⟨448320, 6742590, 0⟩⟩,
      .turn ⟨1234, 359, 30, 3, -2, 3, -150, false, some "920".toList, some "TD".toList,
        some ⟨448320, 6742600, -1200⟩⟩,
      .surv ⟨⟨1, 0, 0, 1, 0, 1, 0, 0, 0⟩, "MWD rev 5".toList, some (1500, 359, 31),
        some ⟨448320, 6742700, -1400⟩⟩] }

theorem oneWord_fits : oneWord.Fits := by
  obtain ⟨h, -⟩ := twoTurns_fits
  refine ⟨⟨h.kind, h.method, h.dirty, h.unit, h.sidetrack, h.plan, h.parent, h.dls, h.extension⟩,
    ⟨⟨_, rfl, by norm_num [Loc.Fits]⟩, by simp⟩, ?_⟩
  intro x hx
  rcases List.mem_cons.1 hx with rfl | hx
  · refine ⟨⟨_, rfl, by norm_num [Loc.Fits]⟩, fun _ => ⟨rfl, ?_⟩⟩
    exact ⟨by decide +kernel, by decide +kernel⟩
  · rcases List.mem_cons.1 hx with rfl | hx
    · exact ⟨⟨_, rfl, by norm_num [Loc.Fits]⟩, by simp⟩
    · simp at hx

example : ∃ file k rs, exportText [] [oneWord] = some file ∧
    loadText none file = some (.ok (k, rs)) ∧
    List.Forall₂ (fun x r => r.steps.tail.map names = x.steps.tail.map names) [oneWord] rs := by
  refine C213_names_partial [] (ws := []) (by simpa using oneWord_fits)
    (by simp [oneWord, twoTurns]) none ?_
  intro x hx s hs
  rw [List.mem_singleton] at hx
  subst hx
  rcases List.mem_cons.1 hs with rfl | hs
  · exact ⟨by simp, by simp⟩
  · rcases List.mem_cons.1 hs with rfl | hs
    · exact ⟨by simp, by rintro g ⟨rfl⟩; exact ⟨by decide +kernel, by decide +kernel⟩⟩
    · rcases List.mem_cons.1 hs with rfl | hs
      · exact ⟨["MWD".toList, "rev".toList, "5".toList], by decide +kernel, by decide +kernel⟩
      · simp at hs

/-! ### C214: tie-on points -/

theorem tieOn_back (s : Step) : isTieOn (s.back false) = false := by cases s <;> rfl

/-- C214: of a reloaded plan no step but the first is a tie-on point. -/
theorem C214_only_first_partial (notes : List Text) {w : WPlan} {ws : List WPlan}
    (h : ∀ x ∈ w :: ws, x.Fits) (ht : ∀ t ∈ w.targets, t.Fits) (c : Option ℤ) :
    ∃ file k rs, exportText notes (w :: ws) = some file ∧ loadText c file = some (.ok (k, rs)) ∧
      List.Forall₂ (fun x r => (∀ s ∈ r.steps.tail, isTieOn s = false) ∧
        ∀ t l, x.steps = .turn t :: l → ∃ t' l', r.steps = .turn t' :: l' ∧ t'.tieOn = true ∧
          t'.method = none) (w :: ws) rs := by
  have key : ∀ (x : WPlan) (p : RPlan), (∀ s ∈ (x.finish p).steps.tail, isTieOn s = false) ∧
      ∀ t l, x.steps = .turn t :: l → ∃ t' l', (x.finish p).steps = .turn t' :: l' ∧
        t'.tieOn = true ∧ t'.method = none := by
    intro x p
    refine ⟨?_, fun t l e => ?_⟩
    · show ∀ s ∈ (backSteps true x.steps).tail, _
      cases hs : x.steps with
      | nil => simp [backSteps]
      | cons s t =>
        simp only [backSteps, List.tail_cons, List.mem_map]
        rintro s ⟨y, _, rfl⟩
        exact tieOn_back y
    · have hs : (x.finish p).steps = Step.back true (.turn t) :: l.map (Step.back false) := by
        show backSteps true x.steps = _
        rw [e]; rfl
      exact ⟨_, _, hs, rfl, rfl⟩
  obtain ⟨file, u, h1, _, h3⟩ := load_export notes h ht c
  refine ⟨file, _, _, h1, h3, .cons (key _ _) ?_⟩
  rw [List.forall₂_map_right_iff, List.forall₂_same]
  intro x hx
  exact key _ _

/-- C214: the first point of a plan made from a survey is not a tie-on point and has method `2`;
reloaded it is one and has no method. -/
theorem C214_first : ∃ file k r t, exportText [] [twoTurns] = some file ∧
    loadText none file = some (.ok (k, [r])) ∧
    (twoTurns.steps.map isTieOn, twoTurns.steps.head?.map names) =
      ([false, false, false], some (some ['2'], none)) ∧
    r.steps.head? = some (.turn t) ∧ t.tieOn = true ∧ t.method = none := by
  obtain ⟨file, u, h1, _, h3⟩ := load_export [] (w := twoTurns) (ws := [])
    (by simpa using twoTurns_fits) (by simp [twoTurns]) none
  exact ⟨file, _, _, _, h1, h3, rfl, rfl, rfl, rfl⟩

/-! ### C215: covariances -/

theorem rnd_nonneg {d : ℕ} {x : ℚ} (h : 0 ≤ x) : 0 ≤ rnd d x := by
  rw [rnd, if_neg (not_lt.2 h), one_mul]; positivity

theorem roundEven_int (n : ℤ) : Dms.roundEven ((n : ℤ) : ℚ) = n := by
  rw [Dms.roundEven, Int.fract_intCast, if_pos (by norm_num), Int.floor_intCast]

/-- A number with `d` decimals is read back exactly. -/
theorem rnd_exact {d : ℕ} {x : ℚ} (h : ∃ n : ℤ, x * 10 ^ d = n) : rnd d x = x := by
  obtain ⟨n, hn⟩ := h
  have p : (0 : ℚ) < 10 ^ d := by positivity
  have e : |x| * 10 ^ d = ((|n| : ℤ) : ℚ) := by
    rw [Int.cast_abs, ← hn, abs_mul, abs_of_pos p]
  have hs : (scaled d x : ℚ) = |x| * 10 ^ d := by
    rw [scaled, e, roundEven_int, ← Int.cast_natCast, Int.toNat_of_nonneg (abs_nonneg n)]
  rw [rnd, hs, mul_div_cancel_right₀ _ p.ne']
  split_ifs with hx
  · rw [abs_of_neg hx]; ring
  · rw [abs_of_nonneg (not_lt.1 hx)]; ring

/-- The survey points of a reloaded plan. -/
theorem load_surv (notes : List Text) {w : WPlan} (h : w.Fits) (ht : ∀ t ∈ w.targets, t.Fits)
    (c : Option ℤ) : ∃ file k r, exportText notes [w] = some file ∧
      loadText c file = some (.ok (k, [r])) ∧
      ∀ (i : ℕ) (s : Surv), w.steps[i]? = some (Step.surv s) →
        r.steps[i]? = some (Step.back true (Step.surv s)) := by
  obtain ⟨file, u, h1, _, h3⟩ := load_export notes (w := w) (ws := []) (by simpa using h) ht c
  refine ⟨file, _, _, h1, h3, fun i s hi => ?_⟩
  show (backSteps true w.steps)[i]? = _
  cases hs : w.steps with
  | nil => simp [hs] at hi
  | cons a t =>
    cases i with
    | zero =>
      simp only [hs, List.getElem?_cons_zero, Option.some.injEq] at hi
      simp [backSteps, hi]
    | succ i =>
      simp only [hs, List.getElem?_cons_succ] at hi
      simp [backSteps, hi, Step.back]

/-- C215: reloaded variances are not negative, and a covariance with one decimal stays a covariance. -/
theorem C215_variances_partial (notes : List Text) {w : WPlan} (h : w.Fits)
    (ht : ∀ t ∈ w.targets, t.Fits) (c : Option ℤ) :
    ∃ file k r, exportText notes [w] = some file ∧ loadText c file = some (.ok (k, [r])) ∧
      ∀ (i : ℕ) (s : Surv), w.steps[i]? = some (Step.surv s) → IsCovariance s.cov →
        ∃ s' : Surv, r.steps[i]? = some (Step.surv s') ∧
          0 ≤ s'.cov.xx ∧ 0 ≤ s'.cov.yy ∧ 0 ≤ s'.cov.zz ∧
          ((∀ v ∈ [s.cov.xx, s.cov.xy, s.cov.xz, s.cov.yy, s.cov.yz, s.cov.zz],
            ∃ n : ℤ, v * 10 = n) → IsCovariance s'.cov) := by
  obtain ⟨file, k, r, h1, h2, h3⟩ := load_surv notes h ht c
  refine ⟨file, k, r, h1, h2, fun i s hi hc => ⟨_, h3 i s hi, rnd_nonneg ?_, rnd_nonneg ?_,
    rnd_nonneg ?_, ?_⟩⟩
  · simpa [quad] using hc 1 0 0
  · simpa [quad] using hc 0 1 0
  · simpa [quad] using hc 0 0 1
  · intro hv
    have e : ∀ v ∈ [s.cov.xx, s.cov.xy, s.cov.xz, s.cov.yy, s.cov.yz, s.cov.zz], rnd 1 v = v :=
      fun v hm => rnd_exact (by simpa using hv v hm)
    intro x y z
    have := hc x y z
    simp only [quad, Cov.back] at this ⊢
    rw [e _ (by simp), e s.cov.xy (by simp), e s.cov.xz (by simp), e s.cov.yy (by simp),
      e s.cov.yz (by simp), e s.cov.zz (by simp)]
    exact this

/-- The covariance of the survey point of `twoTurns`. -/
theorem twoTurns_isCov : IsCovariance ⟨1 / 25, 3 / 50, 0, 1 / 10, 0, 0, 0, 0, 0⟩ := by
  intro x y z
  simp only [quad]
  nlinarith [sq_nonneg (x + 3 / 2 * y), sq_nonneg y]

/-- C215: a covariance matrix that, written and read back, is one no longer. -/
theorem C215_not_covariance : ∃ file k r s s', exportText [] [twoTurns] = some file ∧
    loadText none file = some (.ok (k, [r])) ∧ twoTurns.steps[2]? = some (Step.surv s) ∧
    r.steps[2]? = some (Step.surv s') ∧ IsCovariance s.cov ∧ ¬IsCovariance s'.cov := by
  obtain ⟨file, k, r, h1, h2, h3⟩ := load_surv [] twoTurns_fits (by simp [twoTurns]) none
  refine ⟨file, k, r, _, _, h1, h2, rfl, h3 2 _ rfl, twoTurns_isCov, ?_⟩
  intro h
  have := h (-1) 1 0
  have e : quad (Cov.back ⟨1 / 25, 3 / 50, 0, 1 / 10, 0, 0, 0, 0, 0⟩) (-1) 1 0 = -1 / 10 := by
    decide +kernel
  rw [show quad _ (-1) 1 0 = _ from e] at this
  norm_num at this

/-! ### C216, C217: targets -/

/-- C216: with targets of one colour, that colour is read back. -/
theorem C216_one_colour_partial (notes : List Text) {w : WPlan} {ws : List WPlan}
    (h : ∀ x ∈ w :: ws, x.Fits) (ht : ∀ t ∈ w.targets, t.Fits) (c k : Option ℤ)
    (h0 : w.targets ≠ []) (hk : ∀ t ∈ w.targets, t.color = k) :
    ∃ file rs, exportText notes (w :: ws) = some file ∧ loadText c file = some (.ok (k, rs)) := by
  obtain ⟨file, u, h1, _, h3⟩ := load_export notes h ht c
  have : ∀ (l : List Tgt) (c : Option ℤ), l ≠ [] → (∀ t ∈ l, t.color = k) → lastColor c l = k := by
    intro l
    induction l with
    | nil => intro c h; exact absurd rfl h
    | cons a t ih =>
      intro c _ hk
      cases t with
      | nil => simpa [lastColor] using hk a (by simp)
      | cons b r => exact ih a.color (by simp) fun x hx => hk x (by simp at hx ⊢; tauto)
  rw [this _ c h0 hk] at h3
  exact ⟨file, _, h1, h3⟩

theorem fits_targets {w : WPlan} (h : w.Fits) (ts : List Tgt) :
    WPlan.Fits { w with targets := ts } := by
  obtain ⟨h, hs⟩ := h
  exact ⟨⟨h.kind, h.method, h.dirty, h.unit, h.sidetrack, h.plan, h.parent, h.dls, h.extension⟩, hs⟩

/-- A plan with targets of the colours 1 and 7. -/
def twoTargets : WPlan :=
  { twoTurns with
    targets := [⟨"north".toList, some ⟨100, 200, -1000⟩, some 1⟩,
      ⟨"south".toList, some ⟨100, -200, -1000⟩, some 7⟩] }

theorem twoTargets_fits : ∀ t ∈ twoTargets.targets, t.Fits := by
  intro t ht
  rcases List.mem_cons.1 ht with rfl | ht
  · exact ⟨⟨_, rfl, by norm_num [Loc.Fits]⟩, _, rfl, by norm_num, by norm_num⟩
  · rcases List.mem_cons.1 ht with rfl | ht
    · exact ⟨⟨_, rfl, by norm_num [Loc.Fits]⟩, _, rfl, by norm_num, by norm_num⟩
    · simp at ht

/-- C216: the colour every target has after loading is that of the last target. -/
theorem C216_last_colour : ∃ file rs, exportText [] [twoTargets] = some file ∧
    loadText none file = some (.ok (some 7, rs)) ∧
    twoTargets.targets.map Tgt.color = [some 1, some 7] ∧
    rs.map (fun r => r.targets.map RTgt.name) = [["north".toList, "south".toList]] := by
  obtain ⟨file, u, h1, _, h3⟩ := load_export [] (w := twoTargets) (ws := [])
    (by simpa using (show twoTargets.Fits from fits_targets twoTurns_fits _)) twoTargets_fits none
  refine ⟨file, _, h1, h3, rfl, ?_⟩
  show [(twoTargets.targets.map Tgt.back).map RTgt.name] = _
  decide +kernel

example : ∃ file rs, exportText [] [{ twoTurns with targets := twoTargets.targets.tail }] =
    some file ∧ loadText none file = some (.ok (some 7, rs)) :=
  C216_one_colour_partial [] (ws := []) (by simpa using fits_targets twoTurns_fits _)
    (fun t ht => twoTargets_fits t (List.mem_of_mem_tail ht)) none (some 7) (by simp [twoTargets])
    (by simp [twoTargets])

/-- C216: a target without a colour is written as `C:None`, which cannot be read. -/
theorem C216_no_colour : ∃ file,
    exportText [] [{ twoTurns with targets := [⟨['A'], some ⟨0, 0, 0⟩, none⟩] }] = some file ∧
    loadText none file = some (.error .value) := by
  refine ⟨_, rfl, ?_⟩
  decide +kernel

/-- C217: the targets of the first plan are read back, with names up to a colon or the blanks at
their end and locations as printed; those of the other plans are lost. -/
theorem C217_first_plan_partial (notes : List Text) {w : WPlan} {ws : List WPlan}
    (h : ∀ x ∈ w :: ws, x.Fits) (ht : ∀ t ∈ w.targets, t.Fits) (c : Option ℤ) :
    ∃ file k r rs, exportText notes (w :: ws) = some file ∧
      loadText c file = some (.ok (k, r :: rs)) ∧
      List.Forall₂ (fun t u => (':' ∉ t.name → t.name.getLast? ≠ some ' ' → u.name = t.name) ∧
        LocNear t.loc u.loc) w.targets r.targets ∧
      ∀ x ∈ rs, x.targets = [] := by
  obtain ⟨file, u, h1, _, h3⟩ := load_export notes h ht c
  refine ⟨file, _, _, _, h1, h3, ?_, ?_⟩
  · show List.Forall₂ _ w.targets (w.targets.map Tgt.back)
    rw [List.forall₂_map_right_iff, List.forall₂_same]
    intro t htm
    obtain ⟨⟨l, hl, _⟩, _⟩ := ht t htm
    refine ⟨fun hc hb => ?_, ?_⟩
    · have h1 : rstrip t.name = t.name := by
        cases hn : t.name using List.reverseRecOn with
        | nil => rfl
        | append_singleton s a =>
          refine rstrip_of_last ?_
          rintro rfl
          rw [hn] at hb
          simp at hb
      show (rstrip t.name).takeWhile (· ≠ ':') = t.name
      rw [h1, List.takeWhile_eq_self_iff]
      intro x hx
      simp only [ne_eq, decide_not, Bool.not_eq_true', decide_eq_false_iff_not]
      rintro rfl
      exact hc hx
    · show LocNear t.loc (t.loc.map Loc.back)
      rw [hl]; exact locNear_back
  · intro x hx
    simp only [List.mem_map] at hx
    obtain ⟨y, _, rfl⟩ := hx
    rfl

/-- C217: of two plans with two targets each, the second comes back with none. -/
theorem C217_second_plan : ∃ file k r r', exportText [] [twoTargets, twoTargets] = some file ∧
    loadText none file = some (.ok (k, [r, r'])) ∧ r.targets.length = 2 ∧ r'.targets = [] := by
  have hf : twoTargets.Fits := fits_targets twoTurns_fits _
  obtain ⟨file, u, h1, _, h3⟩ := load_export [] (w := twoTargets) (ws := [twoTargets])
    (by simpa using hf) twoTargets_fits none
  exact ⟨file, _, _, _, h1, h3, rfl, rfl⟩

/-! ### C218: units -/

theorem unitsOf_unitKey {s d : Option U} {u : String} (h : unitKey s d = some u) :
    ∃ s' d', s = some s' ∧ d = some d' ∧ unitsOf u = some (s', d') := by
  cases s with
  | none => simp [unitKey, depthTable] at h
  | some s =>
    cases d with
    | none => simp [unitKey, depthTable] at h
    | some d =>
      refine ⟨s, d, rfl, rfl, ?_⟩
      have := C92_units.1 s d
      rw [h] at this
      exact this

/-- C218: all plans are read with the units of the first. -/
theorem C218_same_units_partial (notes : List Text) {w : WPlan} {ws : List WPlan}
    (h : ∀ x ∈ w :: ws, x.Fits) (ht : ∀ t ∈ w.targets, t.Fits) (c : Option ℤ) {s d : U}
    (hu : ∀ x ∈ w :: ws, x.surface = some s ∧ x.depth = some d) :
    ∃ file k rs, exportText notes (w :: ws) = some file ∧ loadText c file = some (.ok (k, rs)) ∧
      rs.length = ws.length + 1 ∧ ∀ r ∈ rs, unitsRead r = some (s, d) := by
  obtain ⟨file, u, h1, h2, h3⟩ := load_export notes h ht c
  obtain ⟨s', d', e1, e2, e3⟩ := unitsOf_unitKey h2
  have := hu w (by simp)
  rw [this.1, Option.some.injEq] at e1
  rw [this.2, Option.some.injEq] at e2
  subst e1 e2
  refine ⟨file, _, _, h1, h3, by simp, ?_⟩
  have key : ∀ (x : WPlan) (p : RPlan), p.units = some u.toList →
      unitsRead (x.finish p) = some (s, d) := by
    intro x p hp
    show p.units.bind _ = _
    rw [hp, Option.bind_some, String.ofList_toList, e3]
  intro r hr
  rcases List.mem_cons.1 hr with rfl | hr
  · exact key _ _ rfl
  · obtain ⟨x, _, rfl⟩ := List.mem_map.1 hr
    exact key _ _ rfl

example : ∃ file k rs, exportText [] [twoTurns, twoTargets] = some file ∧
    loadText none file = some (.ok (k, rs)) ∧ rs.length = 2 ∧
    ∀ r ∈ rs, unitsRead r = some (.meters, .meters) :=
  C218_same_units_partial [] (ws := [twoTargets])
    (by simpa using (⟨twoTurns_fits, fits_targets twoTurns_fits _⟩ :
      twoTurns.Fits ∧ twoTargets.Fits))
    (by simp [twoTurns]) none (by simp [twoTurns, twoTargets])

/-- The plan in feet. -/
def inFeet : WPlan :=
  { twoTurns with
    surface := some .feet
    depth := some .feet }

theorem inFeet_fits : inFeet.Fits := by
  obtain ⟨h, hs⟩ := twoTurns_fits
  exact ⟨⟨h.kind, h.method, h.dirty, by decide +kernel, h.sidetrack, h.plan, h.parent, h.dls,
    h.extension⟩, hs⟩

/-- C218: a plan in feet exported after one in metres comes back in metres, with its numbers
unchanged. -/
theorem C218_feet_as_metres : ∃ file k r r', exportText [] [twoTurns, inFeet] = some file ∧
    loadText none file = some (.ok (k, [r, r'])) ∧ unitsRead r' = some (.meters, .meters) ∧
    List.Forall₂ StepNear inFeet.steps r'.steps := by
  obtain ⟨file, u, h1, h2, h3⟩ := load_export [] (w := twoTurns) (ws := [inFeet])
    (by simpa using ⟨twoTurns_fits, inFeet_fits⟩) (by simp [twoTurns]) none
  refine ⟨file, _, _, _, h1, h3, ?_, forall₂_backSteps inFeet_fits.2⟩
  have : u = "2" := by
    have e : unitKey twoTurns.surface twoTurns.depth = some "2" := by decide +kernel
    rw [e, Option.some.injEq] at h2
    exact h2.symm
  subst this
  show unitsOf (String.ofList "2".toList) = _
  decide +kernel

/-! ### C219: local coordinates -/

/-- C219: the local coordinates of every control point are off by the difference of the easting and
the northing of the first station, in opposite senses. -/
theorem C219_offset {rtol atol : ℝ} {dlsCont : Bool} {around : ℝ → ℝ} {u : LenUnit}
    {sv : ℕ → Sec.Row} {n : ℕ} {steps : List Sec.TurnPoint}
    (_h : Sec.getSections rtol atol dlsCont around u sv n = some steps) :
    Sec.envLocal (Sec.surfaceDatum sv) steps = steps.map fun s =>
      (⟨s.location.x - (sv 0).pos.y + ((sv 0).pos.y - (sv 0).pos.x),
        s.location.y - (sv 0).pos.x - ((sv 0).pos.y - (sv 0).pos.x), s.location.z⟩ : V3) := by
  unfold Sec.envLocal Sec.surfaceDatum
  apply List.map_congr_left
  intro s _
  ext <;> simp

/-- C219: if the easting of the first station equals its northing, the local coordinates are east
and north of it. -/
theorem C219_diagonal_partial {rtol atol : ℝ} {dlsCont : Bool} {around : ℝ → ℝ} {u : LenUnit}
    {sv : ℕ → Sec.Row} {n : ℕ} {steps : List Sec.TurnPoint}
    (h : Sec.getSections rtol atol dlsCont around u sv n = some steps)
    (he : (sv 0).pos.y = (sv 0).pos.x) :
    Sec.envLocal (Sec.surfaceDatum sv) steps = steps.map fun s =>
      (⟨s.location.x - (sv 0).pos.y, s.location.y - (sv 0).pos.x, s.location.z⟩ : V3) := by
  rw [C219_offset h, he]
  simp

/-- C219: the first control point, which is the first station, has the local coordinates
(100, -100) when the station is at northing 100 and easting 200. -/
theorem C219_first_not_origin {rtol atol : ℝ} {dlsCont : Bool} {around : ℝ → ℝ} {u : LenUnit}
    {sv : ℕ → Sec.Row} {n : ℕ} (hn : n ≠ 0) (h0 : (sv 0).pos = ⟨100, 200, 0⟩) :
    ∃ steps, Sec.getSections rtol atol dlsCont around u sv n = some steps ∧
      (Sec.envLocal (Sec.surfaceDatum sv) steps).head? = some ⟨100, -100, 0⟩ := by
  refine ⟨_, by rw [Sec.getSections, if_neg hn], ?_⟩
  simp only [Sec.sectionsOf, Sec.envLocal, List.map_cons, List.head?_cons, Sec.firstPoint,
    Sec.surfaceDatum, h0, Option.some.injEq]
  ext <;> norm_num

example : ∃ steps, Sec.getSections 0 0 false id .meters
    (fun _ => ⟨⟨0, 0, 0⟩, ⟨100, 200, 0⟩, 0, 0⟩) 1 = some steps ∧
    (Sec.envLocal (Sec.surfaceDatum fun _ => ⟨⟨0, 0, 0⟩, ⟨100, 200, 0⟩, 0, 0⟩) steps).head? =
      some ⟨100, -100, 0⟩ :=
  C219_first_not_origin (by norm_num) rfl

/-! ### C220: comments -/

/-- C220: the comments written into a file change nothing of what is read from it. -/
theorem C220_comments (notes notes' : List Text) {w : WPlan} {ws : List WPlan}
    (h : ∀ x ∈ w :: ws, x.Fits) (ht : ∀ t ∈ w.targets, t.Fits) (c : Option ℤ) :
    ∃ file file' k rs, exportText notes (w :: ws) = some file ∧
      exportText notes' (w :: ws) = some file' ∧ loadText c file = some (.ok (k, rs)) ∧
      loadText c file' = some (.ok (k, rs)) := by
  obtain ⟨file, u, h1, h2, h3⟩ := load_export notes h ht c
  obtain ⟨file', u', h1', h2', h3'⟩ := load_export notes' h ht c
  rw [h2, Option.some.injEq] at h2'
  subst h2'
  exact ⟨file, file', _, _, h1, h1', h3, h3'⟩

example : ∃ file file' k rs, exportText ["W:".toList] [twoTurns] = some file ∧
    exportText [] [twoTurns] = some file' ∧ loadText none file = some (.ok (k, rs)) ∧
    loadText none file' = some (.ok (k, rs)) :=
  C220_comments _ _ (ws := []) (by simpa using twoTurns_fits) (by simp [twoTurns]) none

end Welleng.Props
