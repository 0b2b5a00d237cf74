import Verif.Lemmas.WbpText
import Verif.Props.WbpMore

/-!
What the reader of `.wbp` files makes of the lines that `export` writes.
-/

namespace Welleng.Wbp

/-- A number that is read back: the value printed. -/
def Loc.back (l : Loc) : Loc := ⟨rnd 2 l.x, rnd 2 l.y, rnd 2 l.z⟩

/-- The covariance and biases as printed. -/
def Cov.back (c : Cov) : Cov :=
  ⟨rnd 1 c.xx, rnd 1 c.xy, rnd 1 c.xz, rnd 1 c.yy, rnd 1 c.yz, rnd 1 c.zz, rnd 2 c.bx, rnd 2 c.byy,
    rnd 2 c.bz⟩

/-- The target read from a line. -/
def targetBack (t : Option Text) : Option Text :=
  (words ((t.getD []).takeWhile (· ≠ ':'))).head?

/-- A step as it is read back, `tie` being the reader's tie-on flag. -/
def Step.back (tie : Bool) : Step → Step
  | .turn t => .turn ⟨rnd 2 t.md, rnd 3 t.azi, rnd 3 t.inc, rnd 3 t.build, rnd 3 t.turn, rnd 3 t.dls,
      rnd (toolfaceDecimals t.toolface) t.toolface, tie,
      if tie then none else some (t.method.getD ['0']),
      if tie then none else targetBack t.target, t.loc.map Loc.back⟩
  | .surv s => .surv ⟨s.cov.back, List.intercalate [' '] (words s.tool),
      s.station.map fun x => (rnd 2 x.1, rnd 3 x.2.1, rnd 3 x.2.2), s.loc.map Loc.back⟩

/-- The coordinates leave room for a blank in their columns. -/
def Loc.Fits (l : Loc) : Prop := |l.y| ≤ 99999999 ∧ |l.z| ≤ 999999

/-- One word without a colon. -/
def Word (s : Text) : Prop := s ≠ [] ∧ ∀ c ∈ s, c ≠ ' ' ∧ c ≠ ':'

/-- A step that can be written and, with the reader's flag `tie`, read. -/
def Step.Fits (tie : Bool) : Step → Prop
  | .turn t => (∃ l, t.loc = some l ∧ l.Fits) ∧
      (tie = false → t.tieOn = false ∧ Word (t.method.getD ['0']))
  | .surv s => (∃ l, s.loc = some l ∧ l.Fits) ∧ s.station ≠ none

/-! ### Single lines -/

theorem splitWs_head {cur : Text} (h : cur ≠ []) (s : Text) :
    ∃ u r, splitWs cur s = (cur ++ u) :: r := by
  induction s generalizing cur with
  | nil => exact ⟨[], [], by simp [splitWs, h]⟩
  | cons c t ih =>
    rw [splitWs]
    split_ifs
    · exact ⟨[], _, by rw [List.append_nil]⟩
    · obtain ⟨u, r, e⟩ := ih (cur := cur ++ [c]) (by simp)
      exact ⟨c :: u, r, by rw [e]; simp⟩

theorem words_code {k : Char} (hk : k ≠ ' ') (b : Text) :
    ∃ u r, words (k :: ':' :: b) = (k :: ':' :: u) :: r := by
  have h : words (k :: ':' :: b) = splitWs [k, ':'] b := by
    rw [words, splitWs, if_neg hk, splitWs, if_neg (by decide)]; rfl
  obtain ⟨u, r, e⟩ := splitWs_head (cur := [k, ':']) (by simp) b
  exact ⟨u, r, by rw [h, e]; rfl⟩

/-- A line with a one-letter code is not a section header. -/
theorem readLine_code {k : Char} (hk : k ≠ ' ') (b : Text) (c : Option ℤ) (p : RPlan) :
    readLine c p (k :: ':' :: b) =
      if p.flag = .targets then targetLine c p (k :: ':' :: b) else recLine c p (k :: ':' :: b) := by
  obtain ⟨u, r, e⟩ := words_code hk b
  have e1 : "DEPTH".toList = ['D', 'E', 'P', 'T', 'H'] := by decide +kernel
  have e2 : "TARGETS:".toList = ['T', 'A', 'R', 'G', 'E', 'T', 'S', ':'] := by decide +kernel
  have e3 : "WELLPLANS:".toList = ['W', 'E', 'L', 'L', 'P', 'L', 'A', 'N', 'S', ':'] := by
    decide +kernel
  rw [readLine, e, e1, e2, e3]
  simp

theorem readLoc_locLine {l : Loc} (h : l.Fits) :
    readLoc (rjust 13 (fixed 2 l.x) ++ rjust 13 (fixed 2 l.y) ++ rjust 11 (fixed 2 l.z)) =
      some l.back := by
  have hy : (fixed 2 l.y).length ≤ 12 :=
    (fixed_length (k := 8) (by norm_num) (by norm_num) (by norm_num; exact h.1)).trans
      (by split_ifs <;> norm_num)
  have hz : (fixed 2 l.z).length ≤ 10 :=
    (fixed_length (k := 6) (by norm_num) (by norm_num) (by norm_num; exact h.2)).trans
      (by split_ifs <;> norm_num)
  have r : ∀ w (s : Text), s.length ≤ w → rjust (w + 1) s = ' ' :: rjust w s := by
    intro w s hs
    rw [rjust, rjust, show w + 1 - s.length = (w - s.length) + 1 by omega, List.replicate_succ,
      List.cons_append]
  have hw : words (rjust 13 (fixed 2 l.x) ++ rjust 13 (fixed 2 l.y) ++ rjust 11 (fixed 2 l.z)) =
      [fixed 2 l.x, fixed 2 l.y, fixed 2 l.z] := by
    rw [r 12 _ hy, r 10 _ hz, words_append_blank, words_append_blank, words_rjust, words_rjust,
      words_rjust, words_fixed, words_fixed, words_fixed]
    rfl
  rw [readLoc, hw]
  simp only [parseFloat_fixed (show 0 < 2 by norm_num)]
  rfl

theorem rjust_chars {w : ℕ} {s : Text} {c : Char} (h : c ∈ rjust w s) : c = ' ' ∨ c ∈ s := by
  rw [rjust, List.mem_append] at h
  exact h.imp (fun h => (List.mem_replicate.1 h).2) id

theorem col_chars {w : ℕ} {s : Text} {c : Char} (h : c ∈ col w s) : c = ' ' ∨ c ∈ s := by
  rw [col, List.mem_cons] at h
  exact h.elim Or.inl rjust_chars

theorem locLine_body_chars (l : Loc) {c : Char}
    (h : c ∈ rjust 13 (fixed 2 l.x) ++ rjust 13 (fixed 2 l.y) ++ rjust 11 (fixed 2 l.z)) :
    c ≠ ':' := by
  simp only [List.mem_append] at h
  rcases h with (h | h) | h <;> rcases rjust_chars h with rfl | h <;>
    first | decide | exact (fixed_chars h).2

theorem rstrip_locLine (l : Loc) : rstrip (locLine l) = locLine l := by
  unfold locLine
  rw [rjust.eq_def 11, ← List.append_assoc]
  exact rstrip_append (fixed_ne_nil _ _) fun _ h => (fixed_chars h).1

theorem afterColon_locLine (l : Loc) : afterColon (locLine l) =
    some (rjust 13 (fixed 2 l.x) ++ rjust 13 (fixed 2 l.y) ++ rjust 11 (fixed 2 l.z)) := by
  have := afterColon_code (k := 'L') (by decide) (fun c hc => locLine_body_chars l hc)
  rw [← this]; simp [locLine]

theorem locLine_eq (l : Loc) : locLine l = 'L' :: ':' ::
    (rjust 13 (fixed 2 l.x) ++ rjust 13 (fixed 2 l.y) ++ rjust 11 (fixed 2 l.z)) := by
  simp [locLine]

/-- A location line after a step. -/
theorem readLine_loc {l : Loc} (h : l.Fits) {c : Option ℤ} {p : RPlan} (hf : p.flag ≠ .targets)
    {ss : List Step} {s : Step} (hs : p.steps = ss ++ [s]) :
    readLine c p (locLine l) = .ok (some (c, { p with
      steps := ss ++ [s.setLoc l.back]
      tieOn := false })) := by
  rw [locLine_eq, readLine_code (by decide), if_neg hf, recLine, ← locLine_eq]
  have hb : beforeColon (locLine l) = ['L'] := by rw [locLine_eq, beforeColon_code (by decide)]
  rw [hb, afterColon_locLine]
  simp only [readLoc_locLine h, hs, setLast_snoc]
  simp

/-- A location line after a target. -/
theorem readLine_targetLoc {l : Loc} (h : l.Fits) {c : Option ℤ} {p : RPlan}
    (hf : p.flag = .targets) {ts : List RTgt} {t : RTgt} (hs : p.targets = ts ++ [t]) :
    readLine c p (locLine l) = .ok (some (c, { p with
      targets := ts ++ [{ t with loc := some l.back }] })) := by
  rw [locLine_eq, readLine_code (by decide), if_pos hf, targetLine, ← locLine_eq]
  have hb : beforeColon (locLine l) = ['L'] := by rw [locLine_eq, beforeColon_code (by decide)]
  rw [hb, afterColon_locLine]
  simp only [readLoc_locLine h, hs, setLast_snoc]
  simp

/-- Reading up to a colon, the blanks stripped at the end of the line do not matter. -/
theorem words_takeWhile_rstrip (b : Text) :
    words ((rstrip b).takeWhile (· ≠ ':')) = words (b.takeWhile (· ≠ ':')) := by
  obtain ⟨n, hn⟩ := rstrip_split b
  conv_rhs => rw [hn]
  by_cases hc : ∀ x ∈ rstrip b, decide (x ≠ ':') = true
  · rw [List.takeWhile_append_of_pos hc, List.takeWhile_eq_self_iff.2 hc]
    have : (List.replicate n ' ').takeWhile (· ≠ ':') = List.replicate n ' ' := by
      rw [List.takeWhile_eq_self_iff]
      intro x hx; rw [(List.mem_replicate.1 hx).2]; decide
    rw [this, words_trailing]
  · rw [List.takeWhile_append, if_neg]
    intro h
    apply hc
    have := (List.takeWhile_prefix (p := fun x => decide (x ≠ ':')) (l := rstrip b)).eq_of_length h
    exact List.takeWhile_eq_self_iff.1 this

theorem words_col (w : ℕ) (s : Text) : words (col w s) = words s := by
  rw [col, words_cons_blank, words_rjust]

theorem words_word' {s : Text} (h : Word s) : words s = [s] := words_word h.1 fun c hc => (h.2 c hc).1

/-- The seven numbers of a turn point line. -/
def turnNumbers (t : Turn) : Text :=
  col 7 (fixed 2 t.md) ++ col 7 (fixed 3 t.azi) ++ col 7 (fixed 3 t.inc) ++
    col 7 (fixed 3 t.build) ++ col 7 (fixed 3 t.turn) ++ col 7 (fixed 3 t.dls) ++
    col 7 (fixed (toolfaceDecimals t.toolface) t.toolface)

theorem turnNumbers_chars (t : Turn) {c : Char} (h : c ∈ turnNumbers t) : c ≠ ':' := by
  simp only [turnNumbers, List.mem_append] at h
  rcases h with (((((h | h) | h) | h) | h) | h) | h <;> rcases col_chars h with rfl | h <;>
    first | decide | exact (fixed_chars h).2

theorem words_turnNumbers (t : Turn) : words (turnNumbers t) = [fixed 2 t.md, fixed 3 t.azi,
    fixed 3 t.inc, fixed 3 t.build, fixed 3 t.turn, fixed 3 t.dls,
    fixed (toolfaceDecimals t.toolface) t.toolface] := by
  simp only [turnNumbers, words_col_append, words_col, words_fixed]
  rfl

theorem toolfaceDecimals_pos (t : ℚ) : 0 < toolfaceDecimals t := by
  unfold toolfaceDecimals; split_ifs <;> norm_num

/-- What follows the numbers of a turn point line. -/
def turnNames (t : Turn) : Text := rjust 4 (methodText t) ++ col 10 (t.target.getD [])

theorem turnLine_eq (t : Turn) :
    turnLine t = 'P' :: ':' :: (turnNumbers t ++ ' ' :: turnNames t) := by
  simp [turnLine, turnNumbers, turnNames, col]

theorem takeWhile_turn (t : Turn) :
    (turnNumbers t ++ ' ' :: turnNames t).takeWhile (· ≠ ':') =
      turnNumbers t ++ ' ' :: (turnNames t).takeWhile (· ≠ ':') := by
  rw [List.takeWhile_append_of_pos fun c hc => by simpa using turnNumbers_chars t hc]
  simp

theorem words_turn (t : Turn) :
    words ((rstrip (turnNumbers t ++ ' ' :: turnNames t)).takeWhile (· ≠ ':')) =
      [fixed 2 t.md, fixed 3 t.azi, fixed 3 t.inc, fixed 3 t.build, fixed 3 t.turn, fixed 3 t.dls,
        fixed (toolfaceDecimals t.toolface) t.toolface] ++
        words ((turnNames t).takeWhile (· ≠ ':')) := by
  rw [words_takeWhile_rstrip, takeWhile_turn, words_append_blank, words_turnNumbers]

theorem rstrip_turnLine (t : Turn) :
    rstrip (turnLine t) = 'P' :: ':' :: rstrip (turnNumbers t ++ ' ' :: turnNames t) := by
  rw [turnLine_eq]
  exact rstrip_prefix (a := ['P']) (c := ':') (by decide)

theorem afterColon_turnLine (t : Turn) : afterColon (rstrip (turnLine t)) =
    some ((rstrip (turnNumbers t ++ ' ' :: turnNames t)).takeWhile (· ≠ ':')) := by
  rw [rstrip_turnLine]
  simp [afterColon]

theorem words_turnNames {t : Turn} (ht : t.tieOn = false) (hm : Word (t.method.getD ['0'])) :
    words ((turnNames t).takeWhile (· ≠ ':')) = t.method.getD ['0'] ::
      words ((t.target.getD []).takeWhile (· ≠ ':')) := by
  have h1 : ∀ c ∈ rjust 4 (methodText t), decide (c ≠ ':') = true := by
    intro c hc
    simp only [methodText, ht] at hc
    rcases rjust_chars hc with rfl | hc
    · decide
    · simpa using (hm.2 c hc).2
  rw [turnNames, List.takeWhile_append_of_pos h1, col]
  have h2 : (' ' :: rjust 10 (t.target.getD [])).takeWhile (· ≠ ':') =
      ' ' :: (rjust 10 (t.target.getD [])).takeWhile (· ≠ ':') := by simp
  have h3 : (rjust 10 (t.target.getD [])).takeWhile (· ≠ ':') =
      List.replicate (10 - (t.target.getD []).length) ' ' ++
        (t.target.getD []).takeWhile (· ≠ ':') := by
    rw [rjust, List.takeWhile_append_of_pos]
    intro c hc; rw [(List.mem_replicate.1 hc).2]; decide
  rw [h2, h3, words_append_blank, words_blanks, words_rjust, methodText, ht]
  rw [if_neg (by simp), words_word' hm]
  rfl

/-- A turn point line. -/
theorem readTurn_turnLine {t : Turn} {tie : Bool}
    (h : tie = false → t.tieOn = false ∧ Word (t.method.getD ['0'])) :
    readTurn tie (rstrip (turnLine t)) = .ok ⟨rnd 2 t.md, rnd 3 t.azi, rnd 3 t.inc, rnd 3 t.build,
      rnd 3 t.turn, rnd 3 t.dls, rnd (toolfaceDecimals t.toolface) t.toolface, tie,
      if tie then none else some (t.method.getD ['0']),
      if tie then none else targetBack t.target, none⟩ := by
  rw [readTurn, afterColon_turnLine]
  simp only
  rw [words_turn]
  simp only [List.cons_append, List.nil_append, parseFloat_fixed (show 0 < 2 by norm_num),
    parseFloat_fixed (show 0 < 3 by norm_num), parseFloat_fixed (toolfaceDecimals_pos _)]
  cases tie with
  | true => simp
  | false =>
    obtain ⟨h1, h2⟩ := h rfl
    rw [words_turnNames h1 h2]
    simp [targetBack]

theorem readLine_turn {t : Turn} {c : Option ℤ} {p : RPlan} (hf : p.flag ≠ .targets)
    (h : p.tieOn = false → t.tieOn = false ∧ Word (t.method.getD ['0'])) {l : Loc}
    (hl : t.loc = some l) :
    ∃ t', Step.setLoc l.back (.turn t') = Step.back p.tieOn (.turn t) ∧
      readLine c p (rstrip (turnLine t)) =
        .ok (some (c, { p with steps := p.steps ++ [.turn t'] })) := by
  refine ⟨⟨rnd 2 t.md, rnd 3 t.azi, rnd 3 t.inc, rnd 3 t.build,
      rnd 3 t.turn, rnd 3 t.dls, rnd (toolfaceDecimals t.toolface) t.toolface, p.tieOn,
      if p.tieOn then none else some (t.method.getD ['0']),
      if p.tieOn then none else targetBack t.target, none⟩, ?_, ?_⟩
  · simp [Step.setLoc, Step.back, hl]
  · rw [rstrip_turnLine, readLine_code (by decide), if_neg hf, recLine,
      beforeColon_code (by decide), ← rstrip_turnLine, readTurn_turnLine h]
    simp

/-- The numbers of an extended survey point. -/
theorem words_covLine (c : Cov) (tool : Text) : words (covLine c tool) =
    [['X', ':'], fixed 1 c.xx, fixed 1 c.xy, fixed 1 c.xz, fixed 1 c.yy, fixed 1 c.yz,
      fixed 1 c.zz, fixed 2 c.bx, fixed 2 c.byy, fixed 2 c.bz] ++ words tool := by
  unfold covLine
  rw [words_append_blank, words_ljust]
  simp only [words_col_append, words_fixed]
  rw [words_word (w := ['X', ':']) (by simp) (by simp)]
  rfl

theorem words_stationLine (s : ℚ × ℚ × ℚ) : words (stationLine s) =
    [['S', ':'], fixed 2 s.1, fixed 3 s.2.1, fixed 3 s.2.2] := by
  unfold stationLine
  simp only [words_col_append, words_fixed]
  rw [words_word (w := ['S', ':']) (by simp) (by simp)]
  rfl

theorem readLine_cov {v : Cov} {tool : Text} {c : Option ℤ} {p : RPlan} (hf : p.flag ≠ .targets) :
    readLine c p (rstrip (covLine v tool)) = .ok (some (c, { p with
      steps := p.steps ++ [.surv ⟨v.back, List.intercalate [' '] (words tool), none, none⟩] })) := by
  have e : ∃ b, rstrip (covLine v tool) = 'X' :: ':' :: b := by
    simp only [covLine, List.cons_append, List.nil_append]
    exact ⟨_, rstrip_prefix (a := ['X']) (c := ':') (by decide)⟩
  have hw := words_rstrip (covLine v tool)
  obtain ⟨b, e⟩ := e
  rw [e] at hw ⊢
  rw [readLine_code (by decide), if_neg hf, recLine, beforeColon_code (by decide), hw,
    words_covLine]
  simp [readCov, parseFloat_fixed, Cov.back]

theorem readLine_station {s : ℚ × ℚ × ℚ} {c : Option ℤ} {p : RPlan} (hf : p.flag ≠ .targets)
    {ss : List Step} {v : Surv} (hs : p.steps = ss ++ [.surv v]) :
    readLine c p (rstrip (stationLine s)) = .ok (some (c, { p with
      steps := ss ++ [.surv { v with station := some (rnd 2 s.1, rnd 3 s.2.1, rnd 3 s.2.2) }] })) := by
  have e : ∃ b, rstrip (stationLine s) = 'S' :: ':' :: b := by
    simp only [stationLine, List.cons_append, List.nil_append]
    exact ⟨_, rstrip_prefix (a := ['S']) (c := ':') (by decide)⟩
  have hw := words_rstrip (stationLine s)
  obtain ⟨b, e⟩ := e
  rw [e] at hw ⊢
  rw [readLine_code (by decide), if_neg hf, recLine, beforeColon_code (by decide), hw,
    words_stationLine, hs]
  simp [readStation, parseFloat_fixed, setLast_snoc, Step.setStation]

/-! ### Steps -/

theorem readPlan_cons {c c' : Option ℤ} {p p' : RPlan} {ln : Text} {t : List Text}
    (h : readLine c p ln = .ok (some (c', p'))) : readPlan c p (ln :: t) = readPlan c' p' t := by
  rw [readPlan, h]

/-- A step that fits can be written, and reading it appends what was printed. -/
theorem read_step {s : Step} {c : Option ℤ} {p : RPlan} (hf : p.flag ≠ .targets)
    (h : s.Fits p.tieOn) (rest : List Text) :
    ∃ ls, stepLines s = some ls ∧ readPlan c p (ls.map rstrip ++ rest) =
      readPlan c { p with
        steps := p.steps ++ [s.back p.tieOn]
        tieOn := false } rest := by
  cases s with
  | turn t =>
    obtain ⟨⟨l, hl, hfit⟩, hm⟩ := h
    refine ⟨[turnLine t, locLine l], by simp [stepLines, hl], ?_⟩
    obtain ⟨t', e1, e2⟩ := readLine_turn (c := c) (p := p) (t := t) hf hm hl
    simp only [List.map_cons, List.map_nil, List.cons_append, List.nil_append]
    rw [readPlan_cons e2, rstrip_locLine, readPlan_cons (readLine_loc hfit (by exact hf) rfl)]
    rw [e1]
  | surv s =>
    obtain ⟨⟨l, hl, hfit⟩, hst⟩ := h
    obtain ⟨st, hst⟩ := Option.ne_none_iff_exists'.1 hst
    refine ⟨[covLine s.cov s.tool, stationLine st, locLine l], by simp [stepLines, hl, hst], ?_⟩
    simp only [List.map_cons, List.map_nil, List.cons_append, List.nil_append]
    rw [readPlan_cons (readLine_cov hf), readPlan_cons (readLine_station (by exact hf) rfl),
      rstrip_locLine, readPlan_cons (readLine_loc hfit (by exact hf) rfl)]
    simp [Step.setLoc, Step.back, hl, hst]

/-- The steps as they are read back: only the first with the tie-on flag `tie`. -/
def backSteps (tie : Bool) : List Step → List Step
  | [] => []
  | s :: t => s.back tie :: t.map (Step.back false)

/-- All the steps fit. -/
def StepsFit (tie : Bool) : List Step → Prop
  | [] => True
  | s :: t => s.Fits tie ∧ ∀ x ∈ t, x.Fits false

theorem stepsFit_tail {tie : Bool} {s : Step} {t : List Step} (h : StepsFit tie (s :: t)) :
    StepsFit false t := by
  cases t with
  | nil => trivial
  | cons a r => exact ⟨h.2 a (by simp), fun x hx => h.2 x (by simp [hx])⟩

theorem backSteps_false (l : List Step) : backSteps false l = l.map (Step.back false) := by
  cases l <;> rfl

/-- Reading the steps of a plan. -/
theorem read_steps : ∀ (l : List Step) {c : Option ℤ} {p : RPlan}, p.flag ≠ .targets →
    StepsFit p.tieOn l → ∃ ls, stepsLines l = some ls ∧ ∀ rest, readPlan c p (ls.map rstrip ++ rest) =
      readPlan c { p with
        steps := p.steps ++ backSteps p.tieOn l
        tieOn := p.tieOn && l.isEmpty } rest
  | [], c, p, _, _ => ⟨[], rfl, fun rest => by simp [backSteps]⟩
  | s :: t, c, p, hf, h => by
    obtain ⟨b, hb1, hb2⟩ := read_steps t (c := c) (p := { p with
      steps := p.steps ++ [s.back p.tieOn]
      tieOn := false }) hf (stepsFit_tail h)
    obtain ⟨a, ha1, _⟩ := read_step (c := c) hf h.1 []
    refine ⟨a ++ b, by simp [stepsLines, ha1, hb1], fun rest => ?_⟩
    obtain ⟨a', ha1', ha2⟩ := read_step (c := c) hf h.1 (b.map rstrip ++ rest)
    rw [ha1, Option.some.injEq] at ha1'
    subst ha1'
    rw [List.map_append, List.append_assoc, ha2, hb2, backSteps_false]
    simp [backSteps]

end Welleng.Wbp
