import Verif.Lemmas.WbpRead

/-!
Reading a whole `.wbp` file that `export` wrote.
-/

namespace Welleng.Wbp

open Welleng.Props

/-! ### Headers -/

/-- A header that fits its columns: known codes, names of at most 60 and a side track of at most 7
characters without blanks at their ends, and numbers of at most 6 and 8 characters. -/
structure WPlan.HeadFits (w : WPlan) : Prop where
  kind : getKey typeTable w.kind ≠ none
  method : getKey methodTable w.method ≠ none
  dirty : getKey dirtyTable w.dirty ≠ none
  unit : unitKey w.surface w.depth ≠ none
  sidetrack : ∃ s, w.sidetrack = some s ∧ Trimmed s ∧ s.length ≤ 7
  plan : Trimmed (w.plan.getD []) ∧ (w.plan.getD []).length ≤ 60
  parent : Trimmed (w.parent.getD []) ∧ (w.parent.getD []).length ≤ 60
  dls : |w.dls| ≤ 99
  extension : 0 ≤ w.extension ∧ w.extension ≤ 99

/-- A header as it is read back. -/
def WPlan.headBack (w : WPlan) : Head :=
  ⟨w.kind, w.method, some w.dirty, field (w.sidetrack.getD []), field (w.plan.getD []),
    field (w.parent.getD []), some (rnd 2 w.dls), some (rnd 5 w.extension), none⟩

theorem getKey_mem {V : Type} [DecidableEq V] {d : List (Char × V)} {v : V} {k : Char}
    (h : getKey d v = some k) : (k, v) ∈ d := by
  unfold getKey at h
  have h1 := List.mem_of_head? h
  simp only [List.mem_map, List.mem_filter, decide_eq_true_eq] at h1
  obtain ⟨⟨a, b⟩, ⟨h2, h3⟩, h4⟩ := h1
  simp only at h3 h4
  subst h3 h4
  exact h2

theorem lookup_type {k : Char} {v : String} (h : getKey typeTable v = some k) :
    typeTable.lookup k = some v := by
  have : ∀ r ∈ typeTable, typeTable.lookup r.1 = some r.2 := by decide +kernel
  exact this _ (getKey_mem h)

theorem lookup_method {k : Char} {v : String} (h : getKey methodTable v = some k) :
    methodTable.lookup k = some v := by
  have : ∀ r ∈ methodTable, methodTable.lookup r.1 = some r.2 := by decide +kernel
  exact this _ (getKey_mem h)

theorem lookup_dirty {k : Char} {v : String} (h : getKey dirtyTable v = some k) :
    dirtyTable.lookup k = some v := by
  have : ∀ r ∈ dirtyTable, dirtyTable.lookup r.1 = some r.2 := by decide +kernel
  exact this _ (getKey_mem h)

theorem trimmed_fixed (d : ℕ) (x : ℚ) : Trimmed (fixed d x) :=
  ⟨fun h => (fixed_chars (List.mem_of_head? h)).1 rfl,
    fun h => (fixed_chars (List.mem_of_getLast? h)).1 rfl⟩

theorem field_fixed (d : ℕ) (x : ℚ) : field (fixed d x) = some (fixed d x) := by
  rw [field, if_neg (fixed_ne_nil d x)]

/-- Reading a header that fits. -/
theorem readHead_header {w : WPlan} (h : w.HeadFits) :
    ∃ hd, headerOf w = some hd ∧ rstrip (writeHeader hd) = writeHeader hd ∧
      readHead (writeHeader hd) = .ok w.headBack := by
  obtain ⟨k, hk⟩ := Option.ne_none_iff_exists'.1 h.kind
  obtain ⟨m, hm⟩ := Option.ne_none_iff_exists'.1 h.method
  obtain ⟨d, hd⟩ := Option.ne_none_iff_exists'.1 h.dirty
  obtain ⟨u, hu⟩ := Option.ne_none_iff_exists'.1 h.unit
  obtain ⟨s, hs, hst, hsl⟩ := h.sidetrack
  have ld : (fixed 2 w.dls).length ≤ 6 :=
    (fixed_length (k := 2) (by norm_num) (by norm_num) (by norm_num; exact h.dls)).trans
      (by split_ifs <;> norm_num)
  have le : (fixed 5 w.extension).length ≤ 8 := by
    refine (fixed_length (k := 2) (by norm_num) (by norm_num) ?_).trans ?_
    · rw [abs_of_nonneg h.extension.1]; norm_num; exact h.extension.2
    · rw [if_neg (not_lt.2 h.extension.1)]
  obtain ⟨hd', hhd⟩ : ∃ hd', hd' = (⟨k, u.toList.headD ' ', m, d, s, w.plan.getD [],
    w.parent.getD [], fixed 2 w.dls, fixed 5 w.extension⟩ : Header) := ⟨_, rfl⟩
  have hr := C90_header_round_trip_partial (h := hd') (by rw [hhd]; exact hst)
    (by rw [hhd]; exact h.plan.1) (by rw [hhd]; exact h.parent.1)
    (by rw [hhd]; exact trimmed_fixed _ _) (by rw [hhd]; exact trimmed_fixed _ _)
    (by rw [hhd]; exact hsl) (by rw [hhd]; exact h.plan.2) (by rw [hhd]; exact h.parent.2)
    (by rw [hhd]; exact ld) (by rw [hhd]; exact le)
  have hlen : (writeHeader hd').length ≤ 160 := by
    have r7 : (rjust 7 hd'.sidetrack).length = 7 := rjust_length (by rw [hhd]; exact hsl)
    have l60 : (ljust 60 hd'.plan).length = 60 := ljust_length (by rw [hhd]; exact h.plan.2)
    have q60 : (ljust 60 hd'.parent).length = 60 := ljust_length (by rw [hhd]; exact h.parent.2)
    have r6 : (rjust 6 hd'.dls).length = 6 := rjust_length (by rw [hhd]; exact ld)
    have r8 : (rjust 7 hd'.extension).length ≤ 8 := by
      have : hd'.extension.length ≤ 8 := by rw [hhd]; exact le
      simp [rjust]; omega
    simp [writeHeader, r7, l60, q60, r6]; omega
  have hkick : stringStrip (slice 160 171 (writeHeader hd')) = none := by
    have : slice 160 171 (writeHeader hd') = [] := by
      rw [slice, List.drop_eq_nil_iff]
      exact (List.length_take_le' _ _).trans hlen
    rw [this]; rfl
  refine ⟨hd', ?_, ?_, ?_⟩
  · simp [headerOf, hk, hm, hd, hu, hs, hhd]
  · rw [writeHeader, rjust.eq_def 7 hd'.extension]
    rw [show ∀ (A B C : List Char), A ++ ' ' :: (B ++ C) = (A ++ ' ' :: B) ++ C by simp]
    rw [hhd]
    exact rstrip_append (fixed_ne_nil _ _) fun _ h => (fixed_chars h).1
  · have e1 : hd'.kind = k := by rw [hhd]
    have e2 : hd'.method = m := by rw [hhd]
    have e3 : hd'.dirty = d := by rw [hhd]
    have e4 : hd'.sidetrack = s := by rw [hhd]
    have e5 : hd'.plan = w.plan.getD [] := by rw [hhd]
    have e6 : hd'.parent = w.parent.getD [] := by rw [hhd]
    have e7 : hd'.dls = fixed 2 w.dls := by rw [hhd]
    have e8 : hd'.extension = fixed 5 w.extension := by rw [hhd]
    rw [readHead, hr, hkick]
    simp only [e1, e2, e3, e4, e5, e6, e7, e8, lookup_type hk, lookup_method hm, lookup_dirty hd,
      field_fixed, optFloat, parseFloat_fixed (show 0 < 2 by norm_num),
      parseFloat_fixed (show 0 < 5 by norm_num), Option.map_some]
    simp [WPlan.headBack, hs]

/-! ### Plans -/

/-- A plan that fits. -/
def WPlan.Fits (w : WPlan) : Prop := w.HeadFits ∧ StepsFit true w.steps

/-- The plan read from the lines of `w`, begun as `p`. -/
def WPlan.finish (p : RPlan) (w : WPlan) : RPlan :=
  { p with
    flag := .done
    tieOn := w.steps.isEmpty
    head := some w.headBack
    steps := backSteps true w.steps }

theorem read_plan {w : WPlan} (h : w.Fits) :
    ∃ b ls, planLines w = some (('W' :: ':' :: b) :: ls) ∧
      (∀ c p, p.flag = .done → readLine c p (rstrip ('W' :: ':' :: b)) = .ok none) ∧
      ∀ c p, p.flag ≠ .targets → p.flag ≠ .done → p.steps = [] → ∀ rest,
        readPlan c p ((('W' :: ':' :: b) :: ls).map rstrip ++ rest) =
          readPlan c (w.finish p) rest := by
  obtain ⟨hd, h1, h2, h3⟩ := readHead_header h.1
  obtain ⟨b, hb⟩ : ∃ b, writeHeader hd = 'W' :: ':' :: b := ⟨_, by simp [writeHeader]; rfl⟩
  obtain ⟨ls, hl, _⟩ := read_steps w.steps (c := none) (p := ⟨.done, true, none, none, [], []⟩)
    (by simp) h.2
  refine ⟨b, ls, by simp [planLines, h1, hl, hb], ?_, ?_⟩
  · intro c p hp
    rw [← hb, h2, hb, readLine_code (by decide), if_neg (by rw [hp]; simp), recLine,
      beforeColon_code (by decide)]
    simp [hp]
  · intro c p hp1 hp2 hp3 rest
    rw [List.map_cons, ← hb, h2, List.cons_append]
    have hr : readLine c p (writeHeader hd) = .ok (some (c, { p with
          flag := .done
          tieOn := true
          head := some w.headBack })) := by
      rw [hb, readLine_code (by decide), if_neg hp1, recLine, beforeColon_code (by decide), ← hb, h3]
      simp [hp2]
    rw [readPlan_cons hr]
    obtain ⟨ls', hl', hr'⟩ := read_steps w.steps (c := c) (p := { p with
          flag := .done
          tieOn := true
          head := some w.headBack }) (by simp) h.2
    rw [hl, Option.some.injEq] at hl'
    subst hl'
    rw [hr']
    simp [WPlan.finish, hp3]

/-- The lines of several plans: the first is read up to the header of the second. -/
theorem read_first {w : WPlan} {ws : List WPlan} (h : w.Fits) (hs : ∀ x ∈ ws, x.Fits) :
    ∃ a b, plansLines ws = some b ∧ plansLines (w :: ws) = some (a ++ b) ∧ ws.length ≤ b.length ∧
      (b = [] → ws = []) ∧
      ∀ c p, p.flag ≠ .targets → p.flag ≠ .done → p.steps = [] →
        readPlan c p ((a ++ b).map rstrip) = .ok (c, w.finish p, b.map rstrip) := by
  induction ws generalizing w with
  | nil =>
    obtain ⟨b, ls, h1, _, h3⟩ := read_plan h
    refine ⟨('W' :: ':' :: b) :: ls, [], rfl, by simp [plansLines, h1], by simp, by simp, ?_⟩
    intro c p hp1 hp2 hp3
    have := h3 c p hp1 hp2 hp3 []
    rw [List.append_nil] at this
    rw [List.append_nil, this, readPlan]; rfl
  | cons x t ih =>
    obtain ⟨a, b, e1, e2, e3, _, _⟩ := ih (hs x (by simp)) fun y hy => hs y (by simp [hy])
    obtain ⟨v, ls, h1, _, h3⟩ := read_plan h
    obtain ⟨v', ls', h1', h2', _⟩ := read_plan (hs x (by simp))
    have hab : a ++ b = (('W' :: ':' :: v') :: ls') ++ b := by
      rw [plansLines, h1', e1] at e2
      simp only [Option.some.injEq] at e2
      exact e2.symm
    refine ⟨('W' :: ':' :: v) :: ls, a ++ b, e2, by rw [plansLines, h1, e2], ?_, ?_, ?_⟩
    · rw [hab]; simp; omega
    · rw [hab]; simp
    · intro c p hp1 hp2 hp3
      rw [List.map_append, h3 c p hp1 hp2 hp3, hab, List.cons_append, List.map_cons, readPlan,
        h2' c _ rfl]

theorem read_all (u : Option Text) (c : Option ℤ) : ∀ (ws : List WPlan), ws ≠ [] →
    (∀ x ∈ ws, x.Fits) → ∀ f, ws.length ≤ f → ∀ b, plansLines ws = some b →
    readPlans f c u (b.map rstrip) = some (.ok (c, ws.map (WPlan.finish (RPlan.new u))))
  | [], h, _, _, _, _, _ => absurd rfl h
  | w :: t, _, hs, f, hf, b, hb => by
    obtain ⟨a, r, e1, e2, e3, e4, e5⟩ := read_first (ws := t) (hs w (by simp)) fun y hy => hs y (by simp [hy])
    rw [e2, Option.some.injEq] at hb
    subst hb
    cases f with
    | zero => simp at hf
    | succ f =>
      rw [readPlans, e5 c _ (by simp [RPlan.new]) (by simp [RPlan.new]) rfl]
      cases ht : t with
      | nil =>
        subst ht
        simp only [plansLines, Option.some.injEq] at e1
        subst e1
        simp
      | cons x t' =>
        have hr : r ≠ [] := fun h => by rw [e4 h] at ht; simp at ht
        have ih := read_all u c t (by rw [ht]; simp) (fun y hy => hs y (by simp [hy])) f
          (by simp at hf; omega) r e1
        simp only [List.map_eq_nil_iff, hr, if_false]
        rw [show (WPlan.finish (RPlan.new u) w).units = u from rfl, ih, ← ht]
        rfl

/-! ### Targets -/

/-- A target that can be written and read. -/
def Tgt.Fits (t : Tgt) : Prop :=
  (∃ l, t.loc = some l ∧ l.Fits) ∧ ∃ k, t.color = some k ∧ -99 ≤ k ∧ k ≤ 999

/-- A target as it is read back. -/
def Tgt.back (t : Tgt) : RTgt := ⟨(rstrip t.name).takeWhile (· ≠ ':'), t.loc.map Loc.back⟩

/-- The colour of the last target, or the one already in the shared dictionary. -/
def lastColor (c : Option ℤ) : List Tgt → Option ℤ
  | [] => c
  | t :: r => lastColor t.color r

theorem intText_trim (k : ℤ) : Trimmed (intText k) ∧ intText k ≠ [] := by
  have h : ∀ c ∈ intText k, c ≠ ' ' := by
    intro c hc
    unfold intText at hc
    rw [List.mem_append] at hc
    rcases hc with hc | hc
    · split_ifs at hc <;> simp at hc
      subst hc; decide
    · exact (digit_ne (Nat.isDigit_of_mem_toDigits (by norm_num) le_rfl hc)).2.2.1
  exact ⟨⟨fun e => h _ (List.mem_of_head? e) rfl, fun e => h _ (List.mem_of_getLast? e) rfl⟩,
    by simp [intText, Nat.toDigits_ne_nil]⟩

theorem parseInt_rjust (w : ℕ) (k : ℤ) : parseInt (rjust w (intText k)) = some k := by
  have hs : strip (rjust w (intText k)) = intText k := by
    have := strip_pad (intText_trim k).1 (w - (intText k).length) 0
    simpa [rjust] using this
  rw [parseInt, hs]
  by_cases hk : k < 0
  · have : intText k = '-' :: Nat.toDigits 10 k.natAbs := by simp [intText, hk]
    rw [this]
    simp only [digits?_toDigits, Option.map_some]
    congr 1; omega
  · have : intText k = Nat.toDigits 10 k.natAbs := by simp [intText, hk]
    rw [this]
    split
    · rename_i t heq
      have hm : '-' ∈ Nat.toDigits 10 k.natAbs := by rw [heq]; simp
      exact absurd rfl (digit_ne (Nat.isDigit_of_mem_toDigits (by norm_num) le_rfl hm)).2.1
    · rw [digits?_toDigits, Option.map_some]
      congr 1; omega

theorem intText_length {k : ℤ} (h1 : -99 ≤ k) (h2 : k ≤ 999) : (intText k).length ≤ 3 := by
  unfold intText
  by_cases hk : k < 0
  · have := (Nat.length_toDigits_le_iff (b := 10) (n := k.natAbs) (k := 2) (by norm_num)
      (by norm_num)).2 (by omega)
    simp [hk]; omega
  · have := (Nat.length_toDigits_le_iff (b := 10) (n := k.natAbs) (k := 3) (by norm_num)
      (by norm_num)).2 (by omega)
    simp [hk]; omega

theorem read_target {t : Tgt} (h : t.Fits) (c : Option ℤ) (p : RPlan) (hp : p.flag = .targets) :
    ∃ ls, (∀ r g, targetLines r = some g → targetLines (t :: r) = some (ls ++ g)) ∧ ∀ rest,
      readPlan c p (ls.map rstrip ++ rest) =
        readPlan t.color { p with targets := p.targets ++ [t.back] } rest := by
  obtain ⟨⟨l, hl, hfit⟩, k, hk, hk1, hk2⟩ := h
  refine ⟨[['T', ':'] ++ t.name, locLine l, ['C', ':'] ++ rjust 3 (intText k)], ?_, ?_⟩
  · intro r g hg
    simp [targetLines, hl, hg, hk]
  · intro rest
    simp only [List.map_cons, List.map_nil, List.cons_append, List.nil_append]
    have e1 : rstrip ('T' :: ':' :: t.name) = 'T' :: ':' :: rstrip t.name :=
      rstrip_prefix (a := ['T']) (c := ':') (by decide)
    have r1 : readLine c p (rstrip ('T' :: ':' :: t.name)) = .ok (some (c, { p with
        targets := p.targets ++ [⟨(rstrip t.name).takeWhile (· ≠ ':'), none⟩] })) := by
      rw [e1, readLine_code (by decide), if_pos hp, targetLine, beforeColon_code (by decide)]
      simp [afterColon]
    rw [readPlan_cons r1, rstrip_locLine, readPlan_cons (readLine_targetLoc hfit (by exact hp) rfl)]
    have hlen : (rjust 3 (intText k)).length = 3 := rjust_length (intText_length hk1 hk2)
    have e2 : rstrip ('C' :: ':' :: rjust 3 (intText k)) = 'C' :: ':' :: rjust 3 (intText k) := by
      rw [rjust.eq_def, ← List.cons_append, ← List.cons_append]
      refine rstrip_append (intText_trim k).2 ?_
      intro c hc
      unfold intText at hc
      rw [List.mem_append] at hc
      rcases hc with hc | hc
      · split_ifs at hc <;> simp at hc
        subst hc; decide
      · exact (digit_ne (Nat.isDigit_of_mem_toDigits (by norm_num) le_rfl hc)).2.2.1
    rw [e2]
    refine readPlan_cons ?_
    rw [readLine_code (by decide), if_pos (by exact hp), targetLine, beforeColon_code (by decide)]
    simp [readColor, hlen, parseInt_rjust, hk, Tgt.back, hl]

theorem read_targets : ∀ (ts : List Tgt), (∀ t ∈ ts, t.Fits) →
    ∃ g, targetLines ts = some g ∧ ∀ (c : Option ℤ) (p : RPlan), p.flag = .targets → ∀ rest,
      readPlan c p (g.map rstrip ++ rest) =
        readPlan (lastColor c ts) { p with targets := p.targets ++ ts.map Tgt.back } rest
  | [], _ => ⟨[], rfl, fun c p hp rest => by simp [lastColor]⟩
  | t :: r, h => by
    obtain ⟨g, hg, hr⟩ := read_targets r fun x hx => h x (by simp [hx])
    obtain ⟨ls, h1, _⟩ := read_target (h t (by simp)) none ⟨.targets, false, none, none, [], []⟩ rfl
    refine ⟨ls ++ g, h1 r g hg, fun c p hp rest => ?_⟩
    obtain ⟨ls', h1', h2⟩ := read_target (h t (by simp)) c p hp
    have : ls' = ls := by
      have := (h1 r g hg).symm.trans (h1' r g hg)
      simpa using this.symm
    subst this
    rw [List.map_append, List.append_assoc, h2, hr _ _ (by exact hp)]
    simp [lastColor]

/-! ### Files -/

theorem read_notes (notes : List Text) (c : Option ℤ) (p : RPlan) (rest : List Text) :
    readPlan c p ((notes.map (['!', ' '] ++ ·)).map rstrip ++ rest) = readPlan c p rest := by
  induction notes with
  | nil => rfl
  | cons n t ih =>
    rw [List.map_cons, List.map_cons, List.cons_append]
    rw [← ih]
    refine readPlan_cons ?_
    have hw : words (rstrip (['!', ' '] ++ n)) = ['!'] :: words n := by
      rw [words_rstrip]
      exact words_append_blank ['!'] n
    rw [readLine, hw]
    simp

/-- Exporting plans that fit, and loading the file: every plan has its header and its steps as
printed; the first has the targets; all have the units of the first. -/
theorem load_export (notes : List Text) {w : WPlan} {ws : List WPlan} (h : ∀ x ∈ w :: ws, x.Fits)
    (ht : ∀ t ∈ w.targets, t.Fits) (c : Option ℤ) :
    ∃ file u, exportText notes (w :: ws) = some file ∧ unitKey w.surface w.depth = some u ∧
      loadText c file = some (.ok (lastColor c w.targets,
        (w.finish { RPlan.new (some u.toList) with
          targets := w.targets.map Tgt.back
          flag := .wellplans
          tieOn := true }) :: ws.map (WPlan.finish (RPlan.new (some u.toList))))) := by
  obtain ⟨u, hu⟩ := Option.ne_none_iff_exists'.1 (h w (by simp)).1.unit
  obtain ⟨g, hg, hgr⟩ := read_targets w.targets ht
  obtain ⟨a, b, e1, e2, e3, e4, e5⟩ := read_first (ws := ws) (h w (by simp)) fun y hy => h y (by simp [hy])
  refine ⟨_, u, by rw [exportText, hu, hg, e2], hu, ?_⟩
  have hu4 : u ∈ depthKeys := by
    unfold unitKey at hu
    have := List.mem_of_head? hu
    simp only [List.mem_map, List.mem_filter] at this
    obtain ⟨r, ⟨hr, _⟩, rfl⟩ := this
    have hall : ∀ r ∈ depthTable, r.1 ∈ depthKeys := by decide +kernel
    exact hall r hr
  have hd : ∀ k ∈ depthKeys, words (rstrip ("DEPTH ".toList ++ k.toList)) =
      ["DEPTH".toList, k.toList] := by decide +kernel
  have hne : "DEPTH".toList ≠ ['!'] := by decide +kernel
  have r1 : readLine c (RPlan.new none) (rstrip ("DEPTH ".toList ++ u.toList)) =
      .ok (some (c, RPlan.new (some u.toList))) := by
    rw [readLine, hd u hu4]
    simp only [hne, if_false, String.ofList_toList, hu4, if_true]
    rfl
  have r2 : ∀ p : RPlan, readLine c p (rstrip "TARGETS:".toList) =
      .ok (some (c, { p with flag := .targets })) := by
    intro p
    have hw : words (rstrip "TARGETS:".toList) = ["TARGETS:".toList] := by decide +kernel
    have n1 : "TARGETS:".toList ≠ ['!'] := by decide +kernel
    have n2 : "TARGETS:".toList ≠ "DEPTH".toList := by decide +kernel
    rw [readLine, hw]
    simp only [n1, n2, if_false, if_true]
  have r3 : ∀ (c : Option ℤ) (p : RPlan), readLine c p (rstrip "WELLPLANS:".toList) =
      .ok (some (c, { p with
        flag := .wellplans
        tieOn := true })) := by
    intro c p
    have hw : words (rstrip "WELLPLANS:".toList) = ["WELLPLANS:".toList] := by decide +kernel
    have n1 : "WELLPLANS:".toList ≠ ['!'] := by decide +kernel
    have n2 : "WELLPLANS:".toList ≠ "DEPTH".toList := by decide +kernel
    have n3 : "WELLPLANS:".toList ≠ "TARGETS:".toList := by decide +kernel
    rw [readLine, hw]
    simp only [n1, n2, n3, if_false, if_true]
  have key : readPlan c (RPlan.new none) ((("DEPTH ".toList ++ u.toList) ::
      notes.map (['!', ' '] ++ ·) ++ ("TARGETS:".toList :: g) ++
        ("WELLPLANS:".toList :: (a ++ b))).map rstrip) =
      .ok (lastColor c w.targets, w.finish { RPlan.new (some u.toList) with
          targets := w.targets.map Tgt.back
          flag := .wellplans
          tieOn := true }, b.map rstrip) := by
    rw [List.map_append, List.map_append, List.map_cons, List.map_cons, List.map_cons,
      List.append_assoc, List.cons_append, readPlan_cons r1, List.cons_append, read_notes,
      readPlan_cons (r2 _), hgr _ _ rfl, readPlan_cons (r3 _ _), e5 _ _ (by simp) (by simp) rfl]
    simp [RPlan.new]
  rw [loadText, readPlans, key]
  simp only [List.map_eq_nil_iff]
  by_cases hb : b = []
  · rw [if_pos hb, e4 hb]; rfl
  · rw [if_neg hb]
    have hws : ws ≠ [] := by
      rintro rfl
      simp only [plansLines, Option.some.injEq] at e1
      exact hb e1.symm
    rw [show (w.finish { RPlan.new (some u.toList) with
          targets := w.targets.map Tgt.back
          flag := .wellplans
          tieOn := true }).units = some u.toList from rfl,
      read_all (some u.toList) (lastColor c w.targets) ws hws (fun y hy => h y (by simp [hy])) _
        (by simp; omega) b e1]
    rfl

end Welleng.Wbp
