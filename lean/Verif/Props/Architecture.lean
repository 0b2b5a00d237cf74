import Verif.Lemmas.ArchDepth
import Mathlib.Tactic.Ring

/-!
Properties C01-C04: strings of sections (`/repo/welleng/architecture.py`).
-/

set_option linter.unusedSectionVars false

namespace Welleng.Props

open Welleng Arch Spec

section
variable {α V : Type} [AddCommGroup α] [LinearOrder α]

/-- The keyword arguments `add_section` really stores: a `BHA` gets a default density. -/
def storedOther (kind : Kind) (d0 : V) (kw : Kw α V) : List (String × V) :=
  if kind = .bha ∧ (kw.other.any (fun e => e.1 == "density")) = false
  then kw.other ++ [("density", d0)] else kw.other

theorem addSection_topDown {d0 : V} {s s' : Str α V} {kw : Kw α V} (hm : s.method = .topDown)
    (h : addSection d0 s kw = (s', .ok ())) :
    ∃ kw', addTopDown s kw' = (s', .ok ()) ∧ kw'.other = storedOther s.kind d0 kw := by
  unfold addSection at h
  simp only [hm] at h
  cases hk : s.kind <;> simp only [hk] at h
  · exact ⟨kw, h, by simp [storedOther]⟩
  · split at h
    · exact ⟨kw, h, by simp [storedOther]⟩
    · simp at h
  · split at h
    · rename_i hd
      exact ⟨kw, h, by simp [storedOther]; simp at hd; grind⟩
    · rename_i hd
      refine ⟨_, h, ?_⟩
      simp only [storedOther, true_and]
      rw [if_pos (by simpa only [Bool.not_eq_true] using hd)]

theorem addSection_bottomUp {d0 : V} {s s' : Str α V} {kw : Kw α V} (hm : s.method = .bottomUp)
    (h : addSection d0 s kw = (s', .ok ())) :
    ∃ kw', addBottomUp s kw' = (s', .ok ()) ∧ kw'.other = storedOther s.kind d0 kw := by
  unfold addSection at h
  simp only [hm] at h
  cases hk : s.kind <;> simp only [hk] at h
  · exact ⟨kw, h, by simp [storedOther]⟩
  · split at h
    · exact ⟨kw, h, by simp [storedOther]⟩
    · simp at h
  · split at h
    · rename_i hd
      exact ⟨kw, h, by simp [storedOther]; simp at hd; grind⟩
    · rename_i hd
      refine ⟨_, h, ?_⟩
      simp only [storedOther, true_and]
      rw [if_pos (by simpa only [Bool.not_eq_true] using hd)]

/-- What holds after any sequence of successful calls on a top-down string. -/
structure TopDownInv (kind : Kind) (top bottom : α) (n : ℕ) (s : Str α V) : Prop where
  idx : Indexed s
  hkind : s.kind = kind
  htop : s.top = top
  hbottom : s.bottom = bottom
  hmeth : s.method = .topDown
  len : s.sections.length = n
  tiles : n ≠ 0 → ∃ spans, HasSpans (s.sections.map Prod.snd) spans ∧ GapFree spans ∧
    (∀ p ∈ spans, p.2 ≤ bottom) ∧ (∀ p, spans.head? = some p → p.1 = top) ∧ spans ≠ [] ∧
    spans.Pairwise (fun a b => a.1 ≤ b.1) ∧
    (∀ p, spans.getLast? = some p → p.2 = bottom → s.complete = true)
  comp : s.complete = true → ∃ v ∈ s.sections.map Prod.snd, v.bottom = some bottom

theorem topDownInv_step {kind : Kind} {top bottom : α} {n : ℕ} {d0 : V} {s s' : Str α V}
    {kw : Kw α V} (hI : TopDownInv kind top bottom n s)
    (h : addSection d0 s kw = (s', .ok ())) :
    TopDownInv kind top bottom (n + 1) s' ∧
      (s'.sections.map (·.2.other)).Perm
        (storedOther kind d0 kw :: s.sections.map (·.2.other)) := by
  obtain ⟨kw', h', hother⟩ := addSection_topDown hI.hmeth h
  obtain ⟨hidx, hk, ht, hb, hm, ⟨spans, h1, h2, h3, h4, h5, h6, h7, h8⟩, sec, hso, -, -, -, hperm⟩ :=
    addTopDown_ok hI.idx h'
  have hlen : s'.sections.length = n + 1 := by
    have := hperm.length_eq; simp at this; rw [this, hI.len]
  refine ⟨⟨hidx, hk.trans hI.hkind, ht.trans hI.htop, hb.trans hI.hbottom, hm.trans hI.hmeth, hlen,
    fun _ => ⟨spans, h1, h2, ?_, ?_, h5, h6, ?_⟩, ?_⟩, ?_⟩
  · rw [← hI.hbottom]; exact h3
  · rw [← hI.htop]; exact h4
  · rw [← hI.hbottom]; exact h7
  · intro hc
    rcases h8 hc with hold | ⟨p, hp, hpb⟩
    · obtain ⟨v, hv, hvb⟩ := hI.comp hold
      exact ⟨v, hperm.mem_iff.mpr (List.mem_cons_of_mem _ hv), hvb⟩
    · have : (some p.1, some p.2) ∈ spans.map (fun p => (some p.1, some p.2)) :=
        List.mem_map.mpr ⟨p, hp, rfl⟩
      rw [← h1] at this
      obtain ⟨v, hv, hve⟩ := List.mem_map.mp this
      simp only [Prod.mk.injEq] at hve
      exact ⟨v, hv, by rw [hve.2, hpb, hI.hbottom]⟩
  · have := hperm.map Sec.other
    simp only [List.map_cons, List.map_map, hso, hother, hI.hkind] at this
    exact this

theorem topDownInv_addAll {kind : Kind} {top bottom : α} {d0 : V} (kws : List (Kw α V)) :
    ∀ {n : ℕ} {s s' : Str α V}, TopDownInv kind top bottom n s →
      addAll d0 s kws = (s', .ok ()) →
      TopDownInv kind top bottom (n + kws.length) s' ∧
      (s'.sections.map (·.2.other)).Perm
        (kws.map (storedOther kind d0) ++ s.sections.map (·.2.other)) := by
  induction kws with
  | nil =>
    intro n s s' hI h
    simp only [addAll, Prod.mk.injEq, and_true] at h
    subst h
    exact ⟨hI, by simp⟩
  | cons kw t ih =>
    intro n s s' hI h
    unfold addAll at h
    split at h
    · rename_i s1 h1
      obtain ⟨hI1, hp1⟩ := topDownInv_step hI h1
      obtain ⟨hI2, hp2⟩ := ih hI1 h
      refine ⟨by rw [List.length_cons, show n + (t.length + 1) = n + 1 + t.length by omega]; exact hI2, ?_⟩
      refine hp2.trans ((hp1.append_left _).trans ?_)
      rw [List.map_cons, List.cons_append]
      exact List.perm_middle
    · simp at h

theorem topDownInv_init (kind : Kind) (top bottom : α) :
    TopDownInv kind top bottom 0 (Str.init kind top bottom .topDown : Str α V) :=
  ⟨rfl, rfl, rfl, rfl, rfl, rfl, by simp, by simp [Str.init]⟩

/-- C01: after any non-empty sequence of successful `add_section` calls on a top-down string the
sections are numbered `0, 1, …` from the top, the first starts at the string's top, each next one
starts where the previous one ends, and none ends below the string's bottom; there is one section
per call and no section's properties are lost. Every section but the last has `top ≤ bottom`. -/
theorem C01_top_down_tiling {kind : Kind} {top bottom : α} {d0 : V} {kws : List (Kw α V)}
    {s : Str α V} (hne : kws ≠ [])
    (h : addAll d0 (Str.init kind top bottom .topDown) kws = (s, .ok ())) :
    s.sections.map Prod.fst = List.range kws.length ∧
    (∃ spans, s.sections.map (fun e => (e.2.top, e.2.bottom))
        = spans.map (fun p => (some p.1, some p.2)) ∧
      GapFree spans ∧ spans.head?.map Prod.fst = some top ∧ (∀ p ∈ spans, p.2 ≤ bottom) ∧
      ∀ p ∈ spans.dropLast, p.1 ≤ p.2) ∧
    (s.sections.map (·.2.other)).Perm (kws.map (storedOther kind d0)) := by
  obtain ⟨hI, hp⟩ := topDownInv_addAll kws (topDownInv_init kind top bottom) h
  rw [zero_add] at hI
  obtain ⟨spans, h1, h2, h3, h4, h5, h6, -⟩ := hI.tiles (by simpa using hne)
  refine ⟨by rw [hI.idx, hI.len], ⟨spans, ?_, h2, ?_, h3, ?_⟩, by simpa [Str.init] using hp⟩
  · have : HasSpans _ _ := h1
    unfold HasSpans at this
    rw [List.map_map] at this
    exact this
  · cases spans with
    | nil => exact absurd rfl h5
    | cons p sp => simp [h4 p rfl]
  · clear h1 h3 h4 h5
    induction spans with
    | nil => simp
    | cons p sp ih =>
      cases sp with
      | nil => simp
      | cons q sp =>
        rw [List.pairwise_cons] at h6
        simp only [GapFree, List.isChain_cons_cons] at h2
        intro x hx
        rw [List.dropLast_cons_cons] at hx
        rcases List.mem_cons.mp hx with rfl | hx
        · rw [h2.1]; exact h6.1 q (by simp)
        · exact ih h2.2 h6.2 x hx

/-- C01: the string reports complete when the last section ends at the string's bottom. -/
theorem C01_complete_when_reached {kind : Kind} {top bottom : α} {d0 : V} {kws : List (Kw α V)}
    {s : Str α V} (h : addAll d0 (Str.init kind top bottom .topDown) kws = (s, .ok ()))
    {v : Sec α V} (hv : (s.sections.map Prod.snd).getLast? = some v)
    (hb : v.bottom = some bottom) : s.complete = true := by
  obtain ⟨hI, -⟩ := topDownInv_addAll kws (topDownInv_init kind top bottom) h
  rw [zero_add] at hI
  have hne : kws.length ≠ 0 := by
    intro h0
    have := hI.len
    rw [h0, List.length_eq_zero_iff] at this
    simp [this] at hv
  obtain ⟨spans, h1, -, -, -, -, -, h7⟩ := hI.tiles hne
  have e : (spans.map (fun p => (some p.1, some p.2))).getLast? = some (v.top, v.bottom) := by
    rw [← h1, List.getLast?_map, hv]; rfl
  rw [List.getLast?_map] at e
  cases hl : spans.getLast? with
  | none => simp [hl] at e
  | some p =>
    simp [hl] at e
    refine h7 p hl ?_
    rw [hb] at e
    have := e.2
    injection this

/-- C53 (top-down), with the hypothesis it needs: if every section has `top ≤ bottom`, a string
that reports complete does end at its bottom. -/
theorem C53_complete_accurate_partial {kind : Kind} {top bottom : α} {d0 : V} {kws : List (Kw α V)}
    {s : Str α V} (h : addAll d0 (Str.init kind top bottom .topDown) kws = (s, .ok ()))
    (hnn : ∀ v ∈ s.sections.map Prod.snd, ∀ t b, v.top = some t → v.bottom = some b → t ≤ b) :
    s.complete = true ↔
      ∃ v, (s.sections.map Prod.snd).getLast? = some v ∧ v.bottom = some bottom := by
  constructor
  · intro hc
    obtain ⟨hI, -⟩ := topDownInv_addAll kws (topDownInv_init kind top bottom) h
    rw [zero_add] at hI
    obtain ⟨w, hw, hwb⟩ := hI.comp hc
    have hne : kws.length ≠ 0 := by
      intro h0
      have := hI.len
      rw [h0, List.length_eq_zero_iff] at this
      simp [this] at hw
    obtain ⟨spans, h1, h2, h3, -, h5, h6, -⟩ := hI.tiles hne
    have hsnn : ∀ p ∈ spans, p.1 ≤ p.2 := by
      intro p hp
      have : (some p.1, some p.2) ∈ spans.map (fun p => (some p.1, some p.2)) :=
        List.mem_map.mpr ⟨p, hp, rfl⟩
      rw [← h1] at this
      obtain ⟨v, hv, hve⟩ := List.mem_map.mp this
      simp only [Prod.mk.injEq] at hve
      exact hnn v hv _ _ hve.1 hve.2
    have hmem : ∃ p ∈ spans, p.2 = bottom := by
      have : (w.top, w.bottom) ∈ (s.sections.map Prod.snd).map (fun s => (s.top, s.bottom)) :=
        List.mem_map_of_mem hw
      rw [h1] at this
      obtain ⟨p, hp, hpe⟩ := List.mem_map.mp this
      simp only [Prod.mk.injEq, hwb, Option.some.injEq] at hpe
      exact ⟨p, hp, hpe.2⟩
    -- bottoms do not decrease along the stack
    have hmono : ∀ (l : List (α × α)), GapFree l → (∀ p ∈ l, p.1 ≤ p.2) → ∀ q ∈ l,
        ∀ r, l.getLast? = some r → q.2 ≤ r.2 := by
      intro l
      induction l with
      | nil => simp
      | cons a t ih =>
        intro hg hn q hq r hr
        cases t with
        | nil =>
          simp at hq hr
          rw [hq, hr]
        | cons b t =>
          simp only [GapFree, List.isChain_cons_cons] at hg
          rw [List.getLast?_cons_cons] at hr
          rcases List.mem_cons.mp hq with rfl | hq
          · have hb := hn b (by simp)
            have := ih hg.2 (fun p hp => hn p (List.mem_cons_of_mem _ hp)) b (by simp) r hr
            rw [hg.1]; exact hb.trans this
          · exact ih hg.2 (fun p hp => hn p (List.mem_cons_of_mem _ hp)) q hq r hr
    obtain ⟨p, hp, hpb⟩ := hmem
    obtain ⟨r, hr⟩ : ∃ r, spans.getLast? = some r := by
      cases hl : spans.getLast? with
      | none => exact absurd (List.getLast?_eq_none_iff.mp hl) h5
      | some r => exact ⟨r, rfl⟩
    have hle := hmono spans h2 hsnn p hp r hr
    have hge := h3 r (List.mem_of_getLast? hr)
    have hrb : r.2 = bottom := le_antisymm hge (hpb ▸ hle)
    have e : ((s.sections.map Prod.snd).map (fun s => (s.top, s.bottom))).getLast?
        = some (some r.1, some r.2) := by
      rw [h1, List.getLast?_map, hr]; rfl
    rw [List.getLast?_map] at e
    cases hl : (s.sections.map Prod.snd).getLast? with
    | none => simp [hl] at e
    | some v =>
      simp [hl] at e
      exact ⟨v, rfl, by rw [e.2, hrb]⟩
  · rintro ⟨v, hv, hb⟩
    exact C01_complete_when_reached h hv hb

/-- C53 is false of the code: after the string is complete, a
section of negative length is accepted and the flag stays set although the last section no longer
ends at the bottom. -/
theorem C53_complete_accurate_is_false :
    ∃ (kws : List (Kw ℤ ℤ)) (s : Str ℤ ℤ) (v : Sec ℤ ℤ),
      addAll 0 (Str.init .string 0 100 .topDown) kws = (s, .ok ()) ∧ s.complete = true ∧
      (s.sections.map Prod.snd).getLast? = some v ∧ v.bottom ≠ some 100 :=
  ⟨[⟨none, some 100, none, []⟩, ⟨none, some 50, none, []⟩], _, _, rfl, rfl, rfl, by decide⟩

/-- Non-vacuity: two sections of a well bore. -/
example : ∃ s : Str ℤ ℤ, addAll 0 (Str.init .wellBore 0 100 .topDown)
    [⟨none, some 40, none, [("id", 9), ("coeff_friction_sliding", 1)]⟩,
     ⟨none, some 100, none, [("id", 6), ("coeff_friction_sliding", 1)]⟩] = (s, .ok ()) ∧
    s.complete = true := ⟨_, rfl, rfl⟩

/-! ## C02 -/

/-- What holds after any sequence of successful calls on a bottom-up string. -/
structure BottomUpInv (kind : Kind) (top bottom : α) (n : ℕ) (s : Str α V) : Prop where
  idx : Indexed s
  hkind : s.kind = kind
  htop : s.top = top
  hbottom : s.bottom = bottom
  hmeth : s.method = .bottomUp
  len : s.sections.length = n
  tiles : n ≠ 0 → ∃ spans, HasSpans (s.sections.map Prod.snd) spans ∧ GapFree spans ∧
    (∀ p ∈ spans, top ≤ p.1) ∧ (∀ p, spans.getLast? = some p → p.2 = bottom) ∧ spans ≠ [] ∧
    spans.Pairwise (fun a b => a.2 ≤ b.2) ∧
    (∀ p, spans.head? = some p → p.1 = top → s.complete = true)
  comp : s.complete = true → ∃ v ∈ s.sections.map Prod.snd, v.top = some top

theorem bottomUpInv_step {kind : Kind} {top bottom : α} {n : ℕ} {d0 : V} {s s' : Str α V}
    {kw : Kw α V} (hI : BottomUpInv kind top bottom n s)
    (h : addSection d0 s kw = (s', .ok ())) :
    BottomUpInv kind top bottom (n + 1) s' ∧
      (s'.sections.map (·.2.other)).Perm
        (storedOther kind d0 kw :: s.sections.map (·.2.other)) := by
  obtain ⟨kw', h', hother⟩ := addSection_bottomUp hI.hmeth h
  obtain ⟨hidx, hk, ht, hb, hm, ⟨spans, h1, h2, h3, h4, h5, h6, h7, h8⟩, sec, hso, -, -, -, hperm⟩ :=
    addBottomUp_ok hI.idx h'
  have hlen : s'.sections.length = n + 1 := by
    have := hperm.length_eq; simp at this; rw [this, hI.len]
  refine ⟨⟨hidx, hk.trans hI.hkind, ht.trans hI.htop, hb.trans hI.hbottom, hm.trans hI.hmeth, hlen,
    fun _ => ⟨spans, h1, h2, ?_, ?_, h5, h6, ?_⟩, ?_⟩, ?_⟩
  · rw [← hI.htop]; exact h3
  · rw [← hI.hbottom]; exact h4
  · rw [← hI.htop]; exact h7
  · intro hc
    rcases h8 hc with hold | ⟨p, hp, hpb⟩
    · obtain ⟨v, hv, hvb⟩ := hI.comp hold
      exact ⟨v, hperm.mem_iff.mpr (List.mem_cons_of_mem _ hv), hvb⟩
    · have : (some p.1, some p.2) ∈ spans.map (fun p => (some p.1, some p.2)) :=
        List.mem_map.mpr ⟨p, hp, rfl⟩
      rw [← h1] at this
      obtain ⟨v, hv, hve⟩ := List.mem_map.mp this
      simp only [Prod.mk.injEq] at hve
      exact ⟨v, hv, by rw [hve.1, hpb, hI.htop]⟩
  · have := hperm.map Sec.other
    simp only [List.map_cons, List.map_map, hso, hother, hI.hkind] at this
    exact this

theorem bottomUpInv_addAll {kind : Kind} {top bottom : α} {d0 : V} (kws : List (Kw α V)) :
    ∀ {n : ℕ} {s s' : Str α V}, BottomUpInv kind top bottom n s →
      addAll d0 s kws = (s', .ok ()) →
      BottomUpInv kind top bottom (n + kws.length) s' ∧
      (s'.sections.map (·.2.other)).Perm
        (kws.map (storedOther kind d0) ++ s.sections.map (·.2.other)) := by
  induction kws with
  | nil =>
    intro n s s' hI h
    simp only [addAll, Prod.mk.injEq, and_true] at h
    subst h
    exact ⟨hI, by simp⟩
  | cons kw t ih =>
    intro n s s' hI h
    unfold addAll at h
    split at h
    · rename_i s1 h1
      obtain ⟨hI1, hp1⟩ := bottomUpInv_step hI h1
      obtain ⟨hI2, hp2⟩ := ih hI1 h
      refine ⟨by rw [List.length_cons, show n + (t.length + 1) = n + 1 + t.length by omega]; exact hI2, ?_⟩
      refine hp2.trans ((hp1.append_left _).trans ?_)
      rw [List.map_cons, List.cons_append]
      exact List.perm_middle
    · simp at h

theorem bottomUpInv_init (kind : Kind) (top bottom : α) :
    BottomUpInv kind top bottom 0 (Str.init kind top bottom .bottomUp : Str α V) :=
  ⟨rfl, rfl, rfl, rfl, rfl, rfl, by simp, by simp [Str.init]⟩

/-- C02: after any non-empty sequence of successful `add_section` calls on a bottom-up string the
deepest section ends at the string's bottom, each section ends exactly where the next deeper one
starts, none starts above the string's top, sections are numbered from the top, none is lost, and
the string reports complete when the shallowest section starts at the top. -/
theorem C02_bottom_up_tiling {kind : Kind} {top bottom : α} {d0 : V} {kws : List (Kw α V)}
    {s : Str α V} (hne : kws ≠ [])
    (h : addAll d0 (Str.init kind top bottom .bottomUp) kws = (s, .ok ())) :
    s.sections.map Prod.fst = List.range kws.length ∧
    (∃ spans, s.sections.map (fun e => (e.2.top, e.2.bottom))
        = spans.map (fun p => (some p.1, some p.2)) ∧
      GapFree spans ∧ spans.getLast?.map Prod.snd = some bottom ∧ (∀ p ∈ spans, top ≤ p.1) ∧
      (∀ p ∈ spans.tail, p.1 ≤ p.2) ∧
      (spans.head?.map Prod.fst = some top → s.complete = true)) ∧
    (s.sections.map (·.2.other)).Perm (kws.map (storedOther kind d0)) := by
  obtain ⟨hI, hp⟩ := bottomUpInv_addAll kws (bottomUpInv_init kind top bottom) h
  rw [zero_add] at hI
  obtain ⟨spans, h1, h2, h3, h4, h5, h6, h7⟩ := hI.tiles (by simpa using hne)
  refine ⟨by rw [hI.idx, hI.len], ⟨spans, ?_, h2, ?_, h3, ?_, ?_⟩, by simpa [Str.init] using hp⟩
  · have : HasSpans _ _ := h1
    unfold HasSpans at this
    rw [List.map_map] at this
    exact this
  · cases hl : spans.getLast? with
    | none => exact absurd (List.getLast?_eq_none_iff.mp hl) h5
    | some p => simp [h4 p hl]
  · clear h1 h3 h4 h5 h7
    induction spans with
    | nil => simp
    | cons p sp ih =>
      cases sp with
      | nil => simp
      | cons q sp =>
        rw [List.pairwise_cons] at h6
        simp only [GapFree, List.isChain_cons_cons] at h2
        intro x hx
        rw [List.tail_cons] at hx
        rcases List.mem_cons.mp hx with rfl | hx
        · rw [← h2.1]; exact h6.1 _ (by simp)
        · exact ih h2.2 h6.2 x (by simpa using hx)
  · intro hh
    cases hl : spans.head? with
    | none => simp [hl] at hh
    | some p => exact h7 p hl (by simpa [hl] using hh)

/-- C53 (bottom-up), with the hypothesis it needs: if every section has `top ≤ bottom`, a string
that reports complete does start at its top. -/
theorem C53_complete_accurate_bottom_up_partial {kind : Kind} {top bottom : α} {d0 : V} {kws : List (Kw α V)}
    {s : Str α V} (h : addAll d0 (Str.init kind top bottom .bottomUp) kws = (s, .ok ()))
    (hnn : ∀ v ∈ s.sections.map Prod.snd, ∀ t b, v.top = some t → v.bottom = some b → t ≤ b) :
    s.complete = true → ∃ v, (s.sections.map Prod.snd).head? = some v ∧ v.top = some top := by
  intro hc
  obtain ⟨hI, -⟩ := bottomUpInv_addAll kws (bottomUpInv_init kind top bottom) h
  rw [zero_add] at hI
  obtain ⟨w, hw, hwb⟩ := hI.comp hc
  have hne : kws.length ≠ 0 := by
    intro h0
    have := hI.len
    rw [h0, List.length_eq_zero_iff] at this
    simp [this] at hw
  obtain ⟨spans, h1, h2, h3, -, h5, -, -⟩ := hI.tiles hne
  have hsnn : ∀ p ∈ spans, p.1 ≤ p.2 := by
    intro p hp
    have : (some p.1, some p.2) ∈ spans.map (fun p => (some p.1, some p.2)) :=
      List.mem_map.mpr ⟨p, hp, rfl⟩
    rw [← h1] at this
    obtain ⟨v, hv, hve⟩ := List.mem_map.mp this
    simp only [Prod.mk.injEq] at hve
    exact hnn v hv _ _ hve.1 hve.2
  have hmem : ∃ p ∈ spans, p.1 = top := by
    have : (w.top, w.bottom) ∈ (s.sections.map Prod.snd).map (fun s => (s.top, s.bottom)) :=
      List.mem_map_of_mem hw
    rw [h1] at this
    obtain ⟨p, hp, hpe⟩ := List.mem_map.mp this
    simp only [Prod.mk.injEq, hwb, Option.some.injEq] at hpe
    exact ⟨p, hp, hpe.1⟩
  have hmono : ∀ (l : List (α × α)), GapFree l → (∀ p ∈ l, p.1 ≤ p.2) → ∀ r, l.head? = some r →
      ∀ q ∈ l, r.1 ≤ q.1 := by
    intro l
    induction l with
    | nil => simp
    | cons a t ih =>
      intro hg hn r hr q hq
      simp at hr
      subst hr
      rcases List.mem_cons.mp hq with rfl | hq
      · exact le_rfl
      · cases t with
        | nil => simp at hq
        | cons b t =>
          simp only [GapFree, List.isChain_cons_cons] at hg
          have hb := hn a (by simp)
          rw [hg.1] at hb
          exact hb.trans (ih hg.2 (fun p hp => hn p (List.mem_cons_of_mem _ hp)) b rfl q hq)
  obtain ⟨p, hp, hpb⟩ := hmem
  obtain ⟨r, hr⟩ : ∃ r, spans.head? = some r := by
    cases spans with
    | nil => exact absurd rfl h5
    | cons a t => exact ⟨a, rfl⟩
  have hle := hmono spans h2 hsnn r hr p hp
  have hge := h3 r (List.mem_of_head? hr)
  have hrb : r.1 = top := le_antisymm (hpb ▸ hle) hge
  have e : ((s.sections.map Prod.snd).map (fun s => (s.top, s.bottom))).head?
      = some (some r.1, some r.2) := by
    rw [h1, List.head?_map, hr]; rfl
  rw [List.head?_map] at e
  cases hl : (s.sections.map Prod.snd).head? with
  | none => simp [hl] at e
  | some v =>
    simp [hl] at e
    exact ⟨v, rfl, by rw [e.1, hrb]⟩

/-- C54 is false of the code: `add_section()` with neither length nor top is documented to extend the section to the
string's top. On an empty string it raises `KeyError` instead, leaving the string unchanged. -/
theorem C54_default_length_fails_on_empty (d0 : V) (top bottom : α) (other : List (String × V)) :
    addSection d0 (Str.init .string top bottom .bottomUp) ⟨none, none, none, other⟩
      = (Str.init .string top bottom .bottomUp, .error .key) := by
  simp [addSection, addBottomUp, Str.init, localTop, localTop.elseBranch, localTop.last, dictGet]

/-- C54 is false of the code: giving a non-zero `top` instead of a length always raises `UnboundLocalError`, on every
string whose sections can be read. -/
theorem C54_top_argument_always_fails (s : Str α V) (t : α) (b : Option α)
    (other : List (String × V)) (ht : t ≠ 0)
    (hs : s.sections = [] ∨ ∃ v x, dictGet s.sections 0 = .ok v ∧ v.top = some x) :
    (addBottomUp s ⟨some t, b, none, other⟩).2 = .error .unbound := by
  have hstart : ∃ c, (if s.sections = [] then (.ok s.bottom : Except Err α)
      else do need (← dictGet s.sections 0).top) = .ok c := by
    by_cases he : s.sections = []
    · exact ⟨s.bottom, if_pos he⟩
    · rw [if_neg he]
      rcases hs with h | ⟨v, x, h1, h2⟩
      · exact absurd h he
      · exact ⟨x, by rw [h1]; simp [bind, Except.bind, h2, need]⟩
  obtain ⟨c, hc⟩ := hstart
  unfold addBottomUp
  simp only [hc]
  simp [localTop, localTop.elseBranch, ht]

example : ∃ s : Str ℤ ℤ, addAll 0 (Str.init .bha 0 100 .bottomUp)
    [⟨none, none, some 30, [("od", 8)]⟩, ⟨none, none, some 500, [("od", 5)]⟩] = (s, .ok ()) ∧
    s.complete = true ∧ (s.sections.map (·.2.top)) = [some 0, some 70] := ⟨_, rfl, rfl, rfl⟩

/-! ## C03 -/

/-- C03 is false of the code: a rejected call leaves the refused section in the string, with
either method (here a section that ends below the string's bottom, and one given by `top`). -/
theorem C03_rejected_call_mutates :
    (∃ (s s' : Str ℤ ℤ) (kw : Kw ℤ ℤ),
      addAll 0 (Str.init .string 0 100 .topDown) [⟨none, some 40, none, []⟩] = (s, .ok ()) ∧
      addSection 0 s kw = (s', .error .assertion) ∧ s'.sections ≠ s.sections ∧
      s'.sections.length = 2) ∧
    (∃ (s s' : Str ℤ ℤ) (kw : Kw ℤ ℤ),
      addAll 0 (Str.init .string 0 100 .bottomUp) [⟨none, none, some 40, []⟩] = (s, .ok ()) ∧
      addSection 0 s kw = (s', .error .unbound) ∧ s'.sections ≠ s.sections ∧
      s'.sections.length = 2) :=
  ⟨⟨_, _, ⟨none, some 140, none, []⟩, rfl, rfl, by decide, rfl⟩,
   ⟨_, _, ⟨some 10, none, none, []⟩, rfl, rfl, by decide, rfl⟩⟩

/-- C03, what does hold: a rejected call never changes the `complete` flag, the depths, the class
or the method of the string. -/
theorem C03_rejected_keeps_flag_partial {d0 : V} {s s' : Str α V} {kw : Kw α V} {e : Err}
    (h : addSection d0 s kw = (s', .error e)) :
    s'.complete = s.complete ∧ s'.top = s.top ∧ s'.bottom = s.bottom ∧ s'.kind = s.kind ∧
    s'.method = s.method := by
  have hT : ∀ kw, addTopDown s kw = (s', .error e) → s'.complete = s.complete ∧ s'.top = s.top ∧
      s'.bottom = s.bottom ∧ s'.kind = s.kind ∧ s'.method = s.method := by
    intro kw h
    unfold addTopDown at h
    simp only at h
    repeat' split at h
    all_goals
      simp only [Prod.mk.injEq] at h
      first
        | (exfalso; have := h.2; simp at this; done)
        | (obtain ⟨rfl, -⟩ := h; simp)
  have hB : ∀ kw, addBottomUp s kw = (s', .error e) → s'.complete = s.complete ∧ s'.top = s.top ∧
      s'.bottom = s.bottom ∧ s'.kind = s.kind ∧ s'.method = s.method := by
    intro kw h
    unfold addBottomUp at h
    simp only at h
    repeat' split at h
    all_goals
      simp only [Prod.mk.injEq] at h
      first
        | (exfalso; have := h.2; simp at this; done)
        | (obtain ⟨rfl, -⟩ := h; simp)
  unfold addSection at h
  simp only at h
  cases hm : s.method <;> simp only [hm] at h <;> repeat' split at h
  all_goals
    first
      | (have := hT _ h; simpa [hm] using this)
      | (have := hB _ h; simpa [hm] using this)
      | (simp only [Prod.mk.injEq] at h; obtain ⟨rfl, -⟩ := h; simp [hm])

/-- C03: consequence of the mutation. Once a section that ends below the string's bottom has been
left behind by a rejected call, every further top-down call is rejected, whatever it adds. -/
theorem C03_poisoned_forever {s : Str α V} {kw : Kw α V}
    (hbad : ∃ e ∈ s.sections, ∃ b, e.2.bottom = some b ∧ s.bottom < b)
    (hfresh : ∀ e ∈ s.sections, e.1 ≠ s.sections.length) :
    ∃ x, (addTopDown s kw).2 = .error x := by
  obtain ⟨e, he, b, hb, hlt⟩ := hbad
  unfold addTopDown
  simp only
  split
  · exact ⟨_, rfl⟩
  rename_i tp _
  split
  · exact ⟨_, rfl⟩
  rename_i sorted hsort
  split
  · exact ⟨_, rfl⟩
  rename_i hchk
  exfalso
  obtain ⟨hperm, -⟩ := sortSections_ok hsort
  obtain ⟨spans, h1, -, h3, -⟩ := checkTopDown_ok hchk
  rw [reindex_map_snd] at h1
  have hm : e.2 ∈ sorted.map Prod.snd := by
    have : e ∈ dictSet s.sections s.sections.length
        ⟨some (kw.top.getD tp), kw.bottom, kw.length, kw.other⟩ := by
      unfold dictSet
      split
      · refine List.mem_map.mpr ⟨e, he, if_neg (hfresh e he)⟩
      · exact List.mem_append_left _ he
    exact List.mem_map_of_mem (hperm.mem_iff.mpr this)
  have hm2 : (e.2.top, e.2.bottom) ∈ (sorted.map Prod.snd).map (fun s => (s.top, s.bottom)) :=
    List.mem_map_of_mem hm
  rw [h1] at hm2
  obtain ⟨p, hp, hpe⟩ := List.mem_map.mp hm2
  simp only [Prod.mk.injEq, hb, Option.some.injEq] at hpe
  have := h3 p hp
  rw [hpe.2] at this
  exact absurd hlt (not_lt.mpr this)

/-- Non-vacuity of `C03_poisoned_forever`: the state left behind by the first rejected call of
`C03_rejected_call_mutates`. -/
example : ∃ s s' : Str ℤ ℤ,
    addAll 0 (Str.init .string 0 100 .topDown) [⟨none, some 40, none, []⟩] = (s, .ok ()) ∧
    addSection 0 s ⟨none, some 140, none, []⟩ = (s', .error .assertion) ∧
    (∃ e ∈ s'.sections, ∃ b, e.2.bottom = some b ∧ s'.bottom < b) ∧
    (∀ e ∈ s'.sections, e.1 ≠ s'.sections.length) :=
  ⟨_, _, rfl, rfl, ⟨(1, ⟨some 40, some 140, none, []⟩), by decide, 140, rfl, by decide⟩, by decide⟩

end

/-! ## C04 -/

section
variable {α V : Type} [Field α] [LinearOrder α] [IsStrictOrderedRing α]

/-- What a user sees of a string, from the bottom (bit) upwards. -/
def fromBit (s : Str α V) : List (Option α × Option α × List (String × V)) :=
  (s.sections.map (fun e => (e.2.top, e.2.bottom, e.2.other))).reverse

theorem stackSecs_view (top b : α) (pieces : List (α × List (String × V))) :
    (stackSecs top b pieces).map (fun s => (s.top, s.bottom, s.other)) =
      (stack top b pieces).map (fun x => (some x.1, some x.2.1, x.2.2)) := by
  induction pieces generalizing b with
  | nil => rfl
  | cons x r ih => simp [stackSecs, stack, ih]

theorem fromBit_building {s : Str α V} {cur c : α} {pieces : List (α × List (String × V))}
    (h : Building s ((stackSecs s.top cur pieces).reverse ++ []) c) :
    fromBit s = (stack s.top cur pieces).map (fun x => (some x.1, some x.2.1, x.2.2)) := by
  unfold fromBit
  have := h.secs
  rw [List.append_nil] at this
  rw [← stackSecs_view]
  have h2 := congrArg (List.map (fun s : Sec α V => (s.top, s.bottom, s.other))) this
  rw [List.map_map] at h2
  rw [show (fun e : ℕ × Sec α V => (e.2.top, e.2.bottom, e.2.other))
    = (fun s : Sec α V => (s.top, s.bottom, s.other)) ∘ Prod.snd from rfl, h2,
    List.map_reverse, List.reverse_reverse]

/-- Building a string bottom-up from positive lengths (no piece added once the top is reached)
succeeds and gives the stack of these pieces; it is complete exactly when the pieces reach the
top. -/
theorem C04_build {top bottom : α} (d0 : V) {pieces : List (α × List (String × V))}
    (hpos : ∀ x ∈ pieces, 0 < x.1) (hne : pieces ≠ [])
    (hsum : (pieces.map Prod.fst).dropLast.sum < bottom - top) :
    ∃ s, addAll d0 (Str.init .string top bottom .bottomUp) (pieces.map lenKw) = (s, .ok ()) ∧
      fromBit s = (stack top bottom pieces).map (fun x => (some x.1, some x.2.1, x.2.2)) ∧
      (s.complete = true ↔ bottom - top ≤ (pieces.map Prod.fst).sum) := by
  obtain ⟨s, h1, h2, h3, h4, h5⟩ := build_run d0 pieces (building_init top bottom) hpos
    (fun _ => hsum)
  refine ⟨s, h1, ?_, ?_⟩
  · have ht : s.top = top := h3
    have := fromBit_building (s := s) (cur := bottom) (pieces := pieces) (by rw [ht]; exact h2)
    rwa [ht] at this
  · rw [h5]; simp [hne, Str.init]

/-- C04: for a complete string built bottom-up from section lengths, `depth(md)` succeeds for every
`top < md ≤ bottom` and returns a complete string which, counted from the bit, is the stack of the
first `k` pieces started at `md`, where `k` is the least number of pieces that reaches the top;
only the derived `buoyancy_factor` entries are dropped. -/
theorem C04_depth {top bottom md : α} (d0 : V) {pieces : List (α × List (String × V))}
    (hpos : ∀ x ∈ pieces, 0 < x.1)
    (hsum : (pieces.map Prod.fst).dropLast.sum < bottom - top)
    (hmd : top < md) (hmd' : md ≤ bottom) {s : Str α V}
    (hs : addAll d0 (Str.init .string top bottom .bottomUp) (pieces.map lenKw) = (s, .ok ()))
    (hc : s.complete = true) :
    ∃ s' k, depth d0 s md = .ok s' ∧ s'.complete = true ∧ s'.top = top ∧ s'.bottom = md ∧
      s'.sections.map Prod.fst = List.range k ∧ 1 ≤ k ∧ k ≤ pieces.length ∧
      ((pieces.take (k - 1)).map Prod.fst).sum < md - top ∧
      md - top ≤ ((pieces.take k).map Prod.fst).sum ∧
      fromBit s' = (stack top md ((pieces.take k).map dropBf)).map
        (fun x => (some x.1, some x.2.1, x.2.2)) := by
  obtain ⟨s0, h1, h2, h3, h4, h5⟩ := build_run d0 pieces (building_init top bottom) hpos
    (fun _ => hsum)
  rw [hs] at h1
  injection h1 with h1 _
  subst h1
  have ht : s.top = top := h3
  have hb : s.bottom = bottom := h4
  have htot : bottom - top ≤ (pieces.map Prod.fst).sum := by
    rcases h5.mp hc with h | h
    · simp [Str.init] at h
    · exact h.2
  have hes : s.sections.reverse.map Prod.snd = stackSecs top bottom pieces := by
    rw [List.map_reverse, h2.secs, List.append_nil, List.reverse_reverse]
    rfl
  obtain ⟨s', k, e1, e2, e3, e4, e5, e6, e7, e8, e9⟩ := depth_run d0 pieces
    (s := Str.init .string top md .bottomUp) (building_init top md) (es := s.sections.reverse)
    (b0 := bottom) hes hpos hmd (by show md - top ≤ _; linarith)
  have e7' : s'.top = top := e7
  refine ⟨s', k, ?_, e9, e7', e8, ?_, e2, e3, e4, e5, ?_⟩
  · unfold depth
    rw [ht, hb]
    simp only [check, hmd, hmd', and_self, decide_true, if_true, bind, Except.bind]
    exact e1
  · rw [e6.idx]
    congr 1
    have := congrArg List.length e6.secs
    simp only [List.length_map, List.length_append, List.length_reverse, List.length_nil,
      add_zero] at this
    rw [this]
    have hl : ∀ (t b : α) (q : List (α × List (String × V))), (stackSecs t b q).length = q.length := by
      intro t b q
      induction q generalizing b with
      | nil => rfl
      | cons x r ih => simp [stackSecs, ih]
    rw [hl, List.length_map, List.length_take]
    omega
  · have := fromBit_building (s := s') (cur := md) (pieces := (pieces.take k).map dropBf)
      (by rw [e7']; exact e6)
    rwa [e7'] at this

/-- What the stack of `C04_depth` looks like: it starts at the given depth, has no gaps, every
piece but the topmost keeps its full length, and the topmost one ends at the top. -/
theorem C04_stack_meaning {P : Type} (top b : α) (pieces : List (α × P))
    (hpos : ∀ x ∈ pieces, 0 < x.1) (hne : pieces ≠ [])
    (h1 : (pieces.map Prod.fst).dropLast.sum < b - top) (h2 : b - top ≤ (pieces.map Prod.fst).sum) :
    (stack top b pieces).map (·.2.2) = pieces.map Prod.snd ∧
    (stack top b pieces).head?.map (·.2.1) = some b ∧
    (stack top b pieces).getLast?.map (·.1) = some top ∧
    (stack top b pieces).IsChain (fun lower upper => lower.1 = upper.2.1) ∧
    ((stack top b pieces).map (fun x => x.2.1 - x.1)).dropLast
      = (pieces.map Prod.fst).dropLast := by
  induction pieces generalizing b with
  | nil => exact absurd rfl hne
  | cons x r ih =>
    by_cases hr : r = []
    · subst hr
      simp at h1 h2
      have : max top (b - x.1) = top := max_eq_left (by linarith)
      simp [stack, this]
    · have hrp : ∀ y ∈ r.map Prod.fst, 0 < y := by
        intro y hy
        obtain ⟨z, hz, rfl⟩ := List.mem_map.mp hy
        exact hpos z (List.mem_cons_of_mem _ hz)
      have hd : ((x :: r).map Prod.fst).dropLast = x.1 :: (r.map Prod.fst).dropLast := by
        rw [List.map_cons, List.dropLast_cons_of_ne_nil (by simpa using hr)]
      rw [hd, List.sum_cons] at h1
      rw [List.map_cons, List.sum_cons] at h2
      have hn := sum_dropLast_nonneg hrp
      have hm : max top (b - x.1) = b - x.1 := max_eq_right (by linarith)
      obtain ⟨i1, i2, i3, i4, i5⟩ := ih (b - x.1)
        (fun y hy => hpos y (List.mem_cons_of_mem _ hy)) hr (by linarith) (by linarith)
      have hst : stack top b (x :: r) = (b - x.1, b, x.2) :: stack top (b - x.1) r := by
        rw [show x = (x.1, x.2) from rfl, stack, hm]
      obtain ⟨y, t, hy⟩ : ∃ y t, stack top (b - x.1) r = y :: t := by
        cases hstk : stack top (b - x.1) r with
        | nil => rw [hstk] at i2; simp at i2
        | cons y t => exact ⟨y, t, rfl⟩
      rw [hst]
      refine ⟨by simp [i1], by simp, ?_, ?_, ?_⟩
      · rw [hy, List.getLast?_cons_cons, ← hy]; exact i3
      · rw [hy, List.isChain_cons_cons, ← hy]
        refine ⟨?_, i4⟩
        rw [hy] at i2
        simpa using i2.symm
      · rw [hd, List.map_cons, List.dropLast_cons_of_ne_nil (by simp [hy]), i5]
        simp

/-- C54, what holds: on a string that already has sections (built from positive lengths and not
yet complete) `add_section` with neither length nor top extends to the string's top and completes
the string. -/
theorem C54_default_extends_to_top_partial {top bottom : α} (d0 : V)
    {pieces : List (α × List (String × V))} (hpos : ∀ x ∈ pieces, 0 < x.1) (hne : pieces ≠ [])
    (hsum : (pieces.map Prod.fst).sum < bottom - top) (other : List (String × V)) {s : Str α V}
    (hs : addAll d0 (Str.init .string top bottom .bottomUp) (pieces.map lenKw) = (s, .ok ())) :
    ∃ s', addSection d0 s ⟨none, none, none, other⟩ = (s', .ok ()) ∧ s'.complete = true ∧
      fromBit s' = (stack top bottom pieces).map (fun x => (some x.1, some x.2.1, x.2.2))
        ++ [(some top, some (bottom - (pieces.map Prod.fst).sum), other)] := by
  have hpos' : ∀ x ∈ pieces.map Prod.fst, 0 < x := by
    intro y hy
    obtain ⟨z, hz, rfl⟩ := List.mem_map.mp hy
    exact hpos z hz
  have hdl : (pieces.map Prod.fst).dropLast.sum ≤ (pieces.map Prod.fst).sum := by
    have hnn : pieces.map Prod.fst ≠ [] := by simpa using hne
    have h := congrArg List.sum (List.dropLast_append_getLast hnn)
    rw [List.sum_append, List.sum_singleton] at h
    have := hpos' _ (List.getLast_mem hnn)
    linarith
  obtain ⟨s0, h1, h2, h3, h4, -⟩ := build_run d0 pieces (building_init top bottom) hpos
    (fun _ => lt_of_le_of_lt hdl hsum)
  rw [hs] at h1
  injection h1 with h1 _
  subst h1
  have ht : s.top = top := h3
  have hcur : ∀ (q : List (α × List (String × V))) (b : α), (∀ x ∈ q, 0 < x.1) →
      (q.map Prod.fst).sum < b - top → curAfter top b q = b - (q.map Prod.fst).sum := by
    intro q
    induction q with
    | nil => intro b _ _; simp [curAfter]
    | cons x r ih =>
      intro b hq hqs
      rw [List.map_cons, List.sum_cons] at hqs
      have hr : 0 ≤ (r.map Prod.fst).sum := sum_nonneg' (by
        intro y hy
        obtain ⟨z, hz, rfl⟩ := List.mem_map.mp hy
        exact hq z (List.mem_cons_of_mem _ hz))
      rw [curAfter, max_eq_right (by linarith),
        ih _ (fun y hy => hq y (List.mem_cons_of_mem _ hy)) (by linarith), List.map_cons,
        List.sum_cons]
      ring
  have hB := h2
  have hct : (Str.init .string top bottom .bottomUp : Str α V).top = top := rfl
  rw [hct, hcur pieces bottom hpos hsum] at hB
  obtain ⟨v, hv, hvt⟩ : ∃ v, dictGet s.sections 0 = .ok v ∧
      v.top = some (bottom - (pieces.map Prod.fst).sum) := by
    obtain ⟨sp, g1, -, -, g4, -⟩ := hB.spans
    cases hL : (stackSecs top bottom pieces).reverse ++ ([] : List (Sec α V)) with
    | nil =>
      cases pieces with
      | nil => exact absurd rfl hne
      | cons x r => simp [stackSecs] at hL
    | cons v r =>
      rw [hL] at g1
      cases sp with
      | nil => simp [HasSpans] at g1
      | cons q sp =>
        simp only [HasSpans, List.map_cons, List.cons.injEq, Prod.mk.injEq] at g1
        refine ⟨v, (dictGet_indexed hB.idx).mpr (by rw [hB.secs, hL]; rfl), ?_⟩
        rw [g1.1.1]
        simpa using g4
  obtain ⟨s', e1, e2, e3, e4, e5⟩ := add_step d0 hB other (l := none) (nt := top) (by
    simp only [localTop, localTop.elseBranch, localTop.last, hv, hvt, need, ht])
    (by rw [ht]) (by linarith)
  refine ⟨s', e1, by rw [e5, ht, if_pos rfl], ?_⟩
  unfold fromBit
  have h5 := congrArg (List.map (fun s : Sec α V => (s.top, s.bottom, s.other))) e2.secs
  rw [List.map_map] at h5
  rw [show (fun e : ℕ × Sec α V => (e.2.top, e.2.bottom, e.2.other))
    = (fun s : Sec α V => (s.top, s.bottom, s.other)) ∘ Prod.snd from rfl, h5,
    List.append_nil, List.map_cons, List.reverse_cons, List.map_reverse, List.reverse_reverse,
    stackSecs_view]

/-- C04, outside its hypotheses: for a string built top-down without explicit lengths `depth`
raises `KeyError`. -/
theorem C04_top_down_string_raises :
    ∃ s : Str ℤ ℤ, addAll 0 (Str.init .string 0 100 .topDown) [⟨none, some 100, none, []⟩]
        = (s, .ok ()) ∧ s.complete = true ∧ depth 0 s 50 = .error .key :=
  ⟨_, rfl, rfl, rfl⟩

example : ∃ s s' : Str ℚ ℤ, addAll 0 (Str.init .string 0 100 .bottomUp)
    ([(30, [("od", 8)]), (500, [("od", 5)])].map lenKw) = (s, .ok ()) ∧ s.complete = true ∧
    depth 0 s 60 = .ok s' := by
  have h := C04_build (α := ℚ) (V := ℤ) (top := 0) (bottom := 100) 0
    (pieces := [(30, [("od", 8)]), (500, [("od", 5)])])
    (by intro x hx; simp at hx; rcases hx with rfl | rfl <;> norm_num) (by simp) (by norm_num)
  obtain ⟨s, h1, -, h3⟩ := h
  have hc : s.complete = true := h3.mpr (by norm_num)
  obtain ⟨s', k, h4, -⟩ := C04_depth (α := ℚ) (V := ℤ) (top := 0) (bottom := 100) (md := 60) 0
    (pieces := [(30, [("od", 8)]), (500, [("od", 5)])])
    (by intro x hx; simp at hx; rcases hx with rfl | rfl <;> norm_num) (by norm_num)
    (by norm_num) (by norm_num) h1 hc
  exact ⟨s, s', h1, hc, h4⟩

end

end Welleng.Props
