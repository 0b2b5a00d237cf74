import Verif.Model.IoData
import Verif.Props.Workbook
import Verif.Props.ClosestPoint

/-!
C278, C279, C282, C283: the standard set of wells, markers and lines.
-/

namespace Welleng.Props

open Io Ingest
open Welleng.Spec (OnWell FindsMinimum)

/-! ### C278: the columns of a well -/

theorem wellStep_fold (l : List (List Cell)) (w : Well) :
    l.foldl wellStep w =
      let R := l.filter fun r => isNum (cell r 0)
      ⟨w.md ++ R.map (cell · 0), w.inc ++ R.map (cell · 1), w.azi ++ R.map (cell · 2),
       w.tvd ++ R.map (cell · 3), w.n ++ R.map (cell · 4), w.e ++ R.map (cell · 5),
       w.sigmaH ++ R.map (cell · 6), w.sigmaL ++ R.map (cell · 7),
       w.sigmaA ++ R.map (cell · 8)⟩ := by
  induction l generalizing w with
  | nil => simp
  | cons r t ih =>
    rw [List.foldl_cons, ih]
    unfold wellStep
    by_cases h : isNum (cell r 0) <;> simp [h]

theorem cell_num {r : List Cell} : isNum (cell r 0) = true ↔ ∃ x, r[0]? = some (.num x) := by
  unfold cell
  rcases r[0]? with _ | c
  · simp [isNum]
  · cases c <;> simp [isNum]

/-- C278. The columns read for a well of the standard set are those of the rows from the 17th on
that have a number for the depth, in their order; the entries at one place of the nine columns are
of one row. -/
theorem C278_columns (rows : List (List Cell)) :
    ∃ idx : List ℕ, idx.Pairwise (· < ·) ∧
      (∀ i, i ∈ idx ↔ 16 ≤ i ∧ ∃ r x, rows[i]? = some r ∧ r[0]? = some (.num x)) ∧
      let w := getWellData rows
      ∀ p ∈ [(w.md, 0), (w.inc, 1), (w.azi, 2), (w.tvd, 3), (w.n, 4), (w.e, 5), (w.sigmaH, 6),
        (w.sigmaL, 7), (w.sigmaA, 8)],
        List.Forall₂ (fun i c => ∃ r, rows[i]? = some r ∧ c = (r[p.2]?).getD .empty) idx p.1 := by
  obtain ⟨idx, h1, h2, h3⟩ := filterMap_places
    (fun r => if isNum (cell r 0) then some r else none) 16 rows
  refine ⟨idx, h1, ?_, ?_⟩
  · intro i
    rw [h2]
    refine and_congr_right fun _ => ?_
    constructor
    · rintro ⟨r, b, hr, hb⟩
      split_ifs at hb with hn
      obtain ⟨x, hx⟩ := cell_num.1 hn
      exact ⟨r, x, hr, hx⟩
    · rintro ⟨r, x, hr, hx⟩
      exact ⟨r, r, hr, by rw [if_pos (cell_num.2 ⟨x, hx⟩)]⟩
  · have hR : ((rows.drop 16).filterMap fun r => if isNum (cell r 0) then some r else none)
        = (rows.drop 16).filter fun r => isNum (cell r 0) := by
      rw [← List.filterMap_eq_filter]
      rfl
    rw [hR] at h3
    have key : ∀ j, List.Forall₂ (fun i c => ∃ r, rows[i]? = some r ∧ c = (r[j]?).getD Cell.empty)
        idx (((rows.drop 16).filter fun r => isNum (cell r 0)).map (cell · j)) := by
      intro j
      rw [List.forall₂_map_right_iff]
      refine List.Forall₂.imp ?_ h3
      rintro i b ⟨r, hr, hb⟩
      split_ifs at hb
      cases hb
      exact ⟨_, hr, rfl⟩
    unfold getWellData
    rw [wellStep_fold]
    intro w p hp
    simp only [w, List.nil_append, List.mem_cons, List.not_mem_nil, or_false] at hp
    rcases hp with rfl | rfl | rfl | rfl | rfl | rfl | rfl | rfl | rfl <;> exact key _

example : (getWellData (List.replicate 16 [] ++ [[.num 30, .num 2], [.str "x"], [.num 60, .num 4]])).inc
    = [.num 2, .num 4] := by
  simp [getWellData, wellStep, cell, isNum, List.drop_append]

/-! ### C279: surveys of the wells -/

theorem standardData_names {sheets : List (String × List (List Cell))} {wells : List String}
    {d : List (String × Entry)} (h : standardData sheets wells = some d) (s : String)
    (hs : s ∉ wells) : d.lookup s = none := by
  have aux : ∀ (ws : List String) (d0 d : List (String × Entry)), s ∉ ws → d0.lookup s = none →
      ws.foldlM (fun d w => do
        let rows ← sheets.lookup w
        let wd := getWellData (rows.map (·.drop 1))
        if w = "Reference well" then
          some (Edm.dictSet d w { well := wd })
        else do
          let sh ← sheets.lookup (String.ofList (w.toList.take 5) ++ "clearance")
          some (Edm.dictSet d w { well := wd, sf := some (getSf sh) })) d0 = some d →
      d.lookup s = none := by
    intro ws
    induction ws with
    | nil =>
      intro d0 d _ h0 hd
      simp only [List.foldlM_nil, Option.pure_def, Option.some.injEq] at hd
      rw [← hd]; exact h0
    | cons w t ih =>
      intro d0 d hns h0 hd
      rw [List.foldlM_cons, Option.bind_eq_bind, Option.bind_eq_some_iff] at hd
      obtain ⟨d1, hd1, hd⟩ := hd
      have hne : s ≠ w := fun e => hns (by simp [e])
      refine ih d1 d (fun hm => hns (by simp [hm])) ?_ hd
      rw [Option.bind_eq_bind, Option.bind_eq_some_iff] at hd1
      obtain ⟨rows, -, hd1⟩ := hd1
      dsimp only at hd1
      split_ifs at hd1
      · cases hd1
        rw [lookup_dictSet, if_neg hne, h0]
      · rw [Option.bind_eq_some_iff] at hd1
        obtain ⟨sh, -, hd1⟩ := hd1
        cases hd1
        rw [lookup_dictSet, if_neg hne, h0]
  exact aux wells [] d hs rfl h

/-- A survey of a well has its columns and starts where its mesh starts. -/
def StartsAtWell (data : List (String × Entry)) (well : String) : Prop :=
  ∃ en m, data.lookup well = some en ∧ en.mesh = some m ∧
    ∃ p, m.head? = some p ∧ makeSurvey data well = some (p, en.well)

/-- C279, for the well called `offset`. -/
theorem C279_offset_partial {data : List (String × Entry)} {en : Entry} {p : V3} {m : List V3}
    (h : data.lookup "offset" = some en) (hm : en.mesh = some (p :: m)) :
    StartsAtWell data "offset" :=
  ⟨en, p :: m, h, hm, p, rfl, by simp [makeSurvey, h, hm]⟩

example : StartsAtWell [("offset", { well := {}, mesh := some [⟨1, 2, 3⟩] })] "offset" :=
  C279_offset_partial (en := { well := {}, mesh := some [⟨1, 2, 3⟩] }) rfl rfl

/-- C279, what holds: a survey that is made has the columns of the well asked for. -/
theorem C279_own_columns_partial {data : List (String × Entry)} {well : String} {p : V3} {w : Well}
    (h : makeSurvey data well = some (p, w)) : ∃ en, data.lookup well = some en ∧ w = en.well := by
  simp only [makeSurvey, Option.bind_eq_bind, Option.bind_eq_some_iff, Option.some.injEq,
    Prod.mk.injEq] at h
  obtain ⟨off, -, nevs, -, start, -, en, he, -, rfl⟩ := h
  exact ⟨en, he, rfl⟩

/-- The hypothesis of `C279_own_columns_partial` is met by two wells with different columns. -/
example : (makeSurvey [("reference", { well := { md := [.num 1] }, mesh := none }),
    ("offset", { well := { md := [.num 2] }, mesh := some [⟨0, 0, 0⟩] })] "reference").map
      (fun x => x.2.md) = some [.num 1] := by
  simp [makeSurvey, List.lookup]

/-- C279 fails: no survey can be made from the imported data, whatever the workbook. -/
theorem C279_import_fails {sheets : List (String × List (List Cell))} {wells : List String}
    (hw : ∀ w ∈ wells, "well".toList <:+ w.toList) {d : List (String × Entry)}
    (h : standardData sheets wells = some d) (well : String) : makeSurvey d well = none := by
  have hn : "offset" ∉ wells := by
    intro hm
    exact absurd (hw _ hm) (by decide)
  simp [makeSurvey, standardData_names h "offset" hn]

/-- C279 fails: with meshes added, every well starts where the offset well starts. -/
theorem C279_same_start : ∃ data : List (String × Entry),
    (∃ p, data.lookup "reference" = some { well := {}, mesh := some [p] } ∧ p = ⟨0, 0, 0⟩) ∧
    makeSurvey data "reference" = some (⟨100, 0, 0⟩, {}) ∧ ¬ StartsAtWell data "reference" := by
  refine ⟨[("reference", { well := {}, mesh := some [⟨0, 0, 0⟩] }),
    ("offset", { well := {}, mesh := some [⟨100, 0, 0⟩] })], ⟨_, rfl, rfl⟩, rfl, ?_⟩
  rintro ⟨en, m, h1, h2, p, h3, h4⟩
  have e : en = { well := {}, mesh := some [⟨0, 0, 0⟩] } := by
    simp [List.lookup] at h1; exact h1.symm
  subst e
  cases h2
  simp at h3
  subst h3
  have : makeSurvey [("reference", { well := {}, mesh := some [⟨0, 0, 0⟩] }),
    ("offset", { well := {}, mesh := some [⟨100, 0, 0⟩] })] "reference"
      = some ((⟨100, 0, 0⟩ : V3), {}) := rfl
  rw [this] at h4
  simp at h4

/-! ### C282: markers -/

theorem zip_filter_count {K : Type} [DecidableEq K] (st : List (Shown K)) (fl : List Bool)
    (h : fl.length = st.length) :
    List.Perm (trace st fl true ++ trace st fl false) st := by
  unfold trace
  have e : st = (st.zip fl).map (·.1) := by rw [List.map_fst_zip (by omega)]
  conv_rhs => rw [e]
  rw [← List.map_append]
  refine List.Perm.map _ ?_
  have : ((st.zip fl).filter fun p => p.2 == false) = (st.zip fl).filter fun p => !(p.2 == true) := by
    congr 1; funext p; cases p.2 <;> rfl
  rw [this]
  exact List.filter_append_perm _ _

/-- C282. The markers of the plot of a survey show every station exactly once, with its
coordinates: those of interpolated stations in one colour, the others in another, each in the order
of the survey. -/
theorem C282_markers {K : Type} [DecidableEq K] (st : List (Shown K))
    (interpolated : Option (List Bool)) (hl : ∀ l, interpolated = some l → l.length = st.length) :
    let fl := flags interpolated st.length
    List.Perm ((markers st interpolated).flatMap (·.2)) st ∧
    ∀ t ∈ markers st interpolated, t.2 ≠ [] ∧ List.Sublist t.2 st ∧
      ∀ s, s ∈ t.2 ↔ ∃ k : ℕ, st[k]? = some s ∧ fl[k]? = some (decide (t.1 = "interpolated")) := by
  intro fl
  have hfl : fl.length = st.length := by
    cases interpolated with
    | none => simp [fl, flags]
    | some l => simpa [fl, flags] using hl l rfl
  have hmem : ∀ (b : Bool) (s : Shown K), s ∈ trace st fl b ↔
      ∃ k : ℕ, st[k]? = some s ∧ fl[k]? = some b := by
    intro b s
    simp only [trace, List.mem_map, List.mem_filter, beq_iff_eq]
    constructor
    · rintro ⟨⟨a, c⟩, ⟨hm, hb⟩, rfl⟩
      obtain ⟨k, hk⟩ := List.mem_iff_getElem?.1 hm
      rw [List.getElem?_zip_eq_some] at hk
      exact ⟨k, hk.1, by rw [hk.2]; simpa using hb⟩
    · rintro ⟨k, h1, h2⟩
      refine ⟨(s, b), ⟨List.mem_iff_getElem?.2 ⟨k, ?_⟩, rfl⟩, rfl⟩
      rw [List.getElem?_zip_eq_some]; exact ⟨h1, h2⟩
  have hsub : ∀ b, List.Sublist (trace st fl b) st := by
    intro b
    have : List.Sublist (trace st fl b) ((st.zip fl).map (·.1)) :=
      (List.filter_sublist).map _
    rwa [List.map_fst_zip (by omega)] at this
  constructor
  · have : (markers st interpolated).flatMap (·.2) = trace st fl true ++ trace st fl false := by
      unfold markers
      change List.flatMap _ (List.filter _ [("interpolated", trace st fl true),
        ("survey_point", trace st fl false)]) = _
      rcases h1 : trace st fl true with _ | ⟨a, t⟩ <;> rcases h2 : trace st fl false with _ | ⟨b, u⟩ <;>
        simp
    rw [this]
    exact zip_filter_count st fl hfl
  · intro t ht
    unfold markers at ht
    rw [List.mem_filter] at ht
    obtain ⟨ht, hne⟩ := ht
    refine ⟨by intro h; rw [h] at hne; simp at hne, ?_⟩
    simp only [List.mem_cons, List.not_mem_nil, or_false] at ht
    rcases ht with rfl | rfl
    · exact ⟨hsub true, fun s => by simpa using hmem true s⟩
    · exact ⟨hsub false, fun s => by simpa using hmem false s⟩

example : markers [⟨0, 0, 0, 0, 0, 0⟩, ⟨1, 0, 5, 5, 0, 0⟩, (⟨2, 0, 9, 9, 0, 0⟩ : Shown ℕ)]
    (some [false, true, false]) = [("interpolated", [⟨1, 0, 5, 5, 0, 0⟩]),
      ("survey_point", [⟨0, 0, 0, 0, 0, 0⟩, ⟨2, 0, 9, 9, 0, 0⟩])] := by decide +kernel

/-! ### C283: lines between wells -/

/-- C283. The lines drawn between two wells start at the stations of the reference, end on the
offset well, and are as long as the distances reported, up to the tolerance of the search no
longer than the distance to any station of the offset well. -/
theorem C283_lines {st : List Station} {sx sn : V3} {u : LenUnit} {off : SurveyG} {xyz : List V3}
    (h : surveyG st sx sn u = .ok (off, xyz))
    (hsort : st.Pairwise fun a b => a.md < b.md)
    (hpi : ∀ (i : ℕ) a b, st[i]? = some a → st[i + 1]? = some b → dogleg2 a b < Real.pi)
    {opt : Clr.Minimiser} {ε : ℝ} (hopt : FindsMinimum ε opt) (f : ℕ → V3) (refs : List V3) :
    ∃ lines, getLines opt off f refs = some lines ∧
      List.Forall₂ (fun p l => l.1 = p ∧ ∃ c, Clr.closestPoint opt off f p = some c ∧
        OnWell st off.nev c.interval c.x l.2 ∧ V3.norm (l.2 - l.1) = c.dist ∧
        ∀ q ∈ off.nev, V3.norm (l.2 - l.1) ≤ V3.norm (q - p) + ε) refs lines := by
  unfold getLines
  induction refs with
  | nil => exact ⟨[], by simp, List.Forall₂.nil⟩
  | cons p t ih =>
    obtain ⟨lines, hl, hf⟩ := ih
    obtain ⟨c, hc, hon, -, hd, hq, -⟩ := C157_closest_point h hsort hpi hopt f p
    refine ⟨(p, c.pos) :: lines, ?_, List.Forall₂.cons ⟨rfl, c, hc, hon, hd.symm, ?_⟩ hf⟩
    · rw [List.mapM_cons, hl, hc]
      rfl
    · intro q hm
      show V3.norm (c.pos - p) ≤ _
      rw [← hd]; exact hq q hm

example : ∃ opt off xyz lines, FindsMinimum 0.001 opt ∧
    surveyG [⟨0, 0, 0⟩, ⟨100, 0, 0⟩] 0 0 .meters = .ok (off, xyz) ∧
    getLines opt off (fun _ => 0) [⟨2, 0, 50⟩, ⟨9, 0, 70⟩] = some lines ∧ lines.length = 2 := by
  obtain ⟨opt, ho⟩ := findsMinimum_exists (ε := 0.001) (by norm_num)
  obtain ⟨lines, h1, h2⟩ := C283_lines (st := [⟨0, 0, 0⟩, ⟨100, 0, 0⟩]) (sx := 0) (sn := 0)
    (u := .meters) rfl (by simp) (by
      intro i a b ha hb
      match i with
      | 0 =>
        simp at ha hb
        subst ha hb
        rw [dogleg2_same_azi le_rfl (by linarith [Real.pi_pos])]
        linarith [Real.pi_pos]
      | i + 1 => simp at hb) ho (fun _ => 0) [⟨2, 0, 50⟩, ⟨9, 0, 70⟩]
  exact ⟨opt, _, _, lines, ho, rfl, h1, h2.length_eq.symm⟩

end Welleng.Props
