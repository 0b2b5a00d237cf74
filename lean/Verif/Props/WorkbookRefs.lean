import Verif.Lemmas.Labels
import Verif.Props.EdmSurvey
import Mathlib.Data.List.Induction

/-!
C270 and C272: the units and the reference values of the well path sheet.
-/

namespace Welleng.Props

open Ingest
open Wbp (strip)

/-- A row gives the value `x` for `key`: its first cell names `key`, its second is the number. -/
def Gives (text : ℝ → String) (r : List Cell) (key : String) (x : ℝ) : Prop :=
  ∃ c, r[0]? = some c ∧ Spec.Names (cellText text c).toList key.toList ∧ r[1]? = some (.num x)

/-- The reference values that the survey is built with. -/
def refNames : List String := ["latitude", "g", "btotal", "dip", "declination"]

theorem not_special {s : List Char} {key : String} (hk : key ∈ refNames)
    (hn : Spec.Names s key.toList) : strip s ≠ "Well".toList ∧
      ¬ "depth units".toList <+: lower (strip s) ∧
      ¬ "feet to metres".toList <+: lower (strip s) := by
  refine ⟨?_, ?_, ?_⟩
  · intro h
    rw [names_iff, h] at hn
    have : lower (strip ("Well".toList.takeWhile (· ≠ '('))) = "well".toList := by decide +kernel
    rw [this] at hn
    revert hn
    simp only [refNames, List.mem_cons, List.not_mem_nil, or_false] at hk
    rcases hk with rfl | rfl | rfl | rfl | rfl <;> decide
  · intro h
    obtain ⟨n, hp⟩ := prefix_of_label hn (by decide) (by decide) h
    revert hp
    simp only [refNames, List.mem_cons, List.not_mem_nil, or_false] at hk
    rcases hk with rfl | rfl | rfl | rfl | rfl <;>
      simp [List.cons_prefix_cons]
  · intro h
    obtain ⟨n, hp⟩ := prefix_of_label hn (by decide) (by decide) h
    revert hp
    simp only [refNames, List.mem_cons, List.not_mem_nil, or_false] at hk
    rcases hk with rfl | rfl | rfl | rfl | rfl <;>
      simp [List.cons_prefix_cons]

theorem col_of_ne {r : List Cell} {i : ℕ} {c : Cell} (h : col r i = c) (hc : c ≠ .empty) :
    r[i]? = some c := by
  unfold col at h
  cases hr : r[i]? with
  | none => rw [hr] at h; exact absurd h.symm hc
  | some d => rw [hr] at h; simp at h; rw [h]

theorem refKey_iff (s : List Char) (key : String) :
    refKey (strip s) = key ↔ Spec.Names s key.toList := by
  rw [names_iff, refKey]
  constructor
  · intro h; rw [← h, String.toList_ofList]
  · intro h; rw [h, String.ofList_toList]

theorem refStep_gives {text : ℝ → String} (st : Refs) {r : List Cell} {key : String} {x : ℝ}
    (hk : key ∈ refNames) (h : Gives text r key x) :
    (refStep text st r).refs.lookup key = some x := by
  obtain ⟨c, hc, hn, hx⟩ := h
  obtain ⟨h1, h2, h3⟩ := not_special hk hn
  have hkey := (refKey_iff _ _).2 hn
  have h0 : col r 0 = c := by simp [col, hc]
  have h1x : col r 1 = .num x := by simp [col, hx]
  have hne : c ≠ .empty := by
    rintro rfl
    rw [names_iff] at hn
    have : lower (strip ((strip (cellText text Cell.empty).toList).takeWhile (· ≠ '('))) = [] := by
      change lower (strip ((strip "".toList).takeWhile (· ≠ '('))) = []
      decide +kernel
    rw [this] at hn
    revert hn
    simp only [refNames, List.mem_cons, List.not_mem_nil, or_false] at hk
    rcases hk with rfl | rfl | rfl | rfl | rfl <;> decide
  have : refStep text st r = { st with refs := Edm.dictSet st.refs key x } := by
    unfold refStep
    rw [h0]
    cases c with
    | empty => exact absurd rfl hne
    | num y =>
      dsimp only
      rw [if_neg h1, if_neg h2, if_neg h3, h1x]
      dsimp only
      rw [hkey]
    | str s =>
      dsimp only
      rw [if_neg h1, if_neg h2, if_neg h3, h1x]
      dsimp only
      rw [hkey]
  rw [this]
  simp [lookup_dictSet]

theorem refStep_other {text : ℝ → String} (st : Refs) {r : List Cell} {key : String}
    (h : ∀ x, ¬ Gives text r key x) :
    (refStep text st r).refs.lookup key = st.refs.lookup key := by
  unfold refStep
  split
  · rfl
  · rename_i hne
    dsimp only
    split_ifs with h1 h2 h3
    · rfl
    · cases col r 1 <;> rfl
    · cases col r 1 <;> rfl
    · cases hx : col r 1 with
      | empty => rfl
      | str s => rfl
      | num x =>
        dsimp only
        rw [lookup_dictSet]
        have : key ≠ refKey (strip (cellText text (col r 0)).toList) := by
          intro e
          refine h x ⟨col r 0, col_of_ne rfl hne, (refKey_iff _ _).1 e.symm, ?_⟩
          exact col_of_ne hx (by simp)
        rw [if_neg this]

/-- C272. Each of the five reference values of a well path sheet is the number beside its name in
the first twelve rows, wherever among them it stands and however the name is written; of two such
rows the later counts. -/
theorem C272_value (text : ℝ → String) (rows pre post : List (List Cell)) (r : List Cell)
    (key : String) (x : ℝ) (hk : key ∈ refNames) (hrows : rows.take 12 = pre ++ r :: post)
    (hr : Gives text r key x) (hpost : ∀ r' ∈ post, ∀ y, ¬ Gives text r' key y) :
    (parseRefs text rows).refs.lookup key = some x := by
  have aux : ∀ (l : List (List Cell)) (st : Refs), (∀ r' ∈ l, ∀ y, ¬ Gives text r' key y) →
      (l.foldl (refStep text) st).refs.lookup key = st.refs.lookup key := by
    intro l
    induction l with
    | nil => intro st _; rfl
    | cons a t ih =>
      intro st h
      rw [List.foldl_cons, ih _ (fun r' hr' => h r' (by simp [hr'])),
        refStep_other _ (h a (by simp))]
  unfold parseRefs
  rw [hrows, List.foldl_append, List.foldl_cons, aux _ _ hpost, refStep_gives _ hk hr]

/-- A reference value that no row gives is not a number. -/
theorem C272_missing (text : ℝ → String) (rows : List (List Cell)) (key : String)
    (h : ∀ r ∈ rows.take 12, ∀ y, ¬ Gives text r key y) :
    (parseRefs text rows).refs.lookup key = none := by
  have aux : ∀ (l : List (List Cell)) (st : Refs), (∀ r' ∈ l, ∀ y, ¬ Gives text r' key y) →
      (l.foldl (refStep text) st).refs.lookup key = st.refs.lookup key := by
    intro l
    induction l with
    | nil => intro st _; rfl
    | cons a t ih =>
      intro st h
      rw [List.foldl_cons, ih _ (fun r' hr' => h r' (by simp [hr'])),
        refStep_other _ (h a (by simp))]
  unfold parseRefs
  rw [aux _ _ h]
  rfl

theorem names_simple {s name rest : String} (key : String)
    (h1 : s.toList = name.toList ++ ' ' :: '(' :: rest.toList)
    (h2 : '(' ∉ name.toList) (h3 : name.toList.head? ≠ some ' ')
    (h4 : name.toList.getLast? ≠ some ' ') (h5 : name.toList.map Char.toLower = key.toList) :
    Spec.Names s.toList key.toList :=
  ⟨[], name.toList, [' '], '(' :: rest.toList, by simp [h1], by simp, by simp, Or.inr rfl, h2, h3,
    h4, h5⟩

example (text : ℝ → String) :
    (parseRefs text [[.str "Well", .str "A"], [.str "Dip (deg)", .num 72],
      [.str "G (m/s2)", .num 9.8]]).refs.lookup "dip" = some 72 := by
  refine C272_value text _ [[.str "Well", .str "A"]] [[.str "G (m/s2)", .num 9.8]]
    [.str "Dip (deg)", .num 72] "dip" 72 (by decide) (by simp)
    ⟨.str "Dip (deg)", rfl, ?_, rfl⟩ ?_
  · exact names_simple (s := "Dip (deg)") (name := "Dip") (rest := "deg)") "dip" (by decide) (by decide) (by decide)
      (by decide) (by decide)
  · rintro r' hr' y ⟨c, hc, hn, -⟩
    simp at hr'
    subst hr'
    simp at hc
    subst hc
    rw [names_iff] at hn
    revert hn
    change ¬ lower (strip ((strip "G (m/s2)".toList).takeWhile (· ≠ '('))) = "dip".toList
    decide +kernel

/-! ### C270: the depths -/

/-- The label of a row begins with `w`, whatever blanks and capitals it is written with. -/
def LabelStarts (text : ℝ → String) (r : List Cell) (w : List Char) : Prop :=
  ∃ c a t, r[0]? = some c ∧ (cellText text c).toList = a ++ t ∧ (∀ d ∈ a, d = ' ') ∧
    w <+: t.map Char.toLower

theorem labelStarts_of {text : ℝ → String} {r : List Cell} {c : Cell} {w : List Char}
    (hc : r[0]? = some c) (h : w <+: lower (strip (cellText text c).toList)) :
    LabelStarts text r w := by
  obtain ⟨a, b, e, ha, -, -⟩ := strip_split (cellText text c).toList
  refine ⟨c, a, strip (cellText text c).toList ++ b, hc, by rw [← List.append_assoc, ← e], ha, ?_⟩
  rw [List.map_append]
  exact List.IsPrefix.trans h (List.prefix_append _ _)

theorem refStep_units {text : ℝ → String} (st : Refs) {r : List Cell}
    (h1 : ¬ LabelStarts text r "depth units".toList)
    (h2 : ¬ LabelStarts text r "feet to metres".toList) :
    (refStep text st r).depthUnits = st.depthUnits ∧ (refStep text st r).ftToM = st.ftToM := by
  unfold refStep
  split
  · exact ⟨rfl, rfl⟩
  · rename_i hne
    have hcell : r[0]? = some (col r 0) := col_of_ne rfl hne
    dsimp only
    rw [if_neg (fun h => h1 (labelStarts_of hcell h)), if_neg (fun h => h2 (labelStarts_of hcell h))]
    split_ifs
    · exact ⟨rfl, rfl⟩
    · cases col r 1 <;> exact ⟨rfl, rfl⟩

/-- C270. The survey built from a sheet that says its unit of depth has the depths of the sheet in
metres. -/
def DepthsInMetres (text : ℝ → String) (parse : String → Option ℝ) (u : String) : Prop :=
  ∀ (rows pre post : List (List Cell)) (r : List Cell) (l : String) (x : ℝ),
    rows.take 12 = pre ++ r :: post →
    r[0]? = some (.str l) → Spec.Names l.toList "depth units".toList → r[1]? = some (.str u) →
    (∀ r' ∈ pre ++ post, ¬ LabelStarts text r' "depth units".toList ∧
      ¬ LabelStarts text r' "feet to metres".toList) →
    Spec.unitLength u.toList = some x →
    surveyDepths text parse rows = (stationsOf parse rows).map fun s => s.md * x

theorem units_read {text : ℝ → String} {rows pre post : List (List Cell)} {r : List Cell}
    {l u : String} (hrows : rows.take 12 = pre ++ r :: post)
    (hl : r[0]? = some (.str l)) (hn : Spec.Names l.toList "depth units".toList)
    (hu : r[1]? = some (.str u))
    (ho : ∀ r' ∈ pre ++ post, ¬ LabelStarts text r' "depth units".toList ∧
      ¬ LabelStarts text r' "feet to metres".toList) :
    (parseRefs text rows).depthUnits = lower (strip u.toList) ∧
      (parseRefs text rows).ftToM = 0.3048 := by
  have aux : ∀ (l : List (List Cell)) (st : Refs),
      (∀ r' ∈ l, ¬ LabelStarts text r' "depth units".toList ∧
        ¬ LabelStarts text r' "feet to metres".toList) →
      (l.foldl (refStep text) st).depthUnits = st.depthUnits ∧
        (l.foldl (refStep text) st).ftToM = st.ftToM := by
    intro l
    induction l with
    | nil => intro st _; exact ⟨rfl, rfl⟩
    | cons a t ih =>
      intro st h
      rw [List.foldl_cons]
      obtain ⟨e1, e2⟩ := ih (refStep text st a) (fun r' hr' => h r' (by simp [hr']))
      obtain ⟨e3, e4⟩ := refStep_units st (h a (by simp)).1 (h a (by simp)).2
      exact ⟨e1.trans e3, e2.trans e4⟩
  have hpre := aux pre {} (fun r' hr' => ho r' (by simp [hr']))
  have hstep : ∀ st : Refs, refStep text st r =
      { st with depthUnits := lower (strip u.toList) } := by
    intro st
    have h0 : col r 0 = .str l := by simp [col, hl]
    have h1 : col r 1 = .str u := by simp [col, hu]
    unfold refStep
    rw [h0]
    dsimp only
    rw [if_neg, if_pos, h1]
    · rfl
    · exact label_of_names (by decide) hn
    · intro h
      have hn' := (names_iff _ _).1 hn
      change strip l.toList = _ at h
      rw [h] at hn'
      revert hn'
      decide +kernel
  obtain ⟨e1, e2⟩ := aux post (refStep text (pre.foldl (refStep text) {}) r)
    (fun r' hr' => ho r' (by simp [hr']))
  unfold parseRefs
  rw [hrows, List.foldl_append, List.foldl_cons, e1, e2, hstep]
  exact ⟨rfl, hpre.2⟩

theorem strip_word {w : List Char} (h : ' ' ∉ w) : strip w = w := by
  refine strip_unique (a := []) (b := []) (by simp) (by simp) (by simp) ⟨?_, ?_⟩
  · intro e; exact h (List.mem_of_mem_head? e)
  · intro e; exact h (List.mem_of_mem_getLast? e)

/-- C270, for sheets in metres and for sheets whose unit is written `ft`. -/
theorem C270_ft_partial (text : ℝ → String) (parse : String → Option ℝ) (u : String)
    (hu : ∀ w ∈ ["foot", "feet"], u.toList.map Char.toLower ≠ w.toList) :
    DepthsInMetres text parse u := by
  intro rows pre post r l x hrows hl hn hr ho hx
  obtain ⟨e1, e2⟩ := units_read hrows hl hn hr ho
  have hf := hu "foot" (by simp)
  have hf2 := hu "feet" (by simp)
  have hblank : ∀ w : List Char, ' ' ∉ w.map Char.toLower → ' ' ∉ w := by
    intro w h h'
    exact h (List.mem_map.2 ⟨' ', h', by decide⟩)
  unfold surveyDepths
  simp only [e1, e2]
  unfold Spec.unitLength at hx
  simp only at hx
  generalize hw : u.toList.map Char.toLower = w at *
  have key : ' ' ∉ w → lower (strip u.toList) = w := by
    intro h
    rw [strip_word (hblank _ (by rw [hw]; exact h))]
    exact hw
  split_ifs at hx with h1 h2
  · cases hx
    simp only [List.mem_cons, List.not_mem_nil, or_false] at h1
    rw [if_neg]
    rcases h1 with rfl | rfl | rfl | rfl | rfl <;> rw [key (by decide)] <;> decide
  · cases hx
    simp only [List.mem_cons, List.not_mem_nil, or_false] at h2
    rcases h2 with rfl | rfl | rfl
    · rw [key (by decide), if_pos (by decide)]
    · exact absurd rfl hf
    · exact absurd rfl hf2

example (text : ℝ → String) (parse : String → Option ℝ) :
    surveyDepths text parse [[.str "Depth Units (x)", .str "FT"], [],
      [.empty, .empty, .empty, .empty, .num 100]] = [100 * 0.3048] := by
  rw [C270_ft_partial text parse "FT" (by decide) _ []
    [[], [.empty, .empty, .empty, .empty, .num 100]] [.str "Depth Units (x)", .str "FT"]
    "Depth Units (x)" 0.3048 (by simp) rfl
    (names_simple (name := "Depth Units") (rest := "x)") "depth units" (by decide) (by decide)
      (by decide) (by decide) (by decide)) rfl]
  · simp [stationsOf, stationOf, col]
  · intro r' hr'
    simp only [List.nil_append, List.mem_cons, List.not_mem_nil, or_false] at hr'
    rcases hr' with rfl | rfl
    · constructor <;> rintro ⟨c, a, t, hc, -⟩ <;> simp at hc
    · constructor <;> rintro ⟨c, a, t, hc, e, -, hp⟩ <;> simp at hc <;> subst hc <;>
        simp [cellText] at e <;> rw [e.2] at hp <;> simp at hp
  · have : "FT".toList.map Char.toLower = "ft".toList := by decide
    unfold Spec.unitLength
    rw [this]
    dsimp only
    rw [if_neg (by decide), if_pos (by decide)]

/-- C270 fails: the depths of a sheet whose unit is written `feet` are taken as metres. -/
theorem C270_feet (text : ℝ → String) (parse : String → Option ℝ) :
    ¬ DepthsInMetres text parse "Feet" := by
  intro h
  have hn : Spec.Names "Depth Units (x)".toList "depth units".toList :=
    names_simple (name := "Depth Units") (rest := "x)") "depth units" (by decide) (by decide)
      (by decide) (by decide) (by decide)
  have ho : ∀ r' ∈ ([] : List (List Cell)) ++ [[], [.empty, .empty, .empty, .empty, .num 100]],
      ¬ LabelStarts text r' "depth units".toList ∧
      ¬ LabelStarts text r' "feet to metres".toList := by
    intro r' hr'
    simp only [List.nil_append, List.mem_cons, List.not_mem_nil, or_false] at hr'
    rcases hr' with rfl | rfl
    · constructor <;> rintro ⟨c, a, t, hc, -⟩ <;> simp at hc
    · constructor <;> rintro ⟨c, a, t, hc, e, -, hp⟩ <;> simp at hc <;> subst hc <;>
        simp [cellText] at e <;> rw [e.2] at hp <;> simp at hp
  have hu : Spec.unitLength "Feet".toList = some 0.3048 := by
    have : "Feet".toList.map Char.toLower = "feet".toList := by decide
    unfold Spec.unitLength
    rw [this]
    dsimp only
    rw [if_neg (by decide), if_pos (by decide)]
  have := h [[.str "Depth Units (x)", .str "Feet"], [], [.empty, .empty, .empty, .empty, .num 100]]
    [] [[], [.empty, .empty, .empty, .empty, .num 100]] [.str "Depth Units (x)", .str "Feet"]
    "Depth Units (x)" 0.3048 (by simp) rfl hn rfl ho hu
  obtain ⟨e1, e2⟩ := units_read (text := text) (rows := [[.str "Depth Units (x)", .str "Feet"], [],
    [.empty, .empty, .empty, .empty, .num 100]]) (pre := [])
    (post := [[], [.empty, .empty, .empty, .empty, .num 100]])
    (r := [.str "Depth Units (x)", .str "Feet"]) (by simp) rfl hn rfl ho
  unfold surveyDepths at this
  simp only [e1, e2] at this
  rw [if_neg (by decide +kernel)] at this
  simp [stationsOf, stationOf, col] at this
  norm_num at this

end Welleng.Props
