import Verif.Model.WbpParent
import Verif.Lemmas.WbpFile

namespace Welleng.Wbp

theorem plansLines_append : ∀ {a b : List WPlan} {x y : List Text}, plansLines a = some x →
    plansLines b = some y → plansLines (a ++ b) = some (x ++ y)
  | [], b, x, y, ha, hb => by
    simp only [plansLines, Option.some.injEq] at ha
    subst ha
    simpa using hb
  | p :: t, b, x, y, ha, hb => by
    rw [plansLines] at ha
    split at ha
    · rename_i u v h1 h2
      injection ha with ha
      subst ha
      rw [List.cons_append, plansLines, h1, plansLines_append h2 hb]
      simp
    · cases ha

theorem rstrip_rstrip (s : Text) : rstrip (rstrip s) = rstrip s := by
  unfold rstrip
  rw [List.reverse_reverse]
  congr 1
  generalize s.reverse = l
  induction l with
  | nil => rfl
  | cons a t ih =>
    by_cases h : a = ' '
    · simpa [List.dropWhile_cons, h] using ih
    · simp [List.dropWhile_cons, h]

theorem rstrip_isPrefix (s : Text) : rstrip s <+: s := by
  unfold rstrip
  have := List.dropWhile_suffix (fun c => decide (c = ' ')) (l := s.reverse)
  have h := List.reverse_prefix.mpr this
  rwa [List.reverse_reverse] at h

theorem mentions_rstrip {w s : Text} (h : mentions w s = false) : mentions w (rstrip s) = false := by
  unfold mentions at *
  rw [decide_eq_false_iff_not] at *
  exact fun hh => h (hh.trans (rstrip_isPrefix s).isInfix)

theorem parentFrom_skip : ∀ (a rest : List Text),
    (∀ x ∈ a, mentions "WELLPLANS".toList x = false) →
    parentFrom true (a ++ rest) = parentFrom true rest
  | [], _, _ => rfl
  | x :: t, rest, h => by
    rw [List.cons_append, parentFrom, h x (by simp)]
    simpa using parentFrom_skip t rest fun y hy => h y (by simp [hy])

theorem parentFrom_take : ∀ (b : List Text),
    (∀ x ∈ b, mentions "WELLPLANS".toList x = false) → parentFrom false b = b
  | [], _ => rfl
  | x :: t, h => by
    rw [parentFrom, h x (by simp)]
    simpa using parentFrom_take t fun y hy => h y (by simp [hy])

/-- The lines after the one line with the keyword. -/
theorem parentLines_eq {a b : List Text}
    (h : ((a ++ "WELLPLANS:".toList :: b).filter (mentions "WELLPLANS".toList)).length = 1) :
    parentLines (a ++ "WELLPLANS:".toList :: b) = b.map rstrip := by
  have hk : mentions "WELLPLANS".toList "WELLPLANS:".toList = true := by decide +kernel
  have hk2 : rstrip "WELLPLANS:".toList = "WELLPLANS:".toList := by decide +kernel
  rw [List.filter_append, List.filter_cons, if_pos hk, List.length_append, List.length_cons] at h
  have ha : (a.filter (mentions "WELLPLANS".toList)) = [] := List.length_eq_zero_iff.mp (by omega)
  have hb : (b.filter (mentions "WELLPLANS".toList)) = [] := List.length_eq_zero_iff.mp (by omega)
  rw [List.filter_eq_nil_iff] at ha hb
  unfold parentLines
  rw [List.map_append, List.map_cons, parentFrom_skip, hk2, parentFrom, if_pos hk, parentFrom_take]
  · intro x hx
    obtain ⟨y, hy, rfl⟩ := List.mem_map.mp hx
    exact mentions_rstrip (by simpa using hb y hy)
  · intro x hx
    obtain ⟨y, hy, rfl⟩ := List.mem_map.mp hx
    exact mentions_rstrip (by simpa using ha y hy)

/-- Loading a file whose first lines have the units and the targets of `w` and whose plans are
`x :: xs`. -/
theorem load_lines (notes : List Text) {w x : WPlan} {xs : List WPlan} {u : String} {g b : List Text}
    (hu : unitKey w.surface w.depth = some u) (hg : targetLines w.targets = some g)
    (ht : ∀ t ∈ w.targets, t.Fits) (h : ∀ y ∈ x :: xs, y.Fits)
    (hb : plansLines (x :: xs) = some b) (c : Option ℤ) :
    loadText c (("DEPTH ".toList ++ u.toList) :: notes.map (['!', ' '] ++ ·) ++
        ("TARGETS:".toList :: g) ++ ("WELLPLANS:".toList :: b)) =
      some (.ok (lastColor c w.targets,
        (x.finish { RPlan.new (some u.toList) with
          targets := w.targets.map Tgt.back
          flag := .wellplans
          tieOn := true }) :: xs.map (WPlan.finish (RPlan.new (some u.toList))))) := by
  obtain ⟨g', hg', hgr⟩ := read_targets w.targets ht
  rw [hg, Option.some.injEq] at hg'
  subst hg'
  obtain ⟨a, r, e1, e2, e3, e4, e5⟩ := read_first (ws := xs) (h x (by simp)) fun y hy => h y (by simp [hy])
  rw [e2, Option.some.injEq] at hb
  subst hb
  have hu4 : u ∈ depthKeys := by
    unfold unitKey at hu
    have := List.mem_of_head? hu
    simp only [List.mem_map, List.mem_filter] at this
    obtain ⟨r, ⟨hr, _⟩, rfl⟩ := this
    have hall : ∀ r ∈ depthTable, r.1 ∈ depthKeys := by decide +kernel
    exact hall r hr
  have hd : ∀ k ∈ depthKeys, words (rstrip ("DEPTH ".toList ++ k.toList)) =
      ["DEPTH".toList, k.toList] := by decide +kernel
  have hne : "DEPTH".toList ≠ ['!'] := by decide +kernel
  have r1 : readLine c (RPlan.new none) (rstrip ("DEPTH ".toList ++ u.toList)) =
      .ok (some (c, RPlan.new (some u.toList))) := by
    rw [readLine, hd u hu4]
    simp only [hne, if_false, String.ofList_toList, hu4, if_true]
    rfl
  have r2 : ∀ p : RPlan, readLine c p (rstrip "TARGETS:".toList) =
      .ok (some (c, { p with flag := .targets })) := by
    intro p
    have hw : words (rstrip "TARGETS:".toList) = ["TARGETS:".toList] := by decide +kernel
    have n1 : "TARGETS:".toList ≠ ['!'] := by decide +kernel
    have n2 : "TARGETS:".toList ≠ "DEPTH".toList := by decide +kernel
    rw [readLine, hw]
    simp only [n1, n2, if_false, if_true]
  have r3 : ∀ (c : Option ℤ) (p : RPlan), readLine c p (rstrip "WELLPLANS:".toList) =
      .ok (some (c, { p with
        flag := .wellplans
        tieOn := true })) := by
    intro c p
    have hw : words (rstrip "WELLPLANS:".toList) = ["WELLPLANS:".toList] := by decide +kernel
    have n1 : "WELLPLANS:".toList ≠ ['!'] := by decide +kernel
    have n2 : "WELLPLANS:".toList ≠ "DEPTH".toList := by decide +kernel
    have n3 : "WELLPLANS:".toList ≠ "TARGETS:".toList := by decide +kernel
    rw [readLine, hw]
    simp only [n1, n2, n3, if_false, if_true]
  have key : readPlan c (RPlan.new none) ((("DEPTH ".toList ++ u.toList) ::
      notes.map (['!', ' '] ++ ·) ++ ("TARGETS:".toList :: g) ++
        ("WELLPLANS:".toList :: (a ++ r))).map rstrip) =
      .ok (lastColor c w.targets, x.finish { RPlan.new (some u.toList) with
          targets := w.targets.map Tgt.back
          flag := .wellplans
          tieOn := true }, r.map rstrip) := by
    rw [List.map_append, List.map_append, List.map_cons, List.map_cons, List.map_cons,
      List.append_assoc, List.cons_append, readPlan_cons r1, List.cons_append, read_notes,
      readPlan_cons (r2 _), hgr _ _ rfl, readPlan_cons (r3 _ _), e5 _ _ (by simp) (by simp) rfl]
    simp [RPlan.new]
  rw [loadText, readPlans, key]
  simp only [List.map_eq_nil_iff]
  by_cases hb : r = []
  · rw [if_pos hb, e4 hb]; rfl
  · rw [if_neg hb]
    have hws : xs ≠ [] := by
      rintro rfl
      simp only [plansLines, Option.some.injEq] at e1
      exact hb e1.symm
    rw [show (x.finish { RPlan.new (some u.toList) with
          targets := w.targets.map Tgt.back
          flag := .wellplans
          tieOn := true }).units = some u.toList from rfl,
      read_all (some u.toList) (lastColor c w.targets) xs hws (fun y hy => h y (by simp [hy])) _
        (by simp; omega) r e1]
    rfl

/-- `loadText` looks at its lines only after `rstrip`. -/
theorem loadText_rstrip (c : Option ℤ) {f f' : List Text} (h : f.map rstrip = f'.map rstrip) :
    loadText c f = loadText c f' := by
  have hl : f.length = f'.length := by simpa using congrArg List.length h
  unfold loadText
  rw [h, hl]

/-- What the file of a plan with a parent file contains, once loaded. -/
theorem load_with_parent (notes notes' : List Text) {v w : WPlan} {vs ws : List WPlan}
    {pf : List Text} (hv : ∀ y ∈ v :: vs, y.Fits) (hw : ∀ y ∈ w :: ws, y.Fits)
    (ht : ∀ t ∈ w.targets, t.Fits) (hp : exportText notes' (v :: vs) = some pf)
    (h1 : (pf.filter (mentions "WELLPLANS".toList)).length = 1) (c : Option ℤ) :
    ∃ file u, exportWithParent notes (parentLines pf) (w :: ws) = some file ∧
      unitKey w.surface w.depth = some u ∧
      loadText c file = some (.ok (lastColor c w.targets,
        (v.finish { RPlan.new (some u.toList) with
          targets := w.targets.map Tgt.back
          flag := .wellplans
          tieOn := true }) ::
            (vs ++ w :: ws).map (WPlan.finish (RPlan.new (some u.toList))))) := by
  obtain ⟨u, hu⟩ := Option.ne_none_iff_exists'.1 (hw w (by simp)).1.unit
  obtain ⟨g, hg, -⟩ := read_targets w.targets ht
  obtain ⟨a, b, -, e2, -⟩ := read_first (ws := ws) (hw w (by simp)) fun y hy => hw y (by simp [hy])
  rw [exportText] at hp
  split at hp
  · rename_i u' g' b' _ _ hb'
    injection hp with hp
    subst hp
    rw [parentLines_eq h1]
    refine ⟨_, u, by rw [exportWithParent, hu, hg, e2], hu, ?_⟩
    have hall := plansLines_append hb' e2
    rw [List.cons_append] at hall
    rw [← load_lines notes (x := v) (xs := vs ++ w :: ws) hu hg ht ?_ hall c]
    · refine loadText_rstrip c ?_
      simp only [List.map_append, List.map_cons, List.map_map]
      congr 3
      refine List.map_congr_left fun y _ => ?_
      exact rstrip_rstrip y
    · intro y hy
      rcases List.mem_cons.1 hy with rfl | hy
      · exact hv y (by simp)
      · rcases List.mem_append.1 hy with hy | hy
        · exact hv y (by simp [hy])
        · exact hw y hy
  · cases hp

end Welleng.Wbp
