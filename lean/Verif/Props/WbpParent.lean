import Verif.Lemmas.WbpParent
import Verif.Props.WbpText

/-!
C326-C328: plans with a parent file.
-/

namespace Welleng.Props

open Wbp Spec

/-! ### C326: the surface location -/

theorem words_locLine {l : Loc} (h : l.Fits) (hx : |l.x| ≤ 99999999) :
    words (locLine l) = ["L:".toList, fixed 2 l.x, fixed 2 l.y, fixed 2 l.z] := by
  have hx : (fixed 2 l.x).length ≤ 12 :=
    (fixed_length (k := 8) (by norm_num) (by norm_num) (by norm_num; exact hx)).trans
      (by split_ifs <;> norm_num)
  have hy : (fixed 2 l.y).length ≤ 12 :=
    (fixed_length (k := 8) (by norm_num) (by norm_num) (by norm_num; exact h.1)).trans
      (by split_ifs <;> norm_num)
  have hz : (fixed 2 l.z).length ≤ 10 :=
    (fixed_length (k := 6) (by norm_num) (by norm_num) (by norm_num; exact h.2)).trans
      (by split_ifs <;> norm_num)
  have r : ∀ w (s : Text), s.length ≤ w → rjust (w + 1) s = ' ' :: rjust w s := by
    intro w s hs
    rw [rjust, rjust, show w + 1 - s.length = (w - s.length) + 1 by omega, List.replicate_succ,
      List.cons_append]
  have hL : words ['L', ':'] = ["L:".toList] := by decide +kernel
  rw [locLine, r 12 _ hx, r 12 _ hy, r 10 _ hz, words_append_blank, words_append_blank,
    words_append_blank, words_rjust, words_rjust, words_rjust, words_fixed, words_fixed,
    words_fixed, hL]
  rfl

/-- C326: with a numpy that still has `np.float`, the surface location is the first location of the
parent file, as long as no line before it has an `L:` in it. -/
theorem C326_first_location_partial {a b : List Text} {l : Loc} (h : l.Fits)
    (hx : |l.x| ≤ 99999999) (ha : ∀ x ∈ a, ¬ "L:".toList <:+: x) :
    ∃ m, surfaceLocation true (a ++ locLine l :: b) = .ok m ∧ LocNear (some l) (some m) := by
  refine ⟨l.back, ?_, locNear_back⟩
  have h1 : (a ++ locLine l :: b).find? (mentions "L:".toList) = some (locLine l) := by
    rw [List.find?_append, List.find?_eq_none.2, Option.none_or, List.find?_cons_of_pos]
    · unfold mentions
      rw [decide_eq_true_eq]
      exact ⟨[], _, rfl⟩
    · intro x hx
      unfold mentions
      rw [decide_eq_true_eq]
      exact ha x hx
  rw [surfaceLocation, h1]
  simp only [words_locLine h hx, parseFloat_fixed (show 0 < 2 by norm_num)]
  rfl

/-- C326: the parent data of an exported plan are of this kind. -/
example : ∃ pf m, exportText [] [twoTurns] = some pf ∧
    surfaceLocation true (parentLines pf) = .ok m ∧
    LocNear (some ⟨448320, 6742590, 0⟩) (some m) := by
  have h : ((exportText [] [twoTurns]).map fun pf => surfaceLocation true (parentLines pf)) =
      some (.ok ⟨448320, 6742590, 0⟩) := by decide +kernel
  obtain ⟨pf, h1, h2⟩ := Option.map_eq_some_iff.1 h
  exact ⟨pf, _, h1, h2, by norm_num [LocNear, Near]⟩

/-- C326 is false: with a numpy without `np.float` (1.24 and later) no plan can be made with a
parent file, whatever is in it. -/
theorem C326_no_parent (parent : List Text) : ∃ e, surfaceLocation false parent = .error e := by
  unfold surfaceLocation
  split
  · exact ⟨_, rfl⟩
  · split
    · exact ⟨_, rfl⟩
    · exact ⟨_, rfl⟩

/-- C326: nor with one that has it, if the parent is called, say, `WELL: A`. -/
theorem C326_colon_in_name : ∃ pf,
    exportText [] [{ twoTurns with plan := some "WELL: A".toList }] = some pf ∧
    surfaceLocation true (parentLines pf) = .error .valueError := by
  have h : ((exportText [] [{ twoTurns with plan := some "WELL: A".toList }]).map
      fun pf => surfaceLocation true (parentLines pf)) = some (.error .valueError) := by
    decide +kernel
  obtain ⟨pf, h1, h2⟩ := Option.map_eq_some_iff.1 h
  exact ⟨pf, h1, h2⟩

/-! ### C327: the plans of the parent -/

/-- C327: a file written for plans with a parent file has, once loaded, the plans of the parent and
then the new plans, as long as the parent has the word `WELLPLANS` in one line only. -/
theorem C327_parent_first_partial (notes notes' : List Text) {v w : WPlan} {vs ws : List WPlan}
    {pf : List Text} (hv : ∀ y ∈ v :: vs, y.Fits) (hw : ∀ y ∈ w :: ws, y.Fits)
    (ht : ∀ t ∈ w.targets, t.Fits) (hp : exportText notes' (v :: vs) = some pf)
    (h1 : (pf.filter fun x => decide ("WELLPLANS".toList <:+: x)).length = 1) (c : Option ℤ) :
    ∃ file k rs, exportWithParent notes (parentLines pf) (w :: ws) = some file ∧
      loadText c file = some (.ok (k, rs)) ∧ PlansNear ((v :: vs) ++ (w :: ws)) rs := by
  obtain ⟨file, u, e1, -, e3⟩ := load_with_parent notes notes' hv hw ht hp h1 c
  refine ⟨file, _, _, e1, e3, .cons (forall₂_backSteps (hv v (by simp)).2) ?_⟩
  rw [List.forall₂_map_right_iff]
  refine List.forall₂_same.2 ?_
  intro x hx
  rcases List.mem_append.1 hx with hx | hx
  · exact forall₂_backSteps (hv x (by simp [hx])).2
  · exact forall₂_backSteps (hw x hx).2

/-- C327: a parent of two plans and a new plan. -/
example : ∃ pf file k rs, exportText [] [twoTurns, twoTurns] = some pf ∧
    exportWithParent [] (parentLines pf) [twoTurns] = some file ∧
    loadText none file = some (.ok (k, rs)) ∧ PlansNear [twoTurns, twoTurns, twoTurns] rs := by
  have h : ((exportText [] [twoTurns, twoTurns]).map fun pf =>
      (pf.filter fun x => decide ("WELLPLANS".toList <:+: x)).length) = some 1 := by decide +kernel
  obtain ⟨pf, h1, h2⟩ := Option.map_eq_some_iff.1 h
  obtain ⟨file, k, rs, h3, h4, h5⟩ := C327_parent_first_partial [] [] (v := twoTurns)
    (vs := [twoTurns]) (w := twoTurns) (ws := []) (by simpa using twoTurns_fits)
    (by simpa using twoTurns_fits) (by simp [twoTurns]) h1 h2 none
  exact ⟨pf, file, k, rs, h1, h3, h4, h5⟩

/-- C327 is false: the header of a plan of the parent with the word in its name is left out, and its
steps are added to the plan before it. -/
theorem C327_plan_lost : ∃ pf file k r r',
    exportText [] [twoTurns, { twoTurns with plan := some "WELLPLANS B".toList }] = some pf ∧
    exportWithParent [] (parentLines pf) [twoTurns] = some file ∧
    loadText none file = some (.ok (k, [r, r'])) ∧ r.steps.length = 2 * twoTurns.steps.length := by
  have h : ((exportText [] [twoTurns, { twoTurns with plan := some "WELLPLANS B".toList }]).map
      fun pf => (exportWithParent [] (parentLines pf) [twoTurns]).map fun file =>
        (loadText none file).map fun x => match x with
          | .ok (_, [r, _]) => r.steps.length
          | _ => 0) = some (some (some 6)) := by decide +kernel
  obtain ⟨pf, h1, h2⟩ := Option.map_eq_some_iff.1 h
  obtain ⟨file, h3, h4⟩ := Option.map_eq_some_iff.1 h2
  obtain ⟨x, h5, h6⟩ := Option.map_eq_some_iff.1 h4
  split at h6
  · rename_i k r r'
    exact ⟨pf, file, k, r, r', h1, h3, h5, h6⟩
  · cases h6

/-! ### C328: the units of the parent -/

/-- C328: if parent and new plans have the same units, these are the units of every plan loaded. -/
theorem C328_same_units_partial (notes notes' : List Text) {v w : WPlan} {vs ws : List WPlan}
    {pf : List Text} (hv : ∀ y ∈ v :: vs, y.Fits) (hw : ∀ y ∈ w :: ws, y.Fits)
    (ht : ∀ t ∈ w.targets, t.Fits) (hp : exportText notes' (v :: vs) = some pf)
    (h1 : (pf.filter fun x => decide ("WELLPLANS".toList <:+: x)).length = 1) (c : Option ℤ) {s d : U}
    (hu : ∀ x ∈ (v :: vs) ++ (w :: ws), x.surface = some s ∧ x.depth = some d) :
    ∃ file k rs, exportWithParent notes (parentLines pf) (w :: ws) = some file ∧
      loadText c file = some (.ok (k, rs)) ∧ rs.length = vs.length + ws.length + 2 ∧
      ∀ r ∈ rs, unitsRead r = some (s, d) := by
  obtain ⟨file, u, e1, e2, e3⟩ := load_with_parent notes notes' hv hw ht hp h1 c
  obtain ⟨s', d', f1, f2, f3⟩ := unitsOf_unitKey e2
  have := hu w (by simp)
  rw [this.1, Option.some.injEq] at f1
  rw [this.2, Option.some.injEq] at f2
  subst f1 f2
  refine ⟨file, _, _, e1, e3, by simp; omega, ?_⟩
  have key : ∀ (x : WPlan) (p : RPlan), p.units = some u.toList →
      unitsRead (x.finish p) = some (s, d) := by
    intro x p hp
    show p.units.bind _ = _
    rw [hp, Option.bind_some, String.ofList_toList, f3]
  intro r hr
  rcases List.mem_cons.1 hr with rfl | hr
  · exact key _ _ rfl
  · obtain ⟨x, _, rfl⟩ := List.mem_map.1 hr
    exact key _ _ rfl

/-- C328 is false: a parent in feet comes back in metres, with its numbers unchanged. -/
theorem C328_parent_in_feet : ∃ pf file k r r', exportText [] [inFeet] = some pf ∧
    exportWithParent [] (parentLines pf) [twoTurns] = some file ∧
    loadText none file = some (.ok (k, [r, r'])) ∧ unitsRead r = some (.meters, .meters) ∧
    List.Forall₂ StepNear inFeet.steps r.steps := by
  have h : ((exportText [] [inFeet]).map fun pf =>
      (pf.filter (mentions "WELLPLANS".toList)).length) = some 1 := by decide +kernel
  obtain ⟨pf, h1, h2⟩ := Option.map_eq_some_iff.1 h
  obtain ⟨file, u, e1, e2, e3⟩ := load_with_parent [] [] (v := inFeet) (vs := []) (w := twoTurns)
    (ws := []) (by simpa using inFeet_fits) (by simpa using twoTurns_fits) (by simp [twoTurns]) h1 h2
    none
  refine ⟨pf, file, _, _, _, h1, e1, e3, ?_, forall₂_backSteps inFeet_fits.2⟩
  have : u = "2" := by
    have e : unitKey twoTurns.surface twoTurns.depth = some "2" := by decide +kernel
    rw [e, Option.some.injEq] at e2
    exact e2.symm
  subst this
  show unitsOf (String.ofList "2".toList) = _
  decide +kernel

/-- C328: the hypotheses are met. -/
example : ∃ pf file k rs, exportText [] [twoTurns] = some pf ∧
    exportWithParent [] (parentLines pf) [twoTurns] = some file ∧
    loadText none file = some (.ok (k, rs)) ∧ rs.length = 2 ∧
    ∀ r ∈ rs, unitsRead r = some (.meters, .meters) := by
  have h : ((exportText [] [twoTurns]).map fun pf =>
      (pf.filter fun x => decide ("WELLPLANS".toList <:+: x)).length) = some 1 := by decide +kernel
  obtain ⟨pf, h1, h2⟩ := Option.map_eq_some_iff.1 h
  obtain ⟨file, k, rs, h3, h4, h5, h6⟩ := C328_same_units_partial [] [] (v := twoTurns)
    (vs := []) (w := twoTurns) (ws := []) (s := .meters) (d := .meters) (by simpa using twoTurns_fits)
    (by simpa using twoTurns_fits) (by simp [twoTurns]) h1 h2 none (by simp [twoTurns])
  exact ⟨pf, file, k, rs, h1, h3, h4, h5, h6⟩

end Welleng.Props
