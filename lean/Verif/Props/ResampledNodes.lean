import Verif.Props.ResampleTwice
import Verif.Props.Continuity
import Verif.Props.Refine

/-!
C351: nodes interpolated in a survey and in the resampled survey.
-/

namespace Welleng.Props

open Real Welleng Spec Clr Con Rs

/-- The direction interpolated between two stations is that of the arc through them. -/
theorem interp_dir {a b : Station} {γ τ : ℝ → V3} (h : OneArc a.md b.md γ τ) (hab : a.md < b.md)
    (ha : τ a.md = tangent a.inc a.azi) (hb : τ b.md = tangent b.inc b.azi) {s : ℝ} (h1 : a.md ≤ s)
    (h2 : s ≤ b.md) :
    tangent (interpAngles a b (s - a.md)).1 (interpAngles a b (s - a.md)).2 = τ s := by
  have hang : dogleg2 a b = angle (τ a.md) (τ b.md) := by
    rw [ha, hb]; exact getDogleg_eq_arccos ..
  by_cases h0 : dogleg2 a b = 0
  · rw [interpAngles, if_pos h0, ← ha]
    refine (oneArc_straight h hab ?_ h1 h2).symm
    rw [ha, hb]; exact tangent_eq_of_dogleg_zero h0
  · obtain ⟨κ₁, -, hpi, hall⟩ := oneArc_part h hab.le
    obtain ⟨κ, n, hk, -, -, hs⟩ := oneArc_turn h hab.le
    rw [← hall a.md b.md le_rfl hab.le le_rfl] at hpi
    rw [← hang] at hpi hk
    have hd0 : 0 < dogleg2 a b := lt_of_le_of_ne (getDogleg_nonneg ..) (Ne.symm h0)
    have hsin : sin (dogleg2 a b) ≠ 0 := (sin_pos_of_pos_of_lt_pi hd0 hpi).ne'
    have hL : b.md - a.md ≠ 0 := by linarith
    rw [interp_tangent h0 hpi, ← ha, ← hb, hs s h1 h2, hs b.md hab.le le_rfl, hk]
    have e : (s - a.md) * (dogleg2 a b / (b.md - a.md)) = κ * (s - a.md) := by
      rw [← hk]; field_simp
    rw [e, sin_sub]
    ext <;> simp only [V3.add_x, V3.add_y, V3.add_z, V3.smul_x, V3.smul_y, V3.smul_z] <;> field_simp <;> ring

variable {st : List Station} {sx sn : V3} {u : LenUnit} {sv : SurveyG} {xyz : List V3}

/-- Every node between the first and the last station lies on the path of the survey. -/
theorem node_on_path (h : surveyG st sx sn u = .ok (sv, xyz)) {γ τ : ℝ → V3}
    (hw : WellPath (swap sx) (dirs st) γ τ) (f : ℕ → V3) {md : ℝ}
    {first last : Station} (hf : st.head? = some first) (hl : st.getLast? = some last)
    (h0 : first.md ≤ md) (h1 : md ≤ last.md) :
    ∃ node, interpolateMd sv f md = some node ∧ node.vec = τ md ∧ node.pos = γ md - swap sx + sn := by
  have hdir : ∀ x ∈ st, τ x.md = tangent x.inc x.azi := fun x hx =>
    hw.dirs (x.md, tangent x.inc x.azi) (List.mem_map.mpr ⟨x, hx, rfl⟩)
  have harcs : st.IsChain fun a b => a.md < b.md ∧ OneArc a.md b.md γ τ := by
    have := hw.arcs
    rwa [dirs, List.isChain_map] at this
  have hnext : ∀ (i : ℕ) a b, st[i]? = some a → st[i + 1]? = some b →
      a.md < b.md ∧ OneArc a.md b.md γ τ := by
    intro i a b ha hb
    obtain ⟨hi, e2⟩ := List.getElem?_eq_some_iff.mp hb
    obtain ⟨hi', e1⟩ := List.getElem?_eq_some_iff.mp ha
    rw [← e1, ← e2]
    exact List.isChain_iff_getElem.mp harcs i hi
  have hang : ∀ a b : Station, a ∈ st → b ∈ st → a.md < b.md → OneArc a.md b.md γ τ → dogleg2 a b < π := by
    intro a b ha hb hab ho
    obtain ⟨κ, -, hpi, hall⟩ := oneArc_part ho hab.le
    rw [← hall a.md b.md le_rfl hab.le le_rfl, hdir a ha, hdir b hb] at hpi
    have : dogleg2 a b = angle (tangent a.inc a.azi) (tangent b.inc b.azi) := getDogleg_eq_arccos ..
    rwa [this]
  have hsort : st.Pairwise fun a b => a.md < b.md := by
    have ht : IsTrans Station fun a b => a.md < b.md := ⟨fun a b c h h' => lt_trans h h'⟩
    exact List.isChain_iff_pairwise.mp (harcs.imp fun a b h => h.1)
  obtain ⟨i, a, b, p, node, n1, n2, n3, n4, n5, n6, n7, n8⟩ := node_at h hsort
    (fun i a b ha hb => hang a b (List.mem_of_getElem? ha) (List.mem_of_getElem? hb) (hnext i a b ha hb).1
      (hnext i a b ha hb).2) f hf hl h0 h1
  obtain ⟨hab, ho⟩ := hnext i a b n1 n2
  have ta := hdir a (List.mem_of_getElem? n1)
  have tb := hdir b (List.mem_of_getElem? n2)
  have hd := interp_dir ho hab ta tb n4 n5
  refine ⟨node, n6, n7.trans hd, ?_⟩
  obtain ⟨-, hxyz, hnev, -⟩ := surveyG_st h
  have hpos : positions sx st = st.map fun s => swap (γ s.md) := wellPath_positions hw
  rw [hnev, hxyz, hpos, List.map_map, List.getElem?_map, n1] at n3
  simp only [Option.map_some, Option.some.injEq, Function.comp] at n3
  have hstep := oneArc_step ho (p := a) (q := interpStation a b (md - a.md)) le_rfl
    (by simp only [interpStation]; linarith) (by simp only [interpStation]; linarith) ta
    (by simp only [interpStation, add_sub_cancel]; exact hd.symm)
  rw [deltaXyz_eq] at hstep
  simp only [interpStation, add_sub_cancel, add_sub_cancel_left] at hstep
  have hinj : minCurveStep (md - a.md) a.inc a.azi (interpAngles a b (md - a.md)).1
      (interpAngles a b (md - a.md)).2 = γ md - γ a.md := by
    exact congrArg swap hstep
  rw [n8, interpPosNev, hinj, ← n3]
  ext <;> simp [getNev, swap] <;> ring

/-- The resampled survey runs along the path of the survey. -/
theorem resampled_path {c : Cfg} {key : ℝ → ℤ} {step : ℝ} {s l : Station} {rest : List Station}
    (hk : RoundsTo4 key) (hr : Regular c step (s :: l :: rest)) (h : Sv.Header) {p : V3} {γ τ : ℝ → V3}
    (hw : WellPath p (dirs (gridStations h (s :: l :: rest))) γ τ) :
    ∃ out, resample c key .meters (s :: l :: rest) = .ok out ∧ WellPath p (dirs (gridStations h out)) γ τ ∧
      out.IsChain (fun a b => a.md < b.md) ∧ out.head?.map Station.md = some s.md ∧
      ∀ x ∈ s :: l :: rest, x.md ≤ lastMd s.md (l :: rest) → s.md ≤ x.md → x.md ∈ out.map Station.md := by
  obtain ⟨out, e, hd, hch, hhd, hmem⟩ := rows_on_path hk hr (wellPath_reference hw)
  have hback : ∀ v : V3, rotZ (northShift h) (rotZ (-northShift h) v) = v := fun v => by
    have := rotZ_neg_rotZ (-northShift h) v
    rwa [neg_neg] at this
  refine ⟨out, e, ⟨?_, ?_, ?_⟩, hch.imp fun _ _ h => h.1, hhd, fun x hx h1 h2 =>
    (hmem x.md).mpr ⟨h2, h1, Or.inl (List.mem_map.mpr ⟨x, hx, rfl⟩)⟩⟩
  · intro r hr'
    have hs : γ s.md = p :=
      hw.start (s.md, tangent s.inc (Sv.processAziRef h false s.azi).gridRad) (by simp [dirs, gridStations])
    unfold dirs gridStations at hr'
    rw [List.head?_map, List.head?_map] at hr'
    cases ho : out.head? with
    | none => rw [ho] at hr'; simp at hr'
    | some x =>
      rw [ho] at hr' hhd
      simp only [Option.map_some, Option.some.injEq] at hr' hhd
      rw [← hr', ← hs, ← hhd]
  · intro r hr'
    obtain ⟨y, hy, rfl⟩ := List.mem_map.mp hr'
    obtain ⟨x, hx, rfl⟩ := List.mem_map.mp hy
    simp only [gridRad_eq]
    rw [tangent_rot, ← hd x hx, hback]
  · unfold dirs gridStations
    rw [List.map_map, List.isChain_map]
    refine hch.imp fun x y hxy => ⟨hxy.1, ?_⟩
    obtain ⟨-, -, a, b, harc, ha, hb⟩ := hxy
    have := oneArc_rot (northShift h) harc
    simp only [hback] at this
    exact oneArc_within this ha hb

/-- C351: a survey that can be resampled exactly (`Regular`), its azimuths in the reference of the
header.  Interpolating in the resampled survey, at any depth between the first and the last station,
gives the position and the direction that interpolating in the survey itself gives. -/
theorem C351_nodes {c : Cfg} {key : ℝ → ℤ} {step : ℝ} {st : List Station} {first last : Station}
    (hk : RoundsTo4 key) (hr : Regular c step st) (h2 : 2 ≤ st.length)
    (hf : st.head? = some first) (hl : st.getLast? = some last) (h : Sv.Header) (sx sn : V3) :
    ∃ out sv xyz sv' xyz', resample c key .meters st = .ok out ∧
      surveyG (gridStations h st) sx sn .meters = .ok (sv, xyz) ∧
      surveyG (gridStations h out) sx sn .meters = .ok (sv', xyz') ∧
      ∀ (f f' : ℕ → V3) (md : ℝ), first.md ≤ md → md ≤ last.md →
        ∃ node node', interpolateMd sv f md = some node ∧ interpolateMd sv' f' md = some node' ∧
          node'.vec = node.vec ∧ node'.pos = node.pos := by
  match st, h2, hf, hl with
  | s :: l :: rest, _, hf, hl =>
    obtain rfl : s = first := by simpa using hf
    obtain ⟨γ, τ, hw⟩ : ∃ γ τ, WellPath (swap sx) (dirs (gridStations h (s :: l :: rest))) γ τ := by
      refine wellPath_exists _ ?_ ?_ _
      · intro x hx
        obtain ⟨y, -, rfl⟩ := List.mem_map.mp hx
        exact tangent_unit _ _
      · unfold dirs gridStations
        rw [List.map_map, List.isChain_map]
        refine hr.intervals.imp fun a b hab => ⟨hab.1, ?_⟩
        have := hab.2.1
        simp only [gridRad_eq, tangent_rot, Function.comp]
        unfold angle at this ⊢
        rwa [rotZ_dot]
    obtain ⟨out, e, hw', hch, hhd, hmem⟩ := resampled_path hk hr h hw
    have hlt : s.md < l.md := (List.isChain_cons_cons.mp hr.intervals).1.1
    have hlast : l.md ≤ lastMd s.md (l :: rest) :=
      lastMd_ge rfl ((List.isChain_cons_cons.mp hr.intervals).2.imp fun _ _ h => h.1)
    have hll := lastMd_getLast hl
    have hin : last.md ∈ out.map Station.md :=
      hmem last (List.mem_of_getLast? hl) hll.ge (by linarith)
    have hsort : out.Pairwise fun a b => a.md < b.md := by
      have ht : IsTrans Station fun a b => a.md < b.md := ⟨fun a b c h h' => lt_trans h h'⟩
      exact List.isChain_iff_pairwise.mp hch
    match out, e, hw', hsort, hhd, hin with
    | [], _, _, _, hhd, _ => simp at hhd
    | [x], _, _, _, hhd, hin =>
      simp only [List.head?_cons, Option.map_some, Option.some.injEq] at hhd
      simp only [List.map_cons, List.map_nil, List.mem_singleton] at hin
      linarith
    | x :: y :: t, e, hw', hsort, hhd, hin =>
      simp only [List.head?_cons, Option.map_some, Option.some.injEq] at hhd
      obtain ⟨⟨sv, xyz⟩, e1⟩ := surveyG_ok (st := gridStations h (s :: l :: rest)) sx sn
        (u := .meters) (by simp) (by simp [gridStations])
      obtain ⟨⟨sv', xyz'⟩, e2⟩ := surveyG_ok (st := gridStations h (x :: y :: t)) sx sn
        (u := .meters) (by simp) (by simp [gridStations])
      refine ⟨_, sv, xyz, sv', xyz', e, e1, e2, fun f f' md h1 h2 => ?_⟩
      obtain ⟨z, hz⟩ : ∃ z, (x :: y :: t).getLast? = some z := ⟨_, List.getLast?_eq_some_getLast (by simp)⟩
      have hlz : last.md ≤ z.md := by
        obtain ⟨q, hq, hq'⟩ := List.mem_map.mp hin
        obtain ⟨pre, hpre⟩ := List.getLast?_eq_some_iff.mp hz
        rw [hpre] at hq hsort
        rcases List.mem_append.mp hq with hq | hq
        · have := (List.pairwise_append.mp hsort).2.2 q hq z (by simp); linarith
        · rw [List.mem_singleton.mp hq] at hq'; exact hq'.ge
      obtain ⟨n1, a1, a2, a3⟩ := node_on_path e1 hw f (md := md)
        (first := { s with azi := (Sv.processAziRef h false s.azi).gridRad })
        (last := { last with azi := (Sv.processAziRef h false last.azi).gridRad })
        (by simp [gridStations]) (by unfold gridStations; rw [List.getLast?_map, hl]; rfl) h1 h2
      obtain ⟨n2, b1, b2, b3⟩ := node_on_path e2 hw' f' (md := md)
        (first := { x with azi := (Sv.processAziRef h false x.azi).gridRad })
        (last := { z with azi := (Sv.processAziRef h false z.azi).gridRad })
        (by simp [gridStations]) (by unfold gridStations; rw [List.getLast?_map, hz]; rfl)
        (by dsimp only; linarith) (by dsimp only; linarith)
      exact ⟨n1, n2, a1, b1, b2.trans a2.symm, b3.trans a3.symm⟩

/-- Non-vacuity: the node halfway down the curve of a well kicking off from the vertical. -/
example (h : Sv.Header) : ∃ out sv xyz sv' xyz' node node',
    resample (defaults 30) round4 .meters kickOff = .ok out ∧
    surveyG (gridStations h kickOff) 0 0 .meters = .ok (sv, xyz) ∧
    surveyG (gridStations h out) 0 0 .meters = .ok (sv', xyz') ∧
    interpolateMd sv (fun _ => 0) 80 = some node ∧ interpolateMd sv' (fun _ => 0) 80 = some node' ∧
    node'.vec = node.vec ∧ node'.pos = node.pos := by
  obtain ⟨out, sv, xyz, sv', xyz', h1, h2, h3, h4⟩ := C351_nodes (first := ⟨0, 0, 0⟩) (last := ⟨130, π / 2, 0⟩)
    round4_rounds kickOff_regular (by simp [kickOff]) rfl rfl h 0 0
  obtain ⟨n, n', h5⟩ := h4 (fun _ => 0) (fun _ => 0) 80 (by norm_num) (by norm_num)
  exact ⟨out, sv, xyz, sv', xyz', n, n', h1, h2, h3, h5⟩

end Welleng.Props
