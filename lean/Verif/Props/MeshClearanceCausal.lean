import Verif.Props.MeshClearance
import Verif.Props.InterpolateCausal

/-! C406: mesh clearances of a reference well that is drilled on (`/repo/welleng/clearance.py`
956-1062). -/

namespace Welleng.Props

open Real Welleng Clr

theorem cut_prefix {α : Type} {a b : List α} (h : a <+: b) {i j : ℕ} (hj : j ≤ a.length) :
    cut i (some j) b = cut i (some j) a := by
  obtain ⟨t, rfl⟩ := h
  unfold cut
  dsimp only
  rw [List.take_append_of_le_length hj]

/-- A slice within the shorter survey is the same slice of the longer one. -/
theorem sliceG_prefix {sv sv' : SurveyG} (hs : sv.st <+: sv'.st) (hn : sv.nev <+: sv'.nev)
    (hl : sv.nev.length = sv.st.length) (hc : CovsBegin sv sv') {i j : ℕ} (hj : j ≤ sv.st.length) :
    sliceG sv' i (some j) = sliceG sv i (some j) := by
  unfold sliceG
  rw [cut_prefix hs hj, cut_prefix hn (by omega)]
  rcases hc with ⟨c1, c2⟩ | ⟨c, c', c1, c2, hp, hcl⟩
  · rw [c1, c2]
  · rw [c1, c2]
    simp only [Option.map_some]
    rw [cut_prefix hp (by omega)]

theorem meshRows_append (row row' : ℕ → Option MeshRow) (k : List ℕ) : ∀ l : List ℕ,
    (∀ i ∈ l, row' i = row i) → ∀ rows, meshRows row l = some rows →
      meshRows row' (l ++ k) = (meshRows row' k).map (rows ++ ·)
  | [], _, rows, h => by
    simp only [meshRows, Option.some.injEq] at h
    subst h
    simp
  | i :: l, hr, rows, h => by
    unfold meshRows at h
    split at h
    · rename_i r rs e1 e2
      simp only [Option.some.injEq] at h
      subst h
      rw [List.cons_append, meshRows, hr i (by simp), e1,
        meshRows_append row row' k l (fun j hj => hr j (by simp [hj])) rs e2]
      cases meshRows row' k <;> rfl
    · cases h

/-- **C406** Drilling the reference well on does not change the mesh clearances above: when the
results of a reference well and of a continuation of it both exist, those of the first are the
beginning of those of the second.  (The meshes of the intervals above are the same, so the
collision library finds the same there.) -/
theorem C406_drilled_on (opt : Minimiser) (tree : V3 → ℕ) (s : MeshSettings) {ref ref' : SurveyG}
    (off : SurveyG) (xyzR xyzO : ℕ → V3) (Rr more Ro : List ℝ) (contact : ℕ → Contact)
    (hs : ref.st <+: ref'.st) (hn : ref.nev <+: ref'.nev) (hl : ref.nev.length = ref.st.length)
    (hc : CovsBegin ref ref') (hr : Rr.length = ref.st.length) {rows : List MeshRow}
    (h : processWell opt tree s ref off xyzR xyzO Rr Ro contact = some rows) :
    processWell opt tree s ref' off xyzR xyzO (Rr ++ more) Ro contact = none ∨
      ∃ new, processWell opt tree s ref' off xyzR xyzO (Rr ++ more) Ro contact
        = some (rows ++ new) := by
  unfold processWell at h ⊢
  have hll := hs.length_le
  rw [show ref'.st.length - 1 = (ref.st.length - 1)
    + ((ref'.st.length - 1) - (ref.st.length - 1)) by omega, List.range_add,
    meshRows_append _ _ _ _ ?_ rows h]
  · cases meshRows _ _ with
    | none => exact .inl rfl
    | some new => exact .inr ⟨new, rfl⟩
  · intro i hi
    rw [List.mem_range] at hi
    have g : ref.st[i]? = some (ref.st[i]'(by omega)) := List.getElem?_eq_getElem _
    unfold meshRow
    dsimp only
    rw [sliceG_prefix hs hn hl hc (show i + 2 ≤ ref.st.length by omega),
      prefix_getElem?_some hs g, g, List.getElem?_append_left (by omega)]

/-- **C406** In particular for two surveys made of stations. -/
theorem C406_surveys {st moreSt : List Station} {sx sn : V3} {u : LenUnit} {ref ref' : SurveyG}
    {xyz xyz' : List V3} (h : surveyG st sx sn u = .ok (ref, xyz))
    (h' : surveyG (st ++ moreSt) sx sn u = .ok (ref', xyz')) (opt : Minimiser) (tree : V3 → ℕ)
    (s : MeshSettings) (off : SurveyG) (xyzR xyzO : ℕ → V3) (Rr more Ro : List ℝ)
    (contact : ℕ → Contact) (hr : Rr.length = st.length) {rows rows' : List MeshRow}
    (e : processWell opt tree s ref off xyzR xyzO Rr Ro contact = some rows)
    (e' : processWell opt tree s ref' off xyzR xyzO (Rr ++ more) Ro contact = some rows') :
    rows <+: rows' := by
  obtain ⟨a1, a2, a3, -⟩ := surveyG_st h
  have hlen : ref.nev.length = ref.st.length := by
    rw [a3, List.length_map, a2, positions_length, a1]
  rcases C406_drilled_on opt tree s off xyzR xyzO Rr more Ro contact (surveyG_drilled_on h h').1
    (surveyG_drilled_on h h').2 hlen (.inl ⟨surveyG_cov h, surveyG_cov h'⟩) (by rw [hr, a1]) e with
    hno | ⟨new, hnew⟩
  · rw [hno] at e'; cases e'
  · rw [hnew] at e'; cases e'; exact ⟨new, rfl⟩

/-- Non-vacuity: two wells with a bend, and the reference well with a further station. -/
example (contact : ℕ → Contact) : ∃ ref ref' off opt tree rows,
    processWell opt tree ⟨2.445, 2, 0.3⟩ ref off (fun _ => 0) (fun _ => 0) [0.1, 0.1, 0.1]
      [0.2, 0.2, 0.2] contact = some rows ∧ rows.length = 2 ∧
    ref.st <+: ref'.st ∧ ref.nev <+: ref'.nev ∧ ref.nev.length = ref.st.length ∧
    CovsBegin ref ref' ∧ ref.st.length = 3 ∧ ref'.st.length = 4 := by
  obtain ⟨ref, off, opt, tree, hc, -⟩ := meshCase_exists
  obtain ⟨rows, e, hl, -⟩ := C240_rows hc ⟨2.445, 2, 0.3⟩ (fun _ => 0) (fun _ => 0) contact
  obtain ⟨x, n, u, l, h⟩ := hc.refMade
  obtain ⟨a1, a2, a3, -⟩ := surveyG_st h
  have h3 : ref.st.length = 3 := by rw [a1]; rfl
  refine ⟨ref, ⟨ref.st ++ [⟨1000, 0, 0⟩], ref.nev ++ [0], none⟩, off, opt, tree, rows, e, hl,
    List.prefix_append _ _, List.prefix_append _ _, ?_, .inl ⟨surveyG_cov h, rfl⟩, h3, by simp [h3]⟩
  rw [a3, List.length_map, a2, positions_length, a1]

end Welleng.Props
