import Verif.Model.MeshClearance
import Verif.Spec.MeshClearance
import Verif.Props.ClosestPoint
import Verif.Props.Bearing

/-!
Properties C240-C244: the results of a mesh clearance calculation.
-/

namespace Welleng.Props

open Real Welleng Welleng.Spec Clr

variable {st : List Station} {sx sn : V3} {u : LenUnit} {off : SurveyG} {xyz : List V3}

/-! ### Slices -/

theorem cut_none {α : Type*} (i k : ℕ) (l : List α) : (cut i none l)[k]? = l[i + k]? := by
  simp [cut]

theorem cut_two {α : Type*} (i k : ℕ) (l : List α) (hk : k < 2) :
    (cut i (some (i + 2)) l)[k]? = l[i + k]? := by
  simp [cut, List.getElem?_drop, List.getElem?_take, hk]

/-! ### The search of one interval -/

/-- What a search of interval `j` gives. -/
structure FoundAt (st : List Station) (nev : List V3) (pos : V3) (ε : ℝ) (j : ℕ) (r : Search) :
    Prop where
  onWell : OnWell st nev j r.x r.nev
  val : r.val = V3.norm (r.nev - pos)
  least : ∀ x q, OnWell st nev j x q → r.val ≤ V3.norm (q - pos) + ε

theorem closestNev_found {opt : Minimiser} {ε : ℝ} (hopt : FindsMinimum ε opt) {sv sl : SurveyG}
    (f pos : V3) {j : ℕ} {a b : Station} {p : V3} (ha : sv.st[j]? = some a)
    (hb : sv.st[j + 1]? = some b) (hp : sv.nev[j]? = some p) (h0 : sl.st[0]? = sv.st[j]?)
    (h1 : sl.st[1]? = sv.st[j + 1]?) (hn : sl.nev[0]? = sv.nev[j]?) (hlt : a.md < b.md) :
    ∃ r, closestNev opt sl f pos = some r ∧ FoundAt sv.st sv.nev pos ε j r := by
  rw [ha] at h0; rw [hb] at h1; rw [hp] at hn
  have hi : ∀ x, ∃ nd, interpolateSurvey sl f x 0 = some nd ∧ nd.pos = interpPosNev p a b x :=
    fun x => by
      obtain ⟨nd, h, -, -, h3, -⟩ := interpolateSurvey_some (sv := sl) f x h0 h1 hn
      exact ⟨nd, h, h3⟩
  have hf : ∀ x, meshFun sl f pos x = V3.norm (interpPosNev p a b x - pos) := fun x => by
    obtain ⟨nd, h, h3⟩ := hi x
    rw [meshFun, h]
    simp only [h3]
  obtain ⟨o1, o2, o3⟩ := hopt (meshFun sl f pos) (b.md - a.md) (by linarith)
    (fun y => by rw [hf]; exact V3.norm_nonneg _)
  obtain ⟨nd, h, h3⟩ := hi (opt (meshFun sl f pos) (b.md - a.md))
  refine ⟨⟨nd.pos, opt (meshFun sl f pos) (b.md - a.md),
    meshFun sl f pos (opt (meshFun sl f pos) (b.md - a.md))⟩, by
    simp only [closestNev, h0, h1, h], ⟨a, b, p, ha, hb, hp, o1, o2, h3⟩, ?_, ?_⟩
  · rw [hf, h3]
  · rintro x q ⟨a', b', p', ha', hb', hp', x0, x1, rfl⟩
    rw [ha] at ha'; rw [hb] at hb'; rw [hp] at hp'
    cases ha'; cases hb'; cases hp'
    rw [← hf x]
    exact o3 x x0 x1

/-- A station is in the interval below it, if there is one. -/
theorem station_below {sv : SurveyG} (hg : Gentle sv.st) {i : ℕ} {p : V3}
    (hp : sv.nev[i]? = some p) (hl : i + 1 < sv.st.length) : OnWell sv.st sv.nev i 0 p :=
  have hlt := List.pairwise_iff_getElem.mp hg.1 i (i + 1) (by omega) hl (by omega)
  ⟨_, _, p, List.getElem?_eq_getElem (by omega), List.getElem?_eq_getElem hl, hp, le_rfl,
    by linarith, (interpPosNev_zero ..).symm⟩

/-- A station is in the interval above it. -/
theorem station_above (h : surveyG st sx sn u = .ok (off, xyz)) (hg : Gentle st) {k : ℕ} {p : V3}
    (hp : off.nev[k + 1]? = some p) (hl : k + 1 < st.length) :
    ∃ x, OnWell st off.nev k x p := by
  obtain ⟨hst, hxyz, hnev, -⟩ := surveyG_st h
  have hnl : off.nev.length = st.length := by rw [hnev, hxyz]; simp [positions_length]
  have ha : st[k]? = some (st[k]'(by omega)) := List.getElem?_eq_getElem (by omega)
  have hb : st[k + 1]? = some (st[k + 1]'(by omega)) := List.getElem?_eq_getElem (by omega)
  have hq : off.nev[k]? = some (off.nev[k]'(by omega)) := List.getElem?_eq_getElem (by omega)
  have hlt := List.pairwise_iff_getElem.mp hg.1 k (k + 1) (by omega) (by omega) (by omega)
  have := nev_step h ha hb hq
  rw [hp] at this
  injection this with this
  exact ⟨_, _, _, _, ha, hb, hq, by linarith, le_rfl,
    by rw [this, interpPosNev_end _ hlt (hg.2 k _ _ ha hb)]⟩

/-- What the searches of the offset well give. -/
structure FoundOff (st : List Station) (nev : List V3) (pos : V3) (ε : ℝ) (i : ℕ) (o : Search)
    (md : ℝ) : Prop where
  atDepth : ∃ j, (i = j ∨ i = j + 1) ∧ AtDepth st nev j md o.nev
  val : o.val = V3.norm (o.nev - pos)
  station : ∀ q ∈ nev, o.val ≤ V3.norm (q - pos) + ε
  least : ∀ j x q, i = j ∨ i = j + 1 → OnWell st nev j x q → o.val ≤ V3.norm (q - pos) + ε

theorem offsetPoint_found (h : surveyG st sx sn u = .ok (off, xyz)) (hg : Gentle st)
    {opt : Minimiser} {ε : ℝ} (hopt : FindsMinimum ε opt) (f : ℕ → V3) (pos : V3) {i : ℕ}
    (hi : NearestIndex off.nev pos i) :
    ∃ o md, offsetPoint opt off f i pos = some (o, md) ∧ FoundOff st off.nev pos ε i o md := by
  obtain ⟨hst, hxyz, hnev, hlen⟩ := surveyG_st h
  have hnl : off.nev.length = st.length := by rw [hnev, hxyz]; simp [positions_length]
  obtain ⟨p, hp, hnear⟩ := hi
  have hil : i < st.length := by rw [← hnl]; exact (List.getElem?_eq_some_iff.mp hp).1
  have search : ∀ j, j + 1 < st.length → ∃ r, closestNev opt (sliceG off j none) (f j) pos = some r ∧
      FoundAt st off.nev pos ε j r := fun j hj => by
    have ha : off.st[j]? = some (st[j]'(by omega)) := by
      rw [hst]; exact List.getElem?_eq_getElem (by omega)
    have hb : off.st[j + 1]? = some (st[j + 1]'(by omega)) := by
      rw [hst]; exact List.getElem?_eq_getElem (by omega)
    have hq : off.nev[j]? = some (off.nev[j]'(by omega)) := List.getElem?_eq_getElem (by omega)
    have := closestNev_found hopt (sl := sliceG off j none) (f j) pos ha hb hq
      (by simp [sliceG, cut_none]) (by simp [sliceG, cut_none]) (by simp [sliceG, cut_none])
      (List.pairwise_iff_getElem.mp hg.1 j (j + 1) (by omega) (by omega) (by omega))
    rwa [hst] at this
  have key : ∀ r j a md, FoundAt st off.nev pos ε j r → st[j]? = some a → md = a.md + r.x →
      (i = j ∨ i = j + 1) → (∀ k, i = k ∨ i = k + 1 → k + 1 < st.length →
        ∀ x q, OnWell st off.nev k x q → r.val ≤ V3.norm (q - pos) + ε) →
      FoundOff st off.nev pos ε i r md := by
    intro r j a md hF ha hmd hj hall
    have hll : ∀ k x q, i = k ∨ i = k + 1 → OnWell st off.nev k x q →
        r.val ≤ V3.norm (q - pos) + ε := fun k x q hk hq => by
      obtain ⟨_, _, _, _, hb, _⟩ := id hq
      exact hall k hk (List.getElem?_eq_some_iff.mp hb).1 x q hq
    refine ⟨⟨j, hj, a, ha, by rw [hmd, add_sub_cancel_left]; exact hF.onWell⟩, hF.val, ?_, hll⟩
    intro q hq
    have hcp : r.val ≤ V3.norm (p - pos) + ε := by
      rcases Nat.lt_or_ge (i + 1) st.length with hl | hl
      · exact hll i 0 p (Or.inl rfl) (hst ▸ station_below (sv := off) (hst ▸ hg) hp (hst ▸ hl))
      · obtain ⟨k, rfl⟩ : ∃ k, i = k + 1 := ⟨i - 1, by omega⟩
        obtain ⟨x, hx⟩ := station_above h hg hp hil
        exact hll k x p (Or.inr rfl) hx
    linarith [hnear q hq]
  have hsi : off.st[i]? = some (st[i]'hil) := by rw [hst]; exact List.getElem?_eq_getElem hil
  have hsp : off.st[i - 1]? = some (st[i - 1]'(by omega)) := by
    rw [hst]; exact List.getElem?_eq_getElem (by omega)
  have hsi' := hsi; have hsp' := hsp
  rw [hst] at hsi' hsp'
  unfold offsetPoint
  simp only [hst, hsi', hsp']
  rcases Nat.eq_zero_or_pos i with h0 | h0
  · obtain ⟨r, e, F⟩ := search i (by omega)
    rw [if_neg (by omega), if_pos (by omega), e]
    refine ⟨r, _, rfl, key r i _ _ F hsi' rfl (Or.inl rfl) fun k hk _ x q hq => ?_⟩
    obtain rfl : k = i := by omega
    exact F.least x q hq
  · obtain ⟨r0, e0, F0⟩ := search (i - 1) (by omega)
    rw [if_pos h0, e0]
    by_cases hl : i < st.length - 1
    · obtain ⟨r1, e1, F1⟩ := search i (by omega)
      rw [if_pos hl, e1]
      by_cases hlt : r0.val < r1.val
      · simp only [if_pos hlt]
        refine ⟨r0, _, rfl, key r0 (i - 1) _ _ F0 hsp' rfl (Or.inr (by omega)) fun k hk _ x q hq => ?_⟩
        rcases hk with rfl | hk
        · exact hlt.le.trans (F1.least x q hq)
        · obtain rfl : k = i - 1 := by omega
          exact F0.least x q hq
      · simp only [if_neg hlt]
        refine ⟨r1, _, rfl, key r1 i _ _ F1 hsi' rfl (Or.inl rfl) fun k hk _ x q hq => ?_⟩
        rcases hk with rfl | hk
        · exact F1.least x q hq
        · obtain rfl : k = i - 1 := by omega
          exact (not_lt.1 hlt).trans (F0.least x q hq)
    · rw [if_neg hl]
      refine ⟨r0, _, rfl, key r0 (i - 1) _ _ F0 hsp' rfl (Or.inr (by omega)) fun k hk hkl x q hq => ?_⟩
      obtain rfl : k = i - 1 := by omega
      exact F0.least x q hq

/-! ### Rows -/

theorem meshRows_some {row : ℕ → Option MeshRow} {l : List ℕ} (h : ∀ i ∈ l, ∃ r, row i = some r) :
    ∃ rs, meshRows row l = some rs ∧ rs.length = l.length ∧
      ∀ (k : ℕ) i r, l[k]? = some i → rs[k]? = some r → row i = some r := by
  induction l with
  | nil => exact ⟨[], rfl, rfl, by simp⟩
  | cons i l ih =>
    obtain ⟨rs, e, hn, hr⟩ := ih fun j hj => h j (List.mem_cons_of_mem _ hj)
    obtain ⟨r, er⟩ := h i List.mem_cons_self
    refine ⟨r :: rs, by simp only [meshRows, er, e], by simp [hn], fun k j q hk hq => ?_⟩
    cases k with
    | zero => simp only [List.getElem?_cons_zero, Option.some.injEq] at hk hq; rw [← hk, ← hq, er]
    | succ k => exact hr k j q (by simpa using hk) (by simpa using hq)

section
variable {rst ost : List Station} {rsx rsn osx osn : V3} {ru ou : LenUnit} {ref : SurveyG}
  {rxyz oxyz : List V3} {opt : Minimiser} {ε : ℝ} {tree : V3 → ℕ} {Rr Ro : List ℝ}

/-- The hypotheses of the results: two wells as the constructor makes them, with increasing depths
and no half turn, radii for all stations, a search with tolerance `ε` and a nearest-neighbour
query. -/
structure MeshCase (rst ost : List Station) (ref off : SurveyG) (opt : Minimiser) (ε : ℝ)
    (tree : V3 → ℕ) (Rr Ro : List ℝ) : Prop where
  refMade : ∃ x n u l, surveyG rst x n u = .ok (ref, l)
  offMade : ∃ x n u l, surveyG ost x n u = .ok (off, l)
  gentleRef : Gentle rst
  gentleOff : Gentle ost
  search : FindsMinimum ε opt
  nearest : ∀ p, NearestIndex off.nev p (tree p)
  radiiRef : Rr.length = rst.length
  radiiOff : Ro.length = ost.length

/-- All that is known of one row. -/
theorem meshRow_some (hc : MeshCase rst ost ref off opt ε tree Rr Ro) (s : MeshSettings)
    (fr fo : ℕ → V3) (c : Contact) {i : ℕ} (hi : i + 1 < rst.length) :
    ∃ (r o : Search) (row : MeshRow) (rr ro : ℝ),
      meshRow opt tree s ref off fr fo Rr Ro c i = some row ∧
      FoundAt rst ref.nev c.refPt ε i r ∧
      FoundOff ost off.nev c.offPt ε (tree c.offPt) o row.offMd ∧
      Rr[i]? = some rr ∧ Ro[tree c.offPt]? = some ro ∧ AtDepth rst ref.nev i row.refMd r.nev ∧
      row.offIndex = tree c.offPt ∧ row.refPos = r.nev ∧ row.offPos = o.nev ∧
      row.cc = V3.norm (o.nev - r.nev) ∧
      row.bearing = bearingDeg (atan2 (o.nev - r.nev).y (o.nev - r.nev).x) ∧
      row.refPcr = (r.val - s.sigmaPa / 2 - rr) / s.sigma ∧
      row.offPcr = (o.val - s.sigmaPa / 2 - ro - s.Sm) / s.sigma ∧
      row.calcHole = rr + ro ∧
      row.sf = meshSfReported c.hit row.cc c.distance (V3.norm (c.offPt - c.refPt)) := by
  obtain ⟨x, n, u, l, href⟩ := hc.refMade
  obtain ⟨x', n', u', l', hoff⟩ := hc.offMade
  obtain ⟨hst, hxyz, hnev, -⟩ := surveyG_st href
  have hnl : ref.nev.length = rst.length := by rw [hnev, hxyz]; simp [positions_length]
  have ha : ref.st[i]? = some (rst[i]'(by omega)) := by
    rw [hst]; exact List.getElem?_eq_getElem (by omega)
  have hb : ref.st[i + 1]? = some (rst[i + 1]'(by omega)) := by
    rw [hst]; exact List.getElem?_eq_getElem (by omega)
  have hq : ref.nev[i]? = some (ref.nev[i]'(by omega)) := List.getElem?_eq_getElem (by omega)
  obtain ⟨r, er, Fr⟩ := closestNev_found hc.search (sl := sliceG ref i (some (i + 2))) (fr i) c.refPt
    ha hb hq (by simp [sliceG, cut_two]) (by simp [sliceG, cut_two]) (by simp [sliceG, cut_two])
    (List.pairwise_iff_getElem.mp hc.gentleRef.1 i (i + 1) (by omega) (by omega) (by omega))
  rw [hst] at Fr
  obtain ⟨o, md, eo, Fo⟩ := offsetPoint_found hoff hc.gentleOff hc.search fo c.offPt (hc.nearest c.offPt)
  have hrr : Rr[i]? = some (Rr[i]'(by rw [hc.radiiRef]; omega)) :=
    List.getElem?_eq_getElem (by rw [hc.radiiRef]; omega)
  have hol : tree c.offPt < Ro.length := by
    obtain ⟨hst', hxyz', hnev', -⟩ := surveyG_st hoff
    have hnl' : off.nev.length = ost.length := by rw [hnev', hxyz']; simp [positions_length]
    obtain ⟨_, hp, -⟩ := hc.nearest c.offPt
    rw [hc.radiiOff, ← hnl']
    exact (List.getElem?_eq_some_iff.mp hp).1
  have hro : Ro[tree c.offPt]? = some (Ro[tree c.offPt]'hol) := List.getElem?_eq_getElem hol
  refine ⟨r, o, _, _, _, by simp only [meshRow, er, ha, eo, hrr, hro]; rfl, Fr, Fo, hrr, hro,
    ⟨_, by rw [← hst]; exact ha, by simpa using Fr.onWell⟩, rfl, rfl, rfl, rfl, rfl, rfl, rfl, rfl,
    rfl⟩

/-- **C240** There is one result for each interval of the reference well, in order; its reference
point is the point of the well at its measured depth, which is in that interval, and up to the
tolerance of the search no point of the interval is nearer to the point where the meshes are
closest. -/
theorem C240_rows (hc : MeshCase rst ost ref off opt ε tree Rr Ro) (s : MeshSettings)
    (fr fo : ℕ → V3) (contact : ℕ → Contact) :
    ∃ rows, processWell opt tree s ref off fr fo Rr Ro contact = some rows ∧
      rows.length = rst.length - 1 ∧
      ∀ (i : ℕ) row, rows[i]? = some row → AtDepth rst ref.nev i row.refMd row.refPos ∧
        ∀ x q, OnWell rst ref.nev i x q →
          V3.norm (row.refPos - (contact i).refPt) ≤ V3.norm (q - (contact i).refPt) + ε := by
  obtain ⟨x, n, u, l, href⟩ := hc.refMade
  have hst := (surveyG_st href).1
  obtain ⟨rows, e, hl, hr⟩ := meshRows_some (l := List.range (ref.st.length - 1))
    (row := fun i => meshRow opt tree s ref off fr fo Rr Ro (contact i) i) fun i hi => by
      obtain ⟨_, _, row, _, _, h, -⟩ := meshRow_some hc s fr fo (contact i) (i := i) (by
        rw [List.mem_range, hst] at hi; omega)
      exact ⟨row, h⟩
  rw [List.length_range, hst] at hl
  refine ⟨rows, e, hl, fun i row hrow => ?_⟩
  have hi : i < rst.length - 1 := hl ▸ (List.getElem?_eq_some_iff.mp hrow).1
  have h1 := hr i i row (by rw [List.getElem?_range (by rw [hst]; exact hi)]) hrow
  obtain ⟨r, o, row', _, _, h2, F, -, -, -, hd, -, hp, -⟩ :=
    meshRow_some hc s fr fo (contact i) (i := i) (by omega)
  rw [h2] at h1
  cases h1
  rw [hp]
  exact ⟨hd, fun x q hq => F.val ▸ F.least x q hq⟩

/-- Each result comes from a row. -/
theorem processWell_row (hc : MeshCase rst ost ref off opt ε tree Rr Ro) {s : MeshSettings}
    {fr fo : ℕ → V3} {contact : ℕ → Contact} {rows : List MeshRow}
    (h : processWell opt tree s ref off fr fo Rr Ro contact = some rows) {i : ℕ} {row : MeshRow}
    (hr : rows[i]? = some row) : i + 1 < rst.length ∧
      meshRow opt tree s ref off fr fo Rr Ro (contact i) i = some row := by
  obtain ⟨x, n, u, l, href⟩ := hc.refMade
  have hst := (surveyG_st href).1
  obtain ⟨rows', e, hl, hr'⟩ := meshRows_some (l := List.range (ref.st.length - 1))
    (row := fun i => meshRow opt tree s ref off fr fo Rr Ro (contact i) i) fun i hi => by
      obtain ⟨_, _, row, _, _, h, -⟩ := meshRow_some hc s fr fo (contact i) (i := i) (by
        rw [List.mem_range, hst] at hi; omega)
      exact ⟨row, h⟩
  unfold processWell at h
  rw [h] at e
  cases e
  rw [List.length_range, hst] at hl
  have hi : i < rst.length - 1 := hl ▸ (List.getElem?_eq_some_iff.mp hr).1
  exact ⟨by omega, hr' i i row (by rw [List.getElem?_range (by rw [hst]; exact hi)]) hr⟩

/-- **C241** The offset point of a result is the point of the offset well at the measured depth
reported, in an interval that ends at the station reported, which is the nearest one to the point
of the offset mesh closest to the reference mesh; up to the tolerance of the search no station, and
no point of the intervals that end at that station, is nearer to that point. -/
theorem C241_offset (hc : MeshCase rst ost ref off opt ε tree Rr Ro) {s : MeshSettings}
    {fr fo : ℕ → V3} {contact : ℕ → Contact} {rows : List MeshRow}
    (h : processWell opt tree s ref off fr fo Rr Ro contact = some rows) {i : ℕ} {row : MeshRow}
    (hr : rows[i]? = some row) :
    (∃ j, (row.offIndex = j ∨ row.offIndex = j + 1) ∧ AtDepth ost off.nev j row.offMd row.offPos) ∧
    NearestIndex off.nev (contact i).offPt row.offIndex ∧
    (∀ q ∈ off.nev, V3.norm (row.offPos - (contact i).offPt) ≤ V3.norm (q - (contact i).offPt) + ε) ∧
    ∀ j x q, row.offIndex = j ∨ row.offIndex = j + 1 → OnWell ost off.nev j x q →
      V3.norm (row.offPos - (contact i).offPt) ≤ V3.norm (q - (contact i).offPt) + ε := by
  obtain ⟨hi, e⟩ := processWell_row hc h hr
  obtain ⟨r, o, row', _, _, h2, -, F, -, -, -, hx, -, hp, -⟩ :=
    meshRow_some hc s fr fo (contact i) hi
  rw [h2] at e
  cases e
  rw [hp, hx, ← F.val]
  exact ⟨F.atDepth, hc.nearest _, F.station, F.least⟩

/-- **C242** The distance of a result is the distance between its two points; its bearing is between
0 and 360 and is the direction from the reference point to the offset point; its hole size is the
sum of the radii at the station above the reference point and at the nearest offset station. -/
theorem C242_distance (hc : MeshCase rst ost ref off opt ε tree Rr Ro) {s : MeshSettings}
    {fr fo : ℕ → V3} {contact : ℕ → Contact} {rows : List MeshRow}
    (h : processWell opt tree s ref off fr fo Rr Ro contact = some rows) {i : ℕ} {row : MeshRow}
    (hr : rows[i]? = some row) :
    row.cc = V3.norm (row.offPos - row.refPos) ∧ 0 ≤ row.bearing ∧ row.bearing < 360 ∧
    (∃ d, 0 ≤ d ∧ row.offPos.x = row.refPos.x + d * cos (row.bearing * π / 180) ∧
      row.offPos.y = row.refPos.y + d * sin (row.bearing * π / 180)) ∧
    ∃ rr ro, Rr[i]? = some rr ∧ Ro[row.offIndex]? = some ro ∧ row.calcHole = rr + ro := by
  obtain ⟨hi, e⟩ := processWell_row hc h hr
  obtain ⟨r, o, row', rr, ro, h2, -, -, hrr, hro, -, hx, hp, hp', hcc, hb, -, -, hh, -⟩ :=
    meshRow_some hc s fr fo (contact i) hi
  rw [h2] at e
  cases e
  rw [hp, hp', hx, hb]
  refine ⟨hcc, (bearingDeg_range _).1, (bearingDeg_range _).2, ?_, rr, ro, hrr, hro, hh⟩
  obtain ⟨d, h0, h1, h3⟩ := atan2_polar (o.nev - r.nev).x (o.nev - r.nev).y
  obtain ⟨m, hm⟩ := pmod_eq_add (degrees (atan2 (o.nev - r.nev).y (o.nev - r.nev).x) + 360) 360
  have ht : bearingDeg (atan2 (o.nev - r.nev).y (o.nev - r.nev).x) * π / 180 =
      atan2 (o.nev - r.nev).y (o.nev - r.nev).x + ((m + 1 : ℤ) : ℝ) * (2 * π) := by
    rw [bearingDeg, hm, degrees]
    have := pi_pos.ne'
    push_cast
    field_simp
    ring
  refine ⟨d, h0, ?_, ?_⟩
  · rw [ht, cos_add_int_mul_two_pi, ← h1]
    simp
  · rw [ht, sin_add_int_mul_two_pi, ← h3]
    simp

/-! ### C243, C244 -/

/-- C243 (partial): with the default project-ahead uncertainty, the edge of a mesh is `sigma`
standard deviations, the hole radius, the surface margin (for the offset well) and half of the
project-ahead uncertainty away from the hole. -/
theorem C243_default_partial {s : MeshSettings} (hs : s.sigmaPa = 0.5) (sd radius : ℝ) :
    meshEdge s false sd radius = s.sigma * sd + radius + s.sigmaPa / 2 ∧
    meshEdge s true sd radius = s.sigma * sd + radius + s.Sm + s.sigmaPa / 2 := by
  simp only [meshEdge, Mesh.semiAxis, hs]
  constructor <;> norm_num <;> ring

/-- C243 is false for every other value: the meshes do not depend on the project-ahead uncertainty
given. -/
theorem C243_ignored {s : MeshSettings} (hs : s.sigmaPa ≠ 0.5) (sd radius : ℝ) (b : Bool) :
    (∀ pa, meshEdge { s with sigmaPa := pa } b sd radius = meshEdge s b sd radius) ∧
    meshEdge s false sd radius ≠ s.sigma * sd + radius + s.sigmaPa / 2 ∧
    meshEdge s true sd radius ≠ s.sigma * sd + radius + s.Sm + s.sigmaPa / 2 := by
  refine ⟨fun pa => rfl, fun h => hs ?_, fun h => hs ?_⟩ <;>
    simp [meshEdge, Mesh.semiAxis] at h <;> linarith

/-- C244 (partial): where the meshes are closest at their edges, and the radii are those used, the
results give the standard deviations from which the edges were made, with the default project-ahead
uncertainty. -/
theorem C244_default_partial (hc : MeshCase rst ost ref off opt ε tree Rr Ro) {s : MeshSettings}
    {fr fo : ℕ → V3} {contact : ℕ → Contact} {rows : List MeshRow}
    (h : processWell opt tree s ref off fr fo Rr Ro contact = some rows) {i : ℕ} {row : MeshRow}
    (hr : rows[i]? = some row) (hs : s.sigma ≠ 0) (hpa : s.sigmaPa = 0.5) {rr ro sd sd' : ℝ}
    (hrr : Rr[i]? = some rr) (hro : Ro[row.offIndex]? = some ro)
    (he : V3.norm (row.refPos - (contact i).refPt) = meshEdge s false sd rr)
    (he' : V3.norm (row.offPos - (contact i).offPt) = meshEdge s true sd' ro) :
    row.refPcr = sd ∧ row.offPcr = sd' := by
  obtain ⟨hi, e⟩ := processWell_row hc h hr
  obtain ⟨r, o, row', rr', ro', h2, Fr, Fo, hrr', hro', -, hx, hp, hp', hcc, hb, p1, p2, hh, -⟩ :=
    meshRow_some hc s fr fo (contact i) hi
  rw [h2] at e
  cases e
  rw [hp, ← Fr.val] at he
  rw [hp', ← Fo.val] at he'
  rw [hrr] at hrr'
  rw [hx] at hro
  rw [hro] at hro'
  cases hrr'; cases hro'
  rw [p1, p2, he, he', (C243_default_partial hpa sd rr).1, (C243_default_partial hpa sd' ro).2]
  constructor <;> field_simp <;> ring

/-- C244 is false for every other project-ahead uncertainty: both values are wrong by the same
amount. -/
theorem C244_wrong (hc : MeshCase rst ost ref off opt ε tree Rr Ro) {s : MeshSettings}
    {fr fo : ℕ → V3} {contact : ℕ → Contact} {rows : List MeshRow}
    (h : processWell opt tree s ref off fr fo Rr Ro contact = some rows) {i : ℕ} {row : MeshRow}
    (hr : rows[i]? = some row) (hs : s.sigma ≠ 0) (hpa : s.sigmaPa ≠ 0.5) {rr ro sd sd' : ℝ}
    (hrr : Rr[i]? = some rr) (hro : Ro[row.offIndex]? = some ro)
    (he : V3.norm (row.refPos - (contact i).refPt) = meshEdge s false sd rr)
    (he' : V3.norm (row.offPos - (contact i).offPt) = meshEdge s true sd' ro) :
    row.refPcr = sd + (0.5 - s.sigmaPa) / (2 * s.sigma) ∧ row.refPcr ≠ sd ∧
    row.offPcr = sd' + (0.5 - s.sigmaPa) / (2 * s.sigma) ∧ row.offPcr ≠ sd' := by
  obtain ⟨hi, e⟩ := processWell_row hc h hr
  obtain ⟨r, o, row', rr', ro', h2, Fr, Fo, hrr', hro', -, hx, hp, hp', hcc, hb, p1, p2, hh, -⟩ :=
    meshRow_some hc s fr fo (contact i) hi
  rw [h2] at e
  cases e
  rw [hp, ← Fr.val] at he
  rw [hp', ← Fo.val] at he'
  rw [hrr] at hrr'
  rw [hx] at hro
  rw [hro] at hro'
  cases hrr'; cases hro'
  have q1 : row.refPcr = sd + (0.5 - s.sigmaPa) / (2 * s.sigma) := by
    rw [p1, he]
    simp only [meshEdge, Mesh.semiAxis, Bool.false_eq_true, if_false]
    field_simp
    ring
  have q2 : row.offPcr = sd' + (0.5 - s.sigmaPa) / (2 * s.sigma) := by
    rw [p2, he']
    simp only [meshEdge, Mesh.semiAxis, if_true]
    field_simp
    ring
  have hne : (0.5 - s.sigmaPa) / (2 * s.sigma) ≠ 0 :=
    div_ne_zero (sub_ne_zero.2 (Ne.symm hpa)) (mul_ne_zero two_ne_zero hs)
  exact ⟨q1, by rw [q1]; simpa using hne, q2, by rw [q2]; simpa using hne⟩

end

/-! ### A case -/

theorem nearest_nearestIndex {sv : SurveyG} (h : sv.nev ≠ []) (p : V3) :
    NearestIndex sv.nev p (nearest sv p) := by
  obtain ⟨v, hv, hmin⟩ := argmin_spec (l := sv.nev.map fun q => V3.norm (q - p)) (by simpa using h)
  change (sv.nev.map fun q => V3.norm (q - p))[nearest sv p]? = some v at hv
  rw [List.getElem?_map] at hv
  cases hq : sv.nev[nearest sv p]? with
  | none => rw [hq] at hv; cases hv
  | some q =>
    rw [hq] at hv
    injection hv with hv
    exact ⟨q, hq, fun r hr => (le_of_eq hv).trans (hmin _ (List.mem_map.2 ⟨r, hr, rfl⟩))⟩

/-- A vertical hole and a quarter turn below it. -/
noncomputable def turnStations : List Station :=
  [⟨0, 0, 0⟩, ⟨100, 0, 0⟩, ⟨100 + 5 * π, π / 2, 0⟩]

theorem turn_gentle : Gentle turnStations := by
  have := pi_pos
  refine ⟨?_, ?_⟩
  · simp only [turnStations, List.pairwise_cons, List.mem_cons, List.not_mem_nil, or_false,
      forall_eq_or_imp, forall_eq, List.Pairwise.nil, and_true, false_imp_iff, implies_true]
    refine ⟨⟨by norm_num, by positivity⟩, by linarith⟩
  · intro i a b ha hb
    have e0 : dogleg2 ⟨0, 0, 0⟩ ⟨100, 0, 0⟩ < π := by
      rw [dogleg2_same_azi le_rfl (by linarith [pi_pos])]; linarith [pi_pos]
    have e1 : dogleg2 ⟨100, 0, 0⟩ ⟨100 + 5 * π, π / 2, 0⟩ < π := by
      rw [dogleg2_same_azi (by positivity) (by linarith [pi_pos])]; linarith [pi_pos]
    match i with
    | 0 => simp [turnStations] at ha hb; rw [← ha, ← hb]; exact e0
    | 1 => simp [turnStations] at ha hb; rw [← ha, ← hb]; exact e1
    | k + 2 => simp [turnStations] at hb

/-- Two such wells, 20 m apart. -/
theorem meshCase_exists : ∃ ref off opt tree, MeshCase turnStations turnStations ref off opt 0.001 tree
    [0.1, 0.1, 0.1] [0.2, 0.2, 0.2] ∧ (off.nev[0]? = some ⟨20, 0, 0⟩) := by
  obtain ⟨opt, ho⟩ := findsMinimum_exists (ε := 0.001) (by norm_num)
  cases hr : surveyG turnStations 0 0 .meters with
  | error e => simp [surveyG, minCurve, turnStations] at hr
  | ok r =>
    cases hf : surveyG turnStations 0 ⟨20, 0, 0⟩ .meters with
    | error e => simp [surveyG, minCurve, turnStations] at hf
    | ok o =>
      obtain ⟨ref, l⟩ := r
      obtain ⟨off, l'⟩ := o
      obtain ⟨-, hx, hn, -⟩ := surveyG_st hf
      have hne : off.nev ≠ [] := by
        rw [hn, hx]
        simp [turnStations, positions]
      refine ⟨ref, off, opt, nearest off, ⟨⟨_, _, _, _, hr⟩, ⟨_, _, _, _, hf⟩, turn_gentle,
        turn_gentle, ho, fun p => nearest_nearestIndex hne p, rfl, rfl⟩, ?_⟩
      rw [hn, hx]
      simp [turnStations, positions, getNev, swap]
      ext <;> simp

/-- Non-vacuous: two results for two such wells, with the values of C240-C242 and, with the
standard deviations that fit, of C244. -/
example (contact : ℕ → Contact) : ∃ ref off opt tree rows,
    processWell opt tree ⟨2.445, 2, 0.3⟩ ref off (fun _ => 0) (fun _ => 0) [0.1, 0.1, 0.1]
      [0.2, 0.2, 0.2] contact = some rows ∧ rows.length = 2 ∧
    ∀ i row, rows[i]? = some row → row.bearing < 360 ∧ ∃ sd, row.refPcr ≠ sd ∧
      V3.norm (row.refPos - (contact i).refPt) = meshEdge ⟨2.445, 2, 0.3⟩ false sd 0.1 := by
  obtain ⟨ref, off, opt, tree, hc, -⟩ := meshCase_exists
  obtain ⟨rows, e, hl, -⟩ := C240_rows hc ⟨2.445, 2, 0.3⟩ (fun _ => 0) (fun _ => 0) contact
  refine ⟨ref, off, opt, tree, rows, e, hl, fun i row hr => ?_⟩
  obtain ⟨-, -, hb, -, rr, ro, hrr, hro, -⟩ := C242_distance hc e hr
  have hrr' : rr = 0.1 := by
    match i with
    | 0 | 1 | 2 => simpa using hrr.symm
    | k + 3 => simp at hrr
  subst hrr'
  have h1 : V3.norm (row.refPos - (contact i).refPt) = meshEdge ⟨2.445, 2, 0.3⟩ false
      ((V3.norm (row.refPos - (contact i).refPt) - 0.1 - 0.25) / 2.445) 0.1 := by
    simp [meshEdge, Mesh.semiAxis]; ring
  have h2 : V3.norm (row.offPos - (contact i).offPt) = meshEdge ⟨2.445, 2, 0.3⟩ true
      ((V3.norm (row.offPos - (contact i).offPt) - ro - 0.3 - 0.25) / 2.445) ro := by
    simp [meshEdge, Mesh.semiAxis]; ring
  exact ⟨hb, _, (C244_wrong hc e hr (by norm_num) (by norm_num) hrr hro h1 h2).2.1, h1⟩

end Welleng.Props
