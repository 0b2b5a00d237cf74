import Verif.Lemmas.Bisect
import Verif.Props.ClosestPoint
import Verif.Props.Clearance

/-!
Properties C160-C164: the minima inserted into the reference well of a clearance calculation,
and the header shared by surveys.
-/

namespace Welleng.Props

open Real Welleng Spec Clr

/-! ### Helpers -/

theorem getDogleg_congr {i1 a1 i2 a2 j1 b1 j2 b2 : ℝ} (h1 : tangent i1 a1 = tangent j1 b1)
    (h2 : tangent i2 a2 = tangent j2 b2) : getDogleg i1 a1 i2 a2 = getDogleg j1 b1 j2 b2 := by
  rw [getDogleg_eq_arccos, getDogleg_eq_arccos, h1, h2]

theorem minCurveStep_congr {L i1 a1 i2 a2 j1 b1 j2 b2 : ℝ} (h1 : tangent i1 a1 = tangent j1 b1)
    (h2 : tangent i2 a2 = tangent j2 b2) :
    minCurveStep L i1 a1 i2 a2 = minCurveStep L j1 b1 j2 b2 := by
  unfold minCurveStep
  rw [minCurveStepRf_eq, minCurveStepRf_eq, getDogleg_congr h1 h2, h1, h2]

theorem tangent_getAngles_nev {v : V3} (h : v.IsUnit) :
    tangent (getAngles v true).1 (getAngles v true).2 = v := by
  rw [getAngles_nev_of_unit h, tangent_getAnglesXyz]
  simp only [V3.IsUnit, V3.dot] at *
  linarith

/-- The parts of an arc turn less than the whole. -/
theorem interp_dogleg_lt {s1 s2 : Station} (hL : s1.md < s2.md) (hpi : dogleg2 s1 s2 < π)
    {x : ℝ} (h0 : 0 ≤ x) (h1 : x ≤ s2.md - s1.md) {i a : ℝ}
    (ht : tangent i a = tangent (interpAngles s1 s2 x).1 (interpAngles s1 s2 x).2) :
    getDogleg s1.inc s1.azi i a < π ∧ getDogleg i a s2.inc s2.azi < π := by
  by_cases hd : dogleg2 s1 s2 = 0
  · have e : tangent i a = tangent s1.inc s1.azi := by
      rw [ht, interpAngles, if_pos hd]
    have e2 := tangent_eq_of_dogleg_zero hd
    have key : getDogleg s1.inc s1.azi s2.inc s2.azi = 0 := hd
    constructor
    · rw [getDogleg_congr rfl (e.trans e2), key]; exact pi_pos
    · rw [getDogleg_congr e rfl, key]; exact pi_pos
  · have hdp : 0 < dogleg2 s1 s2 := lt_of_le_of_ne (getDogleg_nonneg ..) (Ne.symm hd)
    have hsin : 0 < sin (dogleg2 s1 s2) := sin_pos_of_pos_of_lt_pi hdp hpi
    have hLp : 0 < s2.md - s1.md := by linarith
    have hI := interp_tangent (x := x) hd hpi
    have hcos : V3.dot (tangent s1.inc s1.azi) (tangent s2.inc s2.azi) = cos (dogleg2 s1 s2) :=
      (cos_getDogleg ..).symm
    set d := dogleg2 s1 s2 with hdd
    set y := x * (d / (s2.md - s1.md)) with hy
    have y0 : 0 ≤ y := by positivity
    have y1 : y ≤ d := by
      rw [hy, ← mul_div_assoc, div_le_iff₀ hLp]
      nlinarith
    have hs2 := sin_sq_add_cos_sq d
    have c1 : V3.dot (tangent s1.inc s1.azi) (tangent i a) = cos y := by
      rw [ht, hI, V3.dot_add_right, V3.dot_smul_right, V3.dot_smul_right, hcos, tangent_unit,
        sin_sub]
      field_simp
      ring
    have c2 : V3.dot (tangent i a) (tangent s2.inc s2.azi) = cos (d - y) := by
      rw [ht, hI, V3.dot_add_left, V3.dot_smul_left, V3.dot_smul_left, hcos, tangent_unit,
        sin_sub, cos_sub]
      field_simp
      linear_combination -sin y * hs2
    constructor
    · rw [getDogleg_eq_arccos, c1, arccos_cos y0 (by linarith)]; linarith
    · rw [getDogleg_eq_arccos, c2, arccos_cos (by linarith) (by linarith)]; linarith

theorem positions_insert (p : V3) (l : List Station) {i : ℕ} {s1 s2 m : Station} {q : V3}
    (h1 : l[i]? = some s1) (h2 : l[i + 1]? = some s2) (hq : (positions p l)[i]? = some q)
    (hsum : deltaXyz s1 m + deltaXyz m s2 = deltaXyz s1 s2) :
    positions p (insertAt (i + 1) m l)
      = insertAt (i + 1) (q + deltaXyz s1 m) (positions p l) := by
  induction l generalizing p i with
  | nil => simp at h1
  | cons a t ih =>
    cases t with
    | nil => simp at h2
    | cons b t =>
      cases i with
      | zero =>
        simp only [List.getElem?_cons_zero, Option.some.injEq, List.getElem?_cons_succ,
          zero_add, positions_cons2] at h1 h2 hq
        subst h1; subst h2; subst hq
        simp only [insertAt, zero_add, List.take_succ_cons, List.take_zero, List.drop_succ_cons,
          List.drop_zero, List.cons_append, List.nil_append, positions_cons2]
        rw [add_assoc, hsum]
      | succ i =>
        have e : insertAt (i + 1 + 1) m (a :: b :: t) = a :: insertAt (i + 1) m (b :: t) := rfl
        have e' : insertAt (i + 1) m (b :: t) = b :: insertAt i m t := rfl
        rw [positions_cons2] at hq ⊢
        rw [e, e', positions_cons2, ← e']
        have := ih (p + deltaXyz a b) (i := i) (by simpa using h1) (by simpa using h2)
          (by simpa using hq)
        rw [this]
        rfl

theorem insertAt_map {α β : Type*} (g : α → β) (i : ℕ) (a : α) (l : List α) :
    (insertAt i a l).map g = insertAt i (g a) (l.map g) := by
  simp [insertAt, List.map_take, List.map_drop]

theorem insertAt_zip {α β : Type*} (i : ℕ) (a : α) (b : β) {l : List α} {l' : List β}
    (h : l.length = l'.length) :
    (insertAt i a l).zip (insertAt i b l') = insertAt i (a, b) (l.zip l') := by
  unfold insertAt
  rw [List.zip_append (by simp [h]), List.zip_cons_cons]
  congr 1
  · simp only [List.zip, List.take_zipWith]
  · simp only [List.zip, List.drop_zipWith]

theorem insertAt_sublist {α : Type*} (i : ℕ) (a : α) (l : List α) :
    l.Sublist (insertAt i a l) := by
  conv_lhs => rw [← List.take_append_drop i l]
  exact (List.Sublist.refl _).append (List.sublist_cons_self _ _)

theorem insertAt_perm {α : Type*} (i : ℕ) (a : α) (l : List α) :
    (insertAt i a l).Perm (a :: l) := by
  unfold insertAt
  refine List.perm_middle.trans ?_
  rw [List.take_append_drop]

/-- The insertion point to the right of a value strictly between two entries. -/
theorem searchsortedRight_eq {l : List ℝ} (hs : l.Pairwise (· < ·)) {i : ℕ} {a b v : ℝ}
    (ha : l[i]? = some a) (hb : l[i + 1]? = some b) (h1 : a ≤ v) (h2 : v < b) :
    Tvd.searchsortedRight l v = i + 1 := by
  have hs' := List.pairwise_iff_getElem.mp hs
  obtain ⟨t0, t1, t2⟩ := Tvd.searchsortedRight_spec l v
  obtain ⟨la, rfl⟩ := List.getElem?_eq_some_iff.mp ha
  obtain ⟨lb, rfl⟩ := List.getElem?_eq_some_iff.mp hb
  generalize Tvd.searchsortedRight l v = k at t0 t1 t2 ⊢
  rcases lt_trichotomy k (i + 1) with h | h | h
  · have hl : k < l.length := by omega
    have := t2 _ (List.getElem?_eq_getElem hl)
    rcases Nat.lt_or_ge k i with hi | hi
    · have := hs' _ _ hl la hi; linarith
    · have : k = i := by omega
      subst this
      linarith
  · exact h
  · have := t1 _ (by omega) (List.getElem?_eq_getElem (by omega))
    rcases (show i + 1 ≤ k - 1 by omega).lt_or_eq with hi | hi
    · have := hs' _ _ lb (by omega) hi; linarith
    · simp only [← hi] at this; linarith

theorem insertAt_sorted {l : List ℝ} (hs : l.Pairwise (· < ·)) {i : ℕ} {a b v : ℝ}
    (ha : l[i]? = some a) (hb : l[i + 1]? = some b) (h1 : a < v) (h2 : v < b) :
    (insertAt (i + 1) v l).Pairwise (· < ·) := by
  have hs' := List.pairwise_iff_getElem.mp hs
  obtain ⟨la, rfl⟩ := List.getElem?_eq_some_iff.mp ha
  obtain ⟨lb, rfl⟩ := List.getElem?_eq_some_iff.mp hb
  have up : ∀ x ∈ l.take (i + 1), x < v := by
    intro x hx
    obtain ⟨k, hk, rfl⟩ := List.mem_iff_getElem.1 hx
    rw [List.getElem_take]
    rw [List.length_take] at hk
    rcases Nat.lt_or_ge k i with h | h
    · have := hs' k i (by omega) la h; linarith
    · have : k = i := by omega
      simp only [this]; exact h1
  have dn : ∀ x ∈ l.drop (i + 1), v < x := by
    intro x hx
    obtain ⟨k, hk, rfl⟩ := List.mem_iff_getElem.1 hx
    rw [List.getElem_drop]
    rcases Nat.eq_zero_or_pos k with h | h
    · simp only [h, add_zero]; exact h2
    · have := hs' (i + 1) (i + 1 + k) lb (by simp at hk; omega) (by omega); linarith
  unfold insertAt
  rw [List.pairwise_append]
  refine ⟨hs.sublist (List.take_sublist ..), ?_, ?_⟩
  · rw [List.pairwise_cons]
    exact ⟨dn, hs.sublist (List.drop_sublist ..)⟩
  · intro x hx y hy
    rcases List.mem_cons.1 hy with rfl | hy
    · exact up x hx
    · exact (up x hx).trans (dn y hy)

theorem surveyG_ok {st : List Station} (sx sn : V3) {u : LenUnit} (hu : u ≠ .other)
    (hl : 2 ≤ st.length) : ∃ r, surveyG st sx sn u = .ok r := by
  match st, hl with
  | a :: b :: t, _ => cases u <;> first | exact ⟨_, rfl⟩ | exact absurd rfl hu

/-! ## C160 -/

variable {u : LenUnit} {sx sn : V3} {rows : List RRow}

/-- The depths increase and no two consecutive stations point in opposite directions. -/
structure GoodRef (rows : List RRow) : Prop where
  sorted : (rows.map fun r => r.st.md).Pairwise (· < ·)
  turn : ∀ (i : ℕ) a b, rows[i]? = some a → rows[i + 1]? = some b → dogleg2 a.st b.st < π

/-- C160, one minimum: a depth strictly inside the well that is not a station is inserted
between the two stations around it, marked as interpolated, with the hole radius of the station
below and the direction of the well there; its position is the point of the well at that depth
and all other positions stay. -/
theorem C160_step (hu : u ≠ .other) (hg : GoodRef rows) {first last : RRow} {md : ℝ}
    (hf : rows.head? = some first) (hl : rows.getLast? = some last)
    (h0 : first.st.md < md) (h1 : md < last.st.md) (hn : ∀ r ∈ rows, r.st.md ≠ md) :
    ∃ i a b new q, rows[i]? = some a ∧ rows[i + 1]? = some b ∧ a.st.md < md ∧ md < b.st.md ∧
      refineStep (some "meters") u sx sn rows md = .ok (insertAt (i + 1) new rows) ∧
      new.st.md = md ∧ new.interpolated = true ∧ new.radius = b.radius ∧ new.cov = 0 ∧
      tangent new.st.inc new.st.azi = tangent (interpAngles a.st b.st (md - a.st.md)).1
        (interpAngles a.st b.st (md - a.st.md)).2 ∧
      OnWell (rows.map RRow.st) ((positions sx (rows.map RRow.st)).map (getNev · sx sn)) i
        (md - a.st.md) (getNev q sx sn) ∧
      positions sx ((insertAt (i + 1) new rows).map RRow.st)
        = insertAt (i + 1) q (positions sx (rows.map RRow.st)) := by
  have hlen : 2 ≤ (rows.map RRow.st).length := by
    match rows, hf, hl with
    | [a], hf, hl =>
      simp only [List.head?_cons, List.getLast?_singleton, Option.some.injEq] at hf hl
      rw [← hf] at h0; rw [← hl] at h1; linarith
    | a :: b :: t, _, _ => simp
  obtain ⟨⟨sv, xyz⟩, hG⟩ := surveyG_ok (st := rows.map RRow.st) sx sn hu hlen
  obtain ⟨hst, hxyz, hnev, -⟩ := surveyG_st hG
  obtain ⟨i, s1, s2, p1, node, e1, e2, e3, b1, b2, hI, n1, n2, n3, -⟩ :=
    C18_bracket hG (fun j => xyz.getD j 0) (md := md) (first := first.st) (last := last.st)
      (by rw [List.head?_map, hf]; rfl) (by rw [List.getLast?_map, hl]; rfl) h0 h1.le
  rw [List.getElem?_map] at e1 e2
  cases ea : rows[i]? with
  | none => rw [ea] at e1; cases e1
  | some a =>
  cases eb : rows[i + 1]? with
  | none => rw [eb] at e2; cases e2
  | some b =>
  rw [ea] at e1; rw [eb] at e2
  injection e1 with e1; injection e2 with e2
  subst e1; subst e2
  have b2' : md < b.st.md := lt_of_le_of_ne b2 (Ne.symm (hn b (List.mem_of_getElem? eb)))
  have hk : Tvd.searchsortedRight (rows.map fun r => r.st.md) md = i + 1 :=
    searchsortedRight_eq hg.sorted (a := a.st.md) (b := b.st.md) (by rw [List.getElem?_map, ea]; rfl)
      (by rw [List.getElem?_map, eb]; rfl) b1.le b2'
  have hpi := hg.turn i a b ea eb
  have hL : a.st.md < b.st.md := b1.trans b2'
  have hx0 : 0 ≤ md - a.st.md := by linarith
  have hx1 : md - a.st.md ≤ b.st.md - a.st.md := by linarith
  set ang := getAngles node.vec true with hang
  have ht : tangent ang.1 ang.2 = tangent (interpAngles a.st b.st (md - a.st.md)).1
      (interpAngles a.st b.st (md - a.st.md)).2 := by
    rw [hang, tangent_getAngles_nev (by rw [n2]; exact tangent_unit ..), n2]
  have ea' : (rows.map RRow.st)[i]? = some a.st := by rw [List.getElem?_map, ea]; rfl
  have eb' : (rows.map RRow.st)[i + 1]? = some b.st := by rw [List.getElem?_map, eb]; rfl
  obtain ⟨q0, hq0⟩ : ∃ q0, (positions sx (rows.map RRow.st))[i]? = some q0 :=
    ⟨_, List.getElem?_eq_getElem (by
      rw [positions_length]; exact (List.getElem?_eq_some_iff.mp ea').1)⟩
  let new : RRow := ⟨⟨node.md, ang.1, ang.2⟩, nodeCov, true, b.radius⟩
  have d1 : deltaXyz a.st new.st = swap (minCurveStep (md - a.st.md) a.st.inc a.st.azi
      (interpAngles a.st b.st (md - a.st.md)).1 (interpAngles a.st b.st (md - a.st.md)).2) := by
    rw [deltaXyz_eq]
    show swap (minCurveStep (node.md - a.st.md) a.st.inc a.st.azi ang.1 ang.2) = _
    rw [n1, minCurveStep_congr rfl ht]
  have d2 : deltaXyz new.st b.st = swap (minCurveStep (b.st.md - a.st.md - (md - a.st.md))
      (interpAngles a.st b.st (md - a.st.md)).1 (interpAngles a.st b.st (md - a.st.md)).2
      b.st.inc b.st.azi) := by
    rw [deltaXyz_eq]
    show swap (minCurveStep (b.st.md - node.md) ang.1 ang.2 b.st.inc b.st.azi) = _
    rw [n1, minCurveStep_congr ht rfl]
    congr 2; ring
  refine ⟨i, a, b, new, q0 + deltaXyz a.st new.st, ea, eb, b1, b2', ?_, n1, rfl, rfl, rfl, ht,
    ?_, ?_⟩
  · unfold refineStep
    rw [hG]
    simp only [hk, hI, eb, if_true]
    rfl
  · refine ⟨_, _, _, ea', eb', by rw [List.getElem?_map, hq0]; rfl, hx0, hx1, ?_⟩
    unfold interpPosNev
    rw [d1]
    ext <;> simp [getNev, swap] <;> ring
  · rw [insertAt_map]
    refine positions_insert sx _ ea' eb' hq0 ?_
    rw [d1, d2, ← swap_add, interp_split hL hpi hx0 hx1]
    rfl

/-- The refined reference is again one that can be refined. -/
theorem goodRef_insert (hg : GoodRef rows) {i : ℕ} {a b new : RRow} {md : ℝ}
    (ea : rows[i]? = some a) (eb : rows[i + 1]? = some b) (h1 : a.st.md < md)
    (h2 : md < b.st.md) (hm : new.st.md = md)
    (ht : tangent new.st.inc new.st.azi = tangent (interpAngles a.st b.st (md - a.st.md)).1
      (interpAngles a.st b.st (md - a.st.md)).2) : GoodRef (insertAt (i + 1) new rows) := by
  have hla := (List.getElem?_eq_some_iff.mp ea).1
  have hlb := (List.getElem?_eq_some_iff.mp eb).1
  have hpi := hg.turn i a b ea eb
  obtain ⟨t1, t2⟩ := interp_dogleg_lt (h1.trans h2) hpi (by linarith) (by linarith) ht
  constructor
  · rw [insertAt_map, hm]
    exact insertAt_sorted hg.sorted (a := a.st.md) (b := b.st.md)
      (by rw [List.getElem?_map, ea]; rfl) (by rw [List.getElem?_map, eb]; rfl) h1 h2
  · intro k c d hc hd
    have lo : ∀ j, j < i + 1 → (insertAt (i + 1) new rows)[j]? = rows[j]? := by
      intro j hj
      unfold insertAt
      rw [List.getElem?_append_left (by rw [List.length_take]; omega), List.getElem?_take_of_lt hj]
    have mid : (insertAt (i + 1) new rows)[i + 1]? = some new := by
      unfold insertAt
      rw [List.getElem?_append_right (by rw [List.length_take]; omega), List.length_take,
        min_eq_left (by omega)]
      simp
    have hi : ∀ j, i + 1 ≤ j → (insertAt (i + 1) new rows)[j + 1]? = rows[j]? := by
      intro j hj
      unfold insertAt
      rw [List.getElem?_append_right (by rw [List.length_take]; omega), List.length_take,
        min_eq_left (by omega), show j + 1 - (i + 1) = (j - (i + 1)) + 1 by omega,
        List.getElem?_cons_succ, List.getElem?_drop]
      congr 1; omega
    rcases lt_trichotomy k i with hk | hk | hk
    · rw [lo k (by omega)] at hc
      rw [lo (k + 1) (by omega)] at hd
      exact hg.turn k c d hc hd
    · subst hk
      rw [lo k (by omega), ea] at hc
      rw [mid] at hd
      cases hc; cases hd
      exact t1
    · rcases Nat.lt_or_ge (i + 1) k with hk' | hk'
      · obtain ⟨j, rfl⟩ : ∃ j, k = j + 1 := ⟨k - 1, by omega⟩
        rw [hi j (by omega)] at hc
        rw [hi (j + 1) (by omega)] at hd
        exact hg.turn j c d hc hd
      · obtain rfl : k = i + 1 := by omega
        rw [mid] at hc
        rw [hi (i + 1) le_rfl, eb] at hd
        cases hc; cases hd
        exact t2

theorem insertAt_head {α : Type*} (i : ℕ) (a : α) {l : List α} (h : l ≠ []) :
    (insertAt (i + 1) a l).head? = l.head? := by
  obtain ⟨b, t, rfl⟩ := List.exists_cons_of_ne_nil h
  rfl

theorem insertAt_last {α : Type*} {i : ℕ} (a : α) {l : List α} (h : i < l.length) :
    (insertAt i a l).getLast? = l.getLast? := by
  unfold insertAt
  conv_rhs => rw [← List.take_append_drop i l]
  have hne : l.drop i ≠ [] := by
    intro h'; have := congrArg List.length h'; simp at this; omega
  obtain ⟨b, t, e⟩ := List.exists_cons_of_ne_nil hne
  rw [e]
  simp [List.getLast?_append, List.getLast?_cons]

/-- C160: whatever depths strictly inside the well are found as minima (each once, none of them
a station), the refined reference holds all original stations, with their covariances, radii and
marks, at their original positions; its depths increase and are the original ones and the
minima; and every station that was added is marked as interpolated. -/
theorem C160_refined_reference (hu : u ≠ .other) (hg : GoodRef rows) {first last : RRow}
    {mds : List ℝ} (hf : rows.head? = some first) (hl : rows.getLast? = some last)
    (hin : ∀ m ∈ mds, first.st.md < m ∧ m < last.st.md)
    (hn : ∀ m ∈ mds, ∀ r ∈ rows, r.st.md ≠ m) (hnd : mds.Nodup) :
    ∃ rows' new, refine (some "meters") u sx sn rows mds = .ok rows' ∧
      (rows.zip (positions sx (rows.map RRow.st))).Sublist
        (rows'.zip (positions sx (rows'.map RRow.st))) ∧
      rows'.Perm (new ++ rows) ∧ (∀ r ∈ new, r.interpolated = true) ∧
      (new.map fun r => r.st.md) = mds.reverse ∧ GoodRef rows' := by
  induction mds generalizing rows with
  | nil => exact ⟨rows, [], rfl, List.Sublist.refl _, List.Perm.refl _, by simp, rfl, hg⟩
  | cons m mds ih =>
    obtain ⟨i, a, b, r, q, ea, eb, l1, l2, hs, hm, hi, hr, hc, ht, -, hp⟩ :=
      C160_step (sx := sx) (sn := sn) hu hg hf hl (hin m (by simp)).1 (hin m (by simp)).2
        (hn m (by simp))
    have hlb := (List.getElem?_eq_some_iff.mp eb).1
    have hne : rows ≠ [] := by rintro rfl; simp at hlb
    obtain ⟨rows', new, e1, e2, e3, e4, e5, e6⟩ := ih (rows := insertAt (i + 1) r rows)
      (goodRef_insert hg ea eb l1 l2 hm ht) (by rw [insertAt_head _ _ hne, hf])
      (by rw [insertAt_last _ hlb, hl]) (fun k hk => hin k (by simp [hk]))
      (by
        intro k hk s hs'
        rcases List.mem_cons.1 ((insertAt_perm _ _ _).mem_iff.1 hs') with rfl | hs'
        · rw [hm]; rintro rfl; exact (List.nodup_cons.1 hnd).1 hk
        · exact hn k (by simp [hk]) s hs') (List.nodup_cons.1 hnd).2
    refine ⟨rows', new ++ [r], ?_, ?_, ?_, ?_, ?_, e6⟩
    · rw [refine, hs]; exact e1
    · refine List.Sublist.trans ?_ e2
      rw [hp, insertAt_zip _ _ _ (by rw [positions_length, List.length_map])]
      exact insertAt_sublist ..
    · refine e3.trans ?_
      rw [List.append_assoc]
      exact (insertAt_perm _ _ _).append_left new
    · intro s hs'
      rcases List.mem_append.1 hs' with h | h
      · exact e4 s h
      · rw [List.mem_singleton.1 h]; exact hi
    · simp [e5, hm]

/-- A vertical well of three stations with minima found at 50, 20 and 120. -/
theorem exRows_good : GoodRef [⟨⟨0, 0, 0⟩, 0, false, 1⟩, ⟨⟨100, 0, 0⟩, 0, false, 1⟩,
    ⟨⟨200, 0, 0⟩, 0, false, 2⟩] := by
  constructor
  · simp
    norm_num
  · intro i a b ha hb
    match i with
    | 0 =>
      simp at ha hb
      rw [← ha, ← hb, dogleg2_same_azi le_rfl (by linarith [pi_pos])]; linarith [pi_pos]
    | 1 =>
      simp at ha hb
      rw [← ha, ← hb, dogleg2_same_azi le_rfl (by linarith [pi_pos])]; linarith [pi_pos]
    | k + 2 => simp at hb

example : ∃ rows', refine (some "meters") .meters 0 0 [⟨⟨0, 0, 0⟩, 0, false, 1⟩,
    ⟨⟨100, 0, 0⟩, 0, false, 1⟩, ⟨⟨200, 0, 0⟩, 0, false, 2⟩] [50, 20, 120] = .ok rows' ∧
    rows'.length = 6 := by
  obtain ⟨rows', new, h1, -, h3, -, h5, -⟩ := C160_refined_reference (u := .meters) (sx := 0)
    (sn := 0) (by decide) exRows_good (mds := [50, 20, 120]) rfl rfl
    (by
      intro m hm
      simp only [List.mem_cons, List.not_mem_nil, or_false] at hm
      rcases hm with rfl | rfl | rfl <;> constructor <;> norm_num)
    (by
      intro m hm r hr
      simp only [List.mem_cons, List.not_mem_nil, or_false] at hm hr
      rcases hm with rfl | rfl | rfl <;> rcases hr with rfl | rfl | rfl <;> norm_num)
    (by norm_num)
  refine ⟨rows', h1, ?_⟩
  have := congrArg List.length h5
  simp at this
  rw [h3.length_eq]
  simp [this]

/-! ## C161 -/

/-- C161 fails: every station that is inserted has a zero covariance, whatever the uncertainty
of the reference well around it. -/
theorem C161_covariance_dropped {hdr : Option String} {rows' : List RRow} {md : ℝ}
    (h : refineStep hdr u sx sn rows md = .ok rows') :
    ∃ i new, rows' = insertAt i new rows ∧ new.interpolated = true ∧ new.cov = 0 := by
  unfold refineStep at h
  split at h
  · cases h
  · simp only at h
    split at h
    · cases h
    · split at h
      · cases h
      · split_ifs at h
        cases h
        exact ⟨_, _, rfl, rfl, rfl⟩

/-- C161, the part that holds: the separation factor computed for the same pair of points with
the reference covariance dropped is never below the true one while the bores with their margin
do not overlap. -/
theorem C161_sf_not_understated_partial (p : Pair) (hk : 0 < p.k) (hs : p.sigmaPa ≠ 0)
    (h0 : 0 ≤ (separation p).wellboreSeparation) :
    ∃ x y, (separation p).sf = some x ∧ (separation { p with refCov := 0 }).sf = some y ∧
      x ≤ y := by
  refine C30_monotone_sigma p { p with refCov := 0 } hk le_rfl ?_ le_rfl
    (C30_boundary_positive _ hk hs) rfl h0
  simp only [separation, pcr]
  have : ∀ w : Err.V, quad w 0 = 0 := fun w => by simp [quad]
  rw [this, sqrt_zero]
  apply sqrt_le_sqrt
  nlinarith [sq_nonneg (√(quad (unitDelta p.ref p.off) p.refCov))]

/-- C161 fails: two wells 10 m apart, the reference with a standard deviation of 4 m: the true
separation factor is below 1.9, the one with the covariance dropped is 3. -/
theorem C161_sf_overstated :
    ∃ x y, (separation (exPair 16 1)).sf = some x ∧
      (separation { exPair 16 1 with refCov := 0 }).sf = some y ∧ x < 1.9 ∧ y = 3 := by
  obtain ⟨h1, h2⟩ := exPair_sep (c := 16) (by norm_num) 1
  obtain ⟨h3, h4⟩ := exPair_sep (c := 0) le_rfl 1
  have e : ({ exPair 16 1 with refCov := 0 } : Pair) = exPair 0 1 := by
    simp only [exPair]
    congr 1
    ext i j
    simp [Matrix.diagonal]
  have e1 : √((0 : ℝ) + 9) = 3 := by
    rw [show (0 : ℝ) + 9 = 3 ^ 2 by norm_num]; exact sqrt_sq (by norm_num)
  have e2 : √((16 : ℝ) + 9) = 5 := by
    rw [show (16 : ℝ) + 9 = 5 ^ 2 by norm_num]; exact sqrt_sq (by norm_num)
  rw [e]
  refine ⟨_, _, sf_of_pos (by rw [h1, e2]; norm_num), sf_of_pos (by rw [h3, e1]; norm_num), ?_, ?_⟩
  · rw [h1, h2, e2]; norm_num
  · rw [h3, h4, e1]; norm_num

/-! ## C162 -/

/-- C162, the part that holds: a minimum found at `x` relative to its station, `d0` below the
station above and `d1` above the station below, is inserted exactly if it lies strictly between
stations; provided it is not at the station above and not at the depth `d0` below its own
station. -/
theorem C162_kept_partial {x d0 d1 : ℝ} (h0 : -d0 ≤ x) (h1 : x ≤ d1) (hu : x ≠ -d0)
    (hd : x = d0 → d0 = d1) :
    keepMinimum x d0 d1 ↔ -d0 < x ∧ x < d1 ∧ x ≠ 0 := by
  unfold keepMinimum
  constructor
  · intro h
    push Not at h
    exact ⟨lt_of_le_of_ne h0 (Ne.symm hu), lt_of_le_of_ne h1 h.2.2, h.1⟩
  · rintro ⟨-, h2, h3⟩ (h | h | h)
    · exact h3 h
    · have := hd h; linarith
    · linarith

example : keepMinimum (-12) 30 40 ∧ (-30 : ℝ) ≤ -12 ∧ (-12 : ℝ) ≤ 40 := by
  refine ⟨(C162_kept_partial (by norm_num) (by norm_num) (by norm_num) (by norm_num)).2 ?_, ?_, ?_⟩
    <;> norm_num

/-- C162 fails both ways: a minimum found at the station above is kept, and one found between
the stations at the distance `d0` below its station is dropped. -/
theorem C162_wrong_test : (∀ d0 d1 : ℝ, 0 < d0 → 0 < d1 → keepMinimum (-d0) d0 d1) ∧
    ∀ d0 d1 : ℝ, 0 < d0 → d0 < d1 → ¬ keepMinimum d0 d0 d1 := by
  unfold keepMinimum
  constructor
  · rintro d0 d1 h0 h1 (h | h | h) <;> linarith
  · rintro d0 d1 h0 h1 h
    exact h (Or.inr (Or.inl rfl))

/-- C162 fails: inserting at the depth of a station that is neither the first nor the last gives
a reference with that depth twice. -/
theorem C162_station_twice (hu : u ≠ .other) (hg : GoodRef rows) {j : ℕ} {a b c : RRow}
    (ha : rows[j]? = some a) (hb : rows[j + 1]? = some b) (hc : rows[j + 2]? = some c) :
    ∃ new, refineStep (some "meters") u sx sn rows b.st.md = .ok (insertAt (j + 2) new rows) ∧
      new.st.md = b.st.md := by
  have hlen : 2 ≤ (rows.map RRow.st).length := by
    have := (List.getElem?_eq_some_iff.mp hc).1
    rw [List.length_map]; omega
  obtain ⟨⟨sv, xyz⟩, hG⟩ := surveyG_ok (st := rows.map RRow.st) sx sn hu hlen
  have hbb : (rows.map RRow.st)[j + 1]? = some b.st := by rw [List.getElem?_map, hb]; rfl
  obtain ⟨node, hI, n1, -⟩ := C18_reproduces_stations hG (fun j => xyz.getD j 0)
    (by
      have := hg.sorted
      rw [List.pairwise_map] at this ⊢
      exact this)
    (by
      intro i x y hx hy
      rw [List.getElem?_map] at hx hy
      cases hx' : rows[i]? with
      | none => rw [hx'] at hx; cases hx
      | some x' =>
        cases hy' : rows[i + 1]? with
        | none => rw [hy'] at hy; cases hy
        | some y' =>
          rw [hx'] at hx; rw [hy'] at hy
          cases hx; cases hy
          exact hg.turn i x' y' hx' hy') hbb
  have hlt : b.st.md < c.st.md := by
    have := List.pairwise_iff_getElem.mp hg.sorted
    obtain ⟨lb, rfl⟩ := List.getElem?_eq_some_iff.mp hb
    obtain ⟨lc, rfl⟩ := List.getElem?_eq_some_iff.mp hc
    have := this (j + 1) (j + 2) (by simpa using lb) (by simpa using lc) (by omega)
    simpa using this
  have hk : Tvd.searchsortedRight (rows.map fun r => r.st.md) b.st.md = j + 2 :=
    searchsortedRight_eq hg.sorted (a := b.st.md) (b := c.st.md)
      (by rw [List.getElem?_map, hb]; rfl) (by rw [List.getElem?_map, hc]; rfl) le_rfl hlt
  refine ⟨⟨⟨node.md, (getAngles node.vec true).1, (getAngles node.vec true).2⟩, nodeCov, true,
    c.radius⟩, ?_, n1⟩
  unfold refineStep
  rw [hG]
  simp only [hk, hI, hc, if_true]

example : ∃ new, refineStep (some "meters") .meters 0 0 [⟨⟨0, 0, 0⟩, 0, false, 1⟩,
    ⟨⟨100, 0, 0⟩, 0, false, 1⟩, ⟨⟨200, 0, 0⟩, 0, false, 2⟩] 100 = .ok (insertAt 2 new [⟨⟨0, 0, 0⟩, 0, false, 1⟩,
    ⟨⟨100, 0, 0⟩, 0, false, 1⟩, ⟨⟨200, 0, 0⟩, 0, false, 2⟩]) ∧
    new.st.md = 100 :=
  C162_station_twice (by decide) exRows_good (j := 0) rfl rfl rfl

/-! ## C163 -/

/-- C163, the part that holds: if no minimum is found between stations the reference is kept,
whatever its unit. -/
theorem C163_no_minimum_partial (hdr : Option String) :
    refine hdr u sx sn rows [] = .ok rows := rfl

/-- C163 fails: with a header in feet (or any unit other than `meters`) the calculation ends in
an AssertionError as soon as a minimum is found between two stations. -/
theorem C163_feet_refused {hdr : Option String} (hh : hdr ≠ some "meters") (hu : u ≠ .other)
    (hg : GoodRef rows) {first last : RRow} {m : ℝ} {mds : List ℝ}
    (hf : rows.head? = some first) (hl : rows.getLast? = some last)
    (h0 : first.st.md < m) (h1 : m < last.st.md) (hn : ∀ r ∈ rows, r.st.md ≠ m) :
    refine hdr u sx sn rows (m :: mds) = .error .assertionError := by
  obtain ⟨i, a, b, new, q, -, -, -, -, hs, -⟩ := C160_step (sx := sx) (sn := sn) hu hg hf hl h0 h1 hn
  have : refineStep hdr u sx sn rows m = .error .assertionError := by
    unfold refineStep at hs ⊢
    split at hs
    · cases hs
    · simp only at hs ⊢
      split at hs
      · cases hs
      · split at hs
        · cases hs
        · rw [if_neg hh]
  rw [refine, this]

example : refine (some "feet") .feet 0 0 [⟨⟨0, 0, 0⟩, 0, false, 1⟩,
    ⟨⟨100, 0, 0⟩, 0, false, 1⟩, ⟨⟨200, 0, 0⟩, 0, false, 2⟩] [50] = .error .assertionError :=
  C163_feet_refused (by decide) (by decide) exRows_good rfl rfl (by norm_num) (by norm_num) (by
    intro r hr
    simp only [List.mem_cons, List.not_mem_nil, or_false] at hr
    rcases hr with rfl | rfl | rfl <;> norm_num)

/-! ## C164 -/

open Classical in
/-- C164: after any history of making and interpolating surveys with one header, the header is
the original one if nothing was interpolated, and the original one with the azimuth reference
`grid` otherwise. -/
theorem C164_history (h : Sv.Header) (ops : List HOp) :
    hRun h ops = if HOp.interpolate ∈ ops then { h with aziRef := .grid } else h := by
  induction ops generalizing h with
  | nil => simp [hRun]
  | cons o t ih =>
    rw [hRun, ih]
    cases o with
    | make azi => simp [hStep]
    | interpolate => simp [hStep]

/-- C164, the part that holds: with a header whose azimuths are grid azimuths, or as long as
nothing is interpolated, a survey made later is the one that would have been made first. -/
theorem C164_same_survey_partial (h : Sv.Header) (ops : List HOp)
    (hok : h.aziRef = .grid ∨ HOp.interpolate ∉ ops) (azi : ℝ) :
    (hStep (hRun h ops) (.make azi)).2 = (hStep h (.make azi)).2 := by
  classical
  have : hRun h ops = h := by
    rw [C164_history]
    rcases hok with hg | hn
    · split_ifs
      · rw [← hg]
      · rfl
    · rw [if_neg hn]
  rw [this]

/-- C164 fails: with a header whose azimuths are true azimuths, once any survey with it has been
interpolated a survey made from the same azimuths has grid azimuths that are wrong by exactly
the convergence. -/
theorem C164_interpolation_changes_later_surveys (h : Sv.Header) (ht : h.aziRef = .true_)
    (ops : List HOp) (hi : HOp.interpolate ∈ ops) (azi : ℝ) :
    ∃ a b, (hStep h (.make azi)).2 = some a ∧ (hStep (hRun h ops) (.make azi)).2 = some b ∧
      a.gridRad = azi - h.convergence ∧ b.gridRad = azi := by
  rw [C164_history, if_pos hi]
  refine ⟨_, _, rfl, rfl, ?_, ?_⟩
  · simp [Sv.processAziRef, ht]
  · simp [Sv.processAziRef]

example : ∃ a b, (hStep ⟨.true_, 0.02, 0, 1, some 0, .meters⟩ (.make 1)).2 = some a ∧
    (hStep (hRun ⟨.true_, 0.02, 0, 1, some 0, .meters⟩ [.make 1, .interpolate]) (.make 1)).2
      = some b ∧ a.gridRad ≠ b.gridRad := by
  obtain ⟨a, b, h1, h2, h3, h4⟩ := C164_interpolation_changes_later_surveys
    ⟨.true_, 0.02, 0, 1, some 0, .meters⟩ rfl [.make 1, .interpolate] (by simp) 1
  exact ⟨a, b, h1, h2, by rw [h3, h4]; norm_num⟩

end Welleng.Props
