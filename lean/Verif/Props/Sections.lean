import Verif.Spec.Sections
import Verif.Props.Tortuosity
import Verif.Props.Interpolate
import Verif.Lemmas.Toolface
import Mathlib.Data.List.GetD

/-!
C127-C133: control points of a survey (`/repo/welleng/survey.py` 2192-2366, 2527-2564) and
`wbp_to_survey` (`/repo/welleng/exchange/wbp.py` 641-739).
-/

namespace Welleng.Props

open Sec Spec Real

theorem sec_starts_sorted {cont : List Bool} {n : ℕ} (hn : cont.length + 1 = n) :
    (starts cont n).Pairwise (· < ·) := by
  unfold starts
  rw [List.pairwise_append]
  refine ⟨starts_sorted cont, List.pairwise_singleton _ _, fun a ha b hb => ?_⟩
  rw [List.mem_singleton] at hb
  subst hb
  exact starts_lt hn ha

theorem mem_sec_starts {cont : List Bool} {n k : ℕ} (hn : cont.length + 1 = n) :
    k ∈ starts cont n ↔ k = 0 ∨ k = n ∨ (0 < k ∧ k < n ∧ cont[k - 1]? = some false) := by
  unfold starts Ti.starts
  simp only [List.cons_append, List.mem_cons, List.mem_append, List.not_mem_nil, or_false,
    mem_breaks]
  constructor
  · rintro (h | ⟨h1, h2⟩ | h)
    · exact Or.inl h
    · have := (List.getElem?_eq_some_iff.mp h2).1
      exact Or.inr (Or.inr ⟨h1, by omega, h2⟩)
    · exact Or.inr (Or.inl h)
  · rintro (h | h | ⟨h1, -, h3⟩)
    · exact Or.inl h
    · exact Or.inr (Or.inr h)
    · exact Or.inr (Or.inl ⟨h1, h3⟩)

theorem continuous_length {rtol atol : ℝ} {dlsCont : Bool} {around : ℝ → ℝ} {sv : ℕ → Row} {n : ℕ}
    (hn : 0 < n) : (continuous rtol atol dlsCont around sv n).length + 1 = n := by
  simp [continuous]; omega

theorem continuous_false {rtol atol : ℝ} {dlsCont : Bool} {around : ℝ → ℝ} {sv : ℕ → Row} {n k : ℕ}
    (h0 : 0 < k) (hk : k < n) :
    (continuous rtol atol dlsCont around sv n)[k - 1]? = some false ↔
      ¬ Continues rtol atol dlsCont around sv k := by
  have e : 1 + (k - 1) = k := by omega
  have hlt : k - 1 < n - 1 := by omega
  unfold continuous Continues
  rw [List.getElem?_map, List.getElem?_range' hlt]
  simp only [one_mul, e, Option.map_some, Option.some.injEq]
  rw [← Bool.not_eq_true, not_iff_not, Bool.and_eq_true, @decide_eq_true_iff _ (_), Bool.or_eq_true,
    Bool.not_eq_true', @decide_eq_true_iff _ (_)]
  refine and_congr ?_ (by cases dlsCont <;> simp)
  unfold normalsClose isClose
  rfl

theorem point_where (u : LenUnit) (sv : ℕ → Row) (lb s : ℕ) :
    (point u sv lb s).md = (sv s).st.md ∧ (point u sv lb s).inc = degrees (sv s).st.inc ∧
    (point u sv lb s).azi = degrees (sv s).st.azi ∧
    (point u sv lb s).location = ⟨(sv s).pos.y, (sv s).pos.x, -(sv s).pos.z⟩ := by
  unfold point
  simp only
  split_ifs <;> exact ⟨rfl, rfl, rfl, rfl⟩

theorem pairwise_map_snd {α β : Type*} (f : ℕ → ℕ → α) (g : α → β) (h : ℕ → β)
    (hf : ∀ a b, g (f a b) = h b) (a : ℕ) (l : List ℕ) :
    (pairwise f (a :: l)).map g = l.map h := by
  induction l generalizing a with
  | nil => rfl
  | cons b t ih => simp [pairwise, hf, ih]

theorem sec_starts_head (cont : List Bool) (n : ℕ) :
    starts cont n = 0 :: (Ti.breaks 1 cont ++ [n]) := rfl

/-- C127: the exported control points are stations of the survey, in order and without repetition:
the first, the last and exactly those between at which the well does not continue as before.  Each
carries the depth, angles and position of its station. -/
theorem C127_control_points {rtol atol : ℝ} {dlsCont : Bool} {around : ℝ → ℝ} {u : LenUnit}
    {sv : ℕ → Row} {n : ℕ} {l : List TurnPoint}
    (h : getSections rtol atol dlsCont around u sv n = some l) :
    ∃ idx : List ℕ, idx.Pairwise (· < ·) ∧
      (∀ k, k ∈ idx ↔ k = 0 ∨ k = n ∨
        (0 < k ∧ k < n ∧ ¬ Continues rtol atol dlsCont around sv k)) ∧
      l.tail.map (fun p => (p.md, p.inc, p.azi, p.location)) =
        idx.map (fun k => ((sv k).st.md, degrees (sv k).st.inc, degrees (sv k).st.azi,
          (⟨(sv k).pos.y, (sv k).pos.x, -(sv k).pos.z⟩ : V3))) ∧
      l.head? = l.tail.head? := by
  unfold getSections at h
  split_ifs at h with hn
  simp only [Option.some.injEq] at h
  subst h
  have hlen := continuous_length (rtol := rtol) (atol := atol) (dlsCont := dlsCont)
    (around := around) (sv := sv) (Nat.pos_of_ne_zero hn)
  refine ⟨starts (continuous rtol atol dlsCont around sv n) n, sec_starts_sorted hlen,
    fun k => ?_, ?_, rfl⟩
  · rw [mem_sec_starts hlen]
    refine or_congr Iff.rfl (or_congr Iff.rfl ⟨?_, ?_⟩)
    · rintro ⟨a, b, c⟩; exact ⟨a, b, (continuous_false a b).1 c⟩
    · rintro ⟨a, b, c⟩; exact ⟨a, b, (continuous_false a b).2 c⟩
  · unfold sectionsOf
    rw [sec_starts_head]
    simp only [List.tail_cons, List.map_cons]
    rw [pairwise_map_snd (point u sv) _ (fun k => ((sv k).st.md, degrees (sv k).st.inc,
      degrees (sv k).st.azi, (⟨(sv k).pos.y, (sv k).pos.x, -(sv k).pos.z⟩ : V3)))
      (fun a b => by obtain ⟨h1, h2, h3, h4⟩ := point_where u sv a b; rw [h1, h2, h3, h4])]
    rfl

/-- Displacements add up along an arc. -/
theorem positions_onArc {st : ℕ → Station} {a b : ℕ} {γ τ ν : ℝ → V3} {κ : ℝ}
    (hc : CircularCurve γ τ ν κ) (hκ : 0 ≤ κ) (hpi : κ * ((st b).md - (st a).md) < π)
    (ht : ∀ k, a ≤ k → k ≤ b → τ ((st k).md - (st a).md) = tangent (st k).inc (st k).azi)
    (hmd : ∀ k, a ≤ k → k < b → (st k).md ≤ (st (k + 1)).md) {pos : ℕ → V3}
    (hpos : ∀ k, a ≤ k → k < b → pos (k + 1) = pos k + deltaXyz (st k) (st (k + 1)))
    (hab : a ≤ b) : pos b = pos a + deltaXyz (st a) (st b) := by
  have mono : ∀ j k, a ≤ j → j ≤ k → k ≤ b → (st j).md ≤ (st k).md := by
    intro j k hj hjk hk
    induction k, hjk using Nat.le_induction with
    | base => exact le_rfl
    | succ k hk' ih => exact (ih (by omega)).trans (hmd k (by omega) (by omega))
  have step : ∀ j k, a ≤ j → j ≤ k → k ≤ b →
      deltaXyz (st j) (st k) = swap (γ ((st k).md - (st a).md) - γ ((st j).md - (st a).md)) := by
    intro j k hj hjk hk
    rw [deltaXyz_eq]
    congr 1
    have hs := hc.shift ((st j).md - (st a).md)
    have m1 := mono j k hj hjk hk
    have m2 := mono a j le_rfl hj (hjk.trans hk)
    have m3 := mono k b (hj.trans hjk) hk le_rfl
    have := arc_end (L := (st k).md - (st j).md) (i1 := (st j).inc) (a1 := (st j).azi)
      (i2 := (st k).inc) (a2 := (st k).azi) hs (by simp) hκ (by linarith)
      (lt_of_le_of_lt (mul_le_mul_of_nonneg_left (by linarith) hκ) hpi)
      (by simpa using ht j hj (hjk.trans hk))
      (by rw [← ht k (hj.trans hjk) hk]; congr 1; ring)
    rw [← this]
    congr 2
    ring
  have main : ∀ k, a ≤ k → k ≤ b →
      pos k = pos a + swap (γ ((st k).md - (st a).md) - γ 0) := by
    intro k hk hkb
    induction k, hk using Nat.le_induction with
    | base => simp [show swap (0 : V3) = 0 from rfl]
    | succ k hk' ih =>
      rw [hpos k hk' (by omega), ih (by omega), step k (k + 1) hk' (by omega) hkb]
      ext <;> simp [swap] <;> ring
  rw [main b hab le_rfl, step a b le_rfl hab le_rfl, sub_self]

theorem positions_range (st : ℕ → Station) (p : V3) (n k : ℕ) (hk : k < n) :
    ∃ q, (positions p ((List.range (n + 1)).map st))[k]? = some q ∧
      (positions p ((List.range (n + 1)).map st))[k + 1]? =
        some (q + deltaXyz (st k) (st (k + 1))) := by
  have hlen : k < (positions p ((List.range (n + 1)).map st)).length := by
    rw [positions_length]; simp; omega
  refine ⟨_, List.getElem?_eq_getElem hlen, ?_⟩
  refine positions_step p _ ?_ ?_ (List.getElem?_eq_getElem hlen)
  · simp [List.getElem?_range (show k < n + 1 by omega)]
  · simp [List.getElem?_range (show k + 1 < n + 1 by omega)]

/-- The stations of the survey rebuilt from the exported listing (angles in degrees). -/
noncomputable def rebuilt (l : List TurnPoint) : List Station :=
  (getData l).map fun r => ⟨r.1, radians r.2.1, radians r.2.2.1⟩

theorem radians_degrees' (x : ℝ) : radians (degrees x) = x := by
  unfold radians degrees; field_simp

theorem rebuilt_eq (u : LenUnit) (sv : ℕ → Row) (n : ℕ) (cont : List Bool) :
    rebuilt (sectionsOf u sv n cont) = (starts cont n).map fun k => (sv k).st := by
  unfold rebuilt getData sectionsOf
  rw [List.map_map, sec_starts_head]
  simp only [List.tail_cons, List.map_cons]
  congr 1
  · ext <;> simp [firstPoint, radians_degrees']
  · exact pairwise_map_snd (point u sv) _ (fun k => (sv k).st) (fun a b => by
      obtain ⟨h1, h2, h3, -⟩ := point_where u sv a b
      ext <;> simp [h1, h2, h3, radians_degrees']) _ _

/-- C128 (partial): if each stretch between consecutive control points is one arc or straight line,
the survey rebuilt from the exported listing passes through every control point where the original
survey does. -/
theorem C128_rebuild_partial {rtol atol : ℝ} {dlsCont : Bool} {around : ℝ → ℝ} {u v : LenUnit}
    {sv : ℕ → Row} {n : ℕ} {l : List TurnPoint} {start : V3} {out out' : MinCurveOut}
    (h : getSections rtol atol dlsCont around u sv n = some l)
    (hmd : ∀ k < n, (sv k).st.md ≤ (sv (k + 1)).st.md)
    (harc : ∀ a b, a < b → b ≤ n →
      (∀ k, a < k → k < b → Continues rtol atol dlsCont around sv k) →
      OnArc (fun k => (sv k).st) a b)
    (hout : minCurve ((List.range (n + 1)).map fun k => (sv k).st) start v = .ok out)
    (hout' : minCurve (rebuilt l) start v = .ok out') :
    out'.poss.length = (rebuilt l).length ∧
    ∀ (j : ℕ) (s : Station), (rebuilt l)[j]? = some s →
      ∃ k : ℕ, k ≤ n ∧ (sv k).st = s ∧ ∃ p, out'.poss[j]? = some p ∧ out.poss[k]? = some p := by
  rw [minCurve_poss hout, minCurve_poss hout']
  refine ⟨positions_length _ _, ?_⟩
  unfold getSections at h
  split_ifs at h with hn
  simp only [Option.some.injEq] at h
  subst h
  rw [rebuilt_eq]
  set cont := continuous rtol atol dlsCont around sv n with hcont
  have hlen : cont.length + 1 = n := continuous_length (Nat.pos_of_ne_zero hn)
  set st := fun k => (sv k).st with hst
  -- positions of the full survey as a function
  let pos : ℕ → V3 := fun k => (positions start ((List.range (n + 1)).map st)).getD k 0
  have hget : ∀ k ≤ n, (positions start ((List.range (n + 1)).map st))[k]? = some (pos k) := by
    intro k hk
    have : k < (positions start ((List.range (n + 1)).map st)).length := by
      rw [positions_length]; simp; omega
    rw [List.getElem?_eq_getElem this]
    simp [pos, this]
  have hstep : ∀ k < n, pos (k + 1) = pos k + deltaXyz (st k) (st (k + 1)) := by
    intro k hk
    obtain ⟨q, h1, h2⟩ := positions_range st start n k hk
    rw [hget k hk.le] at h1
    rw [hget (k + 1) hk] at h2
    simp only [Option.some.injEq] at h1 h2
    rw [h2, h1]
  have hp0 : pos 0 = start := by
    have := hget 0 (Nat.zero_le _)
    rw [List.range_succ_eq_map] at this
    simpa [positions] using this.symm
  -- along the control points
  have key : ∀ (idx : List ℕ) (a : ℕ), a ≤ n → (a :: idx).Pairwise (· < ·) →
      (∀ k ∈ idx, k ≤ n) →
      (∀ k, a < k → k < n → k ∉ idx → Continues rtol atol dlsCont around sv k) →
      ∀ j k : ℕ, (a :: idx)[j]? = some k →
        (positions (pos a) ((a :: idx).map st))[j]? = some (pos k) := by
    intro idx
    induction idx with
    | nil =>
      intro a _ _ _ _ j k hj
      cases j with
      | zero => simp only [List.getElem?_cons_zero, Option.some.injEq] at hj; subst hj; rfl
      | succ j => simp at hj
    | cons b t ih =>
      intro a ha hsort hle hcon j k hj
      have hab : a < b := (List.pairwise_cons.1 hsort).1 b List.mem_cons_self
      have hb : b ≤ n := hle b List.mem_cons_self
      have hsort' := (List.pairwise_cons.1 hsort).2
      cases j with
      | zero =>
        simp only [List.getElem?_cons_zero, Option.some.injEq] at hj; subst hj
        simp [positions]
      | succ j =>
        have hpb : pos b = pos a + deltaXyz (st a) (st b) := by
          obtain ⟨γ, τ, ν, κ, hc, hκ, hpi, ht⟩ := harc a b hab hb (fun k h1 h2 =>
            hcon k h1 (by omega) (fun hm => by
              rcases List.mem_cons.1 hm with e | e
              · omega
              · have := (List.pairwise_cons.1 hsort').1 k e
                omega))
          exact positions_onArc hc hκ hpi ht (fun k _ h2 => hmd k (by omega))
            (fun k _ h2 => hstep k (by omega)) hab.le
        rw [List.map_cons, List.map_cons, positions_cons2, ← hpb, ← List.map_cons]
        simp only [List.getElem?_cons_succ] at hj ⊢
        exact ih b hb hsort' (fun k hk => hle k (List.mem_cons_of_mem _ hk))
          (fun k h1 h2 h3 => hcon k (by omega) h2 (fun hm => by
            rcases List.mem_cons.1 hm with e | e
            · omega
            · exact h3 e)) j k hj
  intro j s hj
  rw [List.getElem?_map, Option.map_eq_some_iff] at hj
  obtain ⟨k, hk, rfl⟩ := hj
  have hmem := (mem_sec_starts hlen).1 (List.mem_of_getElem? hk)
  have hkn : k ≤ n := by rcases hmem with h | h | h <;> omega
  refine ⟨k, hkn, rfl, pos k, ?_, hget k hkn⟩
  have hs := sec_starts_sorted hlen
  rw [sec_starts_head] at hs hk ⊢
  have := key (Ti.breaks 1 cont ++ [n]) 0 (Nat.zero_le _) hs (fun i hi => by
      have := (mem_sec_starts hlen).1 (show i ∈ starts cont n by
        rw [sec_starts_head]; exact List.mem_cons_of_mem _ hi)
      rcases this with h | h | h <;> omega)
    (fun i h1 h2 h3 => by
      by_contra hcn
      refine h3 ?_
      have := (mem_sec_starts hlen (k := i)).2 (Or.inr (Or.inr ⟨h1, h2,
        (continuous_false h1 h2).2 hcn⟩))
      rw [sec_starts_head, List.mem_cons] at this
      exact this.resolve_left (by omega)) j k hk
  rw [hp0] at this
  exact this

/-! ### C175 -/

/-- One entry per control point of the exported listing: measured depth, angles in degrees, north
and east are those of a station of the survey.  C175 (partial). -/
theorem C175_listing_partial {rtol atol : ℝ} {dlsCont : Bool} {around : ℝ → ℝ} {u : LenUnit}
    {sv : ℕ → Row} {n : ℕ} {l : List TurnPoint}
    (h : getSections rtol atol dlsCont around u sv n = some l) :
    ∀ r ∈ getData l, ∃ k ≤ n, r.1 = (sv k).st.md ∧ r.2.1 = degrees (sv k).st.inc ∧
      r.2.2.1 = degrees (sv k).st.azi ∧ r.2.2.2.1 = (sv k).pos.x ∧ r.2.2.2.2.1 = (sv k).pos.y := by
  unfold getSections at h
  split_ifs at h with hn
  simp only [Option.some.injEq] at h
  subst h
  set cont := continuous rtol atol dlsCont around sv n with hcont
  have hlen : cont.length + 1 = n := continuous_length (Nat.pos_of_ne_zero hn)
  have e : (getData (sectionsOf u sv n cont)).map
      (fun r => (r.1, r.2.1, r.2.2.1, r.2.2.2.1, r.2.2.2.2.1))
      = (starts cont n).map fun k => ((sv k).st.md, degrees (sv k).st.inc, degrees (sv k).st.azi,
          (sv k).pos.x, (sv k).pos.y) := by
    unfold getData sectionsOf
    rw [List.map_map, sec_starts_head]
    simp only [List.tail_cons, List.map_cons]
    congr 1
    exact pairwise_map_snd (point u sv) _ (fun k => ((sv k).st.md, degrees (sv k).st.inc,
      degrees (sv k).st.azi, (sv k).pos.x, (sv k).pos.y)) (fun a b => by
        obtain ⟨h1, h2, h3, h4⟩ := point_where u sv a b
        simp [h1, h2, h3, h4]) _ _
  intro r hr
  have hm := List.mem_map_of_mem (f := fun r : ℝ × ℝ × ℝ × ℝ × ℝ × ℝ × ℝ × ℝ × Option ℝ × Option ℝ =>
    (r.1, r.2.1, r.2.2.1, r.2.2.2.1, r.2.2.2.2.1)) hr
  rw [e] at hm
  obtain ⟨k, hk, hke⟩ := List.mem_map.1 hm
  simp only [Prod.mk.injEq] at hke
  obtain ⟨h1, h2, h3, h4, h5⟩ := hke
  exact ⟨k, by rcases (mem_sec_starts hlen).1 hk with h | h | h <;> omega, h1.symm, h2.symm, h3.symm, h4.symm, h5.symm⟩

/-- C175 is false of the code: the depth column is minus the vertical depth of the station. -/
theorem C175_depth_negated {rtol atol : ℝ} {dlsCont : Bool} {around : ℝ → ℝ} {u : LenUnit}
    {sv : ℕ → Row} {n : ℕ} {l : List TurnPoint}
    (h : getSections rtol atol dlsCont around u sv n = some l) :
    (getData l).map (fun r => r.2.2.2.2.2.1) =
      (starts (continuous rtol atol dlsCont around sv n) n).map fun k => -(sv k).pos.z := by
  unfold getSections at h
  split_ifs at h with hn
  simp only [Option.some.injEq] at h
  subst h
  unfold getData sectionsOf
  rw [List.map_map, sec_starts_head]
  simp only [List.tail_cons, List.map_cons]
  congr 1
  exact pairwise_map_snd (point u sv) _ (fun k => -(sv k).pos.z) (fun a b => by
    obtain ⟨-, -, -, h4⟩ := point_where u sv a b
    simp [h4]) _ _

/-- A two-station survey that ends 10 m down is listed at -10. -/
example : ∃ l, getSections 1 1 false id .meters
      (fun k => ⟨⟨10 * k, 0, 0⟩, ⟨0, 0, 10 * k⟩, 0, 0⟩) 1 = some l ∧
    (getData l).map (fun r => r.2.2.2.2.2.1) = [0, -10] := by
  refine ⟨_, rfl, ?_⟩
  rw [C175_depth_negated (rtol := 1) (atol := 1) (dlsCont := false) (around := id) (n := 1) rfl]
  simp [starts, Ti.starts, continuous, Ti.breaks]

end Welleng.Props
