import Verif.Props.InterpTvd

/-!
C420: vertical depths on either side of a station are found on either side of it.
-/

namespace Welleng.Props

open Real Welleng Spec Tvd Con

theorem rising_lt {α : Type*} {g : α → ℝ} {l : List α}
    (h : ∀ (i : ℕ) (a b : α), l[i]? = some a → l[i + 1]? = some b → g a < g b) :
    ∀ {i j : ℕ} {a b : α}, i ≤ j → l[i]? = some a → l[j]? = some b → g a ≤ g b := by
  intro i j a b hij ha hb
  induction j, hij using Nat.le_induction generalizing b with
  | base => rw [ha] at hb; cases hb; rfl
  | succ j _ ih =>
    have hj : j < l.length := by
      have := (List.getElem?_eq_some_iff.mp hb).1; omega
    have e := List.getElem?_eq_getElem hj
    exact (ih e).trans (h j _ _ e hb).le

variable {st : List Station} {sx sn : V3} {u : LenUnit} {sv : SurveyG} {xyz : List V3}

/-- **C420** On a survey whose stations get strictly deeper: the node at a vertical depth above that
of a station is not beyond that station, and the node at a vertical depth below it is not before. -/
theorem C420_station (h : surveyG st sx sn u = .ok (sv, xyz)) (f : ℕ → V3)
    (hsort : ∀ i a b, st[i]? = some a → st[i + 1]? = some b → a.md < b.md)
    (hpi : ∀ i a b, st[i]? = some a → st[i + 1]? = some b → dogleg2 a b < π)
    (hasc : ∀ (i : ℕ) (p q : V3), sv.nev[i]? = some p → sv.nev[i + 1]? = some q → p.z < q.z)
    {first last : V3} (hf : sv.nev[0]? = some first) (hl : sv.nev.getLast? = some last)
    {tvd : ℝ} (h0 : first.z ≤ tvd) (h1 : tvd ≤ last.z) {k : ℕ} {s : Station} {p : V3}
    (hs : st[k]? = some s) (hp : sv.nev[k]? = some p) :
    ∃ node, interpolateTvd sv f tvd = .ok node ∧ (tvd < p.z → node.md ≤ s.md) ∧
      (p.z < tvd → s.md ≤ node.md) := by
  obtain ⟨i, s1, s2, p1, p2, node, e1, e2, e3, e4, b1, b2, hn, m1, m2, -⟩ :=
    C114_found h f hsort hpi hasc hf hl h0 h1
  refine ⟨node, hn, fun hlt => ?_, fun hlt => ?_⟩
  · have hik : i + 1 ≤ k := by
      by_contra hc
      have := rising_lt (g := V3.z) hasc (by omega : k ≤ i) hp e3
      linarith
    exact m2.trans (rising_lt (g := Station.md) hsort hik e2 hs)
  · have hik : k ≤ i := by
      by_contra hc
      have := rising_lt (g := V3.z) hasc (by omega : i + 1 ≤ k) e4 hp
      linarith
    exact (rising_lt (g := Station.md) hsort hik hs e1).trans m1

/-- **C420** Of two vertical depths with a station between them, the deeper one is found at the
larger, or the same, measured depth. -/
theorem C420_order (h : surveyG st sx sn u = .ok (sv, xyz)) (f : ℕ → V3)
    (hsort : ∀ i a b, st[i]? = some a → st[i + 1]? = some b → a.md < b.md)
    (hpi : ∀ i a b, st[i]? = some a → st[i + 1]? = some b → dogleg2 a b < π)
    (hasc : ∀ (i : ℕ) (p q : V3), sv.nev[i]? = some p → sv.nev[i + 1]? = some q → p.z < q.z)
    {first last : V3} (hf : sv.nev[0]? = some first) (hl : sv.nev.getLast? = some last)
    {tvd tvd' : ℝ} (h0 : first.z ≤ tvd) (h1 : tvd' ≤ last.z) {p : V3} (hp : p ∈ sv.nev)
    (hlt : tvd < p.z) (hlt' : p.z < tvd') :
    ∃ node node', interpolateTvd sv f tvd = .ok node ∧ interpolateTvd sv f tvd' = .ok node' ∧
      node.md ≤ node'.md := by
  obtain ⟨k, hk, rfl⟩ := List.mem_iff_getElem.1 hp
  obtain ⟨hst, hxyz, hnev, hlen⟩ := surveyG_st h
  have hnl : sv.nev.length = st.length := by rw [hnev, hxyz]; simp [positions_length]
  have e := List.getElem?_eq_getElem hk
  have e' : st[k]? = some st[k] := List.getElem?_eq_getElem (by omega)
  obtain ⟨n, hn, n1, -⟩ := C420_station h f hsort hpi hasc hf hl h0 (by linarith) e' e
  obtain ⟨n', hn', -, n2⟩ := C420_station h f hsort hpi hasc hf hl (by linarith) h1 e' e
  exact ⟨n, n', hn, hn', (n1 hlt).trans (n2 hlt')⟩

/-- C420: a vertical well with three stations and the depths 40 and 160. -/
example : ∃ sv xyz first last, ∃ p ∈ sv.nev,
    surveyG [⟨0, 0, 0⟩, ⟨100, 0, 0⟩, ⟨200, 0, 0⟩] 0 0 .meters = .ok (sv, xyz) ∧
    sv.nev[0]? = some first ∧ sv.nev.getLast? = some last ∧ first.z ≤ 40 ∧ 160 ≤ last.z ∧
    40 < p.z ∧ p.z < 160 ∧
    (∀ (i : ℕ) (p q : V3), sv.nev[i]? = some p → sv.nev[i + 1]? = some q → p.z < q.z) := by
  obtain ⟨sv, xyz, h⟩ : ∃ sv xyz,
    surveyG [⟨0, 0, 0⟩, ⟨100, 0, 0⟩, ⟨200, 0, 0⟩] 0 0 .meters = .ok (sv, xyz) := ⟨_, _, rfl⟩
  obtain ⟨h1, h2, h3, -⟩ := surveyG_st h
  have hstep : ∀ d : ℝ, minCurveStep d 0 0 0 0 = ⟨0, 0, d⟩ := fun d => by
    rw [minCurveStep_same rfl]; ext <;> simp [tangent]
  have hn : sv.nev = [0, ⟨0, 0, 100⟩, ⟨0, 0, 200⟩] := by
    rw [h3, h2]
    simp only [positions, pairwise, cumsumFrom, List.map_cons, List.map_nil, List.cons.injEq,
      and_true, deltaXyz_eq, hstep]
    refine ⟨?_, ?_, ?_⟩ <;> apply V3.ext <;> simp [getNev, swap] <;> norm_num
  refine ⟨sv, xyz, 0, ⟨0, 0, 200⟩, ⟨0, 0, 100⟩, by simp [hn], h, by rw [hn]; rfl, by rw [hn]; rfl,
    by simp, by norm_num, by norm_num, by norm_num, ?_⟩
  intro i p q hp hq
  rw [hn] at hp hq
  match i with
  | 0 => simp at hp hq; subst hp; subst hq; simp
  | 1 => simp at hp hq; subst hp; subst hq; norm_num
  | i + 2 => simp at hq

end Welleng.Props
