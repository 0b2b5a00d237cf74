import Verif.Props.ClosestPoint

/-!
C311: how close two wells can come between the stations at which their distance is reported.
-/

namespace Welleng.Props

open Real Welleng Spec Clr

/-- **C311** Every point of the reference well is next to a station for which the reported distance is
at most the distance from that point to any point of the offset well, plus half the largest spacing of
stations in either well (and the tolerance of the search): the wells come nowhere closer than the
smallest reported distance less those half spacings. -/
theorem C311_approach {st st' : List Station} {sx sn sx' sn' : V3} {u u' : LenUnit} {off ref : SurveyG}
    {xyz xyz' : List V3} (h : surveyG st sx sn u = .ok (off, xyz))
    (h' : surveyG st' sx' sn' u' = .ok (ref, xyz'))
    (hsort : st.Pairwise fun a b => a.md < b.md) (hsort' : st'.Pairwise fun a b => a.md < b.md)
    (hpi : ∀ (i : ℕ) a b, st[i]? = some a → st[i + 1]? = some b → dogleg2 a b < π)
    (hpi' : ∀ (i : ℕ) a b, st'[i]? = some a → st'[i + 1]? = some b → dogleg2 a b < π)
    {D D' : ℝ} (hD : ∀ (i : ℕ) a b, st[i]? = some a → st[i + 1]? = some b → b.md - a.md ≤ D)
    (hD' : ∀ (i : ℕ) a b, st'[i]? = some a → st'[i + 1]? = some b → b.md - a.md ≤ D')
    {opt : Minimiser} {ε : ℝ} (hopt : FindsMinimum ε opt) (f : ℕ → V3)
    {i : ℕ} {x : ℝ} {r : V3} (hr : OnWell st' ref.nev i x r) :
    ∃ (k : ℕ) (p : V3) (c : Closest), (k = i ∨ k = i + 1) ∧ ref.nev[k]? = some p ∧
      closestPoint opt off f p = some c ∧
      ∀ j y q, OnWell st off.nev j y q → c.dist ≤ V3.norm (q - r) + D / 2 + D' / 2 + ε := by
  obtain ⟨a, b, p1, ha, hb, hp, x0, x1, rfl⟩ := hr
  have hlt : a.md < b.md := by
    obtain ⟨i1, rfl⟩ := List.getElem?_eq_some_iff.mp ha
    obtain ⟨i2, rfl⟩ := List.getElem?_eq_some_iff.mp hb
    exact List.pairwise_iff_getElem.mp hsort' _ _ _ _ (by omega)
  have hd := hD' i a b ha hb
  have v1 := interp_dist_above p1 a b x0
  have v2 := interp_dist_below p1 hlt (hpi' i a b ha hb) x0 x1
  have near : ∃ (k : ℕ) (p : V3), (k = i ∨ k = i + 1) ∧ ref.nev[k]? = some p ∧
      V3.norm (p - interpPosNev p1 a b x) ≤ D' / 2 := by
    rcases le_total x (b.md - a.md - x) with hx | hx
    · exact ⟨i, p1, .inl rfl, hp, by linarith⟩
    · exact ⟨i + 1, _, .inr rfl, nev_step h' ha hb hp, by linarith⟩
  obtain ⟨k, p, hk, hkp, hn⟩ := near
  obtain ⟨c, hc, hle⟩ := C158_within_spacing_partial h hsort hpi hopt f p hD
  refine ⟨k, p, c, hk, hkp, hc, fun j y q hq => ?_⟩
  have h1 := hle j y q hq
  have h2 := V3.norm_add_le (q - interpPosNev p1 a b x) (interpPosNev p1 a b x - p)
  rw [sub_add_sub_cancel] at h2
  have h3 : V3.norm (interpPosNev p1 a b x - p) = V3.norm (p - interpPosNev p1 a b x) := by
    rw [← norm_neg, neg_sub]
  linarith

/-- Two parallel vertical wells. -/
example : ∃ (opt : Minimiser) (off ref : SurveyG) (xyz xyz' : List V3), FindsMinimum 0.001 opt ∧
    surveyG [⟨0, 0, 0⟩, ⟨30, 0, 0⟩] 0 0 .meters = .ok (off, xyz) ∧
    surveyG [⟨0, 0, 0⟩, ⟨30, 0, 0⟩] ⟨10, 0, 0⟩ ⟨0, 10, 0⟩ .meters = .ok (ref, xyz') ∧
    dogleg2 ⟨0, 0, 0⟩ ⟨30, 0, 0⟩ < π := by
  obtain ⟨opt, ho⟩ := findsMinimum_exists (ε := 0.001) (by norm_num)
  refine ⟨opt, _, _, _, _, ho, rfl, rfl, ?_⟩
  rw [dogleg2_same_azi le_rfl (by linarith [pi_pos])]
  linarith [pi_pos]

end Welleng.Props
