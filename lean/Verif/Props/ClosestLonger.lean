import Verif.Props.ClosestCausal

/-! C405: an offset well that is drilled on can look farther away (`/repo/welleng/clearance.py`
349-353, 612-660). -/

namespace Welleng.Props

open Real Welleng Spec Clr

/-- C405, what holds: the distance reported does not grow when the new stations are not nearer to
the point than the nearest station was. -/
theorem C405_not_farther_partial {st more : List Station} {sx sn : V3} {u : LenUnit}
    {off off' : SurveyG} {xyz xyz' : List V3} (h : surveyG st sx sn u = .ok (off, xyz))
    (h' : surveyG (st ++ more) sx sn u = .ok (off', xyz')) (opt : Minimiser) (f : ℕ → V3) {p : V3}
    (hfar : Farther p off.nev (off'.nev.drop off.nev.length)) {c c' : Closest}
    (hc : closestPoint opt off f p = some c) (hc' : closestPoint opt off' f p = some c') :
    c'.dist ≤ c.dist := by
  obtain ⟨d, d', e, e', hd, -⟩ := C404_drilled_on h h' opt f hfar
  rw [hc] at e; rw [hc'] at e'
  cases e; cases e'
  exact hd

/-- **C405** fails: 2 m beside a vertical offset well of 100 m the distance reported is at most 2 m
(up to the tolerance `ε` of the search); after a U-turn and 50 m up, 18 m away, it is at least
18 m. -/
theorem C405_looks_farther : ∃ (st more : List Station) (off off' : SurveyG) (xyz xyz' : List V3)
    (p : V3), surveyG st 0 0 .meters = .ok (off, xyz) ∧
    surveyG (st ++ more) 0 0 .meters = .ok (off', xyz') ∧
    ∀ (opt : Minimiser) (ε : ℝ) (f : ℕ → V3), (∀ g b, 0 ≤ b → 0 ≤ opt g b ∧ opt g b ≤ b) →
      FindsMinimum ε opt →
      ∃ c c', closestPoint opt off f p = some c ∧ closestPoint opt off' f p = some c' ∧
        c.dist ≤ 2 + ε ∧ 18 ≤ c'.dist := by
  have hpi := pi_pos
  obtain ⟨off', xyz', p, q, x, h', hq, hd, hfar⟩ := C158_closest_missed
  obtain ⟨off, xyz, h⟩ : ∃ off xyz, surveyG [⟨0, 0, 0⟩, ⟨100, 0, 0⟩] 0 0 .meters
    = .ok (off, xyz) := ⟨_, _, rfl⟩
  refine ⟨[⟨0, 0, 0⟩, ⟨100, 0, 0⟩], uWell.drop 2, off, off', xyz, xyz', p, h, h', ?_⟩
  intro opt ε f hb hopt
  obtain ⟨c', hc', h18⟩ := hfar opt f hb
  obtain ⟨a1, a2, a3, -⟩ := surveyG_st h
  have hlen : off.nev.length = 2 := by rw [a3, List.length_map, a2, positions_length]; rfl
  obtain ⟨hs, hn⟩ := surveyG_drilled_on (more := uWell.drop 2) h h'
  have hq' : OnWell [⟨0, 0, 0⟩, ⟨100, 0, 0⟩] off.nev 0 x q := by
    obtain ⟨s1, s2, p1, e1, e2, e3, hx0, hx1, hpos⟩ := hq
    refine ⟨s1, s2, p1, e1, e2, ?_, hx0, hx1, hpos⟩
    have g : off.nev[0]? = some (off.nev[0]'(by omega)) := List.getElem?_eq_getElem _
    rw [g, ← e3, prefix_getElem?_some hn g]
  obtain ⟨c, hc, -, -, -, -, hmin⟩ := C157_closest_point h (by simp)
    (by
      intro i a b ha hb
      match i with
      | 0 =>
        simp only [List.getElem?_cons_zero, List.getElem?_cons_succ, zero_add,
          Option.some.injEq] at ha hb
        subst ha; subst hb
        rw [dogleg2_same_azi le_rfl (by linarith)]
        simpa using hpi
      | i + 1 => simp at hb) hopt f p
  refine ⟨c, c', hc, hc', ?_, h18⟩
  have hil : nearest off p < off.nev.length := by
    obtain ⟨v, hv, -⟩ := argmin_spec (l := off.nev.map fun q => V3.norm (q - p))
      (by intro e; rw [List.map_eq_nil_iff] at e; rw [e] at hlen; simp at hlen)
    have := (List.getElem?_eq_some_iff.1 hv).1
    simpa [nearest] using this
  have := hmin 0 x q (by omega) hq'
  rw [hd] at this
  exact this

/-- Non-vacuity: there are optimisers as assumed. -/
example : ∃ opt : Minimiser, (∀ g b, 0 ≤ b → 0 ≤ opt g b ∧ opt g b ≤ b) ∧
    FindsMinimum 0.001 opt := by
  classical
  obtain ⟨opt, hopt⟩ := findsMinimum_exists (ε := 0.001) (by norm_num)
  refine ⟨fun g b => if ∀ y, 0 ≤ g y then opt g b else 0, ?_, ?_⟩
  · intro g b hb
    dsimp only
    split
    · rename_i hg
      exact ⟨(hopt g b hb hg).1, (hopt g b hb hg).2.1⟩
    · exact ⟨le_rfl, hb⟩
  · intro g b hb hg
    dsimp only
    rw [if_pos hg]
    exact hopt g b hb hg

end Welleng.Props
