import Verif.Props.Interpolate
import Verif.Spec.Covariance
import Mathlib.Tactic.FieldSimp

/-!
Property C101: covariance of an interpolated station (`/repo/welleng/survey.py` 1882-1911).
-/

namespace Welleng.Props

open Real Welleng Spec

variable {st : List Station} {sx sn : V3} {u : LenUnit} {sv : SurveyG} {xyz : List V3}

/-- C101: inside a survey with covariances, each entry of the covariance reported at `md` is the
value at `md` of the straight line through the entries of the two stations around `md`; the
reported matrix is a covariance matrix if those of the two stations are. -/
theorem C101_covariance_interpolated (h : surveyG st sx sn u = .ok (sv, xyz)) (f : ℕ → V3) {md : ℝ}
    {first last : Station} (hf : st.head? = some first) (hl : st.getLast? = some last)
    (h0 : first.md < md) (h1 : md ≤ last.md) (cs : List M3) (hcs : cs.length = st.length) :
    ∃ i s1 s2 c1 c2 node c, st[i]? = some s1 ∧ st[i + 1]? = some s2 ∧ cs[i]? = some c1 ∧
      cs[i + 1]? = some c2 ∧ s1.md < md ∧ md ≤ s2.md ∧
      interpolateMd { sv with cov := some cs } f md = some node ∧ node.cov = some c ∧
      (∀ a b, (c a b - c1 a b) * (s2.md - s1.md) = (c2 a b - c1 a b) * (md - s1.md)) ∧
      (IsCov c1 → IsCov c2 → IsCov c) := by
  obtain ⟨hst, hxyz, hnev, hlen⟩ := surveyG_st h
  set mds := st.map Station.md with hmds
  obtain ⟨hb, ha⟩ := searchsortedLeft_spec mds md
  have hle := searchsortedLeft_le mds md
  have hml : mds.length = st.length := by simp [hmds]
  have hlt : searchsortedLeft mds md < mds.length := by
    rcases Nat.lt_or_ge (searchsortedLeft mds md) mds.length with h' | h'
    · exact h'
    · exfalso
      have hl' : mds[mds.length - 1]? = some last.md := by
        rw [List.getLast?_eq_getElem?] at hl
        rw [hmds, List.getElem?_map, List.length_map, hl]; rfl
      have := hb (mds.length - 1) last.md (by omega) hl'
      linarith
  have hne : searchsortedLeft mds md ≠ 0 := by
    intro h'
    have hf' : mds[searchsortedLeft mds md]? = some first.md := by
      rw [h', hmds, List.getElem?_map, ← List.head?_eq_getElem?, hf]; rfl
    have := ha first.md hf'
    linarith
  obtain ⟨i, hi⟩ := Nat.exists_eq_succ_of_ne_zero hne
  have hi1 : i + 1 < st.length := by omega
  have e1 : st[i]? = some st[i] := List.getElem?_eq_getElem (by omega)
  have e2 : st[i + 1]? = some st[i + 1] := List.getElem?_eq_getElem hi1
  have em1 : mds[i]? = some st[i].md := by rw [hmds, List.getElem?_map, e1]; rfl
  have em2 : mds[i + 1]? = some st[i + 1].md := by rw [hmds, List.getElem?_map, e2]; rfl
  have b1 := hb i _ (by omega) em1
  have b2 := ha _ (by rw [hi]; exact em2)
  have hnl : sv.nev.length = st.length := by rw [hnev, hxyz]; simp [positions_length]
  have e3 : sv.nev[i]? = some (sv.nev[i]'(by omega)) := List.getElem?_eq_getElem (by omega)
  have k1 : cs[i]? = some cs[i] := List.getElem?_eq_getElem (by omega)
  have k2 : cs[i + 1]? = some cs[i + 1] := List.getElem?_eq_getElem (by omega)
  have hn : ∃ node, interpolateMd { sv with cov := some cs } f md = some node ∧
      node.cov = some (interpCov st[i] st[i + 1] cs[i] cs[i + 1] (md - st[i].md)) := by
    unfold interpolateMd
    simp only
    rw [hst, ← hmds]
    simp only [hi]
    rw [if_neg (by omega), em1]
    simp only [interpolateSurvey, hst, e1, e2, e3, k1, k2]
    exact ⟨_, rfl, rfl⟩
  obtain ⟨node, hn, hc⟩ := hn
  have hpos : 0 < st[i + 1].md - st[i].md := by linarith
  refine ⟨i, _, _, _, _, node, _, e1, e2, k1, k2, b1, b2, hn, hc, ?_, ?_⟩
  · intro a b
    simp only [interpCov, Matrix.add_apply, Matrix.smul_apply, Matrix.sub_apply, smul_eq_mul]
    field_simp
    ring
  · intro hc1 hc2
    have m0 : 0 ≤ (md - st[i].md) / (st[i + 1].md - st[i].md) :=
      div_nonneg (by linarith) hpos.le
    have m1 : (md - st[i].md) / (st[i + 1].md - st[i].md) ≤ 1 := by
      rw [div_le_one hpos]; linarith
    unfold interpCov
    generalize (md - st[i].md) / (st[i + 1].md - st[i].md) = m at m0 m1
    refine ⟨?_, ?_⟩
    · intro a b
      simp only [Matrix.add_apply, Matrix.smul_apply, Matrix.sub_apply, smul_eq_mul]
      rw [hc1.symm a b, hc2.symm a b]
    · intro v
      have := add_nonneg (mul_nonneg (sub_nonneg.mpr m1) (hc1.nonneg v))
        (mul_nonneg m0 (hc2.nonneg v))
      refine this.trans_eq ?_
      simp only [Fin.sum_univ_three, Matrix.add_apply, Matrix.smul_apply, Matrix.sub_apply,
        smul_eq_mul]
      ring

/-- The hypotheses are met: two stations, half way, between zero and unit covariance. -/
example : ∃ sv xyz, surveyG [⟨0, 0, 0⟩, ⟨10, 0, 0⟩] 0 0 .meters = .ok (sv, xyz) ∧
    (0 : ℝ) < 5 ∧ (5 : ℝ) ≤ 10 ∧ [(0 : M3), 1].length = 2 ∧ IsCov 0 ∧ IsCov (1 : M3) := by
  refine ⟨_, _, rfl, by norm_num, by norm_num, rfl, ⟨by simp, by simp⟩, ⟨?_, ?_⟩⟩
  · intro i j; fin_cases i <;> fin_cases j <;> simp
  · intro v
    simp only [Fin.sum_univ_three]
    simp
    nlinarith [mul_self_nonneg (v 0), mul_self_nonneg (v 1), mul_self_nonneg (v 2)]

end Welleng.Props
