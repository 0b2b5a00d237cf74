import Verif.Props.Accuracy
import Verif.Props.Dls

/-!
C414: leaving out stations never raises the largest dogleg severity of a survey.
-/

namespace Welleng.Props

open Real Welleng Spec

theorem forall_pairwise_iff {α β : Type*} (f : α → α → β) (P : β → Prop) : ∀ l : List α,
    (∀ d ∈ pairwise f l, P d) ↔ l.IsChain (fun a b => P (f a b))
  | [] => by simp [pairwise]
  | [a] => by simp [pairwise]
  | a :: b :: t => by
    simp only [pairwise, List.forall_mem_cons, forall_pairwise_iff f P (b :: t),
      List.isChain_cons_cons]

theorem chain_both {α : Type*} {r t : α → α → Prop} : ∀ {l : List α}, l.IsChain r → l.IsChain t →
    l.IsChain fun a b => r a b ∧ t a b
  | [], _, _ => .nil
  | [_], _, _ => .singleton _
  | _ :: _ :: _, h, k => by
    rw [List.isChain_cons_cons] at h k ⊢
    exact ⟨⟨h.1, k.1⟩, chain_both h.2 k.2⟩

theorem severity_le_iff {coeff M : ℝ} (hc : 0 < coeff) (hM : 0 ≤ M) {a b : Station}
    (hab : a.md ≤ b.md) :
    (∃ x ≤ M, dlsOf coeff (dogleg2 a b) (b.md - a.md) = .val x) ↔
      degrees (dogleg2 a b) * coeff ≤ M * (b.md - a.md) := by
  have h0 : 0 ≤ dogleg2 a b := by
    unfold dogleg2; rw [getDogleg_eq_arccos]; exact arccos_nonneg _
  unfold dlsOf
  rcases hab.eq_or_lt with h | h
  · rw [if_pos (by linarith), h, sub_self, mul_zero]
    constructor
    · rintro ⟨x, -, hx⟩
      split_ifs at hx with hd
      simp [hd, degrees]
    · intro hle
      have hd : dogleg2 a b = 0 := by
        by_contra hne
        have hpos : 0 < dogleg2 a b := lt_of_le_of_ne h0 (Ne.symm hne)
        have : 0 < degrees (dogleg2 a b) * coeff := by
          unfold degrees; positivity
        linarith
      exact ⟨0, hM, by rw [if_pos hd]⟩
  · have hp : 0 < b.md - a.md := by linarith
    rw [if_neg hp.ne']
    constructor
    · rintro ⟨x, hx, e⟩
      injection e with e
      rw [← e, div_mul_eq_mul_div, div_le_iff₀ hp] at hx
      exact hx
    · intro hle
      exact ⟨_, by rw [div_mul_eq_mul_div, div_le_iff₀ hp]; exact hle, rfl⟩

theorem minCurve_dls {s : List Station} {start : V3} {u : LenUnit}
    {out : MinCurveOut} (h : minCurve s start u = .ok out) :
    ∃ coeff : ℝ, 0 < coeff ∧ coeff = dlsLength u ∧
      out.dls = .val 0 :: pairwise (fun a b => dlsOf coeff (dogleg2 a b) (b.md - a.md)) s := by
  obtain ⟨s0, s1, rest, rfl⟩ := minCurve_ok_length h
  unfold minCurve at h
  cases u <;> simp only [reduceCtorEq] at h <;> injection h with h <;> subst h
  · exact ⟨30, by norm_num, rfl, by simp⟩
  · exact ⟨100, by norm_num, rfl, by simp⟩

/-- **C414** Stations in order of depth: if no severity of the survey exceeds `M`, none exceeds
`M` after any stations are left out. -/
theorem C414_sparse_severity {rows rows' : List Station} {start start' : V3} {u : LenUnit}
    {out out' : MinCurveOut} {M : ℝ} (h : minCurve rows start u = .ok out)
    (h' : minCurve rows' start' u = .ok out') (hs : rows'.Sublist rows)
    (hmd : rows.Pairwise fun a b => a.md ≤ b.md)
    (hM : ∀ d ∈ out.dls, ∃ x ≤ M, d = .val x) : ∀ d ∈ out'.dls, ∃ x ≤ M, d = .val x := by
  obtain ⟨c, c0, c1, c2⟩ := minCurve_dls h
  obtain ⟨c', -, c1', c2'⟩ := minCurve_dls h'
  obtain rfl : c = c' := c1.trans c1'.symm
  rw [c2, List.forall_mem_cons, forall_pairwise_iff] at hM
  rw [c2', List.forall_mem_cons, forall_pairwise_iff]
  refine ⟨hM.1, ?_⟩
  have hM0 : 0 ≤ M := by
    obtain ⟨x, hx, e⟩ := hM.1
    injection e with e
    rw [e]; exact hx
  have hch : rows.IsChain fun a b => a.md ≤ b.md ∧
      degrees (dogleg2 a b) * c ≤ M * (b.md - a.md) := by
    exact (chain_both hmd.isChain hM.2).imp fun a b k =>
      ⟨k.1, (severity_le_iff c0 hM0 k.1).mp k.2⟩
  have htr : IsTrans Station fun a b => a.md ≤ b.md ∧
      degrees (dogleg2 a b) * c ≤ M * (b.md - a.md) := by
    refine ⟨fun a b d k l => ⟨k.1.trans l.1, ?_⟩⟩
    have t := dogleg2_triangle a b d
    have : degrees (dogleg2 a d) * c ≤ degrees (dogleg2 a b) * c + degrees (dogleg2 b d) * c := by
      unfold degrees
      have hp : 0 < 180 / π * c := by positivity
      have := mul_le_mul_of_nonneg_right t hp.le
      calc dogleg2 a d * 180 / π * c = dogleg2 a d * (180 / π * c) := by ring
        _ ≤ _ := this
        _ = _ := by ring
    linarith [k.2, l.2]
  have hpw := List.isChain_iff_pairwise.mp hch
  exact (hpw.sublist hs).isChain.imp fun a b k => (severity_le_iff c0 hM0 k.1).mpr k.2

/-- C414: a well that builds one radian in 30 m and drops it again; the station between left out. -/
example : ∃ out out', minCurve [⟨0, 0, 0⟩, ⟨30, 1, 0⟩, ⟨60, 0, 0⟩] 0 .meters = .ok out ∧
    minCurve [⟨0, 0, 0⟩, ⟨60, 0, 0⟩] 0 .meters = .ok out' ∧
    (∀ d ∈ out.dls, ∃ x ≤ 180, d = .val x) ∧ ∀ d ∈ out'.dls, ∃ x ≤ 180, d = .val x := by
  obtain ⟨out, h⟩ : ∃ out, minCurve [⟨0, 0, 0⟩, ⟨30, 1, 0⟩, ⟨60, 0, 0⟩] 0 .meters = .ok out :=
    ⟨_, rfl⟩
  obtain ⟨out', h'⟩ : ∃ out, minCurve [⟨0, 0, 0⟩, ⟨60, 0, 0⟩] 0 .meters = .ok out := ⟨_, rfl⟩
  have hb : ∀ d ∈ out.dls, ∃ x ≤ (180 : ℝ), d = .val x := by
    obtain ⟨c, c0, c1, c2⟩ := minCurve_dls h
    have hc : c = 30 := c1
    have hpi : ∀ a b : Station, degrees (dogleg2 a b) ≤ 180 := fun a b => by
      unfold degrees dogleg2
      rw [getDogleg_eq_arccos, div_le_iff₀ pi_pos]
      linarith [arccos_le_pi (V3.dot (tangent a.inc a.azi) (tangent b.inc b.azi))]
    rw [c2]
    simp only [pairwise, List.forall_mem_cons]
    refine ⟨⟨0, by norm_num, rfl⟩, ?_, ?_, by simp⟩
    · refine (severity_le_iff c0 (by norm_num) (by norm_num)).mpr ?_
      rw [hc]; linarith [hpi ⟨0, 0, 0⟩ ⟨30, 1, 0⟩]
    · refine (severity_le_iff c0 (by norm_num) (by norm_num)).mpr ?_
      rw [hc]; linarith [hpi ⟨30, 1, 0⟩ ⟨60, 0, 0⟩]
  exact ⟨out, out', h, h', hb, C414_sparse_severity h h' (.cons_cons _ (.cons _ (.cons_cons _ .slnil)))
    (by norm_num) hb⟩

end Welleng.Props
