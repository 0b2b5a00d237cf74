import Verif.Lemmas.Survey
import Mathlib.Tactic.NormNum

/-!
Property C22: the vertical section of a survey (`/repo/welleng/survey.py` 1265-1342).
-/

namespace Welleng.Props

open Real Welleng Welleng.Sv Spec

/-- The section that property C22 asks for: the horizontal displacement from the first station
projected on the section azimuth (measured from grid north). -/
noncomputable def projected (gridVsa : ℝ) (first r : Row) : ℝ :=
  (r.n - first.n) * cos gridVsa + (r.e - first.e) * sin gridVsa

/-- The azimuth (radians, in the reference `ref`) of a station that the section code sees. -/
noncomputable def seen (ref : AziRef) (vsa : ℝ) (r : Row) : ℝ :=
  if r.inc = 0 then vsa else r.azi.get ref false

private theorem seen_eq (ref : AziRef) (vsa : ℝ) (r : Row) :
    (overwriteVertical ref vsa r.inc r.azi).get ref false = seen ref vsa r := by
  unfold overwriteVertical seen
  split_ifs
  · cases ref <;> rfl
  · rfl

private theorem pairwise_map {α β γ : Type*} (f : β → β → γ) (g : α → β) (l : List α) :
    pairwise f (l.map g) = pairwise (fun a b => f (g a) (g b)) l := by
  match l with
  | [] => rfl
  | [_] => rfl
  | a :: b :: t =>
    have := pairwise_map f g (b :: t)
    simp only [List.map_cons, pairwise] at this ⊢
    rw [this]

/-- The contribution of one interval. -/
noncomputable def legSection (ref : AziRef) (vsa : ℝ) (a b : Row) : ℝ :=
  cos (vsa - (seen ref vsa b + seen ref vsa a) / 2) * √((b.n - a.n) ^ 2 + (b.e - a.e) ^ 2)

theorem section_eq (ref : AziRef) (vsa : ℝ) (rows : List Row) :
    (getVerticalSection ref vsa rows).2 = cumsumR 0 (0 :: pairwise (legSection ref vsa) rows) := by
  simp only [getVerticalSection, pairwise_map, seen_eq]
  rfl

/-- C22: the vertical section is zero at the first station and has one value per station. -/
theorem C22_starts_at_zero (ref : AziRef) (vsa : ℝ) (r : Row) (rows : List Row) :
    (getVerticalSection ref vsa (r :: rows)).2[0]? = some 0 ∧
    (getVerticalSection ref vsa (r :: rows)).2.length = (r :: rows).length := by
  rw [section_eq]
  simp [cumsumR, cumsumR_length, pairwise_length]

private theorem section_get (ref : AziRef) (vsa : ℝ) (r0 : Row) (rows : List Row) (k : ℕ)
    (hk : k < (r0 :: rows).length) :
    (getVerticalSection ref vsa (r0 :: rows)).2[k]?
      = some ((pairwise (legSection ref vsa) (r0 :: rows)).take k).sum := by
  rw [section_eq, cumsumR_getElem? _ _ _ (by simpa [pairwise_length] using hk)]
  simp

/-- C22: the vertical section equals the projection of the horizontal displacement on the
section azimuth for every survey in which each interval's horizontal displacement points along
the mean of its two station azimuths.  `δ` is the angle from grid north to the reference
north. -/
theorem C22_projection_partial (ref : AziRef) (vsa δ : ℝ) (r0 : Row) (rows : List Row)
    (hleg : List.IsChain (fun a b =>
      b.n - a.n = √((b.n - a.n) ^ 2 + (b.e - a.e) ^ 2)
        * cos ((seen ref vsa b + seen ref vsa a) / 2 - δ) ∧
      b.e - a.e = √((b.n - a.n) ^ 2 + (b.e - a.e) ^ 2)
        * sin ((seen ref vsa b + seen ref vsa a) / 2 - δ)) (r0 :: rows))
    (k : ℕ) (r : Row) (hr : (r0 :: rows)[k]? = some r) :
    (getVerticalSection ref vsa (r0 :: rows)).2[k]? = some (projected (vsa - δ) r0 r) := by
  have hk : k < (r0 :: rows).length := (List.getElem?_eq_some_iff.1 hr).1
  rw [section_get _ _ _ _ _ hk, pairwise_sum (legSection ref vsa)
    (fun r => r.n * cos (vsa - δ) + r.e * sin (vsa - δ)) r0 rows _ k r hr]
  · unfold projected; congr 1; ring
  · refine hleg.imp ?_
    intro a b hab
    unfold legSection
    set H := √((b.n - a.n) ^ 2 + (b.e - a.e) ^ 2)
    set m := (seen ref vsa b + seen ref vsa a) / 2
    have : b.n * cos (vsa - δ) + b.e * sin (vsa - δ) - (a.n * cos (vsa - δ) + a.e * sin (vsa - δ))
        = (b.n - a.n) * cos (vsa - δ) + (b.e - a.e) * sin (vsa - δ) := by ring
    rw [this, hab.1, hab.2]
    have e : vsa - m = (vsa - δ) - (m - δ) := by ring
    rw [e, cos_sub]; ring

/-- C22: the vertical section never exceeds the horizontal length of the path, for every
survey. -/
theorem C22_bounded_by_horizontal_path (ref : AziRef) (vsa : ℝ) (r0 : Row) (rows : List Row)
    (k : ℕ) (v : ℝ) (hv : (getVerticalSection ref vsa (r0 :: rows)).2[k]? = some v) :
    |v| ≤ ((pairwise (fun a b => √((b.n - a.n) ^ 2 + (b.e - a.e) ^ 2)) (r0 :: rows)).take k).sum := by
  have hk : k < (r0 :: rows).length := by
    have := (List.getElem?_eq_some_iff.1 hv).1
    rwa [(C22_starts_at_zero ref vsa r0 rows).2] at this
  rw [section_get _ _ _ _ _ hk] at hv
  obtain rfl := Option.some.inj hv
  clear hv hk
  induction rows generalizing r0 k with
  | nil => simp [pairwise]
  | cons b t ih =>
    cases k with
    | zero => simp
    | succ k =>
      simp only [pairwise, List.take_succ_cons, List.sum_cons]
      refine (abs_add_le _ _).trans (add_le_add ?_ (ih b k))
      unfold legSection
      rw [abs_mul, abs_of_nonneg (sqrt_nonneg _)]
      exact mul_le_of_le_one_left (sqrt_nonneg _) (abs_cos_le_one _)

/-! ### Wells in one vertical plane -/

theorem rows_chain (h : Header) (u : LenUnit) (sx sn : V3) (st : List Station)
    {rows : List Row} (hok : surveyRows h sx sn st u = .ok rows) :
    rows.length = st.length ∧
    (∀ (k : ℕ) (r : Row) (s : Station), rows[k]? = some r → st[k]? = some s →
      r.inc = s.inc ∧ r.azi = processAziRef h false s.azi) ∧
    List.IsChain (fun (p q : Station × Row) =>
      let d := minCurveStepRf (q.1.md - p.1.md) p.1.inc (processAziRef h false p.1.azi).gridRad
        q.1.inc (processAziRef h false q.1.azi).gridRad
        (getRf (getDogleg p.1.inc (processAziRef h false p.1.azi).gridRad
          q.1.inc (processAziRef h false q.1.azi).gridRad))
      q.2.n - p.2.n = d.x ∧ q.2.e - p.2.e = d.y) (st.zip rows) := by
  simp only [surveyRows, positionTables] at hok
  set g : Station → Station := fun s => { s with azi := (processAziRef h false s.azi).gridRad }
    with hg
  cases hm : minCurve (st.map g) sx u with
  | error e => rw [hm] at hok; simp at hok
  | ok out =>
    rw [hm] at hok
    simp only [Except.ok.injEq] at hok
    rw [minCurve_poss hm] at hok
    clear hm
    rw [← hok]; clear hok
    have hlen : ∀ (p : V3) (l : List Station),
        (List.zipWith (fun s (p : V3) => (⟨s.inc, processAziRef h false s.azi, p.x, p.y⟩ : Row)) l
          ((positions p (l.map g)).map (nevAttr sx sn))).length = l.length := by
      intro p l; simp [positions_length]
    refine ⟨hlen sx st, ?_, ?_⟩
    · intro k r s hr hs
      rw [List.getElem?_zipWith, hs] at hr
      split at hr
      · rename_i s' p' h1 h2
        simp only [Option.some.injEq] at h1 hr
        subst h1; subst hr; exact ⟨rfl, rfl⟩
      · simp at hr
    · have key : ∀ (l : List Station) (p : V3), List.IsChain (fun (p q : Station × Row) =>
          let d := minCurveStepRf (q.1.md - p.1.md) p.1.inc (processAziRef h false p.1.azi).gridRad
            q.1.inc (processAziRef h false q.1.azi).gridRad
            (getRf (getDogleg p.1.inc (processAziRef h false p.1.azi).gridRad
              q.1.inc (processAziRef h false q.1.azi).gridRad))
          q.2.n - p.2.n = d.x ∧ q.2.e - p.2.e = d.y)
          (l.zip (List.zipWith (fun s (p : V3) =>
            (⟨s.inc, processAziRef h false s.azi, p.x, p.y⟩ : Row)) l
              ((positions p (l.map g)).map (nevAttr sx sn)))) := by
        intro l
        induction l with
        | nil => intro p; exact List.IsChain.nil
        | cons a t ih =>
          intro p
          cases t with
          | nil => simp [positions, pairwise, cumsumFrom]
          | cons b t =>
            have hI := ih (p + deltaXyz (g a) (g b))
            simp only [List.map_cons] at hI ⊢
            rw [positions_cons2]
            simp only [List.map_cons, List.zipWith_cons_cons, List.zip_cons_cons] at hI ⊢
            have hpos : ∃ tl, positions (p + deltaXyz (g a) (g b)) (g b :: t.map g)
                = (p + deltaXyz (g a) (g b)) :: tl := ⟨_, rfl⟩
            obtain ⟨tl, htl⟩ := hpos
            rw [htl] at hI ⊢
            simp only [List.map_cons, List.zipWith_cons_cons, List.zip_cons_cons] at hI ⊢
            refine List.isChain_cons_cons.2 ⟨?_, hI⟩
            simp only [nevAttr, getNev, V3.add_x, V3.add_y, V3.sub_x, V3.sub_y, deltaXyz, dogleg2,
              hg]
            constructor <;> ring
      exact key st sx

/-- C22: for a well drilled in one vertical plane (all stations entered with the same azimuth),
away from vertical, the vertical section is exactly the projection on the section azimuth. -/
theorem C22_planar_well_partial (h : Header) (u : LenUnit) (sx sn : V3) (st : List Station) (α vsa : ℝ)
    {r0 : Row} {rows : List Row} (hok : surveyRows h sx sn st u = .ok (r0 :: rows))
    (hplane : ∀ s ∈ st, s.azi = α ∧ 0 < s.inc ∧ s.inc < π)
    (hmd : List.IsChain (fun a b => a.md ≤ b.md) st)
    (k : ℕ) (r : Row) (hr : (r0 :: rows)[k]? = some r) :
    (getVerticalSection h.aziRef vsa (r0 :: rows)).2[k]?
      = some (projected (vsa - (α - (processAziRef h false α).gridRad)) r0 r) := by
  obtain ⟨hlen, hrow, hch⟩ := rows_chain h u sx sn st hok
  refine C22_projection_partial _ _ _ _ _ ?_ k r hr
  rw [List.isChain_iff_getElem] at hch hmd ⊢
  intro i hi
  have hi' : i + 1 < (st.zip (r0 :: rows)).length := by
    rw [List.length_zip, hlen, min_self]; omega
  have hst : i + 1 < st.length := by omega
  have hc := hch i hi'
  have hm := hmd i hst
  simp only [List.getElem_zip] at hc
  obtain ⟨pa1, pa2, pa3⟩ := hplane _ (List.getElem_mem (by omega : i < st.length))
  obtain ⟨pb1, pb2, pb3⟩ := hplane _ (List.getElem_mem hst)
  obtain ⟨ra1, ra2⟩ := hrow i _ _ (List.getElem?_eq_getElem (by omega))
    (List.getElem?_eq_getElem (by omega))
  obtain ⟨rb1, rb2⟩ := hrow (i + 1) _ _ (List.getElem?_eq_getElem (by omega))
    (List.getElem?_eq_getElem (by omega))
  have hin : (processAziRef h false α).get h.aziRef false = α := by
    unfold processAziRef; cases h.aziRef <;> rfl
  set a := (r0 :: rows)[i]
  set b := (r0 :: rows)[i + 1]
  have sa : seen h.aziRef vsa a = α := by
    unfold seen; rw [if_neg (by rw [ra1]; exact pa2.ne'), ra2, pa1, hin]
  have sb : seen h.aziRef vsa b = α := by
    unfold seen; rw [if_neg (by rw [rb1]; exact pb2.ne'), rb2, pb1, hin]
  rw [sa, sb, show (α + α) / 2 - (α - (processAziRef h false α).gridRad)
    = (processAziRef h false α).gridRad by ring]
  rw [pa1, pb1] at hc
  set γ := (processAziRef h false α).gridRad
  simp only [minCurveStepRf] at hc
  set c := (st[i + 1].md - st[i].md) * getRf (getDogleg st[i].inc γ st[i + 1].inc γ) / 2 with hcdef
  have hc0 : 0 ≤ c := by
    have := getRf_nonneg (getDogleg_nonneg st[i].inc γ st[i + 1].inc γ)
      (getDogleg_le_pi st[i].inc γ st[i + 1].inc γ)
    have h2 : 0 ≤ st[i + 1].md - st[i].md := by linarith
    positivity
  have s1 := sin_pos_of_pos_of_lt_pi pa2 pa3
  have s2 := sin_pos_of_pos_of_lt_pi pb2 pb3
  have e1 : b.n - a.n = c * (sin st[i].inc + sin st[i + 1].inc) * cos γ := by rw [hc.1]; ring
  have e2 : b.e - a.e = c * (sin st[i].inc + sin st[i + 1].inc) * sin γ := by rw [hc.2]; ring
  have eH : √((b.n - a.n) ^ 2 + (b.e - a.e) ^ 2) = c * (sin st[i].inc + sin st[i + 1].inc) := by
    rw [e1, e2]
    have : (c * (sin st[i].inc + sin st[i + 1].inc) * cos γ) ^ 2
        + (c * (sin st[i].inc + sin st[i + 1].inc) * sin γ) ^ 2
        = (c * (sin st[i].inc + sin st[i + 1].inc)) ^ 2 := by
      have := sin_sq_add_cos_sq γ
      linear_combination (c * (sin st[i].inc + sin st[i + 1].inc)) ^ 2 * this
    rw [this, sqrt_sq (by positivity)]
  rw [eH]
  exact ⟨e1, e2⟩

/-- A build section in a plane meets the hypotheses. -/
example : ∃ r0 rows, surveyRows ⟨.true_, 0.02, 0, 1, some 0, .meters⟩ 0 0
    [⟨0, 0.1, 1⟩, ⟨30, 0.2, 1⟩, ⟨60, 0.3, 1⟩] .meters = .ok (r0 :: rows) := ⟨_, _, rfl⟩

/-! ### The property is false in general -/

/-- C22 is false of the code: for a horizontal interval crossing north (azimuths `2π - t` and
`t`) the mean azimuth points south, and the section towards north has the wrong sign. -/
theorem C22_sign_flips_across_north {t L : ℝ} (ht0 : 0 < t) (ht1 : t < π / 2) (hL : 0 < L) :
    ∃ r0 r1, surveyRows ⟨.grid, 0, 0, 1, some 0, .meters⟩ 0 0
        [⟨0, π / 2, 2 * π - t⟩, ⟨L, π / 2, t⟩] .meters = .ok [r0, r1] ∧
      0 < projected 0 r0 r1 ∧
      (getVerticalSection .grid 0 [r0, r1]).2[1]? = some (-projected 0 r0 r1) := by
  have hpi := pi_pos
  obtain ⟨r0, r1, hr⟩ : ∃ r0 r1, surveyRows ⟨.grid, 0, 0, 1, some 0, .meters⟩ 0 0
        [⟨0, π / 2, 2 * π - t⟩, ⟨L, π / 2, t⟩] .meters = .ok [r0, r1] := ⟨_, _, rfl⟩
  refine ⟨r0, r1, hr, ?_⟩
  obtain ⟨-, hrow, hch⟩ := rows_chain _ _ _ _ _ hr
  obtain ⟨i0, a0⟩ := hrow 0 r0 _ rfl rfl
  obtain ⟨i1, a1⟩ := hrow 1 r1 _ rfl rfl
  have hc := (List.isChain_cons_cons.1 hch).1
  have hct : cos (2 * π - t) = cos t := cos_two_pi_sub t
  have hst : sin (2 * π - t) = -sin t := sin_two_pi_sub t
  simp only [processAziRef, minCurveStepRf, if_false, Bool.false_eq_true, sin_pi_div_two, hct, hst,
    one_mul, sub_zero] at hc
  set rf := getRf (getDogleg (π / 2) (2 * π - t) (π / 2) t) with hrf
  have hdl : getDogleg (π / 2) (2 * π - t) (π / 2) t < π := by
    rcases (getDogleg_le_pi (π / 2) (2 * π - t) (π / 2) t).lt_or_eq with h | h
    · exact h
    · exfalso
      have hcd := cos_getDogleg (π / 2) (2 * π - t) (π / 2) t
      rw [h, cos_pi] at hcd
      simp only [V3.dot, tangent, hct, hst, sin_pi_div_two, cos_pi_div_two] at hcd
      have hcp : 0 < cos t := cos_pos_of_mem_Ioo ⟨by linarith, ht1⟩
      have := sin_sq_add_cos_sq t
      nlinarith
  have hrfp : 0 < rf := getRf_pos (getDogleg_nonneg _ _ _ _) hdl
  have hcp : 0 < cos t := cos_pos_of_mem_Ioo ⟨by linarith, ht1⟩
  have hn : r1.n - r0.n = L * rf * cos t := by rw [hc.1]; ring
  have he : r1.e - r0.e = 0 := by rw [hc.2]; ring
  have hp : projected 0 r0 r1 = L * rf * cos t := by
    simp [projected, hn]
  refine ⟨by rw [hp]; positivity, ?_⟩
  rw [section_get _ _ _ _ _ (by simp)]
  simp only [pairwise, List.take_succ_cons, List.take_zero, List.sum_cons, List.sum_nil, add_zero]
  have ne0 : r0.inc ≠ 0 := by rw [i0]; positivity
  have ne1 : r1.inc ≠ 0 := by rw [i1]; positivity
  have s0 : seen .grid 0 r0 = 2 * π - t := by
    rw [seen, if_neg ne0, a0]; rfl
  have s1 : seen .grid 0 r1 = t := by
    rw [seen, if_neg ne1, a1]; rfl
  rw [legSection, s0, s1, he, hn, hp, show 0 - (t + (2 * π - t)) / 2 = -π by ring, cos_neg, cos_pi]
  congr 1
  rw [show (L * rf * cos t) ^ 2 + (0 : ℝ) ^ 2 = (L * rf * cos t) ^ 2 by ring,
    sqrt_sq (by positivity)]
  ring

/-- C22 is false of the code: kicking off from vertical to the south, the section towards north
is reported as zero instead of the (negative) northing. -/
theorem C22_kickoff_from_vertical {i L : ℝ} (h0 : 0 < i) (h1 : i < π) (hL : 0 < L) :
    ∃ r0 r1, surveyRows ⟨.grid, 0, 0, 1, some 0, .meters⟩ 0 0
        [⟨0, 0, π⟩, ⟨L, i, π⟩] .meters = .ok [r0, r1] ∧
      projected 0 r0 r1 < 0 ∧
      (getVerticalSection .grid 0 [r0, r1]).2[1]? = some 0 := by
  have hpi := pi_pos
  obtain ⟨r0, r1, hr⟩ : ∃ r0 r1, surveyRows ⟨.grid, 0, 0, 1, some 0, .meters⟩ 0 0
        [⟨0, 0, π⟩, ⟨L, i, π⟩] .meters = .ok [r0, r1] := ⟨_, _, rfl⟩
  refine ⟨r0, r1, hr, ?_⟩
  obtain ⟨-, hrow, hch⟩ := rows_chain _ _ _ _ _ hr
  obtain ⟨i0, a0⟩ := hrow 0 r0 _ rfl rfl
  obtain ⟨i1, a1⟩ := hrow 1 r1 _ rfl rfl
  have hc := (List.isChain_cons_cons.1 hch).1
  simp only [processAziRef, minCurveStepRf, if_false, Bool.false_eq_true, sin_zero, cos_pi,
    zero_mul, zero_add, sub_zero, sin_pi, mul_zero] at hc
  set rf := getRf (getDogleg 0 π i π) with hrf
  have hdl : getDogleg 0 π i π < π := by
    rcases (getDogleg_le_pi 0 π i π).lt_or_eq with h | h
    · exact h
    · exfalso
      have hcd := cos_getDogleg 0 π i π
      rw [h, cos_pi] at hcd
      simp [V3.dot, tangent] at hcd
      have hlt : cos π < cos i := cos_lt_cos_of_nonneg_of_le_pi h0.le le_rfl h1
      rw [cos_pi] at hlt
      linarith
  have hrfp : 0 < rf := getRf_pos (getDogleg_nonneg _ _ _ _) hdl
  have hs : 0 < sin i := sin_pos_of_pos_of_lt_pi h0 h1
  refine ⟨?_, ?_⟩
  · simp only [projected, cos_zero, sin_zero, hc.1]
    have : 0 < L * rf / 2 * sin i := by positivity
    linarith
  · rw [section_get _ _ _ _ _ (by simp)]
    simp only [pairwise, List.take_succ_cons, List.take_zero, List.sum_cons, List.sum_nil, add_zero]
    have ne1 : r1.inc ≠ 0 := by rw [i1]; exact h0.ne'
    have s0 : seen .grid 0 r0 = 0 := by rw [seen, if_pos i0]
    have s1 : seen .grid 0 r1 = π := by
      rw [seen, if_neg ne1, a1]; rfl
    rw [legSection, s0, s1, show 0 - (π + 0) / 2 = -(π / 2) by ring, cos_neg, cos_pi_div_two, zero_mul]

end Welleng.Props
