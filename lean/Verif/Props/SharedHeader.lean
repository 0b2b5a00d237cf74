import Verif.Model.SharedHeader
import Verif.Props.VerticalSection
import Mathlib.Analysis.Real.Pi.Bounds

/-!
Properties C188-C190: a survey and its header over a history of calls.
-/

namespace Welleng.Props

open Real Welleng Welleng.Sv Spec Shr

/-! ### C188: queries leave the header alone -/

/-- C188 is false of the code: one interpolation of a survey whose azimuths refer to true or magnetic
north, at any depth within the survey, and the header of that survey says `grid`. -/
theorem C188_header_changed (o : Obj) (md : ℝ) (h : o.header.aziRef ≠ .grid)
    (hmd : Reaches o.mds md) :
    (step o (.interpolateMd md)).header.aziRef = .grid ∧
    (step o (.interpolateMd md)).header ≠ o.header := by
  simp only [step, if_pos hmd]
  refine ⟨rfl, fun he => h ?_⟩
  rw [← he]; rfl

/-- A depth inside a survey of three stations. -/
example : Reaches [0, 30, 60] 40 := by
  simp [Reaches, searchsortedLeft, List.takeWhile]; norm_num

/-- The calls that are not `set_vertical_section`. -/
def Op.query : Op → Prop
  | .setSection _ _ | .sharedSet _ => False
  | _ => True

/-- C188, proved part: the header of a survey whose azimuths refer to grid north is the same after any
history of interpolations and queries, on the survey itself or on surveys derived from it. -/
theorem C188_grid_partial (o : Obj) (ops : List Op) (h : o.header.aziRef = .grid)
    (hq : ∀ op ∈ ops, Op.query op) : (run o ops).header = o.header := by
  induction ops generalizing o with
  | nil => rfl
  | cons op t ih =>
    have hs : (step o op).header = o.header := by
      have hg : toGrid o.header = o.header := by unfold toGrid; rw [← h]
      have := hq op (List.mem_cons_self ..)
      cases op with
      | interpolateMd md => simp only [step]; split_ifs <;> simp [hg]
      | setSection v d => exact this.elim
      | sharedSet v => exact this.elim
      | _ => simp [step, hg]
    have := ih (step o op) (by rw [hs]; exact h) fun p hp => hq p (List.mem_cons_of_mem _ hp)
    rw [hs] at this
    exact this

example : ∀ op ∈ [Op.interpolateMd 40, .getSection 90 true, .maximumCurvature], Op.query op := by
  simp [Op.query]

/-! ### C189: the vertical section does not depend on earlier calls -/

/-- Two lists of stations that differ at most in the azimuth `ref` of vertical stations. -/
def SameBut (ref : AziRef) (a b : List Row) : Prop :=
  List.Forall₂ (fun r s => r.inc = s.inc ∧ r.n = s.n ∧ r.e = s.e ∧
    (r.inc ≠ 0 → r.azi.get ref false = s.azi.get ref false)) a b

theorem sameBut_refl (ref : AziRef) (a : List Row) : SameBut ref a a := by
  induction a with
  | nil => exact .nil
  | cons r t ih => exact .cons ⟨rfl, rfl, rfl, fun _ => rfl⟩ ih

theorem sameBut_section (ref : AziRef) (v : ℝ) {a b : List Row} (h : SameBut ref a b) :
    SameBut ref (getVerticalSection ref v a).1 b := by
  simp only [getVerticalSection]
  induction h with
  | nil => exact .nil
  | cons h t ih =>
    refine .cons ⟨h.1, h.2.1, h.2.2.1, fun hi => ?_⟩ ih
    simp only at hi ⊢
    rw [overwriteVertical, if_neg hi]
    exact h.2.2.2 hi

theorem sameBut_legs (ref : AziRef) (v : ℝ) {a b : List Row} (h : SameBut ref a b) :
    pairwise (legSection ref v) a = pairwise (legSection ref v) b := by
  induction h with
  | nil => rfl
  | cons h t ih =>
    cases t with
    | nil => rfl
    | cons h' t =>
      simp only [pairwise] at ih ⊢
      rw [ih]
      congr 1
      have key : ∀ {r s : Row}, (r.inc = s.inc ∧ r.n = s.n ∧ r.e = s.e ∧
          (r.inc ≠ 0 → r.azi.get ref false = s.azi.get ref false)) → seen ref v r = seen ref v s := by
        intro r s hrs
        unfold seen
        rw [← hrs.1]
        split_ifs with hi
        · rfl
        · exact hrs.2.2.2 hi
      unfold legSection
      rw [key h, key h', h.2.1, h.2.2.1, h'.2.1, h'.2.2.1]

theorem section_legs (ref : AziRef) (v : ℝ) {a b : List Row} (h : SameBut ref a b) :
    (getVerticalSection ref v a).2 = (getVerticalSection ref v b).2 := by
  rw [section_eq, section_eq, sameBut_legs ref v h]

/-- The calls that do not set the header's azimuth reference. -/
def Op.keepsReference : Op → Prop
  | .interpolateMd _ | .maximumCurvature | .sharedInterpolate => False
  | _ => True

/-- C189, proved part: if the azimuths of the survey refer to grid north, or the history contains no
interpolation, the vertical section along any azimuth is the one of the survey as it was entered,
whatever was called before. -/
theorem C189_history_partial (h : Header) (mds : List ℝ) (rows : List Row) (ops : List Op)
    (hh : h.aziRef = .grid ∨ ∀ op ∈ ops, Op.keepsReference op) (azimuth : ℝ) (deg : Bool) :
    answer (run (construct h mds rows) ops) azimuth deg
      = (getVerticalSection h.aziRef (inRadians azimuth deg) rows).2 := by
  have key : ∀ (ops : List Op) (o : Obj), o.header.aziRef = h.aziRef → SameBut h.aziRef o.rows rows →
      (h.aziRef = .grid ∨ ∀ op ∈ ops, Op.keepsReference op) →
      (run o ops).header.aziRef = h.aziRef ∧ SameBut h.aziRef (run o ops).rows rows := by
    intro ops
    induction ops with
    | nil => intro o h1 h2 _; exact ⟨h1, h2⟩
    | cons op t ih =>
      intro o h1 h2 h3
      refine ih (step o op) ?_ ?_ (h3.imp id fun hk p hp => hk p (List.mem_cons_of_mem _ hp))
      · have hk : h.aziRef = .grid ∨ Op.keepsReference op :=
          h3.imp id fun hk => hk op (List.mem_cons_self ..)
        cases op with
        | interpolateMd md =>
          have hg : h.aziRef = .grid := hk.resolve_right id
          simp only [step]; split_ifs
          · exact hg.symm
          · exact h1
        | maximumCurvature => exact (hk.resolve_right id).symm
        | sharedInterpolate => exact (hk.resolve_right id).symm
        | _ => exact h1
      · cases op with
        | interpolateMd md => simp only [step]; split_ifs <;> exact h2
        | getSection v d => simp only [step]; rw [h1]; exact sameBut_section _ _ h2
        | setSection v d => simp only [step]; rw [h1]; exact sameBut_section _ _ h2
        | _ => exact h2
  have h0 : SameBut h.aziRef (construct h mds rows).rows rows := by
    unfold construct
    cases h.verticalSectionAzimuth with
    | none => exact sameBut_refl _ _
    | some v => exact sameBut_section _ _ (sameBut_refl _ _)
  obtain ⟨k1, k2⟩ := key ops (construct h mds rows) rfl h0 hh
  unfold answer
  rw [k1]
  exact section_legs _ _ k2

example : ∀ op ∈ [Op.getSection 90 true, .setSection 45 true, .sharedSet 1], Op.keepsReference op := by
  simp [Op.keepsReference]

/-- A horizontal well of length `L` along the azimuth `0` of a header's reference. -/
theorem straight_rows (h : Header) (L : ℝ) (hL : 0 < L) :
    ∃ r0 r1, surveyRows h 0 0 [⟨0, π / 2, 0⟩, ⟨L, π / 2, 0⟩] .meters = .ok [r0, r1] ∧
      r0.inc ≠ 0 ∧ r1.inc ≠ 0 ∧ r0.azi = processAziRef h false 0 ∧ r1.azi = processAziRef h false 0 ∧
      √((r1.n - r0.n) ^ 2 + (r1.e - r0.e) ^ 2) = L := by
  obtain ⟨r0, r1, hr⟩ : ∃ r0 r1, surveyRows h 0 0 [⟨0, π / 2, 0⟩, ⟨L, π / 2, 0⟩] .meters
      = .ok [r0, r1] := ⟨_, _, rfl⟩
  obtain ⟨-, hrow, hch⟩ := rows_chain _ _ _ _ _ hr
  obtain ⟨i0, a0⟩ := hrow 0 r0 _ rfl rfl
  obtain ⟨i1, a1⟩ := hrow 1 r1 _ rfl rfl
  have hc := (List.isChain_cons_cons.1 hch).1
  refine ⟨r0, r1, hr, by rw [i0]; positivity, by rw [i1]; positivity, a0, a1, ?_⟩
  set γ := (processAziRef h false 0).gridRad
  have hd : getDogleg (π / 2) γ (π / 2) γ = 0 := by
    simp [getDogleg]
  simp only [minCurveStepRf, hd, sin_pi_div_two, one_mul, sub_zero] at hc
  have hrf : getRf 0 = 1 := by simp [getRf]
  rw [hrf] at hc
  rw [hc.1, hc.2]
  have : (L * 1 / 2 * (cos γ + cos γ)) ^ 2 + (L * 1 / 2 * (sin γ + sin γ)) ^ 2 = L ^ 2 := by
    have := sin_sq_add_cos_sq γ
    linear_combination L ^ 2 * this
  rw [this, sqrt_sq hL.le]

theorem section_two (ref : AziRef) (v : ℝ) (r0 r1 : Row) :
    (getVerticalSection ref v [r0, r1]).2 = [0, legSection ref v r0 r1] := by
  rw [section_eq]; simp [pairwise, cumsumR]

/-- C189 is false of the code: a straight horizontal well entered with true azimuth `0`, in a header with
grid convergence `c`.  Its section along true north is its length `L`; after an interpolation the same
call gives `L cos c`. -/
theorem C189_section_changed {c L : ℝ} (hc : cos c ≠ 1) (hL : 0 < L) :
    ∃ rows, surveyRows ⟨.true_, c, 0, 1, some 0, .meters⟩ 0 0 [⟨0, π / 2, 0⟩, ⟨L, π / 2, 0⟩] .meters
        = .ok rows ∧
      answer (run (construct ⟨.true_, c, 0, 1, some 0, .meters⟩ [0, L] rows) []) 0 true = [0, L] ∧
      answer (run (construct ⟨.true_, c, 0, 1, some 0, .meters⟩ [0, L] rows)
        [.interpolateMd (L / 2)]) 0 true = [0, L * cos c] ∧ L * cos c ≠ L := by
  obtain ⟨r0, r1, hr, n0, n1, a0, a1, hlen⟩ :=
    straight_rows ⟨.true_, c, 0, 1, some 0, .meters⟩ L hL
  have hreach : Reaches [0, L] (L / 2) := by
    have h1 : (0 : ℝ) < L / 2 := by linarith
    have h2 : ¬ L < L / 2 := by linarith
    simp [Reaches, searchsortedLeft, List.takeWhile, h1, h2, hL]
  have ho0 : ∀ (v : ℝ), overwriteVertical .true_ v r0.inc r0.azi = r0.azi := fun v => by
    rw [overwriteVertical, if_neg n0]
  have ho1 : ∀ (v : ℝ), overwriteVertical .true_ v r1.inc r1.azi = r1.azi := fun v => by
    rw [overwriteVertical, if_neg n1]
  have hcon : construct ⟨.true_, c, 0, 1, some 0, .meters⟩ [0, L] [r0, r1]
      = ⟨⟨.true_, c, 0, 1, some 0, .meters⟩, [0, L], [r0, r1]⟩ := by
    simp [construct, getVerticalSection, ho0, ho1]
  refine ⟨[r0, r1], hr, ?_, ?_, ?_⟩
  · rw [hcon]
    simp only [run, List.foldl_nil, answer, inRadians, if_true, radians, zero_mul, zero_div]
    rw [section_two, legSection, hlen, seen, if_neg n1, seen, if_neg n0, a0, a1]
    simp [processAziRef, Azis.get]
  · rw [hcon]
    simp only [run, List.foldl_cons, List.foldl_nil, step, if_pos hreach, answer, inRadians, if_true,
      radians, zero_mul, zero_div, toGrid]
    rw [section_two, legSection, hlen, seen, if_neg n1, seen, if_neg n0, a0, a1]
    have : (0 : ℝ) - (-c + -c) / 2 = c := by ring
    simp [processAziRef, Azis.get, this, mul_comm]
  · intro h
    apply hc
    have : L * (cos c - 1) = 0 := by linarith
    rcases mul_eq_zero.1 this with h | h
    · exact absurd h hL.ne'
    · linarith

example : cos (π / 2) ≠ 1 := by simp

/-! ### C190: the section azimuth of derived surveys -/

/-- C190, proved part: an azimuth set in radians is the one along which every survey constructed with the
header afterwards has its section. -/
theorem C190_radians_partial (o : Obj) (v : ℝ) (rows : List Row) :
    sectionAttr (step o (.setSection v false)).header rows
      = some (getVerticalSection o.header.aziRef (inRadians v false) rows).2 := by
  simp [sectionAttr, step, inRadians]

/-- C190 is false of the code: with the default, degrees, the survey's own section is along `1°`, and a
survey with the same stations constructed with its header afterwards has its section along 1 radian. -/
theorem C190_degrees_fail {L : ℝ} (hL : 0 < L) :
    ∃ rows, surveyRows ⟨.grid, 0, 0, 1, some 0, .meters⟩ 0 0 [⟨0, π / 2, 0⟩, ⟨L, π / 2, 0⟩] .meters
        = .ok rows ∧
      answer (construct ⟨.grid, 0, 0, 1, some 0, .meters⟩ [0, L] rows) 1 true
        = [0, cos (π / 180) * L] ∧
      sectionAttr (step (construct ⟨.grid, 0, 0, 1, some 0, .meters⟩ [0, L] rows)
        (.setSection 1 true)).header rows = some [0, cos 1 * L] ∧
      cos 1 * L < cos (π / 180) * L := by
  obtain ⟨r0, r1, hr, n0, n1, a0, a1, hlen⟩ :=
    straight_rows ⟨.grid, 0, 0, 1, some 0, .meters⟩ L hL
  refine ⟨[r0, r1], hr, ?_, ?_, ?_⟩
  · have := C189_history_partial ⟨.grid, 0, 0, 1, some 0, .meters⟩ [0, L] [r0, r1] [] (.inl rfl) 1 true
    rw [run, List.foldl_nil] at this
    rw [this, section_two, legSection, hlen, seen, if_neg n1, seen, if_neg n0, a0, a1]
    simp [processAziRef, Azis.get, inRadians, radians]
  · simp only [sectionAttr, step, construct, Option.map_some]
    rw [section_two, legSection, hlen, seen, if_neg n1, seen, if_neg n0, a0, a1]
    simp [processAziRef, Azis.get]
  · refine mul_lt_mul_of_pos_right ?_ hL
    refine cos_lt_cos_of_nonneg_of_le_pi ?_ ?_ ?_
    · positivity
    · linarith [pi_gt_three]
    · linarith [pi_lt_four]

end Welleng.Props
