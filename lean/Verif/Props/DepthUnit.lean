import Verif.Props.Weights

/-!
C312: the uncertainty and the depth unit.
-/

namespace Welleng.Props

open Real Finset Spec Err

/-- The same survey with all lengths expressed in a unit `a` times smaller; the tortuosity of the tool
model stays as it is. -/
def lengthsTimes (a : ℝ) (c : Ctx) : Ctx := { c with
  s := { c.s with md := fun k => a * c.s.md k }
  tvd := fun k => a * c.tvd k }

/-- The tortuosity of the tool model expressed in the same unit. -/
noncomputable def tortuosityPer (a : ℝ) (c : Ctx) : Ctx := { c with
  tortuosity := c.tortuosity.map fun t => t / a }

/-- The sources whose magnitudes are angles, ratios, accelerations or fields and whose weights hold no
length of their own. -/
def lengthFree : Func → Bool
  | .DREF | .DST | .XCLA | .XCLH | .XYM3E | .XYM4E | .XYM3L | .XYM4L => false
  | _ => true

/-- The sources whose weights compare the course length with ten metres. -/
def tenMetres : Func → Bool
  | .XYM3E | .XYM4E | .XYM3L | .XYM4L => true
  | _ => false

/-- Factor of a magnitude when lengths are expressed in a unit `a` times smaller: a length (`DREF`),
the inverse of a length (`DST`), anything else. -/
noncomputable def lengthFactor (a : ℝ) : Func → ℝ
  | .DREF => a
  | .DST => 1 / a
  | _ => 1

/-- The derivatives by depth do not change, those by the angles grow with the unit. -/
theorem drdp_lengths (a : ℝ) (c : Ctx) (k : ℕ) (i : Fin 18) :
    drdp (lengthsTimes a c).s k i
      = (if i ∈ [0, 1, 2, 9, 10, 11] then 1 else a) * drdp c.s k i := by
  have hn : (lengthsTimes a c).s.n = c.s.n := rfl
  have hr : (lengthsTimes a c).s.rev4 = c.s.rev4 := rfl
  have hi : (lengthsTimes a c).s.inc = c.s.inc := rfl
  have ha : (lengthsTimes a c).s.azi = c.s.azi := rfl
  have hm : ∀ j, (lengthsTimes a c).s.md j = a * c.s.md j := fun _ => rfl
  simp only [drdp, hn, hr, hi, ha, hm]
  by_cases h1 : 1 ≤ k <;> by_cases h2 : k + 1 < c.s.n <;>
    by_cases h3 : (!c.s.rev4 && k == 1) = true <;>
    simp only [h1, h2, h3, if_true, if_false] <;>
    fin_cases i <;> simp <;> ring

theorem eNEV_lengths (a : ℝ) (c : Ctx) {e e' : ℕ → V}
    (h : ∀ k, e' k 0 = a * e k 0 ∧ e' k 1 = e k 1 ∧ e' k 2 = e k 2) :
    eNEV (lengthsTimes a c).s e' = a • eNEV c.s e := by
  funext k i
  obtain ⟨h0, h1, h2⟩ := h k
  simp only [eNEV, Pi.smul_apply]
  split
  · simp
  · fin_cases i <;> simp [h0, h1, h2, drdp_lengths] <;> ring

theorem eNEVStar_lengths (a : ℝ) (c : Ctx) {e e' : ℕ → V}
    (h : ∀ k, e' k 0 = a * e k 0 ∧ e' k 1 = e k 1 ∧ e' k 2 = e k 2) :
    eNEVStar (lengthsTimes a c).s e' = a • eNEVStar c.s e := by
  funext k i
  obtain ⟨h0, h1, h2⟩ := h k
  simp only [eNEVStar, Pi.smul_apply]
  split
  · simp
  · fin_cases i <;> simp [h0, h1, h2, drdp_lengths] <;> ring

theorem dmd_lengths (a : ℝ) (c : Ctx) (k : ℕ) : (lengthsTimes a c).dmd k = a * c.dmd k := by
  simp only [Ctx.dmd, lengthsTimes]; ring

theorem dmd2_lengths (a : ℝ) (c : Ctx) (k : ℕ) : (lengthsTimes a c).dmd2 k = a * c.dmd2 k := by
  simp only [Ctx.dmd2, lengthsTimes]; ring

theorem eDIA_lengths {a : ℝ} (ha : a ≠ 0) (c : Ctx) {f : Func} (hx : ¬(f = .XCLA ∨ f = .XCLH))
    (hf : tenMetres f = false) (τ τ' mag : ℝ) (k : ℕ) :
    eDIA f (lengthsTimes a c) τ' (lengthFactor a f * mag) k 0 = a * eDIA f c τ mag k 0 ∧
    eDIA f (lengthsTimes a c) τ' (lengthFactor a f * mag) k 1 = eDIA f c τ mag k 1 ∧
    eDIA f (lengthsTimes a c) τ' (lengthFactor a f * mag) k 2 = eDIA f c τ mag k 2 := by
  cases f <;> simp [tenMetres] at hf hx <;>
    simp [eDIA, dpde, lengthFactor, lengthsTimes, Ctx.si, Ctx.ci, Ctx.sm, Ctx.cm, Ctx.st, Ctx.ct, Ctx.mix,
      Ctx.funky]
  · ring
  · field_simp

theorem singABXY_lengths (a : ℝ) (c : Ctx) (mag : ℝ) (b : Bool) :
    singABXY (lengthsTimes a c) mag b = (singABXY c mag b).map (scalePair a) := by
  simp only [singABXY]
  have h1 : (inner (lengthsTimes a c) fun k =>
      ![0.5 * (lengthsTimes a c).dmd2 k * -(lengthsTimes a c).st k * mag / (lengthsTimes a c).G,
        0.5 * (lengthsTimes a c).dmd2 k * (lengthsTimes a c).ct k * mag / (lengthsTimes a c).G, 0])
      = a • inner c fun k =>
      ![0.5 * c.dmd2 k * -c.st k * mag / c.G, 0.5 * c.dmd2 k * c.ct k * mag / c.G, 0] := by
    refine inner_smul c a _ _ fun k => ?_
    simp only [dmd2_lengths]
    funext i; fin_cases i <;> simp [lengthsTimes, Ctx.st, Ctx.ct] <;> ring
  have h2 : (inner (lengthsTimes a c) fun k =>
      ![0.5 * (lengthsTimes a c).dmd k * -(lengthsTimes a c).st k * mag / (lengthsTimes a c).G,
        0.5 * (lengthsTimes a c).dmd k * (lengthsTimes a c).ct k * mag / (lengthsTimes a c).G, 0])
      = a • inner c fun k =>
      ![0.5 * c.dmd k * -c.st k * mag / c.G, 0.5 * c.dmd k * c.ct k * mag / c.G, 0] := by
    refine inner_smul c a _ _ fun k => ?_
    simp only [dmd_lengths]
    funext i; fin_cases i <;> simp [lengthsTimes, Ctx.st, Ctx.ct] <;> ring
  rw [h1, h2]
  split
  · have hn : (lengthsTimes a c).s.n = c.s.n := rfl
    rw [hn]
    split
    · rfl
    · simp only [Except.map, scalePair]
      congr 2 <;> (apply setRow1_smul; simp only [lengthsTimes]; ring)
  · rfl

theorem singRows_lengths (a : ℝ) (c : Ctx) {f : Func} (hf : tenMetres f = false) (τ τ' mag : ℝ) :
    singRows f (lengthsTimes a c) τ' (lengthFactor a f * mag)
      = (singRows f c τ mag).map fun r => r.map (scalePair a) := by
  cases f <;> simp [tenMetres] at hf <;>
    simp only [singRows, Option.map_none, Option.map_some, lengthFactor, one_mul, singABXY_lengths,
      Except.map]
  case ABXY_TI2 => rfl
  case CNA =>
    have : cnaAzi (lengthsTimes a c) = cnaAzi c := rfl
    rw [this]
    split
    · rfl
    · simp only [scalePair, dmd_lengths, dmd2_lengths]
      congr 3 <;> (refine inner_smul c a _ _ fun k => ?_; funext i; fin_cases i <;> simp <;> ring)
  case XYM3 | XYM4 =>
    simp only [scalePair, dmd_lengths, dmd2_lengths]
    congr 3 <;> (refine inner_smul c a _ _ fun k => ?_; funext i; fin_cases i <;> simp <;> ring)

/-- What a source contributes in the other unit, in terms of its error vectors. -/
theorem generate_lengths (a : ℝ) (s s' : Sv) (e e' : ℕ → V) (p : Prop') (x y : ℕ → V)
    {t : Term} (h : generateError s e p (some (x, y)) = some t) :
    ∃ t', generateError s' e' p (some (a • x, a • y)) = some t' ∧ ∀ k, t'.cov k = a ^ 2 • t.cov k := by
  simp only [generateError, propagate_smul] at h ⊢
  cases hp : propagate p x y with
  | none => rw [hp] at h; simp at h
  | some v =>
    rw [hp] at h
    simp only [Option.map_some, Option.some.injEq] at h
    subst h
    exact ⟨_, rfl, fun k => rfl⟩

theorem generate_none (s : Sv) (e : ℕ → V) (p : Prop') :
    generateError s e p none = generateError s e p (some (eNEV s e, eNEVStar s e)) := rfl

/-- **C312** (all sources but the four that compare the course length with ten metres; `DREF` and
`DST` with the magnitude, `XCLA` and `XCLH` with the tortuosity, converted): expressing lengths in a
unit `a` times smaller multiplies every covariance of the source by `a²`. -/
theorem C312_converted_partial {a : ℝ} (ha : 0 < a) {f : Func} (hf : tenMetres f = false) (c : Ctx)
    {mag : ℝ} {p : Prop'} {t : Term} (h : callFunc f c mag p = .ok (some t)) :
    ∃ t', callFunc f (tortuosityPer a (lengthsTimes a c)) (lengthFactor a f * mag) p = .ok (some t') ∧
      ∀ k, t'.cov k = a ^ 2 • t.cov k := by
  have hs : ∀ g τ m, singRows g (tortuosityPer a (lengthsTimes a c)) τ m
      = singRows g (lengthsTimes a c) τ m := fun g τ m => by cases g <;> rfl
  have he : ∀ g τ m, eDIA g (tortuosityPer a (lengthsTimes a c)) τ m = eDIA g (lengthsTimes a c) τ m :=
    fun g τ m => by funext k; cases g <;> rfl
  have hr : ∀ x y, replaceSing (tortuosityPer a (lengthsTimes a c)) x y = replaceSing c x y :=
    fun _ _ => rfl
  have hT : (tortuosityPer a (lengthsTimes a c)).s = (lengthsTimes a c).s := rfl
  have hex : (∃ k < (lengthsTimes a c).s.n, (lengthsTimes a c).s.inc k
      < (tortuosityPer a (lengthsTimes a c)).vlim) = ∃ k < c.s.n, c.s.inc k < c.vlim := rfl
  have hnone : (tortuosityPer a (lengthsTimes a c)).tortuosity.isNone = c.tortuosity.isNone := by
    simp [tortuosityPer, lengthsTimes]
  simp only [callFunc, hs, he, hr, hT, hex, hnone] at h ⊢
  split at h
  · simp at h
  rename_i hcond
  rw [if_neg hcond]
  split at h
  · rename_i hX
    rw [if_pos hX]
    simp only [Except.ok.injEq] at h ⊢
    have key : eDIA f (lengthsTimes a c) ((tortuosityPer a (lengthsTimes a c)).tortuosity.getD 0)
        (lengthFactor a f * mag) = a • eDIA f c (c.tortuosity.getD 0) mag := by
      have ht : (tortuosityPer a (lengthsTimes a c)).tortuosity.getD 0 = c.tortuosity.getD 0 / a := by
        simp only [tortuosityPer, lengthsTimes]
        cases c.tortuosity <;> simp
      have hm : ∀ k, c.tortuosity.getD 0 / a * (a * c.dmd k) = c.tortuosity.getD 0 * c.dmd k := by
        intro k; field_simp
      rw [ht]
      funext k i
      rcases hX with rfl | rfl
      · have hd : xclaDelta (lengthsTimes a c) k = xclaDelta c k := rfl
        simp only [eDIA, dpde, Pi.smul_apply, dmd_lengths, hm, hd, lengthFactor, one_mul]
        split
        · simp
        · fin_cases i <;> simp [lengthsTimes, Ctx.st, Ctx.ct] <;> ring
      · simp only [eDIA, dpde, Pi.smul_apply, dmd_lengths, hm, lengthFactor, one_mul]
        split
        · simp
        · fin_cases i <;> simp [lengthsTimes, Ctx.st, Ctx.ct, Ctx.ci, Ctx.si] <;> ring
    rw [key]
    exact generate_lengths a _ _ _ _ _ _ _ h
  · rename_i hX
    rw [if_neg hX]
    have e1 := eNEV_lengths a c (eDIA_lengths ha.ne' c hX hf (c.tortuosity.getD 0)
      ((tortuosityPer a (lengthsTimes a c)).tortuosity.getD 0) mag)
    have e2 := eNEVStar_lengths a c (eDIA_lengths ha.ne' c hX hf (c.tortuosity.getD 0)
      ((tortuosityPer a (lengthsTimes a c)).tortuosity.getD 0) mag)
    rw [singRows_lengths a c hf (c.tortuosity.getD 0)]
    cases hsr : singRows f c (c.tortuosity.getD 0) mag with
    | none =>
      rw [hsr] at h
      simp only [Except.ok.injEq, Option.map_none, generate_none, e1, e2] at h ⊢
      exact generate_lengths a _ _ _ _ _ _ _ h
    | some r =>
      rw [hsr] at h
      simp only [Option.map_some] at h ⊢
      split at h
      · rename_i hk
        rw [if_pos hk]
        split at h
        · simp at h
        · rename_i hp
          rw [if_neg hp]
          cases r with
          | error x => simp at h
          | ok ab =>
            obtain ⟨u, v⟩ := ab
            simp only [Except.map, scalePair, e1, e2, replaceSing_smul, Except.ok.injEq] at h ⊢
            exact generate_lengths a _ _ _ _ _ _ _ h
      · rename_i hk
        rw [if_neg hk]
        simp only [Except.ok.injEq, generate_none, e1, e2] at h ⊢
        exact generate_lengths a _ _ _ _ _ _ _ h

/-- A source without lengths of its own does not read the tortuosity. -/
theorem callFunc_tortuosityPer (a : ℝ) {f : Func} (hf : lengthFree f = true) (c : Ctx) (mag : ℝ)
    (p : Prop') : callFunc f (tortuosityPer a c) mag p = callFunc f c mag p := by
  have he : ∀ τ τ', eDIA f (tortuosityPer a c) τ mag = eDIA f c τ' mag := fun τ τ' => by
    funext k; cases f <;> simp [lengthFree] at hf <;> rfl
  have hs : ∀ τ τ', singRows f (tortuosityPer a c) τ mag = singRows f c τ' mag := fun τ τ' => by
    cases f <;> simp [lengthFree] at hf <;> rfl
  have hu : f.usesTortuosity = false := by cases f <;> simp [lengthFree] at hf <;> rfl
  simp only [callFunc, hu, Bool.false_and, he _ (c.tortuosity.getD 0), hs _ (c.tortuosity.getD 0)]
  rfl

/-- **C312** (sources whose magnitude is an angle, a ratio, an acceleration or a field, other than the
four that compare the course length with ten metres): expressing the survey in a length unit `a` times
smaller multiplies every covariance of the source by `a²`. -/
theorem C312_unit_free_partial {a : ℝ} (ha : 0 < a) {f : Func} (hf : lengthFree f = true) (c : Ctx)
    {mag : ℝ} {p : Prop'} {t : Term} (h : callFunc f c mag p = .ok (some t)) :
    ∃ t', callFunc f (lengthsTimes a c) mag p = .ok (some t') ∧
      ∀ k, t'.cov k = a ^ 2 • t.cov k := by
  have hf' : tenMetres f = false := by cases f <;> simp [lengthFree] at hf <;> rfl
  have hl : lengthFactor a f = 1 := by cases f <;> simp [lengthFree] at hf <;> rfl
  have := C312_converted_partial ha hf' c h
  rwa [callFunc_tortuosityPer a hf, hl, one_mul] at this

theorem callAll_lengths {a : ℝ} (ha : 0 < a) (c : Ctx) : ∀ (codes : List Entry)
    (_ : ∀ e ∈ codes, lengthFree e.f = true) (T0 T0' T : Totals)
    (_ : ∀ k, T0'.total k = a ^ 2 • T0.total k) (ts : List (Option Term)),
    callAll c codes = .ok ts → totalsLoop ts T0 = .ok T →
    ∃ ts' T', callAll (lengthsTimes a c) codes = .ok ts' ∧ totalsLoop ts' T0' = .ok T' ∧
      ∀ k, T'.total k = a ^ 2 • T.total k := by
  intro codes
  induction codes with
  | nil =>
    intro _ T0 T0' T h0 ts hts hT
    simp only [callAll, Except.ok.injEq] at hts
    subst hts
    simp only [totalsLoop, Except.ok.injEq] at hT
    subst hT
    exact ⟨[], T0', rfl, rfl, h0⟩
  | cons e es ih =>
    intro hf T0 T0' T h0 ts hts hT
    simp only [callAll] at hts
    cases h1 : callFunc e.f c e.mag e.prop with
    | error x => rw [h1] at hts; simp at hts
    | ok t =>
      rw [h1] at hts
      cases h2 : callAll c es with
      | error x => rw [h2] at hts; simp at hts
      | ok us =>
        rw [h2] at hts
        simp only [Except.ok.injEq] at hts
        subst hts
        cases t with
        | none => simp [totalsLoop] at hT
        | some t =>
          simp only [totalsLoop] at hT
          obtain ⟨t', ht', hc⟩ := C312_unit_free_partial ha (hf e List.mem_cons_self) c h1
          have hst : ∀ (T : Totals) (v : Term), (T.step v).total = T.total + v.cov := by
            intro T v
            simp only [Totals.step]
            split <;> rfl
          obtain ⟨us', T', hu, hT', hk⟩ := ih (fun x hx => hf x (List.mem_cons_of_mem _ hx))
            (T0.step t) (T0'.step t') T
            (fun k => by rw [hst, hst, Pi.add_apply, Pi.add_apply, h0, hc, smul_add]) us h2 hT
          refine ⟨some t' :: us', T', ?_, hT', hk⟩
          simp only [callAll, ht', hu]

/-- **C312** (tool models of such sources): the covariance of every station is multiplied by `a²`. -/
theorem C312_tool_partial {a : ℝ} (ha : 0 < a) (c : Ctx) {codes : List Entry}
    (hf : ∀ e ∈ codes, lengthFree e.f = true) {T : Totals} (h : toolError c codes = .ok T) :
    ∃ T', toolError (lengthsTimes a c) codes = .ok T' ∧ ∀ k, T'.total k = a ^ 2 • T.total k := by
  simp only [toolError] at h ⊢
  cases h1 : callAll c codes with
  | error x => rw [h1] at h; simp at h
  | ok ts =>
    rw [h1] at h
    obtain ⟨ts', T', h2, h3, h4⟩ := callAll_lengths ha c codes hf ⟨0, 0, 0, 0, 0⟩ ⟨0, 0, 0, 0, 0⟩ T
      (fun k => by simp) ts h1 h
    exact ⟨T', by rw [h2]; exact h3, h4⟩

/-- Two stations a distance of one apart, at an inclination of 45°, heading north. -/
noncomputable def shortCtx (i : ℝ) : Ctx where
  s := { n := 2, md := fun k => k, inc := fun _ => i, azi := fun _ => 0, rev4 := true }
  tvd := fun _ => 0
  aziMag := fun _ => 0
  aziGrid := fun _ => 0
  G := 1
  dip := 0
  bTotal := 1
  vlim := 0
  ref := .grid
  tortuosity := none

/-- **C312** fails for the depth reference: a vertical well has the same vertical variance in square
feet as in square metres. -/
theorem C312_depth_reference (m : ℝ) :
    ∃ t t', callFunc .DREF (shortCtx 0) m .systematic = .ok (some t) ∧
      callFunc .DREF (lengthsTimes (1 / 0.3048) (shortCtx 0)) m .systematic = .ok (some t') ∧
      t.cov 1 2 2 = m ^ 2 ∧ t'.cov 1 2 2 = m ^ 2 := by
  have h : ∀ c : Ctx, callFunc .DREF c m .systematic
      = .ok (generateError c.s (eDIA .DREF c (c.tortuosity.getD 0) m) .systematic none) := by
    intro c; simp [callFunc, singRows, Func.usesTortuosity, forcedProp]
  rw [h, h]
  simp only [generateError, propagate, Option.map_some]
  refine ⟨_, _, rfl, rfl, ?_, ?_⟩ <;>
    simp [covFromVec, sigmaSystematic, eNEV, eNEVStar, drdp, eDIA, dpde, lengthsTimes, shortCtx] <;> ring

/-- **C312** fails for a misalignment that is weighted by the course length: with stations one metre
apart the variance north in feet is that in metres divided by 0.3048, not by its square. -/
theorem C312_course_length :
    ∃ t t', callFunc .XYM3E (shortCtx (π / 4)) 1 .systematic = .ok (some t) ∧
      callFunc .XYM3E (lengthsTimes (1 / 0.3048) (shortCtx (π / 4))) 1 .systematic = .ok (some t') ∧
      0 < t.cov 1 0 0 ∧ t'.cov 1 0 0 = (1 / 0.3048) * t.cov 1 0 0 := by
  have ns : ¬∃ k < (shortCtx (π / 4)).s.n, (shortCtx (π / 4)).s.inc k < (shortCtx (π / 4)).vlim := by
    simp only [shortCtx, not_exists, not_and, not_lt]
    intro _ _; positivity
  have h : ∀ c : Ctx, (¬∃ k < c.s.n, c.s.inc k < c.vlim) → callFunc .XYM3E c 1 .systematic
      = .ok (generateError c.s (eDIA .XYM3E c (c.tortuosity.getD 0) 1) .systematic none) := by
    intro c h; simp only [callFunc, singRows, Func.usesTortuosity, forcedProp, h]; simp
  rw [h _ ns, h (lengthsTimes (1 / 0.3048) (shortCtx (π / 4))) ns]
  simp only [generateError, propagate, Option.map_some]
  have c1 : coeff (shortCtx (π / 4)) 1 = √10 := by
    have : (1 : ℝ) ≤ √10 := by rw [Real.one_le_sqrt]; norm_num
    simp [coeff, Ctx.dmd, shortCtx, this]
  have c2 : coeff (lengthsTimes (1 / 0.3048) (shortCtx (π / 4))) 1 = √3.048 := by
    have : (1 : ℝ) ≤ √3.048 := by rw [Real.one_le_sqrt]; norm_num
    have e : (10 : ℝ) / (lengthsTimes (1 / 0.3048) (shortCtx (π / 4))).dmd 1 = 3.048 := by
      simp [Ctx.dmd, shortCtx, lengthsTimes]; norm_num
    simp only [coeff, e]
    simp [this]
  have s1 : √10 * √10 = (10 : ℝ) := by norm_num
  have s2 : √3.048 * √3.048 = (3.048 : ℝ) := Real.mul_self_sqrt (by norm_num)
  have ev : ∀ (b x : ℝ), 0 ≤ x → coeff (lengthsTimes b (shortCtx (π / 4))) 1 = x →
      covFromVec (sigmaSystematic
        (eNEV (lengthsTimes b (shortCtx (π / 4))).s (eDIA .XYM3E (lengthsTimes b (shortCtx (π / 4))) 0 1))
        (eNEVStar (lengthsTimes b (shortCtx (π / 4))).s
          (eDIA .XYM3E (lengthsTimes b (shortCtx (π / 4))) 0 1)) 1) 0 0
        = b ^ 2 * (x * x) / 16 := by
    intro b x hx hc
    have s3 : √2 * √2 = (2 : ℝ) := by norm_num
    have e1 : eDIA .XYM3E (lengthsTimes b (shortCtx (π / 4))) 0 1 1 1 = √2 / 2 * x := by
      simp only [eDIA, dpde, hc]
      simp [lengthsTimes, shortCtx, Ctx.ci, Ctx.ct, abs_of_nonneg, hx]
      left; positivity
    have e2 : eNEVStar (lengthsTimes b (shortCtx (π / 4))).s
        (eDIA .XYM3E (lengthsTimes b (shortCtx (π / 4))) 0 1) 1 0 = b * x / 4 := by
      have e0 : eDIA .XYM3E (lengthsTimes b (shortCtx (π / 4))) 0 1 1 0 = 0 := by
        simp [eDIA, dpde]
      simp only [eNEVStar, one_ne_zero, if_false]
      simp only [Matrix.cons_val_zero, e0, e1]
      simp [drdp, lengthsTimes, shortCtx]
      linear_combination (b * x / 8) * s3
    have e3 : sigmaSystematic
        (eNEV (lengthsTimes b (shortCtx (π / 4))).s (eDIA .XYM3E (lengthsTimes b (shortCtx (π / 4))) 0 1))
        (eNEVStar (lengthsTimes b (shortCtx (π / 4))).s
          (eDIA .XYM3E (lengthsTimes b (shortCtx (π / 4))) 0 1)) 1 0 = b * x / 4 := by
      simp only [sigmaSystematic, Pi.add_apply, e2]
      simp [eNEV]
    simp only [covFromVec, Matrix.of_apply, e3]
    ring
  have hl : lengthsTimes 1 (shortCtx (π / 4)) = shortCtx (π / 4) := by simp [lengthsTimes, shortCtx]
  have v1 := ev 1 (√10) (by positivity) (by rw [hl]; exact c1)
  have v2 := ev (1 / 0.3048) (√3.048) (by positivity) c2
  rw [hl] at v1
  rw [s1] at v1
  rw [s2] at v2
  refine ⟨_, _, rfl, rfl, ?_, ?_⟩
  · refine lt_of_lt_of_eq ?_ v1.symm
    norm_num
  · refine v2.trans (Eq.trans ?_ (congrArg (fun y => 1 / 0.3048 * y) v1.symm))
    norm_num

/-- The hypotheses of `C312_unit_free_partial` and `C312_tool_partial` can be met. -/
example : ∃ t, callFunc .DSF (shortCtx 0) 0.001 .systematic = .ok (some t) ∧ lengthFree .DSF = true := by
  have h : callFunc .DSF (shortCtx 0) 0.001 .systematic
      = .ok (generateError (shortCtx 0).s (eDIA .DSF (shortCtx 0) ((shortCtx 0).tortuosity.getD 0) 0.001)
        .systematic none) := by
    simp [callFunc, singRows, Func.usesTortuosity, forcedProp]
  rw [h]
  exact ⟨_, rfl, rfl⟩

end Welleng.Props
