import Verif.Props.Rotation
import Verif.Props.SourceOrder

/-!
C363: a well measured from magnetic north, and the declination.
-/

namespace Welleng.Props

open Real Finset Spec Err

/-- The same magnetic measurements with a declination larger by `θ`: azimuths from true and grid north
increase by `θ`, those from magnetic north stay. -/
def redeclined (θ : ℝ) (c : Ctx) : Ctx := { c with
  s := { c.s with azi := fun k => c.s.azi k + θ }
  aziGrid := fun k => c.aziGrid k + θ }

/-- Sources other than the misalignments in north and east, and `ABIXY_TI2`. -/
def byCompass : Func → Bool
  | .XYM3 | .XYM3E | .XYM3L | .XYM4 | .XYM4E | .XYM4L | .ABIXY_TI2 => false
  | _ => true

/-- Sources without an error of inclination, and the course length sources, which skip the derivatives of
position. -/
def levelSource : Func → Bool
  | .DREF | .DSF | .DST | .AMID | .ASXY_TI3 | .ASIXY_TI3 | .CNA | .MBXY_TI1 | .MBIXY_TI1 | .MBXY_TI2
  | .MBIXY_TI2 | .MBZ | .MFI | .MSXY_TI1 | .MSXY_TI2 | .MSXY_TI3 | .MSIXY_TI1 | .MSIXY_TI2 | .MSIXY_TI3
  | .MSZ | .AZ | .DBH | .MDI | .DBHR | .AMIL | .XYM2 | .XCLA | .XCLH => true
  | _ => false

theorem singRows_redeclined (θ : ℝ) {c : Ctx} {f : Func} (hr : c.s.rev4 = true ∨ levelSource f = true)
    (hf : byCompass f = true)
    (tort mag : ℝ) :
    (singRows f c tort mag = none ∧ singRows f (redeclined θ c) tort mag = none) ∨
    ∃ r r', singRows f c tort mag = some r ∧ singRows f (redeclined θ c) tort mag = some r' ∧
      ∀ a b, r = .ok (a, b) → ∃ a' b', r' = .ok (a', b') ∧ (∀ k, a' k = rotV θ (a k)) ∧
        ∀ k, b' k = rotV θ (b k) := by
  have row : ∀ (w : ℕ → ℝ) (z : ℕ → ℝ) (k : ℕ),
      Err.inner (redeclined θ c) (fun k => ![w k * -sin (z k + θ), w k * cos (z k + θ), 0]) k
        = rotV θ (Err.inner c (fun k => ![w k * -sin (z k), w k * cos (z k), 0]) k) := by
    intro w z k
    have hi : ∀ g, Err.inner (redeclined θ c) g = Err.inner c g := fun _ => rfl
    rw [hi]
    simp only [Err.inner]
    split
    · rw [rotV_zero]
    · funext i
      fin_cases i <;> simp [rotV, sin_add, cos_add] <;> ring
  cases f <;> first
    | exact .inl ⟨rfl, rfl⟩
    | exact absurd hf (by decide)
    | skip
  · refine .inr ⟨_, _, rfl, rfl, fun a b h => ?_⟩
    replace hr : c.s.rev4 = true := hr.resolve_right Bool.false_ne_true
    have hr' : (redeclined θ c).s.rev4 = true := hr
    simp only [singABXY, hr, hr', Bool.not_true, Bool.false_eq_true, if_false, Except.ok.injEq,
      Prod.mk.injEq] at h ⊢
    obtain ⟨rfl, rfl⟩ := h
    refine ⟨_, _, ⟨rfl, rfl⟩, fun k => ?_, fun k => ?_⟩
    · have := row (fun k => 0.5 * c.dmd2 k * mag / c.G) c.s.azi k
      convert this using 2
      · funext k i
        fin_cases i <;> simp [Ctx.st, Ctx.ct, Ctx.dmd2, redeclined] <;> ring
      · congr 1
        funext k i
        fin_cases i <;> simp [Ctx.st, Ctx.ct] <;> ring
    · have := row (fun k => 0.5 * c.dmd k * mag / c.G) c.s.azi k
      convert this using 2
      · funext k i
        fin_cases i <;> simp [Ctx.st, Ctx.ct, Ctx.dmd, redeclined] <;> ring
      · congr 1
        funext k i
        fin_cases i <;> simp [Ctx.st, Ctx.ct] <;> ring
  · refine .inr ⟨_, _, rfl, rfl, fun a b h => ?_⟩
    have hz : ∀ z, cnaAzi c = .ok z → cnaAzi (redeclined θ c) = .ok fun k => z k + θ := by
      intro z h
      unfold cnaAzi at h ⊢
      have : (redeclined θ c).ref = c.ref := rfl
      rw [this]
      cases hc : c.ref <;> rw [hc] at h <;> simp only [Except.ok.injEq, reduceCtorEq] at h ⊢ <;> rw [← h] <;> rfl
    cases hc : cnaAzi c with
    | error e => rw [hc] at h; simp at h
    | ok z =>
      rw [hc] at h
      rw [hz z hc]
      simp only [Except.ok.injEq, Prod.mk.injEq] at h ⊢
      obtain ⟨rfl, rfl⟩ := h
      refine ⟨_, _, ⟨rfl, rfl⟩, fun k => ?_, fun k => ?_⟩
      · have := row (fun k => 0.5 * c.dmd2 k * mag) z k
        convert this using 2
        · funext k i
          fin_cases i <;> simp [Ctx.dmd2, redeclined] <;> ring
        · congr 1
          funext k i
          fin_cases i <;> simp <;> ring
      · have := row (fun k => 0.5 * c.dmd k * mag) z k
        convert this using 2
        · funext k i
          fin_cases i <;> simp [Ctx.dmd, redeclined] <;> ring
        · congr 1
          funext k i
          fin_cases i <;> simp <;> ring

theorem eDIA_redeclined (θ : ℝ) (c : Ctx) {f : Func} (hf : byCompass f = true)
    (hX : ¬(f = .XCLA ∨ f = .XCLH)) (tort mag : ℝ) :
    eDIA f (redeclined θ c) tort mag = eDIA f c tort mag := by
  funext k i
  unfold eDIA
  suffices h : dpde f (redeclined θ c) tort k = dpde f c tort k by rw [h]
  cases f <;> first
    | exact absurd (Or.inl rfl) hX
    | exact absurd (Or.inr rfl) hX
    | exact absurd hf Bool.false_ne_true
    | rfl
    | simp [dpde, redeclined]

/-- Two errors that differ by a turn give covariances that differ by it. -/
theorem generateError_turned {θ : ℝ} {s s' : Sv} {e e' : ℕ → V} {p : Prop'} {n n' : Option ((ℕ → V) × (ℕ → V))}
    {t : Term} (h : generateError s e p n = some t)
    (h1 : ∀ k, (n'.getD (eNEV s' e', eNEVStar s' e')).1 k = rotV θ ((n.getD (eNEV s e, eNEVStar s e)).1 k))
    (h2 : ∀ k, (n'.getD (eNEV s' e', eNEVStar s' e')).2 k = rotV θ ((n.getD (eNEV s e, eNEVStar s e)).2 k)) :
    ∃ t', generateError s' e' p n' = some t' ∧ t'.prop = t.prop ∧
      ∀ k, t'.cov k = rotM θ * t.cov k * (rotM θ).transpose := by
  have form : ∀ s e n, generateError s e p n =
      (propagate p (n.getD (eNEV s e, eNEVStar s e)).1 (n.getD (eNEV s e, eNEVStar s e)).2).map fun c =>
        ⟨p, e, (n.getD (eNEV s e, eNEVStar s e)).1, (n.getD (eNEV s e, eNEVStar s e)).2, c⟩ := by
    intro s e n
    cases n <;> rfl
  rw [form] at h ⊢
  obtain ⟨m, hm, rfl⟩ := Option.map_eq_some_iff.mp h
  obtain ⟨m', hm'⟩ : ∃ m', propagate p (n'.getD (eNEV s' e', eNEVStar s' e')).1
      (n'.getD (eNEV s' e', eNEVStar s' e')).2 = some m' := by
    cases p <;> first | exact ⟨_, rfl⟩ | simp [propagate] at hm
  rw [hm']
  exact ⟨_, rfl, rfl, fun k => propagate_turn hm hm' h1 h2 k⟩

theorem eDIA_course (θ : ℝ) (c : Ctx) {f : Func} (hX : f = .XCLA ∨ f = .XCLH) (tort mag : ℝ) (k : ℕ) :
    eDIA f (redeclined θ c) tort mag k = rotV θ (eDIA f c tort mag k) := by
  funext i
  rcases hX with rfl | rfl
  · by_cases h0 : k = 0
    · simp [eDIA, dpde, h0, rotV]; fin_cases i <;> simp
    · have hd : xclaDelta (redeclined θ c) k = xclaDelta c k := by
        simp only [xclaDelta, redeclined, pmod_congr_turn]
      fin_cases i <;> simp [rotV, eDIA, dpde, h0, hd] <;>
        simp [redeclined, Ctx.dmd, Ctx.st, Ctx.ct, sin_add, cos_add] <;> ring
  · by_cases h0 : k = 0
    · simp [eDIA, dpde, h0, rotV]; fin_cases i <;> simp
    · fin_cases i <;> simp [rotV, eDIA, dpde, h0] <;>
        simp [redeclined, Ctx.dmd, Ctx.st, Ctx.ct, Ctx.si, Ctx.ci, sin_add, cos_add] <;> ring

theorem level_turn (θ : ℝ) (c : Ctx) {e : ℕ → V} (he : ∀ k, e k 1 = 0) (k : ℕ) :
    eNEV (redeclined θ c).s e k = rotV θ (eNEV c.s e k) ∧
    eNEVStar (redeclined θ c).s e k = rotV θ (eNEVStar c.s e k) := by
  by_cases h0 : k = 0
  · simp [eNEV, eNEVStar, h0, rotV_zero]
  · obtain ⟨m, rfl⟩ : ∃ m, k = m + 1 := ⟨k - 1, by omega⟩
    have hn' : (redeclined θ c).s.n = c.s.n := rfl
    constructor
    · by_cases hn : m + 1 + 1 < c.s.n <;> funext i <;>
        fin_cases i <;> simp [eNEV, drdp, hn', hn, he, rotV] <;>
        simp [redeclined, sin_add, cos_add] <;> ring
    · funext i
      fin_cases i <;> simp [eNEVStar, drdp, he, rotV] <;> simp [redeclined, sin_add, cos_add] <;> ring

theorem levelSource_row {f : Func} (hf : levelSource f = true) (hX : ¬(f = .XCLA ∨ f = .XCLH)) (c : Ctx)
    (tort mag : ℝ) (k : ℕ) : eDIA f c tort mag k 1 = 0 := by
  cases f <;> first
    | exact absurd (Or.inl rfl) hX
    | exact absurd (Or.inr rfl) hX
    | exact absurd hf Bool.false_ne_true
    | simp [eDIA, dpde]

/-- **C363**, single sources: with a rev4 model, the covariance of each source other than the
misalignments in north and east and `ABIXY_TI2` turns with the declination; with other models, that of
each source without an error of inclination. -/
theorem C363_single_partial (θ : ℝ) {c : Ctx} {f : Func} (hr : c.s.rev4 = true ∨ levelSource f = true)
    (hf : byCompass f = true) {mag : ℝ} {p : Prop'} {t : Term} (h : callFunc f c mag p = .ok (some t)) :
    ∃ t', callFunc f (redeclined θ c) mag p = .ok (some t') ∧ t'.prop = t.prop ∧
      ∀ k, t'.cov k = rotM θ * t.cov k * (rotM θ).transpose := by
  have n : ¬(f = .XCLA ∨ f = .XCLH) → ∀ tort k,
      eNEV (redeclined θ c).s (eDIA f c tort mag) k = rotV θ (eNEV c.s (eDIA f c tort mag) k) ∧
      eNEVStar (redeclined θ c).s (eDIA f c tort mag) k = rotV θ (eNEVStar c.s (eDIA f c tort mag) k) := by
    intro hX tort k
    rcases hr with hr | hr
    · exact ⟨eNEV_turn θ c hr _ k, eNEVStar_turn θ c hr _ k⟩
    · exact level_turn θ c (levelSource_row hr hX c tort mag) k
  have ht : (redeclined θ c).tortuosity = c.tortuosity := rfl
  have hv : (∃ k < (redeclined θ c).s.n, (redeclined θ c).s.inc k < (redeclined θ c).vlim)
      = ∃ k < c.s.n, c.s.inc k < c.vlim := rfl
  have hl : ∀ k, ((redeclined θ c).s.inc k < (redeclined θ c).vlim) = (c.s.inc k < c.vlim) := fun _ => rfl
  unfold callFunc at h ⊢
  simp only [ht, hv] at h ⊢
  split at h
  · simp at h
  rename_i h1
  rw [if_neg h1]
  by_cases hX : f = .XCLA ∨ f = .XCLH
  · rw [if_pos hX] at h ⊢
    simp only [Except.ok.injEq] at h ⊢
    exact generateError_turned h (eDIA_course θ c hX _ _) (eDIA_course θ c hX _ _)
  · rw [if_neg hX] at h ⊢
    rw [eDIA_redeclined θ c hf hX]
    have hE : f ≠ .XYM4E := by
      rintro rfl
      exact absurd hf Bool.false_ne_true
    rcases singRows_redeclined θ hr hf (c.tortuosity.getD 0) mag with ⟨e1, e2⟩ | ⟨r, r', e1, e2, hrr⟩
    · rw [e1] at h
      rw [e2]
      simp only [Except.ok.injEq] at h ⊢
      exact generateError_turned h (fun k => (n hX _ k).1) (fun k => (n hX _ k).2)
    · rw [e1] at h
      rw [e2]
      simp only [hE, false_and, if_false] at h ⊢
      by_cases hs : ∃ k < c.s.n, c.s.inc k < c.vlim
      · rw [if_pos hs] at h ⊢
        cases r with
        | error e => simp at h
        | ok ab =>
          obtain ⟨a', b', rfl, ha, hb⟩ := hrr ab.1 ab.2 rfl
          simp only [Except.ok.injEq] at h ⊢
          refine generateError_turned h (fun k => ?_) fun k => ?_
          · simp only [Option.getD_some, replaceSing, hl]
            split
            · exact ha k
            · exact (n hX _ k).1
          · simp only [Option.getD_some, replaceSing, hl]
            split
            · exact hb k
            · exact (n hX _ k).2
      · rw [if_neg hs] at h ⊢
        simp only [Except.ok.injEq] at h ⊢
        exact generateError_turned h (fun k => (n hX _ k).1) (fun k => (n hX _ k).2)

/-- The misalignments in north and east as a pair. -/
theorem C363_pair_partial (θ : ℝ) {c : Ctx} (hr : c.s.rev4 = true) {mag : ℝ} {p : Prop'} {t u : Term}
    (ht : callFunc .XYM3 c mag p = .ok (some t)) (hu : callFunc .XYM4 c mag p = .ok (some u)) :
    ∃ t' u', callFunc .XYM3 (redeclined θ c) mag p = .ok (some t') ∧
      callFunc .XYM4 (redeclined θ c) mag p = .ok (some u') ∧
      ∀ k, t'.cov k + u'.cov k = rotM θ * (t.cov k + u.cov k) * (rotM θ).transpose := by
  have e3 : callFunc .XYM3 (redeclined θ c) mag p = callFunc .XYM3 (turn θ c) mag p := rfl
  have e4 : callFunc .XYM4 (redeclined θ c) mag p = callFunc .XYM4 (turn θ c) mag p := rfl
  have ok : ∀ (f : Func), f = .XYM3 ∨ f = .XYM4 → ∀ (c c' : Ctx) (t : Term),
      callFunc f c mag p = .ok (some t) → ∃ t', callFunc f c' mag p = .ok (some t') := by
    intro f hf c c' t h
    have hp : p ≠ .other := by
      rintro rfl
      rcases hf with rfl | rfl <;>
        · simp only [callFunc, singRows, Func.usesTortuosity, forcedProp] at h
          split_ifs at h <;> simp_all [generateError, propagate]
    rcases hf with rfl | rfl <;>
      · simp only [callFunc, singRows, Func.usesTortuosity, forcedProp]
        split_ifs <;> cases p <;> simp_all [generateError, propagate]
  obtain ⟨t', ht'⟩ := ok _ (.inl rfl) c (turn θ c) t ht
  obtain ⟨u', hu'⟩ := ok _ (.inr rfl) c (turn θ c) u hu
  exact ⟨t', u', e3.trans ht', e4.trans hu', C62_turn_pair_partial θ hr ht hu ht' hu'⟩

/-- Models made of single sources and, if rev4, pairs of misalignments. -/
inductive ByCompass (rev4 : Bool) : List Entry → Prop
  | nil : ByCompass rev4 []
  | single {e : Entry} {es : List Entry} : rev4 = true ∨ levelSource e.f = true → byCompass e.f = true →
      ByCompass rev4 es → ByCompass rev4 (e :: es)
  | pair {es : List Entry} (m : ℝ) (p : Prop') : rev4 = true → ByCompass rev4 es → ByCompass rev4 (⟨.XYM3, m, p⟩ :: ⟨.XYM4, m, p⟩ :: es)

/-- **C363** (partial) With a rev4 model, in which the misalignments in north and east come in pairs, or
another model without errors of inclination, the whole uncertainty of a well measured from magnetic north
turns with the declination. -/
theorem C363_model_partial (θ : ℝ) {c : Ctx} {codes codes' : List Entry}
    (hp : codes.Perm codes') (hc : ByCompass c.s.rev4 codes') {T : Totals} (h : toolError c codes = .ok T) :
    ∃ T', toolError (redeclined θ c) codes = .ok T' ∧
      ∀ k, T'.total k = rotM θ * T.total k * (rotM θ).transpose := by
  have h' := (C353_order hp).mp h
  obtain ⟨vs, hvs, rfl⟩ := toolError_ok h'
  have key : ∀ vs, List.Forall₂ (fun e t => callFunc e.f c e.mag e.prop = .ok (some t)) codes' vs →
      ∃ ws, List.Forall₂ (fun e t => callFunc e.f (redeclined θ c) e.mag e.prop = .ok (some t)) codes' ws ∧
        ∀ k, (ws.map fun v => v.cov k).sum
          = rotM θ * (vs.map fun v => v.cov k).sum * (rotM θ).transpose := by
    clear h h' hp hvs
    induction hc with
    | nil =>
      intro vs hvs
      cases hvs
      exact ⟨[], .nil, fun k => by simp⟩
    | single hr hf _ ih =>
      intro vs hvs
      cases hvs with
      | cons h1 h2 =>
        obtain ⟨ws, hw, hs⟩ := ih _ h2
        obtain ⟨t', h3, -, h4⟩ := C363_single_partial θ hr hf h1
        refine ⟨t' :: ws, .cons h3 hw, fun k => ?_⟩
        rw [List.map_cons, List.sum_cons, hs, h4, List.map_cons, List.sum_cons, mul_add, add_mul]
    | pair m p hr _ ih =>
      intro vs hvs
      cases hvs with
      | cons h1 h2 =>
        cases h2 with
        | cons h2 h3 =>
          obtain ⟨ws, hw, hs⟩ := ih _ h3
          obtain ⟨t', u', a1, a2, a3⟩ := C363_pair_partial θ hr h1 h2
          refine ⟨t' :: u' :: ws, .cons a1 (.cons a2 hw), fun k => ?_⟩
          simp only [List.map_cons, List.sum_cons]
          rw [hs, ← add_assoc, a3]
          simp only [mul_add, add_mul, add_assoc]
  obtain ⟨ws, hw, hs⟩ := key vs hvs
  refine ⟨_, (C353_order hp).mpr (callAll_of_forall₂ hw), fun k => ?_⟩
  rw [(foldl_step ws _ k).1, (foldl_step vs _ k).1, hs]
  simp

/-- **C363** is false of the code: with a model that is not rev4 the sag of a well that heads north by the
compass has twice the standard deviation with a declination of zero as with one of ninety degrees. -/
theorem C363_not_turned : ∃ t t', callFunc .SAG (inclCtx false 0) 1 .systematic = .ok (some t) ∧
    callFunc .SAG (redeclined (π / 2) (inclCtx false 0)) 1 .systematic = .ok (some t') ∧
    t'.cov 1 ≠ rotM (π / 2) * t.cov 1 * (rotM (π / 2)).transpose := by
  obtain ⟨t, t', h1, h2, h3, h4⟩ := C62_sag_not_equivariant
  refine ⟨t, t', h1, h2, fun h => ?_⟩
  have hi : rotM (-(π / 2)) * rotM (π / 2) = 1 := by
    ext i j
    fin_cases i <;> fin_cases j <;> simp [rotM, Matrix.mul_apply, Fin.sum_univ_three]
  have hj : (rotM (π / 2)).transpose * (rotM (-(π / 2))).transpose = 1 := by
    rw [← Matrix.transpose_mul, hi, Matrix.transpose_one]
  have : rotM (-(π / 2)) * t'.cov 1 * (rotM (-(π / 2))).transpose = t.cov 1 := by
    rw [h]
    calc _ = (rotM (-(π / 2)) * rotM (π / 2)) * t.cov 1
        * ((rotM (π / 2)).transpose * (rotM (-(π / 2))).transpose) := by simp only [Matrix.mul_assoc]
      _ = _ := by rw [hi, hj, one_mul, mul_one]
  rw [this] at h3
  linarith

/-- Non-vacuity: a compass model of eight sources. -/
example : ByCompass true [⟨.DREF, 0.35, .random⟩, ⟨.MBZ, 70, .systematic⟩, ⟨.ABXY_TI2, 0.004, .systematic⟩,
    ⟨.AMIL, 220, .systematic⟩, ⟨.XYM3, 0.001, .random⟩, ⟨.XYM4, 0.001, .random⟩, ⟨.AZ, 0.006, .global⟩,
    ⟨.DBH, 0.09, .global⟩] :=
  .single (.inl rfl) rfl (.single (.inl rfl) rfl (.single (.inl rfl) rfl (.single (.inl rfl) rfl
    (.pair _ _ rfl (.single (.inl rfl) rfl (.single (.inl rfl) rfl .nil))))))

/-- Non-vacuity: a model that is not rev4. -/
example : ByCompass false [⟨.DREF, 0.35, .random⟩, ⟨.MBZ, 70, .systematic⟩, ⟨.DBH, 0.09, .global⟩] :=
  .single (.inr rfl) rfl (.single (.inr rfl) rfl (.single (.inr rfl) rfl .nil))

/-- **C62**, models other than rev4: turning the well turns the covariance of the depth, azimuth reference,
second misalignment and course length sources. -/
theorem C62_turn_level_partial (θ : ℝ) {c : Ctx} {f : Func} (hl : levelSource f = true)
    (hf : nonMagnetic f = true) {mag : ℝ} {p : Prop'} {t : Term} (h : callFunc f c mag p = .ok (some t)) :
    ∃ t', callFunc f (turn θ c) mag p = .ok (some t') ∧ t'.prop = t.prop ∧
      ∀ k, t'.cov k = rotM θ * t.cov k * (rotM θ).transpose := by
  have hc : byCompass f = true := by
    cases f <;> first | exact absurd hf Bool.false_ne_true | rfl
  have : callFunc f (turn θ c) mag p = callFunc f (redeclined θ c) mag p := by
    cases f <;> first | exact absurd hf Bool.false_ne_true | rfl
  rw [this]
  exact C363_single_partial θ (.inr hl) hc h

example : levelSource .AZ = true ∧ nonMagnetic .AZ = true := ⟨rfl, rfl⟩

end Welleng.Props
