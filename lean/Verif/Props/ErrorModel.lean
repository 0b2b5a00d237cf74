import Verif.Lemmas.ErrorScale
import Verif.Lemmas.MinCurve
import Verif.Spec.Geometry

/-!
Properties of the error model: C23 (covariances), C24 (partition), C25 (scaling),
C26 (partials), C27 (fused table), C28 (propagation modes), C59 (first-order meaning).
-/

namespace Welleng.Props

open Real Finset Spec Err

/-! ### C23 -/

/-- **C23**, one source: for every weighting function, survey, magnitude and
propagation, the covariance of the source at every station is symmetric and has no
negative variance, in NEV and in HLA. -/
theorem C23_source_cov {f : Func} {c : Ctx} {mag : ℝ} {p : Prop'} {t : Term}
    (h : callFunc f c mag p = .ok (some t)) (k : ℕ) :
    IsCov (t.cov k) ∧ IsCov (covHLAs c.s t.cov k) :=
  ⟨(callFunc_some h).2.2 k, isCov_hla ((callFunc_some h).2.2 k) _ _⟩

/-- **C23**, one source given by arbitrary error vectors (the route of the JSON
catalogues, whose weights are formula strings). -/
theorem C23_any_source_cov {s : Sv} {e : ℕ → V} {p : Prop'} {nev} {t : Term}
    (h : generateError s e p nev = some t) (k : ℕ) :
    IsCov (t.cov k) ∧ IsCov (covHLAs s t.cov k) :=
  ⟨(generateError_some h).2.2 k, isCov_hla ((generateError_some h).2.2 k) _ _⟩

/-- **C23**, totals: the total covariance and its four parts are covariances at every
station, in NEV and in HLA, for any tool model with any number of sources. -/
theorem C23_total_cov {c : Ctx} {codes : List Entry} {T : Totals}
    (h : toolError c codes = .ok T) (k : ℕ) :
    IsCov (T.total k) ∧ IsCov (covHLAs c.s T.total k) ∧
    IsCov (T.random k) ∧ IsCov (T.systematic k) ∧ IsCov (T.global k) ∧ IsCov (T.withinPad k) := by
  obtain ⟨vs, hvs, rfl⟩ := toolError_ok h
  have hc : ∀ v ∈ vs, ∀ k, IsCov (v.cov k) :=
    forall₂_right hvs fun e t ht => (callFunc_some ht).2.2
  obtain ⟨h1, h2, h3, h4, h5⟩ := foldl_step vs ⟨0, 0, 0, 0, 0⟩ k
  have hf : ∀ q : Term → Bool, IsCov ((vs.filter q).map fun v => v.cov k).sum := fun q =>
    isCov_list_sum _ (fun v hv => hc v (List.mem_filter.1 hv).1) k
  have ht := isCov_list_sum vs hc k
  simp only [Pi.zero_apply, zero_add] at h1 h2 h3 h4 h5
  refine ⟨h1 ▸ ht, isCov_hla (h1 ▸ ht) _ _, ?_, ?_, ?_, ?_⟩
  · rw [h2]; exact hf _
  · rw [h3]; exact hf _
  · rw [h4]; exact hf _
  · rw [h5]; exact hf _

/-- A two-station vertical survey of length 30 m used by the examples. -/
noncomputable def exSv : Sv where
  n := 2
  md := fun k => 30 * k
  inc := fun _ => 0
  azi := fun _ => 0
  rev4 := false

/-- Context of `exSv`. -/
noncomputable def exCtx : Ctx where
  s := exSv
  tvd := fun k => 30 * k
  aziMag := fun _ => 0
  aziGrid := fun _ => 0
  G := 9.80665
  dip := 1
  bTotal := 50000
  vlim := 0.0001
  ref := .grid
  tortuosity := some 0.0005

/-- Non-vacuous: a depth-reference source on the example survey has a covariance, and
it is not zero (`V` variance `mag²` at station 1). -/
theorem exDref : ∃ t, callFunc .DREF exCtx 0.35 .random = .ok (some t) ∧
    t.cov 1 2 2 = 0.35 ^ 2 := by
  have : callFunc .DREF exCtx 0.35 .random
      = .ok (generateError exSv (eDIA .DREF exCtx 0.0005 0.35) .random none) := by
    simp [callFunc, singRows, Func.usesTortuosity, exCtx, forcedProp]
  rw [this]
  simp only [generateError, propagate, Option.map_some]
  refine ⟨_, rfl, ?_⟩
  simp [covFromVec, eNEVStar, eNEV, drdp, exSv, eDIA, dpde]
  norm_num

example : ∃ T, toolError exCtx [⟨.DREF, 0.35, .random⟩, ⟨.AZ, 0.006, .global⟩] = .ok T := by
  simp [toolError, callAll, callFunc, singRows, Func.usesTortuosity, exCtx, forcedProp,
    generateError, propagate, totals, totalsLoop]

/-! ### C24 -/

/-- **C24** The random, systematic, global and within-pad covariances add up to the
total, for every tool model and survey; and each is the sum over the sources with
that propagation. -/
theorem C24_partition {c : Ctx} {codes : List Entry} {T : Totals}
    (h : toolError c codes = .ok T) (k : ℕ) :
    T.total k = T.random k + T.systematic k + T.global k + T.withinPad k ∧
    ∃ vs : List Term,
      List.Forall₂ (fun e t => callFunc e.f c e.mag e.prop = .ok (some t)) codes vs ∧
      T.total k = (vs.map fun v => v.cov k).sum ∧
      T.random k = ((vs.filter fun v => v.prop = .random).map fun v => v.cov k).sum ∧
      T.systematic k = ((vs.filter fun v => v.prop = .systematic).map fun v => v.cov k).sum ∧
      T.global k = ((vs.filter fun v => v.prop = .global).map fun v => v.cov k).sum ∧
      T.withinPad k = ((vs.filter fun v => v.prop = .withinPad).map fun v => v.cov k).sum := by
  obtain ⟨vs, hvs, rfl⟩ := toolError_ok h
  have hc : ∀ v ∈ vs, v.prop ≠ .other :=
    forall₂_right hvs fun e t ht => (callFunc_some ht).2.1
  obtain ⟨h1, h2, h3, h4, h5⟩ := foldl_step vs ⟨0, 0, 0, 0, 0⟩ k
  simp only [Pi.zero_apply, zero_add] at h1 h2 h3 h4 h5
  refine ⟨?_, vs, hvs, h1, h2, h3, h4, h5⟩
  rw [h1, h2, h3, h4, h5]
  clear h h1 h2 h3 h4 h5 hvs
  induction vs with
  | nil => simp
  | cons v vs ih =>
    have hv := hc v (by simp)
    have := ih fun w hw => hc w (by simp [hw])
    simp only [List.map_cons, List.sum_cons, this]
    cases hp : v.prop <;> simp [hp] at hv ⊢ <;> abel

/-! ### C25 -/

/-- **C25** Multiplying the magnitude of a source by `a` multiplies its covariance at
every station by `a²`, for every weighting function (including the replacement rows
at near-vertical stations), survey and propagation. -/
theorem C25_magnitude_squared {f : Func} {c : Ctx} {mag : ℝ} {p : Prop'} {t : Term}
    (h : callFunc f c mag p = .ok (some t)) (a : ℝ) :
    ∃ t', callFunc f c (a * mag) p = .ok (some t') ∧ ∀ k, t'.cov k = a ^ 2 • t.cov k := by
  refine ⟨t.scale a, ?_, fun k => rfl⟩
  rw [callFunc_smul, h]; rfl

/-- **C25** for sources given by formula strings. -/
theorem C25_magnitude_squared_formula {s : Sv} {e : ℕ → V} {p : Prop'} {t : Term}
    (h : generateError s e p none = some t) (a : ℝ) :
    ∃ t', generateError s (fun k => a • e k) p none = some t' ∧
      ∀ k, t'.cov k = a ^ 2 • t.cov k := by
  refine ⟨t.scale a, ?_, fun k => rfl⟩
  have := generateError_smul s a e p none
  rw [h] at this
  exact this

/-! ### C26 -/

/-- Station `k` of the survey. -/
def station (s : Sv) (k : ℕ) : Stn := ⟨s.md k, s.inc k, s.azi k⟩

/-- A row as a vector. -/
def toV3 (v : V) : V3 := ⟨v 0, v 1, v 2⟩

/-- **C26**, partials with respect to the lower station of an interval: the tables
for depth, inclination and azimuth are the derivatives of the balanced-tangential
displacement of the interval above station `k ≥ 1`.  The inclination partial is only
right when the model is rev4 or `k` is not the first interval
(see `C26_first_interval_wrong`). -/
theorem C26_partials_lower_partial (s : Sv) {k : ℕ} (hk : 1 ≤ k) :
    HasDeriv (fun x => balancedTangential (station s (k - 1)) { station s k with md := x })
      (toV3 (drkDepth s k)) (s.md k) ∧
    ((s.rev4 = true ∨ k ≠ 1) →
      HasDeriv (fun x => balancedTangential (station s (k - 1)) { station s k with inc := x })
        (toV3 (drkInc s k)) (s.inc k)) ∧
    HasDeriv (fun x => balancedTangential (station s (k - 1)) { station s k with azi := x })
      (toV3 (drkAz s k)) (s.azi k) := by
  have hk0 : k ≠ 0 := by omega
  have hs := fun x => hasDerivAt_sin x
  have hc := fun x => hasDerivAt_cos x
  refine ⟨⟨?_, ?_, ?_⟩, fun h => ⟨?_, ?_, ?_⟩, ⟨?_, ?_, ?_⟩⟩
  all_goals
    simp only [balancedTangential, station, tangent, toV3, drkDepth, drkInc, drkAz, hk0, if_false,
      V3.smul_x, V3.smul_y, V3.smul_z, V3.add_x, V3.add_y, V3.add_z]
  · refine (((hasDerivAt_id' (s.md k)).sub_const (s.md (k-1))).div_const 2 |>.mul_const _).congr_deriv ?_
    simp [-mul_eq_mul_right_iff, -mul_eq_mul_left_iff]; ring
  · refine (((hasDerivAt_id' (s.md k)).sub_const (s.md (k-1))).div_const 2 |>.mul_const _).congr_deriv ?_
    simp [-mul_eq_mul_right_iff, -mul_eq_mul_left_iff]; ring
  · refine (((hasDerivAt_id' (s.md k)).sub_const (s.md (k-1))).div_const 2 |>.mul_const _).congr_deriv ?_
    simp [-mul_eq_mul_right_iff, -mul_eq_mul_left_iff]; ring
  · refine (((((hs (s.inc k)).mul_const (cos (s.azi k))).const_add _).const_mul _)).congr_deriv ?_
    rcases h with h | h <;> simp [h] <;> ring
  · refine (((((hs (s.inc k)).mul_const (sin (s.azi k))).const_add _).const_mul _)).congr_deriv ?_
    simp [-mul_eq_mul_right_iff, -mul_eq_mul_left_iff]; ring
  · refine ((((hc (s.inc k)).const_add _).const_mul _)).congr_deriv ?_
    simp [-mul_eq_mul_right_iff, -mul_eq_mul_left_iff]; ring
  · refine (((((hc (s.azi k)).const_mul (sin (s.inc k))).const_add _).const_mul _)).congr_deriv ?_
    simp [-mul_eq_mul_right_iff, -mul_eq_mul_left_iff]; ring
  · refine (((((hs (s.azi k)).const_mul (sin (s.inc k))).const_add _).const_mul _)).congr_deriv ?_
    simp [-mul_eq_mul_right_iff, -mul_eq_mul_left_iff]; ring
  · simpa using hasDerivAt_const (s.azi k) _

/-- **C26**, partials with respect to the upper station of an interval. -/
theorem C26_partials_upper (s : Sv) {k : ℕ} (hk : k + 1 < s.n) :
    HasDeriv (fun x => balancedTangential { station s k with md := x } (station s (k + 1)))
      (toV3 (drk1Depth s k)) (s.md k) ∧
    HasDeriv (fun x => balancedTangential { station s k with inc := x } (station s (k + 1)))
      (toV3 (drk1Inc s k)) (s.inc k) ∧
    HasDeriv (fun x => balancedTangential { station s k with azi := x } (station s (k + 1)))
      (toV3 (drk1Az s k)) (s.azi k) := by
  have hs := fun x => hasDerivAt_sin x
  have hc := fun x => hasDerivAt_cos x
  refine ⟨⟨?_, ?_, ?_⟩, ⟨?_, ?_, ?_⟩, ⟨?_, ?_, ?_⟩⟩
  all_goals
    simp only [balancedTangential, station, tangent, toV3, drk1Depth, drk1Inc, drk1Az, drkDepth,
      hk, if_true, Nat.add_one_ne_zero, if_false,
      V3.smul_x, V3.smul_y, V3.smul_z, V3.add_x, V3.add_y, V3.add_z]
  · refine (((hasDerivAt_id' (s.md k)).const_sub (s.md (k+1))).div_const 2 |>.mul_const _).congr_deriv ?_
    simp [-mul_eq_mul_right_iff, -mul_eq_mul_left_iff]; ring
  · refine (((hasDerivAt_id' (s.md k)).const_sub (s.md (k+1))).div_const 2 |>.mul_const _).congr_deriv ?_
    simp [-mul_eq_mul_right_iff, -mul_eq_mul_left_iff]; ring
  · refine (((hasDerivAt_id' (s.md k)).const_sub (s.md (k+1))).div_const 2 |>.mul_const _).congr_deriv ?_
    simp [-mul_eq_mul_right_iff, -mul_eq_mul_left_iff]; ring
  · refine (((((hs (s.inc k)).mul_const (cos (s.azi k))).add_const _).const_mul _)).congr_deriv ?_
    simp [-mul_eq_mul_right_iff, -mul_eq_mul_left_iff]; ring
  · refine (((((hs (s.inc k)).mul_const (sin (s.azi k))).add_const _).const_mul _)).congr_deriv ?_
    simp [-mul_eq_mul_right_iff, -mul_eq_mul_left_iff]; ring
  · refine ((((hc (s.inc k)).add_const _).const_mul _)).congr_deriv ?_
    simp [-mul_eq_mul_right_iff, -mul_eq_mul_left_iff]; ring
  · refine (((((hc (s.azi k)).const_mul (sin (s.inc k))).add_const _).const_mul _)).congr_deriv ?_
    simp [-mul_eq_mul_right_iff, -mul_eq_mul_left_iff]; ring
  · refine (((((hs (s.azi k)).const_mul (sin (s.inc k))).add_const _).const_mul _)).congr_deriv ?_
    simp [-mul_eq_mul_right_iff, -mul_eq_mul_left_iff]; ring
  · simpa using hasDerivAt_const (s.azi k) _

/-- **C26** is false at the first interval of every model other than rev4: the north
inclination partial is twice the derivative.  Witness: a vertical 30 m interval. -/
theorem C26_first_interval_wrong : ∃ s : Sv, s.rev4 = false ∧ 1 < s.n ∧
    ¬ HasDeriv (fun x => balancedTangential (station s 0) { station s 1 with inc := x })
        (toV3 (drkInc s 1)) (s.inc 1) := by
  refine ⟨exSv, rfl, by simp [exSv], fun h => ?_⟩
  have h1 := h.1
  have h2 : HasDerivAt
      (fun x => (balancedTangential (station exSv 0) { station exSv 1 with inc := x }).x)
      15 (exSv.inc 1) := by
    simp only [balancedTangential, station, tangent, V3.smul_x, V3.add_x]
    refine (((((hasDerivAt_sin (exSv.inc 1)).mul_const (cos (exSv.azi 1))).const_add _).const_mul
      _)).congr_deriv ?_
    simp [exSv]; norm_num
  have := h1.unique h2
  simp [toV3, drkInc, exSv] at this
  norm_num at this

/-! ### C27 -/

/-- **C27** The fused table equals, entry by entry, the six individual functions, for
every survey and every row, including the zero rows. -/
theorem C27_fused_table (s : Sv) (k : ℕ) (i : Fin 3) :
    drdp s k ⟨i, by omega⟩ = drkDepth s k i ∧
    drdp s k ⟨3 + i, by omega⟩ = drkInc s k i ∧
    drdp s k ⟨6 + i, by omega⟩ = drkAz s k i ∧
    drdp s k ⟨9 + i, by omega⟩ = drk1Depth s k i ∧
    drdp s k ⟨12 + i, by omega⟩ = drk1Inc s k i ∧
    drdp s k ⟨15 + i, by omega⟩ = drk1Az s k i := by
  by_cases h0 : k = 0
  · subst h0
    by_cases hn : 1 < s.n
    · fin_cases i <;> refine ⟨?_, ?_, ?_, ?_, ?_, ?_⟩ <;>
        simp [-mul_eq_mul_right_iff, -mul_eq_mul_left_iff, drdp, drkDepth, drkInc, drkAz,
          drk1Depth, drk1Inc, drk1Az, hn] <;> ring
    · fin_cases i <;> refine ⟨?_, ?_, ?_, ?_, ?_, ?_⟩ <;>
        simp [drdp, drkDepth, drkInc, drkAz, drk1Depth, drk1Inc, drk1Az, hn]
  · obtain ⟨m, rfl⟩ : ∃ m, k = m + 1 := ⟨k - 1, by omega⟩
    by_cases hm : m = 0
    · subst hm
      by_cases hn : 2 < s.n <;> by_cases hr : s.rev4 = true <;>
      fin_cases i <;> refine ⟨?_, ?_, ?_, ?_, ?_, ?_⟩ <;>
        simp [-mul_eq_mul_right_iff, -mul_eq_mul_left_iff, drdp, drkDepth, drkInc, drkAz,
          drk1Depth, drk1Inc, drk1Az, hn, hr] <;> ring
    · by_cases hn : m + 1 + 1 < s.n <;>
      fin_cases i <;> refine ⟨?_, ?_, ?_, ?_, ?_, ?_⟩ <;>
        simp [-mul_eq_mul_right_iff, -mul_eq_mul_left_iff, drdp, drkDepth, drkInc, drkAz,
          drk1Depth, drk1Inc, drk1Az, hn, hm] <;> ring

/-! ### C28 -/

/-- A term of a JSON catalogue: its propagation mode and its error vectors. -/
structure JsonTerm where
  mode : String
  eDIA : ℕ → V

/-- The sources built for a JSON tool model (`_call_interpreter`, lines 289-361, with
the weights already evaluated). -/
noncomputable def jsonTerms (s : Sv) (l : List JsonTerm) : List (Option Term) :=
  l.map fun t => generateError s t.eDIA (jsonProp t.mode) none

/-- **C28**, the part that holds: a JSON tool model none of whose terms is marked
`Well`, and a YAML term with one of the four documented modes, always yields a
covariance. -/
theorem C28_modes_contribute_partial (s : Sv) :
    (∀ l : List JsonTerm, (∀ t ∈ l, t.mode ≠ "Well") →
      ∃ T, totals (jsonTerms s l) = .ok T ∧ ∃ vs : List Term, vs.length = l.length ∧
        ∀ k, T.total k = (vs.map fun v => v.cov k).sum) ∧
    (∀ mode ∈ ["random", "systematic", "global", "within_pad"], ∀ e nev,
      ∃ t, generateError s e (yamlProp mode) nev = some t) := by
  refine ⟨fun l hl => ?_, fun mode hm e nev => ?_⟩
  · have : ∃ vs : List Term, jsonTerms s l = vs.map some ∧ vs.length = l.length := by
      induction l with
      | nil => exact ⟨[], rfl, rfl⟩
      | cons t l ih =>
        obtain ⟨vs, h1, h2⟩ := ih fun u hu => hl u (by simp [hu])
        have ht := hl t (by simp)
        have : ∃ v, generateError s t.eDIA (jsonProp t.mode) none = some v := by
          simp only [jsonProp]
          repeat' split
          all_goals first | contradiction | simp [generateError, propagate]
        obtain ⟨v, hv⟩ := this
        exact ⟨v :: vs, by simpa [jsonTerms, hv] using h1, by simp [h2]⟩
    obtain ⟨vs, h1, h2⟩ := this
    refine ⟨_, by rw [h1]; exact totalsLoop_map_some vs _, vs, h2, fun k => ?_⟩
    simpa using (foldl_step vs ⟨0, 0, 0, 0, 0⟩ k).1
  · simp only [List.mem_cons, List.not_mem_nil, or_false] at hm
    rcases hm with rfl | rfl | rfl | rfl <;> simp [yamlProp, generateError, propagate]

/-- **C28** is false for JSON catalogues: any tool model containing a term whose mode
is `Well` cannot be loaded — the totals raise AttributeError whatever the survey and
the other terms.  (`CB_Film_GMS` is such a model: its term `DSFW`.) -/
theorem C28_well_mode_fails (s : Sv) (l₁ l₂ : List JsonTerm) (e : ℕ → V) :
    totals (jsonTerms s (l₁ ++ ⟨"Well", e⟩ :: l₂)) = .error .attributeError := by
  have hn : generateError s e (jsonProp "Well") none = none := by
    simp [jsonProp, generateError, propagate]
  have : ∀ (l : List JsonTerm) (t : Totals),
      totalsLoop (jsonTerms s (l ++ ⟨"Well", e⟩ :: l₂)) t = .error .attributeError := by
    intro l
    induction l with
    | nil => intro t; simp only [jsonTerms, List.nil_append, List.map_cons, hn]; rfl
    | cons u l ih =>
      intro t
      simp only [jsonTerms, List.cons_append, List.map_cons]
      cases generateError s u.eDIA (jsonProp u.mode) none with
      | none => rfl
      | some v => exact ih _
  exact this l₁ _

/-! ### C59 -/

/-- Station `k` displaced by `t` times an error row `[depth, inc, azi]`. -/
def perturbed (s : Sv) (e : ℕ → V) (t : ℝ) (k : ℕ) : Stn :=
  ⟨s.md k + t * e k 0, s.inc k + t * e k 1, s.azi k + t * e k 2⟩

/-- Position of station `k` relative to station 0 by the balanced-tangential method
when every station is in error by `t * e`. -/
noncomputable def perturbedPosition (s : Sv) (e : ℕ → V) (t : ℝ) : ℕ → V3
  | 0 => 0
  | k + 1 => perturbedPosition s e t k +
      balancedTangential (perturbed s e t k) (perturbed s e t (k + 1))

theorem hasDeriv_interval (s : Sv) (e : ℕ → V) (k : ℕ) :
    HasDeriv (fun t => balancedTangential (perturbed s e t k) (perturbed s e t (k + 1)))
      (((e (k+1) 0 - e k 0) / 2) • (tangent (s.inc k) (s.azi k)
          + tangent (s.inc (k+1)) (s.azi (k+1)))
        + ((s.md (k+1) - s.md k) / 2) •
          (⟨cos (s.inc k) * cos (s.azi k) * e k 1 - sin (s.inc k) * sin (s.azi k) * e k 2,
            cos (s.inc k) * sin (s.azi k) * e k 1 + sin (s.inc k) * cos (s.azi k) * e k 2,
            -sin (s.inc k) * e k 1⟩ +
           ⟨cos (s.inc (k+1)) * cos (s.azi (k+1)) * e (k+1) 1
              - sin (s.inc (k+1)) * sin (s.azi (k+1)) * e (k+1) 2,
            cos (s.inc (k+1)) * sin (s.azi (k+1)) * e (k+1) 1
              + sin (s.inc (k+1)) * cos (s.azi (k+1)) * e (k+1) 2,
            -sin (s.inc (k+1)) * e (k+1) 1⟩)) 0 := by
  have lin : ∀ a b : ℝ, HasDerivAt (fun t : ℝ => a + t * b) b 0 := fun a b => by
    simpa using ((hasDerivAt_id' (0:ℝ)).mul_const b).const_add a
  have hs : ∀ a b : ℝ, HasDerivAt (fun t : ℝ => sin (a + t * b)) (cos a * b) 0 := fun a b => by
    simpa using (lin a b).sin
  have hc : ∀ a b : ℝ, HasDerivAt (fun t : ℝ => cos (a + t * b)) (-sin a * b) 0 := fun a b => by
    simpa using (lin a b).cos
  have hd := ((lin (s.md (k+1)) (e (k+1) 0)).sub (lin (s.md k) (e k 0))).div_const 2
  refine ⟨?_, ?_, ?_⟩
  all_goals
    simp only [balancedTangential, perturbed, tangent, V3.smul_x, V3.smul_y, V3.smul_z, V3.add_x,
      V3.add_y, V3.add_z]
  · refine (hd.mul (((hs (s.inc k) (e k 1)).mul (hc (s.azi k) (e k 2))).add
      ((hs (s.inc (k+1)) (e (k+1) 1)).mul (hc (s.azi (k+1)) (e (k+1) 2))))).congr_deriv ?_
    simp [-mul_eq_mul_right_iff, -mul_eq_mul_left_iff] <;> ring
  · refine (hd.mul (((hs (s.inc k) (e k 1)).mul (hs (s.azi k) (e k 2))).add
      ((hs (s.inc (k+1)) (e (k+1) 1)).mul (hs (s.azi (k+1)) (e (k+1) 2))))).congr_deriv ?_
    simp [-mul_eq_mul_right_iff, -mul_eq_mul_left_iff] <;> ring
  · refine (hd.mul ((hc (s.inc k) (e k 1)).add (hc (s.inc (k+1)) (e (k+1) 1)))).congr_deriv ?_
    simp [-mul_eq_mul_right_iff, -mul_eq_mul_left_iff] <;> ring

theorem Spec.HasDeriv.add {f g : ℝ → V3} {f' g' : V3} {x : ℝ} (hf : HasDeriv f f' x)
    (hg : HasDeriv g g' x) : HasDeriv (fun t => f t + g t) (f' + g') x :=
  ⟨hf.1.add hg.1, hf.2.1.add hg.2.1, hf.2.2.add hg.2.2⟩

theorem hasDeriv_perturbedPosition (s : Sv) (hr : s.rev4 = true) (e : ℕ → V)
    (h0 : e 0 = 0) {k : ℕ} (hk : k < s.n) :
    HasDeriv (fun x => perturbedPosition s e x k)
      (toV3 (sigmaSystematic (eNEV s e) (eNEVStar s e) k)) 0 := by
  induction k with
  | zero =>
    have : toV3 (sigmaSystematic (eNEV s e) (eNEVStar s e) 0) = 0 := by
      simp [sigmaSystematic, eNEV, eNEVStar, toV3]; rfl
    rw [this]
    exact ⟨hasDerivAt_const _ _, hasDerivAt_const _ _, hasDerivAt_const _ _⟩
  | succ k ih =>
    have := Spec.HasDeriv.add (ih (by omega)) (hasDeriv_interval s e k)
    refine cast ?_ this
    congr 1
    have hstep : sigmaSystematic (eNEV s e) (eNEVStar s e) (k + 1)
        = sigmaSystematic (eNEV s e) (eNEVStar s e) k
          + (eNEVStar s e (k + 1) + eNEV s e k - eNEVStar s e k) := by
      simp only [sigmaSystematic, Nat.add_one_ne_zero, if_false, sum_range_succ]
      by_cases hk0 : k = 0
      · subst hk0; simp [eNEV, eNEVStar]
      · simp only [hk0, if_false]; abel
    rw [hstep]
    by_cases hk0 : k = 0
    · subst hk0
      ext <;> simp [toV3, eNEV, eNEVStar, drdp, h0, hr, tangent] <;> ring
    · obtain ⟨m, rfl⟩ : ∃ m, k = m + 1 := ⟨k - 1, by omega⟩
      ext <;> simp [toV3, eNEV, eNEVStar, drdp, hk, hr, tangent] <;> ring

/-- **C59** For a rev4 model and a systematic (global, within-pad) source, the error
of every station is the first-order displacement of the station when all stations
below the first are in error by the source at once (the first station is exact): its
covariance is the outer product of the derivative of the balanced-tangential
position.  Missing: other models, for which it fails
(`C59_first_order_fails_other_models`). -/
theorem C59_systematic_is_first_order_partial (s : Sv) (hr : s.rev4 = true) (e : ℕ → V)
    {p : Prop'} (hp : p = .systematic ∨ p = .global ∨ p = .withinPad) {t : Term}
    (ht : generateError s e p none = some t) {k : ℕ} (hk : k < s.n) :
    ∃ d : V, HasDeriv (fun x => perturbedPosition s (Function.update e 0 0) x k) (toV3 d) 0 ∧
      t.cov k = covFromVec d := by
  have h1 : eNEV s (Function.update e 0 0) = eNEV s e := by
    funext k; by_cases h : k = 0 <;> simp [eNEV, h]
  have h2 : eNEVStar s (Function.update e 0 0) = eNEVStar s e := by
    funext k; by_cases h : k = 0 <;> simp [eNEVStar, h]
  have hcov : t.cov k = covFromVec (sigmaSystematic (eNEV s e) (eNEVStar s e) k) := by
    rcases hp with rfl | rfl | rfl <;>
    · simp only [generateError, propagate, Option.map_some, Option.some.injEq] at ht
      subst ht; rfl
  have := hasDeriv_perturbedPosition s hr (Function.update e 0 0) (by simp) hk
  rw [h1, h2] at this
  exact ⟨_, this, hcov⟩

/-- **C59** fails for models other than rev4: on a vertical 30 m interval a unit
inclination error moves station 1 by 15 m to first order, while its computed
standard deviation is 30 m. -/
theorem C59_first_order_fails_other_models :
    ∃ (s : Sv) (e : ℕ → V) (t : Term), s.rev4 = false ∧
      generateError s e .systematic none = some t ∧
      ∃ d : V, HasDeriv (fun x => perturbedPosition s (Function.update e 0 0) x 1) (toV3 d) 0 ∧
        t.cov 1 ≠ covFromVec d := by
  refine ⟨exSv, fun _ => ![0, 1, 0], _, rfl, rfl, ![15, 0, 0], ?_, fun h => ?_⟩
  · have h := hasDeriv_interval exSv (Function.update (fun _ => ![0, 1, 0]) 0 0) 0
    have hz : HasDeriv (fun _ : ℝ => (0 : V3)) 0 0 :=
      ⟨hasDerivAt_const _ _, hasDerivAt_const _ _, hasDerivAt_const _ _⟩
    refine cast ?_ (Spec.HasDeriv.add hz h)
    congr 1
    ext <;> simp [toV3, exSv, tangent]
    norm_num
  · have := congrFun (congrFun h 0) 0
    simp [covFromVec, sigmaSystematic, eNEV, eNEVStar, drdp, exSv] at this
    norm_num at this

/-- Non-vacuous: a rev4 version of the example survey. -/
example : ∃ t, generateError { exSv with rev4 := true } (fun _ => ![0, 1, 0]) .systematic none
    = some t := ⟨_, rfl⟩

end Welleng.Props
