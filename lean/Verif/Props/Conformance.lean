import Verif.Model.Conformance
import Verif.Props.Formula
import Verif.Props.Ingest

/-!
C280, C281, C284: the comparison of the two ways to evaluate a tool model, and the validation
against Copsegrove diagnostics.
-/

namespace Welleng.Props

open Conf Err

/-! ### C280: the verdict -/

theorem maxOf_lt {l : List ℝ} {b : ℝ} (hb : 0 < b) : Ingest.maxOf l < b ↔ ∀ x ∈ l, x < b := by
  unfold Ingest.maxOf
  induction l with
  | nil => simpa using hb
  | cons a t ih => simp [ih]

theorem maxDiff_lt {n : ℕ} {a b : ℕ → V} {ε : ℝ} (hε : 0 < ε) :
    maxDiff n a b < ε ↔ ∀ k < n, ∀ i, |a k i - b k i| < ε := by
  unfold maxDiff
  rw [maxOf_lt hε]
  constructor
  · intro h k hk i
    refine h _ (List.mem_flatMap.2 ⟨k, List.mem_range.2 hk, ?_⟩)
    fin_cases i <;> simp
  · intro h x hx
    obtain ⟨k, hk, hx⟩ := List.mem_flatMap.1 hx
    have hk := List.mem_range.1 hk
    simp only [List.mem_cons, List.not_mem_nil, or_false] at hx
    rcases hx with rfl | rfl | rfl <;> exact h k hk _

/-- C280. A term is reported as a match exactly when both ways to evaluate it gave an array and the
arrays agree to better than 1e-10 in each component at each station, as a near match when they
agree to 1e-6 but not to 1e-10, and as different when some component differs by 1e-6 or more. -/
theorem C280_verdict (n : ℕ) (interp legacy : Option (ℕ → V)) :
    let within (ε : ℝ) := ∃ i l, interp = some i ∧ legacy = some l ∧
      ∀ k < n, ∀ j, |l k j - i k j| < ε
    (verdict n interp legacy = .matches_ ↔ within 1e-10) ∧
    (verdict n interp legacy = .nearMatch ↔ within 1e-6 ∧ ¬ within 1e-10) ∧
    (verdict n interp legacy = .differ ↔
      interp ≠ none ∧ legacy ≠ none ∧ ¬ within 1e-6) ∧
    (verdict n interp legacy = .interpFailed ↔ interp = none) ∧
    (verdict n interp legacy = .noLegacy ↔ interp ≠ none ∧ legacy = none) := by
  rcases interp with _ | i
  · simp [verdict]
  rcases legacy with _ | l
  · simp [verdict]
  have h1 := maxDiff_lt (n := n) (a := l) (b := i) (ε := 1e-10) (by norm_num)
  have h2 := maxDiff_lt (n := n) (a := l) (b := i) (ε := 1e-6) (by norm_num)
  have h3 : maxDiff n l i < 1e-10 → maxDiff n l i < 1e-6 := fun h => h.trans (by norm_num)
  simp only [verdict, Option.some.injEq, exists_and_left, exists_eq_left', ← h1, ← h2]
  split_ifs with ha hb
  · simp [ha, h3 ha]
  · simp [ha, hb]
  · simp [ha, hb]

example : verdict 1 (some fun _ => 0) (some fun _ => ![0, 1, 0]) = .differ := by
  have h := (C280_verdict 1 (some fun _ => 0) (some fun _ => ![0, 1, 0])).2.2.1
  rw [h]
  refine ⟨by simp, by simp, ?_⟩
  rintro ⟨i, l, hi, hl, hk⟩
  cases hi; cases hl
  have := hk 0 (by norm_num) 1
  norm_num at this

/-! ### C281: which terms are compared -/

/-- The weight functions that replace their rows at nearly vertical stations. -/
def singular : List Func :=
  [.ABIXY_TI2, .ABXY_TI2, .CNA, .XYM3, .XYM4, .XYM3E, .XYM4E, .XYM3L, .XYM4L]

theorem singRows_none {f : Func} {c : Ctx} {t m : ℝ} : singRows f c t m = none ↔ f ∉ singular := by
  cases f <;> simp [singRows, singular]

/-- C281, what holds: the weight functions other than the tortuosity ones are compared, with the
error in depth, inclination and azimuth that the error model would use, on surveys without nearly
vertical stations, and those that do not treat such stations apart on any survey. -/
theorem C281_compared_partial {f : Func} {c : Ctx} (mag : ℝ) (h1 : f ≠ .XCLA) (h2 : f ≠ .XCLH)
    (h : f ∉ singular ∨ ∀ k < c.s.n, c.vlim ≤ c.s.inc k) :
    ∃ l, legacyEval f c mag = some l ∧
      ∀ p, callFunc f c mag p = .ok (generateError c.s l (forcedProp f p) none) := by
  have ht : f.usesTortuosity = false := by cases f <;> simp_all [Func.usesTortuosity]
  have hd : eDIA f c (c.tortuosity.getD 0) mag = eDIA f c 0 mag := by
    funext k
    cases f <;> first | rfl | simp_all
  have hx : ¬ (f = .XCLA ∨ f = .XCLH) := by tauto
  have hv : singRows f c 0 mag = none ∨ ¬ ∃ k < c.s.n, c.s.inc k < c.vlim := by
    rcases h with h | h
    · exact .inl (singRows_none.2 h)
    · exact .inr (by push Not; exact h)
  refine ⟨eDIA f c 0 mag, ?_, fun p => ?_⟩
  · unfold legacyEval
    rw [ht]
    rcases hs : singRows f c 0 mag with _ | r
    · simp
    · have hv : ¬ ∃ k < c.s.n, c.s.inc k < c.vlim := by
        rcases hv with hv | hv
        · rw [hs] at hv; cases hv
        · exact hv
      simp [hv]
  · unfold callFunc
    dsimp only
    rw [ht, hd, if_neg hx]
    rcases hs : singRows f c (c.tortuosity.getD 0) mag with _ | r
    · simp
    · have hv : ¬ ∃ k < c.s.n, c.s.inc k < c.vlim := by
        rcases hv with hv | hv
        · rw [singRows_none] at hv
          rw [singRows_none.2 hv] at hs; cases hs
        · exact hv
      simp [hv]

example (c : Ctx) (mag : ℝ) : ∃ l, legacyEval .DSF c mag = some l :=
  (C281_compared_partial mag (by decide) (by decide) (.inl (by decide))).imp fun _ h => h.1

/-- C281 is false: on a survey with a nearly vertical station nine weight functions are reported as
missing, and the two tortuosity functions are on every survey, although the error model evaluates
them. -/
theorem C281_reported_missing {f : Func} {c : Ctx} (mag : ℝ)
    (h : f ∈ [Func.XCLA, .XCLH] ∨ f ∈ singular ∧ ∃ k < c.s.n, c.s.inc k < c.vlim) :
    ∀ interp n, verdict n (some interp) (legacyEval f c mag) = .noLegacy := by
  intro interp n
  have : legacyEval f c mag = none := by
    unfold legacyEval
    rcases h with h | ⟨hs, hv⟩
    · simp only [List.mem_cons, List.not_mem_nil, or_false] at h
      rcases h with rfl | rfl <;> simp [Func.usesTortuosity]
    · rcases hr : singRows f c 0 mag with _ | r
      · exact absurd hs (singRows_none.1 hr)
      · simp [hv]
  rw [this]
  rfl

/-- C281 is false, with a survey: the hand-written `XYM3` gives an error there, but is reported as
missing. -/
theorem C281_xym3 : ∃ c : Ctx, (∃ t, callFunc .XYM3 c 1 .systematic = .ok (some t)) ∧
    ∀ interp n, verdict n (some interp) (legacyEval .XYM3 c 1) = .noLegacy := by
  let c : Ctx :=
    { s := { n := 3, md := fun k => 30 * k, inc := fun _ => 0, azi := fun _ => 0, rev4 := false }
      tvd := fun k => 30 * k, aziMag := fun _ => 0, aziGrid := fun _ => 0, G := 1, dip := 0
      bTotal := 1, vlim := 1, ref := .true, tortuosity := none }
  have hv : ∃ k < c.s.n, c.s.inc k < c.vlim := ⟨0, by simp [c], by simp [c]⟩
  refine ⟨c, ?_, C281_reported_missing 1 (.inr ⟨by decide, hv⟩)⟩
  unfold callFunc
  simp [Func.usesTortuosity, singRows, hv, forcedProp, generateError, propagate]

/-! ### C284: the variables of a station -/

/-- The values at a station of a survey that a formula may mention: measured depth, inclination,
the azimuth from true, magnetic and grid north, and the vertical depth. -/
structure Values where
  md : ℝ
  inc : ℝ
  azTrue : ℝ
  azMag : ℝ
  azGrid : ℝ
  tvd : ℝ

/-- The meaning of the names in a formula. -/
def ownEnv (scal : String → ℝ) (s : ℕ → Values) : String → Option (ℕ → ℝ)
  | "MD" => some fun k => (s k).md
  | "Inc" => some fun k => (s k).inc
  | "AzT" => some fun k => (s k).azTrue
  | "AzM" => some fun k => (s k).azMag
  | "Az" => some fun k => (s k).azGrid
  | "TVD" => some fun k => (s k).tvd
  | "Gfield" => some fun _ => scal "Gfield"
  | "Dip" => some fun _ => scal "Dip"
  | "BField" => some fun _ => scal "BField"
  | "EarthRate" => some fun _ => scal "EarthRate"
  | "Latitude" => some fun _ => scal "Latitude"
  | "RAD" => some fun _ => scal "RAD"
  | _ => none

/-- What a diagnostics file has of a station. -/
def recorded (s : ℕ → Values) : ℕ → Conf.Station := fun k => ⟨(s k).md, (s k).inc, (s k).azTrue⟩

theorem denotes_mono {env env' : String → Option (ℕ → ℝ)}
    (h : ∀ id v, env id = some v → env' id = some v) {e : Interp.PyExpr} {v : ℕ → ℝ}
    (hd : Spec.Denotes env e v) : Spec.Denotes env' e v := by
  induction hd with
  | num r => exact .num r
  | pi => exact .pi
  | var hv => exact .var (h _ _ hv)
  | add _ _ i j => exact .add i j
  | sub _ _ i j => exact .sub i j
  | mul _ _ i j => exact .mul i j
  | div _ _ i j => exact .div i j
  | pow _ _ i j => exact .pow i j
  | neg _ i => exact .neg i
  | pos _ i => exact .pos i
  | fn1 hf _ i => exact .fn1 hf i
  | fn2 hf _ _ i j => exact .fn2 hf i j

theorem stationFormula_eq {scal : String → ℝ} {st : ℕ → Conf.Station} {e : Interp.PyExpr}
    {v : ℕ → ℝ} (h : Spec.Denotes (envOf (Interp.jsonBindings scal) (stationStore st)) e v) :
    stationFormula scal st e = some v := by
  obtain ⟨b1, b2⟩ := jsonBindings_free scal
  obtain ⟨st', val, he, -, hr⟩ := C122_formula_value b1 b2 ⟨stationStore st, []⟩ h
  unfold stationFormula
  rw [he]
  exact hr

/-- C284, for formulas that mention neither the vertical depth nor the azimuths from magnetic and
grid north: a formula is evaluated with the values of each station. -/
theorem C284_own_values_partial {scal : String → ℝ} {s : ℕ → Values} {e : Interp.PyExpr}
    {v : ℕ → ℝ} (h : Spec.Denotes (fun id => if id ∈ ["TVD", "AzM", "Az"] then none
      else ownEnv scal s id) e v) : stationFormula scal (recorded s) e = some v := by
  refine stationFormula_eq (denotes_mono ?_ h)
  intro id w hw
  split_ifs at hw with hid
  simp only [List.mem_cons, List.not_mem_nil, or_false, not_or] at hid
  unfold ownEnv at hw
  split at hw <;> simp_all <;> rw [← hw] <;> rfl

example (scal : String → ℝ) (s : ℕ → Values) :
    stationFormula scal (recorded s) (.call (.name "sin") [.name "Inc"] []) =
      some fun k => Real.sin (s k).inc :=
  C284_own_values_partial (.fn1 rfl (.var (by rw [if_neg (by decide)]; rfl)))

/-- C284 is false: for the vertical depth a formula gets the measured depth, and for the azimuths
from magnetic and grid north the azimuth from true north. -/
theorem C284_wrong_values (scal : String → ℝ) (s : ℕ → Values) :
    stationFormula scal (recorded s) (.name "TVD") = some (fun k => (s k).md) ∧
    stationFormula scal (recorded s) (.name "AzM") = some (fun k => (s k).azTrue) ∧
    stationFormula scal (recorded s) (.name "Az") = some (fun k => (s k).azTrue) ∧
    Spec.Denotes (ownEnv scal s) (.name "TVD") (fun k => (s k).tvd) ∧
    Spec.Denotes (ownEnv scal s) (.name "AzM") (fun k => (s k).azMag) ∧
    Spec.Denotes (ownEnv scal s) (.name "Az") (fun k => (s k).azGrid) :=
  ⟨stationFormula_eq (.var rfl), stationFormula_eq (.var rfl), stationFormula_eq (.var rfl),
    .var rfl, .var rfl, .var rfl⟩

/-- C284 is false, with a station: in a deviated hole the formula `TVD` has not the value of the
station. -/
theorem C284_false : ¬ ∀ (scal : String → ℝ) (s : ℕ → Values) (e : Interp.PyExpr) (v : ℕ → ℝ),
    Spec.Denotes (ownEnv scal s) e v → stationFormula scal (recorded s) e = some v := by
  intro h
  have h1 := C284_wrong_values (fun _ => 0) fun _ => ⟨1000, 1, 0, 0, 0, 800⟩
  have h2 := h _ _ _ _ h1.2.2.2.1
  rw [h1.1] at h2
  have := congrFun (Option.some.inj h2) 0
  norm_num at this

end Welleng.Props
