import Verif.Model.JsonTerm
import Verif.Props.Formula
import Verif.Props.Upright

/-!
C287, C63: what a term of a JSON tool model contributes at vertical stations, and terms that share a
name.
-/

namespace Welleng.Props

open Real Err Interp
open Welleng.Spec (Denotes unitInBase)

/-! ### C287 -/

/-- C287 is false: whatever formulas a term declares for vertical stations, the result is the
same. -/
theorem C287_declared_unused (scal : String → ℝ) (s : Sv) (t : JTerm) (st : St)
    (north east vertical : Option PyExpr) :
    callTerm scal s { t with singNorth := north, singEast := east, singVertical := vertical } st
      = callTerm scal s t st := rfl

theorem upright_azimuth {s : Sv} (hv : ∀ k, s.inc k = 0) (a : ℕ → ℝ) (k : ℕ) :
    eNEV s (fun k => ![0, 0, a k]) k = 0 ∧ eNEVStar s (fun k => ![0, 0, a k]) k = 0 := by
  constructor
  · unfold eNEV
    split_ifs
    · rfl
    · funext j
      fin_cases j <;> simp [drdp, hv]
  · unfold eNEVStar
    split_ifs
    · rfl
    · funext j
      fin_cases j <;> simp [drdp, hv]

theorem upright_generate {s : Sv} (hv : ∀ k, s.inc k = 0) (a : ℕ → ℝ) {p : Prop'}
    (hp : p ≠ .other) :
    ∃ t, generateError s (fun k => ![0, 0, a k]) p none = some t ∧ ∀ k, t.cov k = 0 := by
  have h1 : eNEV s (fun k => ![0, 0, a k]) = fun _ => 0 :=
    funext fun k => (upright_azimuth hv a k).1
  have h2 : eNEVStar s (fun k => ![0, 0, a k]) = fun _ => 0 :=
    funext fun k => (upright_azimuth hv a k).2
  have h0 : covFromVec (0 : V) = 0 := by
    ext i j
    simp [covFromVec]
  cases p with
  | other => exact absurd rfl hp
  | _ =>
    refine ⟨_, by simp only [generateError, propagate, Option.map_some]; rfl, fun k => ?_⟩
    simp [h1, h2, sigmaSystematic, h0]

/-- C287 is false: in a vertical well an azimuth term contributes nothing, whatever number stands
for its azimuth formula there and whatever it declares for vertical stations. -/
theorem C287_vertical_nothing {scal : String → ℝ} {s : Sv} {t : JTerm} {st : St} {r : ℝ}
    {a : ℕ → ℝ} (hv : ∀ k, s.inc k = 0) (hu : unitInBase t.units = some r)
    (h1 : t.units ≠ "deg.nT") (h2 : t.units ≠ "deg/sqr(hr)")
    (hd : Denotes (envOf (jsonBindings scal) st.store) t.formulas.depth fun _ => 0)
    (hi : Denotes (envOf (jsonBindings scal) st.store) t.formulas.inc fun _ => 0)
    (ha : Denotes (envOf (jsonBindings scal) st.store) t.formulas.azi a)
    (hp : jsonProp t.mode ≠ .other) :
    ∃ st' T, callTerm scal s t st = (st', .ok (some T)) ∧ ∀ k, T.cov k = 0 := by
  obtain ⟨st', -, he⟩ := C124_json_term (s := s) (mag := t.value) (p := jsonProp t.mode)
    hu h1 h2 hd hi ha
  obtain ⟨T, hT, hz⟩ := upright_generate hv (fun k => t.value * r * a k) hp
  refine ⟨st', T, ?_, hz⟩
  unfold callTerm
  rw [he]
  simp only [mul_zero]
  rw [hT]

/-- The compass term of the shipped JSON models: `1 / Sin(Inc)` in azimuth, `-Sin(Az)` north and
`Cos(Az)` east at vertical stations. -/
def cnaTerm : JTerm where
  name := "CNA"
  value := 1
  units := "deg"
  mode := "Systematic"
  formulas := ⟨.const (.num 0), .const (.num 0),
    .binOp .div (.const (.num 1)) (.call (.name "sin") [.name "Inc"] [])⟩
  singNorth := some (.unaryOp .usub (.call (.name "sin") [.name "Az"] []))
  singEast := some (.call (.name "cos") [.name "Az"] [])
  singVertical := none

/-- C287 is false: in a vertical well of four stations the compass term of a JSON model contributes
nothing, while the same source of the built-in models gives station 2 an east standard deviation of
its magnitude times 150. -/
theorem C287_compass_lost (scal : String → ℝ) (st : St) :
    (∃ st' T, callTerm scal (uprightCtx (fun _ => 0) 100 0).s cnaTerm st = (st', .ok (some T)) ∧
      ∀ k, T.cov k = 0) ∧
    ∃ T, callFunc .CNA (uprightCtx (fun _ => 0) 100 0) (π / 180) .systematic = .ok (some T) ∧
      T.cov 2 1 1 = (π / 180 * 150) ^ 2 := by
  constructor
  · exact C287_vertical_nothing (r := π / 180) (fun _ => rfl) (by simp [cnaTerm, unitInBase])
      (by decide) (by decide) (.num 0) (.num 0)
      (.div (.num 1) (.fn1 (f := "sin") rfl (.var rfl))) (by simp [cnaTerm, jsonProp])
  · refine ⟨_, by
      simp only [callFunc, forcedProp, Func.usesTortuosity, Bool.false_and, Bool.false_eq_true,
        if_false, reduceCtorEq, or_self, false_and, singRows, cnaAzi, uprightCtx]
      rw [if_pos ⟨0, by norm_num, by norm_num⟩]
      simp only [generateError, propagate, Option.map_some]
      rfl, ?_⟩
    simp [covFromVec, sigmaSystematic, replaceSing, inner, Ctx.dmd, Ctx.dmd2, Finset.sum_range_succ]
    norm_num
    ring

/-- C287 (partial): what a term contributes at a station is its own formulas times its magnitude in
base units, carried by the sensitivities of the survey. -/
theorem C287_formulas_partial {scal : String → ℝ} {s : Sv} {t : JTerm} {st : St} {r : ℝ}
    {d i a : ℕ → ℝ} (hu : unitInBase t.units = some r)
    (h1 : t.units ≠ "deg.nT") (h2 : t.units ≠ "deg/sqr(hr)")
    (hd : Denotes (envOf (jsonBindings scal) st.store) t.formulas.depth d)
    (hi : Denotes (envOf (jsonBindings scal) st.store) t.formulas.inc i)
    (ha : Denotes (envOf (jsonBindings scal) st.store) t.formulas.azi a) :
    ∃ st', st'.store = st.store ∧ callTerm scal s t st = (st',
      .ok (generateError s (fun k => ![t.value * r * d k, t.value * r * i k, t.value * r * a k])
        (jsonProp t.mode) none)) :=
  C124_json_term hu h1 h2 hd hi ha

/-! ### C63: terms that share a name -/

theorem putCode_new {t : JTerm} {us : List JTerm} (h : ∀ u ∈ us, u.name ≠ t.name) :
    putCode t us = us ++ [t] := by
  induction us with
  | nil => rfl
  | cons u us ih =>
    rw [putCode, if_neg (h u (by simp)), ih fun v hv => h v (by simp [hv])]
    rfl

theorem putCode_names (t : JTerm) (us : List JTerm) :
    (putCode t us).map (·.name)
      = if t.name ∈ us.map (·.name) then us.map (·.name) else us.map (·.name) ++ [t.name] := by
  induction us with
  | nil => simp [putCode]
  | cons u us ih =>
    rw [putCode]
    by_cases h : u.name = t.name
    · simp [h]
    · rw [if_neg h, List.map_cons, ih]
      have h' : t.name ≠ u.name := fun e => h e.symm
      by_cases hm : t.name ∈ us.map (·.name)
      · rw [if_pos hm, if_pos (by simp only [List.map_cons, List.mem_cons]; exact Or.inr hm)]
        rfl
      · rw [if_neg hm, if_neg (by
          simp only [List.map_cons, List.mem_cons, not_or]; exact ⟨h', hm⟩)]
        rfl

theorem foldl_distinct (ts us : List JTerm)
    (h : ((us ++ ts).map (·.name)).Nodup) :
    ts.foldl (fun d t => putCode t d) us = us ++ ts := by
  induction ts generalizing us with
  | nil => simp
  | cons t ts ih =>
    have hn : ∀ u ∈ us, u.name ≠ t.name := by
      intro u hu he
      rw [List.map_append, List.nodup_append] at h
      exact h.2.2 u.name (List.mem_map.2 ⟨u, hu, rfl⟩) t.name (by simp) he
    rw [List.foldl_cons, putCode_new hn, ih (us ++ [t]) (by simpa using h)]
    simp

/-- C63 (partial): when the names of the terms differ, every term of the file is evaluated, once and
in the file's order. -/
theorem C63_all_terms_partial {terms : List JTerm} (h : (terms.map (·.name)).Nodup) :
    jsonCodes terms = terms := by
  simpa [jsonCodes] using foldl_distinct terms [] (by simpa using h)

/-- C63 is false: of two terms with the same name only the second is evaluated. -/
theorem C63_same_name_dropped {t u : JTerm} (h : t.name = u.name) : jsonCodes [t, u] = [u] := by
  simp [jsonCodes, putCode, h]

/-- A concrete case: two terms called `CNA` of different size. -/
example : jsonCodes [cnaTerm, { cnaTerm with value := 2 }] = [{ cnaTerm with value := 2 }] :=
  C63_same_name_dropped rfl

end Welleng.Props
