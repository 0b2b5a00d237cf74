import Verif.Spec.FormulaValue
import Verif.Props.Interpreter
import Verif.Lemmas.ErrorModel
import Mathlib.Analysis.Real.Pi.Bounds

/-!
C122-C125: the value of a formula, the units of a magnitude, the contribution of a JSON term and
the propagation mode of a YAML term (`/repo/welleng/errors/interpreter.py` 99-129,
`/repo/welleng/errors/tool_errors.py` 30-43, 290-361, 1845).
-/

namespace Welleng.Props

open Interp Spec Err

/-- The variables a set of bindings provides, given the contents of the arrays. -/
def envOf (b : Ns) (arrays : String → ℕ → ℝ) : String → Option (ℕ → ℝ) := fun id =>
  match b id with
  | some (.ref n) => some (arrays n)
  | some (.tmp v) => some v
  | some (.scal r) => some fun _ => r
  | _ => none

/-- A value is the number (or column) `v`. -/
def Is (arrays : String → ℕ → ℝ) (val : Value) (v : ℕ → ℝ) : Prop :=
  (∀ st : St, st.store = arrays → val.read st = some v) ∧ (val.isScal = true → ∀ k, v k = v 0)

theorem is_wrap {arrays : String → ℕ → ℝ} (s : Bool) (v : ℕ → ℝ) (h : s = true → ∀ k, v k = v 0) :
    Is arrays (wrap s v) v := by
  cases s with
  | false => exact ⟨fun _ _ => rfl, by simp [wrap, Value.isScal]⟩
  | true =>
    refine ⟨fun st _ => ?_, fun _ => h rfl⟩
    simp only [wrap, if_true, Value.read, Option.some.injEq]
    funext k; exact (h rfl k).symm

theorem fn1_ns {f : String} {g : ℝ → ℝ} (h : mathFn1 f = some g) :
    ∃ F : Fn, baseNs f = some (.fn F) ∧ F.fn1 = some g ∧ f ∈ allowedFuncs := by
  unfold mathFn1 at h
  split at h <;> simp only [Option.some.injEq, reduceCtorEq] at h <;> subst h <;>
    exact ⟨_, rfl, rfl, by decide⟩

theorem fn2_ns {f : String} {g : ℝ → ℝ → ℝ} (h : mathFn2 f = some g) :
    ∃ F : Fn, baseNs f = some (.fn F) ∧ F.fn1 = none ∧ F.fn2 = some g ∧ f ∈ allowedFuncs := by
  unfold mathFn2 at h
  split at h <;> simp only [Option.some.injEq, reduceCtorEq] at h <;> subst h <;>
    exact ⟨_, rfl, rfl, rfl, by decide⟩

theorem bin_value {ns : Ns} {arrays : String → ℕ → ℝ} {a b : PyExpr} {v w : ℕ → ℝ} (op : Op)
    (ha : ∀ st : St, st.store = arrays →
      ∃ st' val, eval ns a st = (st', .ok val) ∧ st'.store = arrays ∧ Is arrays val v)
    (hb : ∀ st : St, st.store = arrays →
      ∃ st' val, eval ns b st = (st', .ok val) ∧ st'.store = arrays ∧ Is arrays val w)
    (st : St) (hst : st.store = arrays) :
    ∃ st' val, eval ns (.binOp op a b) st = (st', .ok val) ∧ st'.store = arrays ∧
      Is arrays val fun k => op.fn (v k) (w k) := by
  obtain ⟨st1, va, e1, s1, i1⟩ := ha st hst
  obtain ⟨st2, vb, e2, s2, i2⟩ := hb st1 s1
  refine ⟨st2.log (.arith op), wrap (va.isScal && vb.isScal) fun k => op.fn (v k) (w k), ?_, s2,
    ?_⟩
  · simp only [eval, e1, e2, i1.1 (st2.log (.arith op)) s2, i2.1 (st2.log (.arith op)) s2]
  · refine is_wrap _ _ fun h k => ?_
    rw [Bool.and_eq_true] at h
    rw [i1.2 h.1 k, i2.2 h.2 k]

theorem eval_value {b : Ns} {arrays : String → ℕ → ℝ} (hb : ∀ f ∈ allowedFuncs, b f = none)
    (hbi : b "__builtins__" = none) {e : PyExpr} {v : ℕ → ℝ}
    (h : Denotes (envOf b arrays) e v) :
    validate e = true ∧ ∀ st : St, st.store = arrays →
      ∃ st' val, eval (update baseNs b) e st = (st', .ok val) ∧ st'.store = arrays ∧
        Is arrays val v := by
  have hfn : ∀ f ∈ allowedFuncs, update baseNs b f = baseNs f := by
    intro f hf; simp [update, hb f hf]
  induction h with
  | num r =>
    exact ⟨rfl, fun st hst => ⟨st, .scal r, rfl, hst, fun _ _ => rfl, fun _ _ => rfl⟩⟩
  | pi =>
    refine ⟨rfl, fun st hst => ⟨st, .scal Real.pi, ?_, hst, fun _ _ => rfl, fun _ _ => rfl⟩⟩
    have : update baseNs b "pi" = some (.scal Real.pi) := by
      rw [hfn "pi" (by decide)]; rfl
    simp only [eval, this]
  | var hid =>
    rename_i id v
    refine ⟨?_, fun st hst => ?_⟩
    · simp only [validate, bne_iff_ne, ne_eq]
      rintro rfl
      simp [envOf, hbi] at hid
    · unfold envOf at hid
      split at hid
      · rename_i n hn
        simp only [Option.some.injEq] at hid
        refine ⟨st, .ref n, by simp [eval, update, hn], hst, fun st' hs => ?_, by
          simp [Value.isScal]⟩
        simp only [Value.read, hs, hid]
      · rename_i w hn
        simp only [Option.some.injEq] at hid
        exact ⟨st, .tmp w, by simp [eval, update, hn], hst, fun st' hs => by
          simp only [Value.read, hid], by simp [Value.isScal]⟩
      · rename_i r hn
        simp only [Option.some.injEq] at hid
        exact ⟨st, .scal r, by simp [eval, update, hn], hst, fun st' hs => by
          simp only [Value.read, hid], fun _ k => by rw [← hid]⟩
      · cases hid
  | add _ _ ih1 ih2 =>
    exact ⟨by simp [validate, Op.allowed, ih1.1, ih2.1], bin_value .add ih1.2 ih2.2⟩
  | sub _ _ ih1 ih2 =>
    exact ⟨by simp [validate, Op.allowed, ih1.1, ih2.1], bin_value .sub ih1.2 ih2.2⟩
  | mul _ _ ih1 ih2 =>
    exact ⟨by simp [validate, Op.allowed, ih1.1, ih2.1], bin_value .mult ih1.2 ih2.2⟩
  | div _ _ ih1 ih2 =>
    exact ⟨by simp [validate, Op.allowed, ih1.1, ih2.1], bin_value .div ih1.2 ih2.2⟩
  | pow _ _ ih1 ih2 =>
    exact ⟨by simp [validate, Op.allowed, ih1.1, ih2.1], bin_value .pow ih1.2 ih2.2⟩
  | neg _ ih =>
    rename_i a v _
    refine ⟨by simp [validate, UOp.allowed, ih.1], fun st hst => ?_⟩
    obtain ⟨st1, va, e1, s1, i1⟩ := ih.2 st hst
    refine ⟨st1.log (.unary .usub), wrap va.isScal fun k => -v k, ?_, s1,
      is_wrap _ _ fun hs k => by rw [i1.2 hs k]⟩
    simp only [eval, e1, i1.1 (st1.log (.unary .usub)) s1, if_true]
  | pos _ ih =>
    rename_i a v _
    refine ⟨by simp [validate, UOp.allowed, ih.1], fun st hst => ?_⟩
    obtain ⟨st1, va, e1, s1, i1⟩ := ih.2 st hst
    refine ⟨st1.log (.unary .uadd), wrap va.isScal fun k => v k, ?_, s1,
      is_wrap _ _ fun hs k => i1.2 hs k⟩
    simp only [eval, e1, i1.1 (st1.log (.unary .uadd)) s1, reduceCtorEq, if_false]
  | fn1 hf _ ih =>
    rename_i f g a v _
    obtain ⟨F, hF, hg, hmem⟩ := fn1_ns hf
    refine ⟨?_, fun st hst => ?_⟩
    · have h1 : directCall (.name f) = true := by simpa [directCall] using hmem
      have h2 : validate (.name f) = true := by
        simp only [validate, bne_iff_ne, ne_eq]
        rintro rfl
        exact absurd hmem (by decide)
      rw [validate, h1, h2]; simp [validateAll, ih.1]
    · have hv : eval (update baseNs b) (.name f) st = (st, .ok (.fn F)) := by
        simp only [eval, hfn f hmem, hF]
      obtain ⟨st1, va, e1, s1, i1⟩ := ih.2 st hst
      refine ⟨st1.log (.call (.fn F)), wrap va.isScal fun k => g (v k), ?_, s1,
        is_wrap _ _ fun hs k => by rw [i1.2 hs k]⟩
      rw [eval, hv]
      simp only [evalAll, e1, apply, hg, i1.1 (st1.log (.call (.fn F))) s1]
  | fn2 hf _ _ ih1 ih2 =>
    rename_i f g a b' v w _ _
    obtain ⟨F, hF, hn, hg, hmem⟩ := fn2_ns hf
    refine ⟨?_, fun st hst => ?_⟩
    · have h1 : directCall (.name f) = true := by simpa [directCall] using hmem
      have h2 : validate (.name f) = true := by
        simp only [validate, bne_iff_ne, ne_eq]
        rintro rfl
        exact absurd hmem (by decide)
      rw [validate, h1, h2]; simp [validateAll, ih1.1, ih2.1]
    · have hv : eval (update baseNs b) (.name f) st = (st, .ok (.fn F)) := by
        simp only [eval, hfn f hmem, hF]
      obtain ⟨st1, va, e1, s1, i1⟩ := ih1.2 st hst
      obtain ⟨st2, vb, e2, s2, i2⟩ := ih2.2 st1 s1
      refine ⟨st2.log (.call (.fn F)), wrap (va.isScal && vb.isScal) fun k => g (v k) (w k), ?_,
        s2, is_wrap _ _ fun hs k => ?_⟩
      · rw [eval, hv]
        simp only [evalAll, e1, e2, apply, hn, hg, i1.1 (st2.log (.call (.fn F))) s2,
          i2.1 (st2.log (.call (.fn F))) s2]
      · rw [Bool.and_eq_true] at hs
        rw [i1.2 hs.1 k, i2.2 hs.2 k]

/-- C122: a formula that has a mathematical value is accepted and evaluates to that value at every
station, and the caller's arrays are left as they are. -/
theorem C122_formula_value {b : Ns} (hb : ∀ f ∈ allowedFuncs, b f = none)
    (hbi : b "__builtins__" = none) {e : PyExpr} {v : ℕ → ℝ} (st : St)
    (h : Denotes (envOf b st.store) e v) :
    ∃ st' val, evaluateFormula e b st = (st', .ok val) ∧ st'.store = st.store ∧
      val.read st' = some v := by
  obtain ⟨hv, hev⟩ := eval_value hb hbi h
  obtain ⟨st', val, he, hs, hi⟩ := hev st rfl
  exact ⟨st', val, by unfold evaluateFormula; rw [if_pos hv, he], hs, hi.1 st' hs⟩

theorem jsonBindings_free (scal : String → ℝ) :
    (∀ f ∈ allowedFuncs, jsonBindings scal f = none) ∧ jsonBindings scal "__builtins__" = none := by
  have h : ∀ f ∈ "__builtins__" :: allowedFuncs,
      arrayNames.contains f = false ∧ scalarNames.contains f = false := by decide
  have key : ∀ f ∈ "__builtins__" :: allowedFuncs, jsonBindings scal f = none := by
    intro f hf
    obtain ⟨h1, h2⟩ := h f hf
    unfold jsonBindings
    rw [h1, h2]; rfl
  exact ⟨fun f hf => key f (List.mem_cons_of_mem _ hf), key _ List.mem_cons_self⟩

/-- Non-vacuity of C122: `cos(Inc) / Gfield`. -/
example (scal : String → ℝ) (st : St) :
    Denotes (envOf (jsonBindings scal) st.store)
      (.binOp .div (.call (.name "cos") [.name "Inc"] []) (.name "Gfield"))
      fun k => Real.cos (st.store "Inc" k) / scal "Gfield" :=
  .div (.fn1 (f := "cos") rfl (.var rfl)) (.var rfl)

/-- C123 (partial): every unit declared in the shipped tool models is converted to the base units,
except `deg.nT` and `deg/sqr(hr)`. -/
theorem C123_units_partial {u : String} {r : ℝ} (h : unitInBase u = some r) (h1 : u ≠ "deg.nT")
    (h2 : u ≠ "deg/sqr(hr)") : unitScale u = r := by
  unfold unitInBase at h
  split at h <;> simp only [Option.some.injEq, reduceCtorEq] at h <;>
    first | (exact absurd rfl h1) | (exact absurd rfl h2) | (subst h; simp [unitScale])

/-- C123 is false: magnitudes in `deg.nT` and `deg/sqr(hr)` are used as if they were in radians,
57 times too large. -/
theorem C123_degrees_taken_as_radians :
    ∀ u ∈ ["deg.nT", "deg/sqr(hr)"], ∃ r, unitInBase u = some r ∧
      unitScale u = 180 / Real.pi * r ∧ 57 * r < unitScale u := by
  have hpi := Real.pi_pos
  have h4 := Real.pi_lt_d2
  intro u hu
  have hr : unitInBase u = some (Real.pi / 180) ∧ unitScale u = 1 := by
    simp only [List.mem_cons, List.not_mem_nil, or_false] at hu
    rcases hu with rfl | rfl
    · exact ⟨rfl, by simp [unitScale]⟩
    · exact ⟨rfl, by simp [unitScale]⟩
  refine ⟨_, hr.1, ?_, ?_⟩
  · rw [hr.2]; field_simp
  · rw [hr.2]; linarith

/-- C124: a JSON term whose formulas have mathematical values contributes the error whose
depth, inclination and azimuth parts are those values times the magnitude in base units. -/
theorem C124_json_term {scal : String → ℝ} {s : Sv} {f : Formulas} {mag : ℝ} {u : String} {r : ℝ}
    {p : Prop'} {st : St} {d i a : ℕ → ℝ} (hu : unitInBase u = some r) (h1 : u ≠ "deg.nT")
    (h2 : u ≠ "deg/sqr(hr)")
    (hd : Denotes (envOf (jsonBindings scal) st.store) f.depth d)
    (hi : Denotes (envOf (jsonBindings scal) st.store) f.inc i)
    (ha : Denotes (envOf (jsonBindings scal) st.store) f.azi a) :
    ∃ st', st'.store = st.store ∧ callInterpreter scal s f mag u p st = (st',
      .ok (generateError s (fun k => ![mag * r * d k, mag * r * i k, mag * r * a k]) p none)) := by
  obtain ⟨b1, b2⟩ := jsonBindings_free scal
  obtain ⟨g1, g2⟩ := eval_value b1 b2 hd
  obtain ⟨k1, k2⟩ := eval_value b1 b2 hi
  obtain ⟨m1, m2⟩ := eval_value b1 b2 ha
  obtain ⟨st1, vd, e1, s1, i1⟩ := g2 st rfl
  obtain ⟨st2, vi, e2, s2, i2⟩ := k2 st1 s1
  obtain ⟨st3, va, e3, s3, i3⟩ := m2 st2 s2
  refine ⟨st3, s3, ?_⟩
  have hterm : evalTerm scal f st = (st3, .ok fun k => ![d k, i k, a k]) := by
    simp only [evalTerm, evaluateFormula, g1, k1, m1, if_true, e1, e2, e3, asArray, i1.1 st3 s3,
      i2.1 st3 s3, i3.1 st3 s3]
  unfold callInterpreter
  rw [hterm]
  simp only [C123_units_partial hu h1 h2]
  congr 4
  funext k j
  fin_cases j <;> simp

/-- Non-vacuity of C124: the axial accelerometer bias, `-sin(Inc) / Gfield` in inclination. -/
example (scal : String → ℝ) (st : St) :
    unitInBase "m/s2" = some 1 ∧
    Denotes (envOf (jsonBindings scal) st.store) (.const (.num 0)) (fun _ => 0) ∧
    Denotes (envOf (jsonBindings scal) st.store)
      (.binOp .div (.unaryOp .usub (.call (.name "sin") [.name "Inc"] [])) (.name "Gfield"))
      fun k => -Real.sin (st.store "Inc" k) / scal "Gfield" :=
  ⟨rfl, .num 0, .div (.neg (.fn1 (f := "sin") rfl (.var rfl))) (.var rfl)⟩

/-- C125 (partial): apart from `XYM2` and `XYM4L`, an error source is propagated as the tool model
says. -/
theorem C125_propagation_partial {f : Func} (h1 : f ≠ .XYM2) (h2 : f ≠ .XYM4L) {c : Ctx} {mag : ℝ}
    {p : Prop'} {t : Term} (h : callFunc f c mag p = .ok (some t)) : t.prop = p := by
  have hp : forcedProp f p = p := by
    cases f <;> first | rfl | exact absurd rfl h1 | exact absurd rfl h2
  have := (callFunc_some h).1
  rw [this, hp]

/-- Non-vacuity of C125: a depth reference error is a call that succeeds, in every mode. -/
example (c : Ctx) (mag : ℝ) : ∃ t, callFunc .DREF c mag .global = .ok (some t) ∧
    t.prop = .global := by
  obtain ⟨t, ht⟩ : ∃ t, callFunc .DREF c mag .global = .ok (some t) := ⟨_, rfl⟩
  exact ⟨t, ht, C125_propagation_partial (by decide) (by decide) ht⟩

/-- C125 is false: `XYM2` is always propagated as systematic and `XYM4L` as random, whatever the
tool model says (four shipped models say otherwise). -/
theorem C125_propagation_ignored (c : Ctx) (mag : ℝ) (p : Prop') :
    (∃ t, callFunc .XYM2 c mag p = .ok (some t) ∧ t.prop = .systematic) ∧
    ((∀ k < c.s.n, c.vlim ≤ c.s.inc k) →
      ∃ t, callFunc .XYM4L c mag p = .ok (some t) ∧ t.prop = .random) := by
  refine ⟨?_, fun hv => ?_⟩
  · obtain ⟨t, ht⟩ : ∃ t, callFunc .XYM2 c mag p = .ok (some t) := ⟨_, rfl⟩
    exact ⟨t, ht, (callFunc_some ht).1⟩
  · have hn : ¬ ∃ k < c.s.n, c.s.inc k < c.vlim := by
      rintro ⟨k, hk, h⟩; exact absurd (hv k hk) (not_le.2 h)
    obtain ⟨t, ht⟩ : ∃ t, callFunc .XYM4L c mag p = .ok (some t) := by
      refine ⟨?_, ?_⟩
      rotate_left
      · simp only [callFunc, singRows, if_neg hn, Func.usesTortuosity, reduceCtorEq, or_self,
          if_false, Bool.false_and, Bool.false_eq_true]
        rfl
    exact ⟨t, ht, (callFunc_some ht).1⟩

end Welleng.Props
