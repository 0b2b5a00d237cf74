import Verif.Lemmas.FormulaValues
import Verif.Props.FormulaText
import Verif.Props.Sensors
import Verif.Lemmas.ErrorScale

/-!
C231, C232: the formulas of the shipped JSON tool models
(`/repo/welleng/errors/iscwsa_json`, `/repo/welleng/errors/interpreter.py`,
`/repo/welleng/errors/tool_errors.py` 290-361) against the hand-written weight functions
(`tool_errors.py` 451-1918).
-/

namespace Welleng.Props

open Interp Spec Ftext Err

/-- The trees of the three formulas of a row. -/
noncomputable def formulasOf (r : Row) : Formulas :=
  ⟨(treeFor r.depth).py, (treeFor r.inc).py, (treeFor r.azi).py⟩

theorem evaluate_tree {s : List Char} {t : Tree} (h : parse (rewrite s) = some t) (b : Ns) (st : St) :
    evaluateText s b st = evaluateFormula t.py b st := by
  unfold evaluateText; rw [h]

theorem callText_eq {r : Row} {td ti ta : Tree} (hd : parse (rewrite r.depth.toList) = some td)
    (hi : parse (rewrite r.inc.toList) = some ti) (ha : parse (rewrite r.azi.toList) = some ta)
    (scal : String → ℝ) (s : Sv) (mag : ℝ) (u : String) (p : Prop') (st : St) :
    callInterpreterText scal s r.depth.toList r.inc.toList r.azi.toList mag u p st =
      callInterpreter scal s ⟨td.py, ti.py, ta.py⟩ mag u p st := by
  unfold callInterpreterText callInterpreter evalTermText evalTerm
  simp only [evaluate_tree hd, evaluate_tree hi, evaluate_tree ha]
  rfl

/-- The names provided to a formula. -/
def provided (s : List Char) : Bool := (arrayNames ++ scalarNames).contains (String.ofList s)

theorem provided_some (scal : String → ℝ) (arrays : String → ℕ → ℝ) {s : List Char}
    (h : provided s = true) : (envOf (jsonBindings scal) arrays (String.ofList s)).isSome = true := by
  unfold provided at h
  rw [List.contains_iff_mem, List.mem_append] at h
  unfold envOf jsonBindings
  by_cases h1 : arrayNames.contains (String.ofList s) = true
  · rw [if_pos h1]; rfl
  · rw [if_neg h1]
    rw [List.contains_iff_mem] at h1
    have h2 : scalarNames.contains (String.ofList s) = true := by
      rw [List.contains_iff_mem]; exact h.resolve_left h1
    rw [if_pos h2]; rfl

theorem pi_free (scal : String → ℝ) (arrays : String → ℕ → ℝ) :
    envOf (jsonBindings scal) arrays "pi" = none := by
  have := (jsonBindings_free scal).1 "pi" (by decide)
  simp only [envOf, this]

set_option maxRecDepth 100000 in
theorem closed_rows : ∀ r ∈ shipped, r.wf ∉ unprovided →
    closed provided (treeFor r.depth) = true ∧ closed provided (treeFor r.inc) = true ∧
      closed provided (treeFor r.azi) = true := by
  decide +kernel

set_option maxRecDepth 100000 in
theorem open_rows : ∀ r ∈ shipped, r.wf ∈ unprovided →
    ∃ s ∈ names (treeFor r.depth) ++ names (treeFor r.inc) ++ names (treeFor r.azi),
      String.ofList s ∉ jsonNames := by
  decide +kernel

/-- C231 (partial): the three formulas of every other shipped term evaluate without an exception,
and the term contributes their values. -/
theorem C231_evaluated_partial {r : Row} (hr : r ∈ shipped) (hw : r.wf ∉ unprovided)
    (scal : String → ℝ) (st : St) :
    ∃ d i a : ℕ → ℝ,
      (∀ t ∈ [(r.depth, d), (r.inc, i), (r.azi, a)], ∃ st' val,
        evaluateText t.1.toList (jsonBindings scal) st = (st', .ok val) ∧
        val.read st' = some t.2) ∧
      ∃ st', st'.store = st.store ∧
        evalTermText scal r.depth.toList r.inc.toList r.azi.toList st =
          (st', .ok fun k => ![d k, i k, a k]) := by
  obtain ⟨md, mi, ma⟩ := trees_all r hr
  obtain ⟨cd, ci, ca⟩ := closed_rows r hr hw
  obtain ⟨b1, b2⟩ := jsonBindings_free scal
  have hprov : ∀ s, provided s = true →
      (envOf (jsonBindings scal) st.store (String.ofList s)).isSome = true :=
    fun s h => provided_some scal st.store h
  have hd := denotes_value hprov (pi_free scal st.store) _ cd
  have hi := denotes_value hprov (pi_free scal st.store) _ ci
  have ha := denotes_value hprov (pi_free scal st.store) _ ca
  refine ⟨value (envOf (jsonBindings scal) st.store) (treeFor r.depth),
    value (envOf (jsonBindings scal) st.store) (treeFor r.inc),
    value (envOf (jsonBindings scal) st.store) (treeFor r.azi), ?_, ?_⟩
  rotate_left
  · obtain ⟨g1, g2⟩ := eval_value b1 b2 hd
    obtain ⟨k1, k2⟩ := eval_value b1 b2 hi
    obtain ⟨m1, m2⟩ := eval_value b1 b2 ha
    obtain ⟨st1, vd, e1, s1, i1⟩ := g2 st rfl
    obtain ⟨st2, vi, e2, s2, i2⟩ := k2 st1 s1
    obtain ⟨st3, va, e3, s3, i3⟩ := m2 st2 s2
    refine ⟨st3, s3, ?_⟩
    simp only [evalTermText, evaluate_tree (parse_treeFor md), evaluate_tree (parse_treeFor mi),
      evaluate_tree (parse_treeFor ma), evaluateFormula, g1, k1, m1, if_true, e1, e2, e3, asArray,
      i1.1 st3 s3, i2.1 st3 s3, i3.1 st3 s3]
  · intro t ht
    simp only [List.mem_cons, List.not_mem_nil, or_false] at ht
    rcases ht with rfl | rfl | rfl
    · rw [evaluate_tree (parse_treeFor md)]
      obtain ⟨st', val, h1, -, h2⟩ := C122_formula_value b1 b2 st hd
      exact ⟨st', val, h1, h2⟩
    · rw [evaluate_tree (parse_treeFor mi)]
      obtain ⟨st', val, h1, -, h2⟩ := C122_formula_value b1 b2 st hi
      exact ⟨st', val, h1, h2⟩
    · rw [evaluate_tree (parse_treeFor ma)]
      obtain ⟨st', val, h1, -, h2⟩ := C122_formula_value b1 b2 st ha
      exact ⟨st', val, h1, h2⟩

/-- Non-vacuity of C231: 48 of the 59 rows. -/
example : (shipped.filter fun r => !unprovided.contains r.wf).length = 48 := by decide +kernel

/-- C231 is false: the terms of eleven weight functions contribute nothing at any station, whatever
their magnitude, because a formula uses a name that is not provided (for two of them only a
misspelling, `GField` for `Gfield`; for `MFI`, `Bfield` for `BField`). -/
theorem C231_contributes_nothing {r : Row} (hr : r ∈ shipped) (hw : r.wf ∈ unprovided)
    (scal : String → ℝ) (s : Sv) (mag : ℝ) (u : String) {p : Prop'} (hp : p ≠ .other) (st : St) :
    ∃ st' t, callInterpreterText scal s r.depth.toList r.inc.toList r.azi.toList mag u p st =
      (st', .ok (some t)) ∧ ∀ k, t.cov k = 0 := by
  obtain ⟨md, mi, ma⟩ := trees_all r hr
  obtain ⟨n, hn, hj⟩ := open_rows r hr hw
  rw [callText_eq (parse_treeFor md) (parse_treeFor mi) (parse_treeFor ma)]
  refine C63_term_silently_dropped scal s _ mag u hp st hj ?_
  simp only [List.mem_append] at hn
  rcases hn with (hn | hn) | hn
  · exact .inl (mentions_of_mem _ hn)
  · exact .inr (.inl (mentions_of_mem _ hn))
  · exact .inr (.inr (mentions_of_mem _ hn))

/-- Each of the eleven has a shipped row. -/
example : ∀ w ∈ unprovided, ∃ r ∈ shipped, r.wf = w := by decide +kernel

theorem callText_row {r : Row} (hr : r ∈ shipped) (hw : r.wf ∉ unprovided) {td ti ta : Tree}
    (hd : parse (rewrite r.depth.toList) = some td) (hi : parse (rewrite r.inc.toList) = some ti)
    (ha : parse (rewrite r.azi.toList) = some ta) (scal : String → ℝ) (s : Sv) (mag : ℝ) (u : String)
    (p : Prop') (st : St) :
    ∃ st', callInterpreterText scal s r.depth.toList r.inc.toList r.azi.toList mag u p st =
      (st', .ok (generateError s (fun k => (mag * unitScale u) •
        ![value (envS scal st.store) td k, value (envS scal st.store) ti k,
          value (envS scal st.store) ta k]) p none)) := by
  obtain ⟨md, mi, ma⟩ := trees_all r hr
  obtain ⟨cd, ci, ca⟩ := closed_rows r hr hw
  have q1 := parse_treeFor md
  have q2 := parse_treeFor mi
  have q3 := parse_treeFor ma
  rw [hd, Option.some.injEq] at q1
  rw [hi, Option.some.injEq] at q2
  rw [ha, Option.some.injEq] at q3
  rw [← q1] at cd
  rw [← q2] at ci
  rw [← q3] at ca
  obtain ⟨b1, b2⟩ := jsonBindings_free scal
  have hprov : ∀ s, provided s = true →
      (envOf (jsonBindings scal) st.store (String.ofList s)).isSome = true :=
    fun s h => provided_some scal st.store h
  obtain ⟨g1, g2⟩ := eval_value b1 b2 (denotes_value hprov (pi_free scal st.store) _ cd)
  obtain ⟨k1, k2⟩ := eval_value b1 b2 (denotes_value hprov (pi_free scal st.store) _ ci)
  obtain ⟨m1, m2⟩ := eval_value b1 b2 (denotes_value hprov (pi_free scal st.store) _ ca)
  obtain ⟨st1, vd, e1, s1, i1⟩ := g2 st rfl
  obtain ⟨st2, vi, e2, s2, i2⟩ := k2 st1 s1
  obtain ⟨st3, va, e3, s3, i3⟩ := m2 st2 s2
  refine ⟨st3, ?_⟩
  have hterm : evalTerm scal ⟨td.py, ti.py, ta.py⟩ st = (st3, .ok fun k =>
      ![value (envS scal st.store) td k, value (envS scal st.store) ti k,
        value (envS scal st.store) ta k]) := by
    simp only [evalTerm, evaluateFormula, g1, k1, m1, if_true, e1, e2, e3, asArray, i1.1 st3 s3,
      i2.1 st3 s3, i3.1 st3 s3]
  rw [callText_eq hd hi ha, callInterpreter, hterm]

theorem agrees_all {c : Ctx} {scal : String → ℝ} {arrays : String → ℕ → ℝ}
    (h : Feeds c scal arrays) (hc : Regular c) {f : Func} {r : Row} (hr : r ∈ shipped)
    (hf : r.wf = weightName f) (hw : r.wf ∉ unprovided) (h1 : f ≠ .ABIZ) (h2 : f ≠ .AMIL) :
    Agrees f c scal arrays r := by
  cases f <;> first
    | exact absurd rfl h1
    | exact absurd rfl h2
    | exact absurd (hf ▸ (by decide : weightName _ ∈ unprovided)) hw
    | exact absurd hf ((by decide +kernel : ∀ r ∈ shipped, r.wf ≠ weightName _) r hr)
    | exact agrees_DREF h hc r hr hf
    | exact agrees_DSF h hc r hr hf
    | exact agrees_DST h hc r hr hf
    | exact agrees_ABXY_TI1 h hc r hr hf
    | exact agrees_ABXY_TI2 h hc r hr hf
    | exact agrees_AMID h hc r hr hf
    | exact agrees_ABZ h hc r hr hf
    | exact agrees_ASXY_TI1 h hc r hr hf
    | exact agrees_ASIXY_TI1 h hc r hr hf
    | exact agrees_ASXY_TI2 h hc r hr hf
    | exact agrees_ASIXY_TI2 h hc r hr hf
    | exact agrees_ASXY_TI3 h hc r hr hf
    | exact agrees_ASIXY_TI3 h hc r hr hf
    | exact agrees_ASZ h hc r hr hf
    | exact agrees_ASIZ h hc r hr hf
    | exact agrees_CNA h hc r hr hf
    | exact agrees_CNI h hc r hr hf
    | exact agrees_MBXY_TI1 h hc r hr hf
    | exact agrees_MBIXY_TI1 h hc r hr hf
    | exact agrees_MBXY_TI2 h hc r hr hf
    | exact agrees_MBIXY_TI2 h hc r hr hf
    | exact agrees_MBZ h hc r hr hf
    | exact agrees_MSXY_TI1 h hc r hr hf
    | exact agrees_MSXY_TI2 h hc r hr hf
    | exact agrees_MSXY_TI3 h hc r hr hf
    | exact agrees_MSIXY_TI1 h hc r hr hf
    | exact agrees_MSIXY_TI2 h hc r hr hf
    | exact agrees_MSIXY_TI3 h hc r hr hf
    | exact agrees_MSZ h hc r hr hf
    | exact agrees_AZ h hc r hr hf
    | exact agrees_DBH h hc r hr hf
    | exact agrees_MDI h hc r hr hf
    | exact agrees_SAG h hc r hr hf
    | exact agrees_SAGE h hc r hr hf
    | exact agrees_XYM1 h hc r hr hf
    | exact agrees_XYM2 h hc r hr hf
    | exact agrees_XYM3 h hc r hr hf
    | exact agrees_XYM4 h hc r hr hf

theorem callFunc_regular {f : Func} {c : Ctx} (hc : Regular c) (h1 : f ≠ .XCLA) (h2 : f ≠ .XCLH)
    (mag : ℝ) (p : Prop') : callFunc f c mag p =
      .ok (generateError c.s (eDIA f c (c.tortuosity.getD 0) mag) (forcedProp f p) none) := by
  have hn : ¬ ∃ k < c.s.n, c.s.inc k < c.vlim := by
    rintro ⟨k, -, h⟩; exact absurd (hc.inclined k) (not_le.2 h)
  have ht : f.usesTortuosity = false := by cases f <;> first | rfl | exact absurd rfl h1 | exact absurd rfl h2
  unfold callFunc
  simp only [ht, Bool.false_and, Bool.false_eq_true, if_false, h1, h2, or_self, if_neg hn]
  cases singRows f c (c.tortuosity.getD 0) mag <;> rfl

theorem forcedProp_eq {f : Func} {p : Prop'} (h1 : f ≠ .XYM4L) (h2 : f = .XYM2 → p = .systematic) :
    forcedProp f p = p := by
  cases f <;> first | rfl | exact absurd rfl h1 | exact (h2 rfl).symm

/-- C232 (partial): away from vertical, a shipped JSON term and the hand-written function of the same
name give the same error term, for every survey and magnitude; `ABIZ`, `AMIL` and the terms of C231
excepted, and `XYM2` when it is not systematic. -/
theorem C232_same_term_partial {r : Row} (hr : r ∈ shipped) {f : Func} (hf : r.wf = weightName f)
    (hw : r.wf ∉ unprovided) (h1 : f ≠ .ABIZ) (h2 : f ≠ .AMIL) {c : Ctx} (hc : Regular c)
    {scal : String → ℝ} {st : St} (hb : Feeds c scal st.store) (mag : ℝ) (u : String) {p : Prop'}
    (hp : f = .XYM2 → p = .systematic) :
    ∃ st' t, callInterpreterText scal c.s r.depth.toList r.inc.toList r.azi.toList mag u p st =
      (st', .ok t) ∧ callFunc f c (mag * unitScale u) p = .ok t := by
  obtain ⟨td, ti, ta, hd, hi, ha, hv⟩ := agrees_all hb hc hr hf hw h1 h2
  obtain ⟨st', h⟩ := callText_row hr hw hd hi ha scal c.s mag u p st
  have x1 : f ≠ .XCLA := by rintro rfl; exact hw (hf ▸ by decide)
  have x2 : f ≠ .XCLH := by rintro rfl; exact hw (hf ▸ by decide)
  have x3 : f ≠ .XYM4L := by
    rintro rfl
    exact (by decide +kernel : ∀ r ∈ shipped, r.wf ≠ weightName .XYM4L) r hr hf
  refine ⟨st', _, h, ?_⟩
  rw [callFunc_regular hc x1 x2, forcedProp_eq x3 hp]
  refine congrArg (fun x => Except.ok (generateError c.s x p none)) ?_
  funext k j
  rw [eDIA, hv]
  exact mul_comm _ _

/-- C232 is false for `AMIL`: the two have opposite signs (and so the same covariances). -/
theorem C232_amil_sign {r : Row} (hr : r ∈ shipped) (hf : r.wf = weightName .AMIL) {c : Ctx}
    (hc : Regular c) {scal : String → ℝ} {st : St} (hb : Feeds c scal st.store) (mag : ℝ) (u : String)
    (p : Prop') :
    ∃ st' t, callInterpreterText scal c.s r.depth.toList r.inc.toList r.azi.toList mag u p st =
      (st', .ok t) ∧ callFunc .AMIL c (-(mag * unitScale u)) p = .ok t := by
  have e : r.depth = trees[28].1 ∧ r.inc = trees[28].1 ∧ r.azi = trees[58].1 :=
    (by decide +kernel : ∀ r ∈ shipped, r.wf = weightName .AMIL →
      r.depth = trees[28].1 ∧ r.inc = trees[28].1 ∧ r.azi = trees[58].1) r hr hf
  have hd : parse (rewrite r.depth.toList) = some t28 := by rw [e.1]; exact read_at 28 (by decide)
  have hi : parse (rewrite r.inc.toList) = some t28 := by rw [e.2.1]; exact read_at 28 (by decide)
  have ha : parse (rewrite r.azi.toList) = some t58 := by rw [e.2.2]; exact read_at 58 (by decide)
  obtain ⟨st', h⟩ := callText_row hr (by rw [hf]; decide) hd hi ha scal c.s mag u p st
  refine ⟨st', _, h, ?_⟩
  rw [callFunc_regular hc (by decide) (by decide)]
  refine congrArg (fun x => Except.ok (generateError c.s x p none)) ?_
  funext k j
  rw [val_t28 hb, val_t58 hb, eDIA]
  simp only [dpde, Ctx.si, Ctx.sm]
  fin_cases j <;> simp <;> ring

/-- C232 is false for `ABIZ`: the azimuth errors of the hand-written function are the square of
gravity times those of the shipped formula. -/
theorem C232_abiz_gravity {r : Row} (hr : r ∈ shipped) (hf : r.wf = weightName .ABIZ) {c : Ctx}
    (hc : Regular c) (hG : ∀ k, 1e-6 < c.funky k / c.G) {scal : String → ℝ} {st : St}
    (hb : Feeds c scal st.store) (mag : ℝ) (u : String) {p : Prop'} (hp : p ≠ .other) :
    ∃ st' t t', callInterpreterText scal c.s r.depth.toList r.inc.toList r.azi.toList mag u p st =
      (st', .ok (some t)) ∧ callFunc .ABIZ c (mag * unitScale u) p = .ok (some t') ∧
      ∀ k, t'.eDIA k 1 = t.eDIA k 1 ∧ t'.eDIA k 2 = c.G ^ 2 * t.eDIA k 2 := by
  have e : r.depth = trees[28].1 ∧ r.inc = trees[27].1 ∧ r.azi = trees[9].1 :=
    (by decide +kernel : ∀ r ∈ shipped, r.wf = weightName .ABIZ →
      r.depth = trees[28].1 ∧ r.inc = trees[27].1 ∧ r.azi = trees[9].1) r hr hf
  have hd : parse (rewrite r.depth.toList) = some t28 := by rw [e.1]; exact read_at 28 (by decide)
  have hi : parse (rewrite r.inc.toList) = some t27 := by rw [e.2.1]; exact read_at 27 (by decide)
  have ha : parse (rewrite r.azi.toList) = some t9 := by rw [e.2.2]; exact read_at 9 (by decide)
  obtain ⟨st', h⟩ := callText_row hr (by rw [hf]; decide) hd hi ha scal c.s mag u p st
  have hgen : ∀ x, ∃ t, generateError c.s x p none = some t ∧ t.eDIA = x := by
    intro x
    cases p <;> first | exact ⟨_, rfl, rfl⟩ | exact absurd rfl hp
  obtain ⟨t, e1, q1⟩ := hgen fun k => (mag * unitScale u) •
    ![value (envS scal st.store) t28 k, value (envS scal st.store) t27 k,
      value (envS scal st.store) t9 k]
  obtain ⟨t', e2, q2⟩ := hgen (eDIA .ABIZ c (c.tortuosity.getD 0) (mag * unitScale u))
  refine ⟨st', t, t', by rw [h, e1], ?_, fun k => ?_⟩
  · rw [callFunc_regular hc (by decide) (by decide), ← e2]; rfl
  · have hf : c.funky k ≠ 0 := by
      intro h0
      have := hG k
      rw [h0] at this
      norm_num at this
    have hg := hc.gravity
    rw [q1, q2]
    beta_reduce
    rw [val_t28 hb, val_t27 hb, val_t9 hb]
    have hq : (1 : ℝ) - Real.sin (c.s.inc k) * Real.sin (c.s.inc k) * Real.sin (c.aziMag k) *
        Real.sin (c.aziMag k) = c.funky k := by unfold Ctx.funky; ring
    rw [hq]
    simp only [eDIA, dpde, if_pos (hG k), Ctx.si, Ctx.ci, Ctx.sm, Ctx.mix, Pi.smul_apply, smul_eq_mul,
      Matrix.cons_val]
    constructor
    · ring
    · field_simp

/-- Non-vacuity of C232: a survey on which everything is defined, and the bindings for it. -/
example : Regular sensorDemo ∧ (∀ k, 1e-6 < sensorDemo.funky k / sensorDemo.G) ∧
    ∃ scal arrays, Feeds sensorDemo scal arrays := by
  have hq : (√(2 : ℝ) / 2) ^ 2 = 1 / 2 := by rw [div_pow, Real.sq_sqrt (by norm_num)]; norm_num
  have h3 : (0 : ℝ) < √2 / 2 := by positivity
  refine ⟨⟨?_, ?_, ?_, ?_, ?_, ?_⟩, ?_, ?_⟩
  · simp only [sensorDemo]; norm_num
  · simp only [sensorDemo]; norm_num
  · simp only [sensorDemo, Real.cos_pi_div_four]; exact h3.ne'
  · intro k; simp only [sensorDemo]; positivity
  · intro k; simp only [sensorDemo, Real.sin_pi_div_four]; exact h3
  · intro k; simp only [sensorDemo, Real.sin_pi_div_four, hq]; norm_num
  · intro k; simp only [Ctx.funky, sensorDemo, Real.sin_pi_div_four, hq]; norm_num
  · exact ⟨fun s => if s = "Gfield" then sensorDemo.G else if s = "Dip" then sensorDemo.dip
        else sensorDemo.bTotal,
      fun s => if s = "MD" then sensorDemo.s.md else if s = "Inc" then sensorDemo.s.inc
        else if s = "AzT" then sensorDemo.s.azi else if s = "AzM" then sensorDemo.aziMag
        else sensorDemo.tvd,
      by constructor <;> simp⟩

/-- 38 shipped rows are compared. -/
example : (shipped.filter fun r => !unprovided.contains r.wf && decide (r.wf ≠ "ABIZ") &&
    decide (r.wf ≠ "AMIL") && ([Func.DREF, .DSF, .DST, .ABXY_TI1, .ABXY_TI2, .AMID, .ABZ, .ASXY_TI1,
      .ASIXY_TI1, .ASXY_TI2, .ASIXY_TI2, .ASXY_TI3, .ASIXY_TI3, .ASZ, .ASIZ, .CNA, .CNI, .MBXY_TI1,
      .MBIXY_TI1, .MBXY_TI2, .MBIXY_TI2, .MBZ, .MSXY_TI1, .MSXY_TI2, .MSXY_TI3, .MSIXY_TI1,
      .MSIXY_TI2, .MSIXY_TI3, .MSZ, .AZ, .DBH, .MDI, .SAG, .SAGE, .XYM1, .XYM2, .XYM3,
      .XYM4].map weightName).contains r.wf).length = 38 := by decide +kernel

end Welleng.Props
