import Verif.Model.Interpreter
import Mathlib.Tactic.NormNum

/-! C390: formulas act station by station. -/

namespace Welleng.Props

open Welleng Interp Err

/-- The same object, or arrays that agree at station `k`. -/
inductive SameAt (k : ℕ) : Value → Value → Prop
  | ref (n : String) : SameAt k (.ref n) (.ref n)
  | tmp {v v' : ℕ → ℝ} : v k = v' k → SameAt k (.tmp v) (.tmp v')
  | scal (r : ℝ) : SameAt k (.scal r) (.scal r)
  | fn (f : Fn) : SameAt k (.fn f) (.fn f)
  | foreign : SameAt k .opaque .opaque

/-- All arrays agree at station `k`. -/
def StationAgree (k : ℕ) (st st' : St) : Prop := ∀ n, st.store n k = st'.store n k

/-- Both fail alike, or give related results; the states agree at station `k`. -/
inductive InStep {α : Type} (k : ℕ) (P : α → α → Prop) : St × Except PyErr α → St × Except PyErr α → Prop
  | error {st st' : St} (x : PyErr) : StationAgree k st st' → InStep k P (st, .error x) (st', .error x)
  | ok {st st' : St} {v v' : α} : StationAgree k st st' → P v v' → InStep k P (st, .ok v) (st', .ok v')

/-- What is read from related values: nothing from both, or numbers that agree at station `k`; for
scalars at every station. -/
theorem read_sameAt {k : ℕ} {st st' : St} (h : StationAgree k st st') {v v' : Value}
    (hv : SameAt k v v') :
    v.isScal = v'.isScal ∧
    ((v.read st = none ∧ v'.read st' = none) ∨
      ∃ x x', v.read st = some x ∧ v'.read st' = some x' ∧ x k = x' k ∧
        (v.isScal = true → x = x')) := by
  cases hv with
  | ref n => exact ⟨rfl, .inr ⟨_, _, rfl, rfl, h n, fun hs => by simp [Value.isScal] at hs⟩⟩
  | tmp hv => exact ⟨rfl, .inr ⟨_, _, rfl, rfl, hv, fun hs => by simp [Value.isScal] at hs⟩⟩
  | scal r => exact ⟨rfl, .inr ⟨_, _, rfl, rfl, rfl, fun _ => rfl⟩⟩
  | fn f => exact ⟨rfl, .inl ⟨rfl, rfl⟩⟩
  | foreign => exact ⟨rfl, .inl ⟨rfl, rfl⟩⟩

theorem wrap_sameAt {k : ℕ} {b : Bool} {v v' : ℕ → ℝ} (h : v k = v' k) (hb : b = true → v 0 = v' 0) :
    SameAt k (wrap b v) (wrap b v') := by
  cases b with
  | true => simp only [wrap, if_true]; rw [hb rfl]; exact .scal _
  | false => simp only [wrap, Bool.false_eq_true, if_false]; exact .tmp h

theorem store_inStep {k : ℕ} {st st' : St} (h : StationAgree k st st') {out out' : Value}
    (ho : SameAt k out out') {v v' : ℕ → ℝ} (hv : v k = v' k) :
    InStep k (SameAt k) (Interp.store st out v) (Interp.store st' out' v') := by
  cases ho with
  | ref n =>
    refine .ok (fun m => ?_) (.ref n)
    simp only [St.log, Function.update_apply]
    split_ifs
    · exact hv
    · exact h m
  | tmp _ => exact .ok h (.tmp hv)
  | scal r => exact .error _ h
  | fn f => exact .error _ h
  | foreign => exact .error _ h

/-- The arguments of two calls. -/
abbrev SameArgs (k : ℕ) : List Value → List Value → Prop := List.Forall₂ (SameAt k)

theorem apply_inStep {k : ℕ} {st st' : St} (h : StationAgree k st st') {f f' : Value}
    (hf : SameAt k f f') {args args' : List Value} (ha : SameArgs k args args') :
    InStep k (SameAt k) (apply st f args) (apply st' f' args') := by
  cases hf with
  | ref n => exact .error _ h
  | tmp _ => exact .error _ h
  | scal r => exact .error _ h
  | foreign => exact .error _ h
  | fn g =>
    unfold apply
    dsimp only
    cases g.fn1 with
    | some q =>
      match args, args', ha with
      | [], [], _ => cases g.fn2 <;> exact .error _ h
      | [a], [a'], .cons h1 .nil =>
        obtain ⟨hs, ⟨e1, e2⟩ | ⟨x, x', e1, e2, hx, hsc⟩⟩ := read_sameAt h h1
        · dsimp only; rw [e1, e2]; exact .error _ h
        · dsimp only; rw [e1, e2, ← hs]
          exact .ok h (wrap_sameAt (congrArg q hx) fun hb => by rw [hsc hb])
      | [a, o], [a', o'], .cons h1 (.cons h2 .nil) =>
        obtain ⟨hs, ⟨e1, e2⟩ | ⟨x, x', e1, e2, hx, hsc⟩⟩ := read_sameAt h h1
        · dsimp only; rw [e1, e2]; exact .error _ h
        · dsimp only; rw [e1, e2]
          exact store_inStep h h2 (congrArg q hx)
      | [a, b, o], [a', b', o'], .cons h1 (.cons h2 (.cons h3 .nil)) =>
        cases g.fn2 with
        | none => exact .error _ h
        | some q2 => exact three q2 h1 h2 h3
      | _ :: _ :: _ :: _ :: _, _ :: _ :: _ :: _ :: _, _ => cases g.fn2 <;> exact .error _ h
    | none =>
      cases g.fn2 with
      | none =>
        match args, args', ha with
        | [], [], _ => exact .error _ h
        | [_], [_], _ => exact .error _ h
        | [_, _], [_, _], _ => exact .error _ h
        | [_, _, _], [_, _, _], _ => exact .error _ h
        | _ :: _ :: _ :: _ :: _, _ :: _ :: _ :: _ :: _, _ => exact .error _ h
      | some q2 =>
        match args, args', ha with
        | [], [], _ => exact .error _ h
        | [_], [_], _ => exact .error _ h
        | [a, b], [a', b'], .cons h1 (.cons h2 .nil) =>
          obtain ⟨hs, ⟨e1, e2⟩ | ⟨x, x', e1, e2, hx, hsc⟩⟩ := read_sameAt h h1
          · dsimp only; rw [e1, e2]; exact .error _ h
          obtain ⟨hs', ⟨f1, f2⟩ | ⟨y, y', f1, f2, hy, hsc'⟩⟩ := read_sameAt h h2
          · dsimp only; rw [e1, e2, f1, f2]; exact .error _ h
          dsimp only; rw [e1, e2, f1, f2, ← hs, ← hs']
          refine .ok h (wrap_sameAt (by rw [hx, hy]) fun hb => ?_)
          rw [Bool.and_eq_true] at hb
          rw [hsc hb.1, hsc' hb.2]
        | [a, b, o], [a', b', o'], .cons h1 (.cons h2 (.cons h3 .nil)) => exact three q2 h1 h2 h3
        | _ :: _ :: _ :: _ :: _, _ :: _ :: _ :: _ :: _, _ => exact .error _ h
where
  three (q2 : ℝ → ℝ → ℝ) {a a' b b' o o' : Value} (h1 : SameAt k a a') (h2 : SameAt k b b')
      (h3 : SameAt k o o') :
      InStep k (SameAt k)
        (match a.read st, b.read st with
          | some v, some w => Interp.store st o fun k => q2 (v k) (w k)
          | _, _ => (st, .error .typeError))
        (match a'.read st', b'.read st' with
          | some v, some w => Interp.store st' o' fun k => q2 (v k) (w k)
          | _, _ => (st', .error .typeError)) := by
    obtain ⟨hs, ⟨e1, e2⟩ | ⟨x, x', e1, e2, hx, hsc⟩⟩ := read_sameAt h h1
    · rw [e1, e2]; exact .error _ h
    obtain ⟨hs', ⟨f1, f2⟩ | ⟨y, y', f1, f2, hy, hsc'⟩⟩ := read_sameAt h h2
    · rw [e1, e2, f1, f2]; exact .error _ h
    rw [e1, e2, f1, f2]
    exact store_inStep h h3 (by rw [hx, hy])

theorem stationAgree_log {k : ℕ} {st st' : St} (h : StationAgree k st st') (e e' : Event) :
    StationAgree k (st.log e) (st'.log e') := h

theorem inStep_cases {α : Type} {k : ℕ} {P : α → α → Prop} {a b : St × Except PyErr α}
    (h : InStep k P a b) :
    (∃ s s' x, a = (s, .error x) ∧ b = (s', .error x) ∧ StationAgree k s s') ∨
    ∃ s s' v v', a = (s, .ok v) ∧ b = (s', .ok v') ∧ StationAgree k s s' ∧ P v v' := by
  cases h with
  | error x h => exact .inl ⟨_, _, x, rfl, rfl, h⟩
  | ok h hp => exact .inr ⟨_, _, _, _, rfl, rfl, h, hp⟩

section
variable {k : ℕ} {ns : Ns} (hns : ∀ id v, ns id = some v → SameAt k v v)

include hns

mutual
theorem eval_inStep : ∀ (e : PyExpr) (st st' : St), StationAgree k st st' →
    InStep k (SameAt k) (eval ns e st) (eval ns e st')
  | .const (.num r), st, st', h => by simp only [eval]; exact .ok h (.scal r)
  | .const (.str _), st, st', h => by simp only [eval]; exact .ok h .foreign
  | .const .other, st, st', h => by simp only [eval]; exact .ok h .foreign
  | .name id, st, st', h => by
    simp only [eval]
    cases hv : ns id with
    | none => exact .error _ h
    | some v => exact .ok h (hns id v hv)
  | .binOp op l r, st, st', h => by
    simp only [eval]
    rcases inStep_cases (eval_inStep l st st' h) with ⟨s, s', x, e1, e2, hs⟩ | ⟨s, s', a, a', e1, e2, hs, ha⟩
    · rw [e1, e2]; exact .error _ hs
    · rw [e1, e2]
      dsimp only
      rcases inStep_cases (eval_inStep r s s' hs) with ⟨t, t', x, f1, f2, ht⟩ | ⟨t, t', b, b', f1, f2, ht, hb⟩
      · rw [f1, f2]; exact .error _ ht
      · rw [f1, f2]
        dsimp only
        have ht' := stationAgree_log ht (.arith op) (.arith op)
        obtain ⟨hs1, ⟨g1, g2⟩ | ⟨x, x', g1, g2, hx, hsc⟩⟩ := read_sameAt ht' ha
        · rw [g1, g2]; exact .error _ ht'
        obtain ⟨hs2, ⟨j1, j2⟩ | ⟨y, y', j1, j2, hy, hsc'⟩⟩ := read_sameAt ht' hb
        · rw [g1, g2, j1, j2]; exact .error _ ht'
        rw [g1, g2, j1, j2, ← hs1, ← hs2]
        refine .ok ht' (wrap_sameAt (by rw [hx, hy]) fun hb => ?_)
        rw [Bool.and_eq_true] at hb
        rw [hsc hb.1, hsc' hb.2]
  | .unaryOp op e, st, st', h => by
    simp only [eval]
    rcases inStep_cases (eval_inStep e st st' h) with ⟨s, s', x, e1, e2, hs⟩ | ⟨s, s', a, a', e1, e2, hs, ha⟩
    · rw [e1, e2]; exact .error _ hs
    · rw [e1, e2]
      dsimp only
      have ht' := stationAgree_log hs (.unary op) (.unary op)
      obtain ⟨hs1, ⟨g1, g2⟩ | ⟨x, x', g1, g2, hx, hsc⟩⟩ := read_sameAt ht' ha
      · rw [g1, g2]; exact .error _ ht'
      rw [g1, g2, ← hs1]
      refine .ok ht' (wrap_sameAt (by rw [hx]) fun hb => ?_)
      rw [hsc hb]
  | .call f args kws, st, st', h => by
    simp only [eval]
    rcases inStep_cases (eval_inStep f st st' h) with ⟨s, s', x, e1, e2, hs⟩ | ⟨s, s', g, g', e1, e2, hs, hg⟩
    · rw [e1, e2]; exact .error _ hs
    · rw [e1, e2]
      dsimp only
      rcases inStep_cases (evalAll_inStep args s s' hs) with ⟨t, t', x, f1, f2, ht⟩ |
        ⟨t, t', vs, vs', f1, f2, ht, hvs⟩
      · rw [f1, f2]; exact .error _ ht
      · rw [f1, f2]
        exact apply_inStep (stationAgree_log ht _ _) hg hvs
  | .other kind _, st, st', h => by
    simp only [eval]
    exact .error _ (stationAgree_log h _ _)
theorem evalAll_inStep : ∀ (es : List PyExpr) (st st' : St), StationAgree k st st' →
    InStep k (SameArgs k) (evalAll ns es st) (evalAll ns es st')
  | [], st, st', h => by simp only [evalAll]; exact .ok h .nil
  | e :: t, st, st', h => by
    simp only [evalAll]
    rcases inStep_cases (eval_inStep e st st' h) with ⟨s, s', x, e1, e2, hs⟩ | ⟨s, s', a, a', e1, e2, hs, ha⟩
    · rw [e1, e2]; exact .error _ hs
    · rw [e1, e2]
      dsimp only
      rcases inStep_cases (evalAll_inStep t s s' hs) with ⟨t, t', x, f1, f2, ht⟩ |
        ⟨t, t', vs, vs', f1, f2, ht, hvs⟩
      · rw [f1, f2]; exact .error _ ht
      · rw [f1, f2]
        exact .ok ht (.cons ha hvs)
end
end

theorem binding_sameAt (k : ℕ) (scal : String → ℝ) (id : String) (v : Value)
    (h : update baseNs (jsonBindings scal) id = some v) : SameAt k v v := by
  cases v with
  | ref n => exact .ref n
  | scal r => exact .scal r
  | fn f => exact .fn f
  | «opaque» => exact .foreign
  | tmp w => exact .tmp rfl

theorem evaluate_inStep (k : ℕ) (scal : String → ℝ) (e : PyExpr) {st st' : St}
    (h : StationAgree k st st') :
    InStep k (SameAt k) (evaluateFormula e (jsonBindings scal) st)
      (evaluateFormula e (jsonBindings scal) st') := by
  unfold evaluateFormula
  split_ifs
  · exact eval_inStep (binding_sameAt k scal) e st st' h
  · exact .error _ h

/-- **C390** The values of a JSON term at a station depend on the survey at that station only: for two
surveys that agree there, whatever they are elsewhere, both evaluations fail or they give the same
three numbers there. -/
theorem C390_station (f : Formulas) (scal : String → ℝ) (k : ℕ) {st st' : St}
    (h : ∀ n, st.store n k = st'.store n k) :
    (∃ x, (evalTerm scal f st).2 = .error x ∧ (evalTerm scal f st').2 = .error x) ∨
    ∃ v v', (evalTerm scal f st).2 = .ok v ∧ (evalTerm scal f st').2 = .ok v' ∧ v k = v' k := by
  unfold evalTerm
  rcases inStep_cases (evaluate_inStep k scal f.depth h) with ⟨s, s', x, e1, e2, hs⟩ |
    ⟨s, s', d, d', e1, e2, hs, hd⟩
  · simp only [e1, e2]; exact .inr ⟨_, _, rfl, rfl, rfl⟩
  rcases inStep_cases (evaluate_inStep k scal f.inc hs) with ⟨t, t', x, f1, f2, ht⟩ |
    ⟨t, t', i, i', f1, f2, ht, hi⟩
  · simp only [e1, e2, f1, f2]; exact .inr ⟨_, _, rfl, rfl, rfl⟩
  rcases inStep_cases (evaluate_inStep k scal f.azi ht) with ⟨u, u', x, g1, g2, hu⟩ |
    ⟨u, u', a, a', g1, g2, hu, ha⟩
  · simp only [e1, e2, f1, f2, g1, g2]; exact .inr ⟨_, _, rfl, rfl, rfl⟩
  simp only [e1, e2, f1, f2, g1, g2, asArray]
  obtain ⟨-, ⟨j1, j2⟩ | ⟨x, x', j1, j2, hx, -⟩⟩ := read_sameAt hu hd
  · simp only [j1, j2]; exact .inl ⟨_, rfl, rfl⟩
  obtain ⟨-, ⟨k1, k2⟩ | ⟨y, y', k1, k2, hy, -⟩⟩ := read_sameAt hu hi
  · simp only [j1, j2, k1, k2]; exact .inl ⟨_, rfl, rfl⟩
  obtain ⟨-, ⟨l1, l2⟩ | ⟨z, z', l1, l2, hz, -⟩⟩ := read_sameAt hu ha
  · simp only [j1, j2, k1, k2, l1, l2]; exact .inl ⟨_, rfl, rfl⟩
  simp only [j1, j2, k1, k2, l1, l2]
  exact .inr ⟨_, _, rfl, rfl, by rw [hx, hy, hz]⟩

/-- Non-vacuity: two surveys that agree at the first station and differ at the second. -/
example :
    let st : St := ⟨fun _ k => k, []⟩
    let st' : St := ⟨fun _ k => 2 * k, []⟩
    (∀ n, st.store n 0 = st'.store n 0) ∧ st.store "Inc" 1 ≠ st'.store "Inc" 1 ∧
    ∃ v, (evalTerm (fun _ => 1) ⟨.const (.num 0), .name "Inc", .const (.num 0)⟩ st).2 = .ok v ∧
      v 1 = ![0, 1, 0] := by
  refine ⟨by simp, by norm_num, ?_⟩
  refine ⟨fun k => ![0, k, 0], ?_, by simp⟩
  simp [evalTerm, evaluateFormula, validate, eval, update, jsonBindings, arrayNames, asArray, Value.read]

end Welleng.Props
