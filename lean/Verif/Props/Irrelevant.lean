import Verif.Model.Interpreter
import Mathlib.Tactic.NormNum

/-! C388: a formula does not depend on quantities it does not mention. -/

namespace Welleng.Props

open Welleng Interp Err

mutual
/-- The names that occur in an expression. -/
def mentioned : PyExpr → List String
  | .const _ => []
  | .name id => [id]
  | .binOp _ l r => mentioned l ++ mentioned r
  | .unaryOp _ e => mentioned e
  | .call f args kws => mentioned f ++ mentionedAll args ++ mentionedAll kws
  | .other _ children => mentionedAll children
/-- The names that occur in some expressions. -/
def mentionedAll : List PyExpr → List String
  | [] => []
  | e :: t => mentioned e ++ mentionedAll t
end

/-- The arrays called `N` have the same contents. -/
def AgreeOn (N : List String) (st st' : St) : Prop := ∀ n ∈ N, st.store n = st'.store n

/-- A value that is not an array other than one of `N`. -/
def Within (N : List String) (v : Value) : Prop := ∀ n, v = .ref n → n ∈ N

theorem read_agree {N : List String} {st st' : St} (h : AgreeOn N st st') {v : Value} (hv : Within N v) :
    v.read st = v.read st' := by
  cases v with
  | ref n => simp only [Value.read]; rw [h n (hv n rfl)]
  | _ => rfl

theorem within_wrap (N : List String) (b : Bool) (v : ℕ → ℝ) : Within N (wrap b v) := by
  intro n hn
  unfold wrap at hn
  split_ifs at hn

theorem agree_log {N : List String} {st st' : St} (h : AgreeOn N st st') (e e' : Event) :
    AgreeOn N (st.log e) (st'.log e') := h

/-- Equal results, and states that agree. -/
def Alike {α : Type} (N : List String) (P : α → Prop) (a b : St × Except PyErr α) : Prop :=
  AgreeOn N a.1 b.1 ∧ a.2 = b.2 ∧ ∀ v, a.2 = .ok v → P v

theorem store_alike {N : List String} {st st' : St} (h : AgreeOn N st st') {out : Value}
    (ho : Within N out) (v : ℕ → ℝ) : Alike N (Within N) (Interp.store st out v) (Interp.store st' out v) := by
  cases out with
  | ref n =>
    refine ⟨fun m hm => ?_, rfl, ?_⟩
    · simp only [Interp.store, St.log, Function.update_apply]
      split_ifs
      · rfl
      · exact h m hm
    · rintro w hw
      simp only [Interp.store, Except.ok.injEq] at hw
      rw [← hw]; exact ho
  | tmp w =>
    refine ⟨h, rfl, ?_⟩
    rintro w hw
    simp only [Interp.store, Except.ok.injEq] at hw
    rw [← hw]; intro n hn; cases hn
  | scal r => exact ⟨h, rfl, fun w hw => by simp [Interp.store] at hw⟩
  | fn f => exact ⟨h, rfl, fun w hw => by simp [Interp.store] at hw⟩
  | «opaque» => exact ⟨h, rfl, fun w hw => by simp [Interp.store] at hw⟩

theorem error_alike {α : Type} {N : List String} {st st' : St} (h : AgreeOn N st st') (P : α → Prop)
    (x : PyErr) : Alike N P (st, .error x) (st', .error x) :=
  ⟨h, rfl, fun v hv => by cases hv⟩

theorem ok_alike {α : Type} {N : List String} {st st' : St} (h : AgreeOn N st st') {P : α → Prop}
    {v : α} (hv : P v) : Alike N P (st, .ok v) (st', .ok v) :=
  ⟨h, rfl, fun w hw => by cases hw; exact hv⟩

theorem apply_alike {N : List String} {st st' : St} (h : AgreeOn N st st') (f : Value)
    {args : List Value} (ha : ∀ a ∈ args, Within N a) :
    Alike N (Within N) (apply st f args) (apply st' f args) := by
  have hr : ∀ a ∈ args, a.read st' = a.read st := fun a hm => (read_agree h (ha a hm)).symm
  cases f with
  | fn g =>
    unfold apply
    dsimp only
    cases g.fn1 with
    | some k =>
      match args, ha, hr with
      | [], _, _ => cases g.fn2 <;> exact error_alike h _ _
      | [a], ha, hr =>
        dsimp only
        rw [hr a (by simp)]
        cases a.read st with
        | none => exact error_alike h _ _
        | some v => exact ok_alike h (within_wrap _ _ _)
      | [a, o], ha, hr =>
        dsimp only
        rw [hr a (by simp)]
        cases a.read st with
        | none => exact error_alike h _ _
        | some v => exact store_alike h (ha o (by simp)) _
      | [a, b, o], ha, hr =>
        cases g.fn2 with
        | none => exact error_alike h _ _
        | some k2 =>
          dsimp only
          rw [hr a (by simp), hr b (by simp)]
          cases a.read st <;> cases b.read st <;>
            first | exact error_alike h _ _ | exact store_alike h (ha o (by simp)) _
      | _ :: _ :: _ :: _ :: _, _, _ => cases g.fn2 <;> exact error_alike h _ _
    | none =>
      cases g.fn2 with
      | none =>
        match args with
        | [] => exact error_alike h _ _
        | [_] => exact error_alike h _ _
        | [_, _] => exact error_alike h _ _
        | [_, _, _] => exact error_alike h _ _
        | _ :: _ :: _ :: _ :: _ => exact error_alike h _ _
      | some k2 =>
        match args, ha, hr with
        | [], _, _ => exact error_alike h _ _
        | [_], _, _ => exact error_alike h _ _
        | [a, b], ha, hr =>
          dsimp only
          rw [hr a (by simp), hr b (by simp)]
          cases a.read st <;> cases b.read st <;>
            first | exact error_alike h _ _ | exact ok_alike h (within_wrap _ _ _)
        | [a, b, o], ha, hr =>
          dsimp only
          rw [hr a (by simp), hr b (by simp)]
          cases a.read st <;> cases b.read st <;>
            first | exact error_alike h _ _ | exact store_alike h (ha o (by simp)) _
        | _ :: _ :: _ :: _ :: _, _, _ => exact error_alike h _ _
  | «opaque» => exact error_alike h _ _
  | ref n => exact error_alike h _ _
  | tmp v => exact error_alike h _ _
  | scal r => exact error_alike h _ _

theorem alike_cases {α : Type} {N : List String} {P : α → Prop} {a b : St × Except PyErr α}
    (h : Alike N P a b) :
    (∃ s s' x, a = (s, .error x) ∧ b = (s', .error x) ∧ AgreeOn N s s') ∨
    ∃ s s' v, a = (s, .ok v) ∧ b = (s', .ok v) ∧ AgreeOn N s s' ∧ P v := by
  obtain ⟨s, r⟩ := a
  obtain ⟨s', r'⟩ := b
  obtain ⟨h1, h2, h3⟩ := h
  simp only at h1 h2 h3
  subst h2
  cases r with
  | error x => exact .inl ⟨s, s', x, rfl, rfl, h1⟩
  | ok v => exact .inr ⟨s, s', v, rfl, rfl, h1, h3 v rfl⟩

section
variable {N : List String} {ns ns' : Ns} (hns : ∀ id ∈ N, ns id = ns' id)
  (hin : ∀ id ∈ N, ∀ v, ns id = some v → Within N v)

include hns hin

mutual
theorem eval_alike : ∀ (e : PyExpr), (∀ x ∈ mentioned e, x ∈ N) → ∀ st st' : St, AgreeOn N st st' →
    Alike N (Within N) (eval ns e st) (eval ns' e st')
  | .const (.num r), _, st, st', h => by
    simp only [eval]; exact ok_alike h (by intro n hn; cases hn)
  | .const (.str _), _, st, st', h => by
    simp only [eval]; exact ok_alike h (by intro n hn; cases hn)
  | .const .other, _, st, st', h => by
    simp only [eval]; exact ok_alike h (by intro n hn; cases hn)
  | .name id, hm, st, st', h => by
    have hid : id ∈ N := hm id (by simp [mentioned])
    simp only [eval]
    rw [← hns id hid]
    cases hv : ns id with
    | none => exact error_alike h _ _
    | some v => exact ok_alike h (hin id hid v hv)
  | .binOp op l r, hm, st, st', h => by
    have hl := eval_alike l (fun x hx => hm x (by simp [mentioned, hx])) st st' h
    simp only [eval]
    rcases alike_cases hl with ⟨s, s', x, e1, e2, hs⟩ | ⟨s, s', a, e1, e2, hs, ha⟩
    · rw [e1, e2]; exact error_alike hs _ _
    · rw [e1, e2]
      dsimp only
      have hr := eval_alike r (fun x hx => hm x (by simp [mentioned, hx])) s s' hs
      rcases alike_cases hr with ⟨t, t', x, f1, f2, ht⟩ | ⟨t, t', b, f1, f2, ht, hb⟩
      · rw [f1, f2]; exact error_alike ht _ _
      · rw [f1, f2]
        dsimp only
        have ht' := agree_log ht (.arith op) (.arith op)
        rw [read_agree ht' ha, read_agree ht' hb]
        cases a.read (t'.log (.arith op)) <;> cases b.read (t'.log (.arith op)) <;>
          first | exact error_alike ht' _ _ | exact ok_alike ht' (within_wrap _ _ _)
  | .unaryOp op e, hm, st, st', h => by
    have hl := eval_alike e (fun x hx => hm x (by simp [mentioned, hx])) st st' h
    simp only [eval]
    rcases alike_cases hl with ⟨s, s', x, e1, e2, hs⟩ | ⟨s, s', a, e1, e2, hs, ha⟩
    · rw [e1, e2]; exact error_alike hs _ _
    · rw [e1, e2]
      dsimp only
      have ht' := agree_log hs (.unary op) (.unary op)
      rw [read_agree ht' ha]
      cases a.read (s'.log (.unary op)) <;>
        first | exact error_alike ht' _ _ | exact ok_alike ht' (within_wrap _ _ _)
  | .call f args kws, hm, st, st', h => by
    have hl := eval_alike f (fun x hx => hm x (by simp [mentioned, hx])) st st' h
    simp only [eval]
    rcases alike_cases hl with ⟨s, s', x, e1, e2, hs⟩ | ⟨s, s', g, e1, e2, hs, -⟩
    · rw [e1, e2]; exact error_alike hs _ _
    · rw [e1, e2]
      dsimp only
      have hr := evalAll_alike args (fun x hx => hm x (by simp [mentioned, hx])) s s' hs
      rcases alike_cases hr with ⟨t, t', x, f1, f2, ht⟩ | ⟨t, t', vs, f1, f2, ht, hvs⟩
      · rw [f1, f2]; exact error_alike ht _ _
      · rw [f1, f2]
        exact apply_alike (agree_log ht _ _) g hvs
  | .other kind _, _, st, st', h => by
    simp only [eval]
    exact error_alike (agree_log h _ _) _ _
theorem evalAll_alike : ∀ (es : List PyExpr), (∀ x ∈ mentionedAll es, x ∈ N) → ∀ st st' : St,
    AgreeOn N st st' →
    Alike N (fun vs => ∀ v ∈ vs, Within N v) (evalAll ns es st) (evalAll ns' es st')
  | [], _, st, st', h => by simp only [evalAll]; exact ok_alike h (by simp)
  | e :: t, hm, st, st', h => by
    have hl := eval_alike e (fun x hx => hm x (by simp [mentionedAll, hx])) st st' h
    simp only [evalAll]
    rcases alike_cases hl with ⟨s, s', x, e1, e2, hs⟩ | ⟨s, s', a, e1, e2, hs, ha⟩
    · rw [e1, e2]; exact error_alike hs _ _
    · rw [e1, e2]
      dsimp only
      have hr := evalAll_alike t (fun x hx => hm x (by simp [mentionedAll, hx])) s s' hs
      rcases alike_cases hr with ⟨t, t', x, f1, f2, ht⟩ | ⟨t, t', vs, f1, f2, ht, hvs⟩
      · rw [f1, f2]; exact error_alike ht _ _
      · rw [f1, f2]
        exact ok_alike ht (by
          intro v hv
          rcases List.mem_cons.1 hv with rfl | hv
          · exact ha
          · exact hvs v hv)
end
end

theorem baseNs_not_ref (id n : String) : baseNs id ≠ some (.ref n) := by
  intro h
  have : ∀ v, baseNs id = some v → (∃ f, v = .fn f) ∨ ∃ r, v = .scal r := by
    intro v hv
    rw [baseNs] at hv
    repeat'
      first
      | (rw [ite_eq_iff] at hv; rcases hv with ⟨-, hv⟩ | ⟨-, hv⟩)
      | (injection hv with hv; first | exact .inl ⟨_, hv.symm⟩ | exact .inr ⟨_, hv.symm⟩)
    cases hv
  rcases this _ h with ⟨f, h⟩ | ⟨r, h⟩ <;> cases h

theorem evaluate_alike {N : List String} {scal scal' : String → ℝ} (hsc : ∀ n ∈ N, scal n = scal' n)
    (e : PyExpr) (hm : ∀ x ∈ mentioned e, x ∈ N) {st st' : St} (h : AgreeOn N st st') :
    Alike N (Within N) (evaluateFormula e (jsonBindings scal) st)
      (evaluateFormula e (jsonBindings scal') st') := by
  unfold evaluateFormula
  split_ifs
  · refine eval_alike ?_ ?_ e hm st st' h
    · intro id hid
      unfold update jsonBindings
      rw [hsc id hid]
    · intro id hid v hv n hn
      subst hn
      rw [update] at hv
      cases hj : jsonBindings scal id with
      | none =>
        rw [hj] at hv
        exact absurd hv (baseNs_not_ref id n)
      | some w =>
        rw [hj] at hv
        obtain rfl : w = .ref n := Option.some.inj hv
        unfold jsonBindings at hj
        split_ifs at hj
        · obtain rfl : id = n := by injection hj with hj; injection hj
          exact hid
        · injection hj with hj; cases hj
  · exact error_alike h _ _

/-- **C388** A term of a JSON tool model is the same for two surveys that agree in the quantities its three
formulas mention, whatever the others are: `scal` are the scalars of the header and `st.store` the arrays
of the survey. -/
theorem C388_irrelevant (f : Formulas) {scal scal' : String → ℝ} {st st' : St}
    (hscal : ∀ n, n ∈ mentioned f.depth ∨ n ∈ mentioned f.inc ∨ n ∈ mentioned f.azi →
      scal n = scal' n)
    (hstore : ∀ n, n ∈ mentioned f.depth ∨ n ∈ mentioned f.inc ∨ n ∈ mentioned f.azi →
      st.store n = st'.store n) :
    (evalTerm scal f st).2 = (evalTerm scal' f st').2 := by
  have hN : ∀ n, n ∈ mentioned f.depth ++ mentioned f.inc ++ mentioned f.azi ↔
      n ∈ mentioned f.depth ∨ n ∈ mentioned f.inc ∨ n ∈ mentioned f.azi := by
    intro n; simp [or_assoc]
  generalize mentioned f.depth ++ mentioned f.inc ++ mentioned f.azi = N at hN
  have hsc : ∀ n ∈ N, scal n = scal' n := fun n hn => hscal n ((hN n).1 hn)
  have h0 : AgreeOn N st st' := fun n hn => hstore n ((hN n).1 hn)
  have m1 : ∀ x ∈ mentioned f.depth, x ∈ N := fun x hx => (hN x).2 (.inl hx)
  have m2 : ∀ x ∈ mentioned f.inc, x ∈ N := fun x hx => (hN x).2 (.inr (.inl hx))
  have m3 : ∀ x ∈ mentioned f.azi, x ∈ N := fun x hx => (hN x).2 (.inr (.inr hx))
  unfold evalTerm
  rcases alike_cases (evaluate_alike hsc f.depth m1 h0) with ⟨s, s', x, e1, e2, hs⟩ |
    ⟨s, s', d, e1, e2, hs, hd⟩
  · simp only [e1, e2]
  rcases alike_cases (evaluate_alike hsc f.inc m2 hs) with ⟨t, t', x, f1, f2, ht⟩ |
    ⟨t, t', i, f1, f2, ht, hi⟩
  · simp only [e1, e2, f1, f2]
  rcases alike_cases (evaluate_alike hsc f.azi m3 ht) with ⟨u, u', x, g1, g2, hu⟩ |
    ⟨u, u', a, g1, g2, hu, ha⟩
  · simp only [e1, e2, f1, f2, g1, g2]
  simp only [e1, e2, f1, f2, g1, g2, asArray]
  rw [read_agree hu hd, read_agree hu hi, read_agree hu ha]
  cases d.read u' <;> cases i.read u' <;> cases a.read u' <;> rfl

/-- Non-vacuity: `sin(Inc)` as inclination formula; the azimuths and the dip differ, the inclinations
do not. -/
example :
    let f : Formulas := ⟨.const (.num 0), .call (.name "sin") [.name "Inc"] [], .const (.num 0)⟩
    let st : St := ⟨fun n _ => if n = "AzM" then 1 else 2, []⟩
    let st' : St := ⟨fun _ _ => 2, []⟩
    st.store "AzM" ≠ st'.store "AzM" ∧
    (evalTerm (fun _ => 1) f st).2 = (evalTerm (fun n => if n = "Dip" then 3 else 1) f st').2 := by
  intro f st st'
  refine ⟨fun h => ?_, C388_irrelevant f ?_ ?_⟩
  · have := congrFun h 0
    norm_num [st, st'] at this
  · intro n hn
    simp only [f, mentioned, mentionedAll, List.append_nil, List.cons_append, List.nil_append,
      List.not_mem_nil, List.mem_cons, or_false, false_or] at hn
    rcases hn with rfl | rfl <;> simp
  · intro n hn
    simp only [f, mentioned, mentionedAll, List.append_nil, List.cons_append, List.nil_append,
      List.not_mem_nil, List.mem_cons, or_false, false_or] at hn
    rcases hn with rfl | rfl <;> simp [st, st']

end Welleng.Props
