import Verif.Spec.Formula

/-!
C29 (the formula interpreter is a sandbox) and C63 (every term of a JSON tool model
contributes).
-/

namespace Welleng.Props

open Interp Spec Err

mutual
theorem validate_sound : ∀ e : PyExpr, validate e = true → IsArith e
  | .const c, _ => .const c
  | .name id, h => .var id (by simpa [validate] using h)
  | .binOp op l r, h => by
    simp only [validate, Bool.and_eq_true] at h
    refine .bin ?_ (validate_sound l h.1.2) (validate_sound r h.2)
    cases op <;> simp [Op.allowed] at h ⊢
  | .unaryOp op e, h => by
    simp only [validate, Bool.and_eq_true] at h
    refine .un ?_ (validate_sound e h.2)
    cases op <;> simp [UOp.allowed] at h ⊢
  | .call f args kws, h => by
    simp only [validate, Bool.and_eq_true] at h
    obtain ⟨⟨⟨h1, -⟩, h3⟩, h4⟩ := h
    cases f <;> simp only [directCall, Bool.false_eq_true] at h1
    obtain rfl : kws = [] := by simpa using h4
    exact .call (by simpa [allowedFuncs] using h1) (validateAll_sound args h3)
  | .other _ _, h => by simp [validate] at h
theorem validateAll_sound : ∀ l : List PyExpr, validateAll l = true → ∀ a ∈ l, IsArith a
  | [], _ => by simp
  | e :: t, h => by
    simp only [validateAll, Bool.and_eq_true] at h
    intro a ha
    rcases List.mem_cons.1 ha with h1 | ha
    · exact h1 ▸ validate_sound e h.1
    · exact validateAll_sound t h.2 a ha
end

theorem validateAll_of {l : List PyExpr} (h : ∀ a ∈ l, validate a = true) :
    validateAll l = true := by
  induction l with
  | nil => rfl
  | cons a t ih =>
    simp only [validateAll, Bool.and_eq_true]
    exact ⟨h a (by simp), ih fun b hb => h b (by simp [hb])⟩

theorem validate_complete {e : PyExpr} (h : IsArith e) : validate e = true := by
  induction h with
  | const c => rfl
  | var id h => simpa [validate] using h
  | bin h _ _ ihl ihr => rcases h with rfl | rfl | rfl | rfl | rfl <;> simp [validate, Op.allowed, ihl, ihr]
  | un h _ ih => rcases h with rfl | rfl <;> simp [validate, UOp.allowed, ih]
  | call h _ ih =>
    simp only [validate, Bool.and_eq_true, directCall]
    refine ⟨⟨⟨by simpa [allowedFuncs] using h, ?_⟩, validateAll_of ih⟩, rfl⟩
    simp only [List.mem_cons, List.not_mem_nil, or_false] at h
    rcases h with rfl | rfl | rfl | rfl | rfl | rfl | rfl | rfl | rfl | rfl | rfl | rfl | rfl <;>
      decide

/-- **C29** The validator accepts exactly the arithmetic formulas: no attribute access,
subscript, lambda, comprehension, comparison, keyword or starred argument, or call of anything
but a listed name passes, at any depth; and every arithmetic formula passes. -/
theorem C29_accepts_exactly_arithmetic (e : PyExpr) : validate e = true ↔ IsArith e :=
  ⟨validate_sound e, validate_complete⟩

example : validate (.other "Attribute" [.name "Inc"]) = false := rfl
example : IsArith (.binOp .div (.call (.name "sin") [.name "Inc"] []) (.name "Gfield")) :=
  (C29_accepts_exactly_arithmetic _).1 (by decide)

/-- The events a formula is meant to be able to cause. -/
def Harmless : Event → Prop
  | .arith op => op ≠ .other
  | .unary op => op ≠ .other
  | .call (.fn _) => True
  | .call v => v = .scal Real.pi
  | .write _ => False
  | .foreign _ => False

/-- As `Harmless`, but a numpy function may also write to a bound array. -/
def AlmostHarmless (ns : Ns) : Event → Prop
  | .write n => ∃ id, ns id = some (.ref n)
  | e => Harmless e

/-- `st'` is reached from `st` through events satisfying `ok`. -/
def Reach (ok : Event → Prop) (st st' : St) : Prop :=
  ∃ ev, st'.events = st.events ++ ev ∧ ∀ x ∈ ev, ok x

theorem Reach.refl {ok} (st : St) : Reach ok st st := ⟨[], by simp, by simp⟩

theorem Reach.trans {ok} {a b c : St} (h : Reach ok a b) (h' : Reach ok b c) : Reach ok a c := by
  obtain ⟨u, hu, hu'⟩ := h
  obtain ⟨v, hv, hv'⟩ := h'
  refine ⟨u ++ v, by rw [hv, hu, List.append_assoc], fun x hx => ?_⟩
  rcases List.mem_append.1 hx with hx | hx
  · exact hu' x hx
  · exact hv' x hx

theorem Reach.log {ok} {st : St} {e : Event} (h : ok e) : Reach ok st (st.log e) :=
  ⟨[e], rfl, by simpa using h⟩

/-- A reference value comes from the namespace. -/
def GoodVal (ns : Ns) (v : Value) : Prop := ∀ n, v = .ref n → ∃ id, ns id = some (.ref n)

/-- The namespace gives the listed names their numpy meaning: no binding shadows them. -/
def Unshadowed (ns : Ns) : Prop := ∀ f ∈ allowedFuncs, ns f = baseNs f

theorem baseNs_call {f : String} (hf : f ∈ allowedFuncs) :
    ∃ v, baseNs f = some v ∧ Harmless (.call v) ∧ (∀ n, v ≠ .ref n) := by
  simp only [allowedFuncs, List.mem_cons, List.not_mem_nil, or_false] at hf
  rcases hf with rfl | rfl | rfl | rfl | rfl | rfl | rfl | rfl | rfl | rfl | rfl | rfl | rfl <;>
    simp [baseNs, Harmless]

theorem goodVal_wrap {ns : Ns} {b : Bool} {v : ℕ → ℝ} : GoodVal ns (wrap b v) := by
  intro n h
  cases b <;> simp [wrap] at h

theorem apply_reach {ns : Ns} {st : St} {g : Value} {vs : List Value}
    (hvs : ∀ v ∈ vs, GoodVal ns v) :
    Reach (AlmostHarmless ns) st (apply st g vs).1 ∧
      ∀ v, (apply st g vs).2 = .ok v → GoodVal ns v := by
  have hst : ∀ (out : Value) (w : ℕ → ℝ), out ∈ vs →
      Reach (AlmostHarmless ns) st (store st out w).1 ∧
        ∀ v, (store st out w).2 = .ok v → GoodVal ns v := by
    intro out w ho
    cases out with
    | ref n =>
      refine ⟨⟨[.write n], rfl, ?_⟩, ?_⟩
      · simpa [AlmostHarmless] using hvs _ ho n rfl
      · intro v hv
        simp only [store, Except.ok.injEq] at hv
        subst hv
        exact hvs _ ho
    | tmp _ =>
      refine ⟨Reach.refl _, ?_⟩
      intro v hv n hn
      simp only [store, Except.ok.injEq] at hv
      rw [← hv] at hn
      simp at hn
    | _ => exact ⟨Reach.refl _, by simp [store]⟩
  unfold apply
  split
  · split
    · split
      · exact ⟨Reach.refl _, by rintro v ⟨rfl⟩; exact goodVal_wrap⟩
      · exact ⟨Reach.refl _, by simp⟩
    · split
      · exact hst _ _ (by simp)
      · exact ⟨Reach.refl _, by simp⟩
    · split
      · exact ⟨Reach.refl _, by rintro v ⟨rfl⟩; exact goodVal_wrap⟩
      · exact ⟨Reach.refl _, by simp⟩
    · split
      · exact hst _ _ (by simp)
      · exact ⟨Reach.refl _, by simp⟩
    · exact ⟨Reach.refl _, by simp⟩
  · exact ⟨Reach.refl _, by simp⟩
  · exact ⟨Reach.refl _, by simp⟩

mutual
theorem eval_reach {ns : Ns} (hns : Unshadowed ns) : ∀ (e : PyExpr) (st : St), validate e = true →
    Reach (AlmostHarmless ns) st (eval ns e st).1 ∧
      ∀ v, (eval ns e st).2 = .ok v → GoodVal ns v
  | .const (.num r), st, _ => by
    simp only [eval]
    exact ⟨Reach.refl _, by rintro v ⟨rfl⟩ n h; simp at h⟩
  | .const (.str _), st, _ => by
    simp only [eval]
    exact ⟨Reach.refl _, by rintro v ⟨rfl⟩ n h; simp at h⟩
  | .const .other, st, _ => by
    simp only [eval]
    exact ⟨Reach.refl _, by rintro v ⟨rfl⟩ n h; simp at h⟩
  | .name id, st, _ => by
    simp only [eval]
    split
    · rename_i v hv
      refine ⟨Reach.refl _, ?_⟩
      rintro w ⟨rfl⟩ n h
      exact ⟨id, by rw [hv, h]⟩
    · exact ⟨Reach.refl _, by simp⟩
  | .binOp op l r, st, h => by
    simp only [validate, Bool.and_eq_true] at h
    have hl := eval_reach hns l st h.1.2
    simp only [eval]
    split
    · rename_i st1 x h1
      rw [h1] at hl
      exact ⟨hl.1, by simp⟩
    · rename_i st1 a h1
      rw [h1] at hl
      have hr := eval_reach hns r st1 h.2
      split
      · rename_i st2 x h2
        rw [h2] at hr
        exact ⟨hl.1.trans hr.1, by simp⟩
      · rename_i st2 b h2
        rw [h2] at hr
        have hlog : Reach (AlmostHarmless ns) st2 (st2.log (.arith op)) := Reach.log (by
          cases op <;> simp [Op.allowed] at h <;> simp [AlmostHarmless, Harmless])
        split
        · exact ⟨(hl.1.trans hr.1).trans hlog, by rintro v ⟨rfl⟩; exact goodVal_wrap⟩
        · exact ⟨(hl.1.trans hr.1).trans hlog, by simp⟩
  | .unaryOp op e, st, h => by
    simp only [validate, Bool.and_eq_true] at h
    have he := eval_reach hns e st h.2
    simp only [eval]
    split
    · rename_i st1 x h1
      rw [h1] at he
      exact ⟨he.1, by simp⟩
    · rename_i st1 a h1
      rw [h1] at he
      have hlog : Reach (AlmostHarmless ns) st1 (st1.log (.unary op)) := Reach.log (by
        cases op <;> simp [UOp.allowed] at h <;> simp [AlmostHarmless, Harmless])
      split
      · exact ⟨he.1.trans hlog, by rintro v ⟨rfl⟩; exact goodVal_wrap⟩
      · exact ⟨he.1.trans hlog, by simp⟩
  | .call f args kws, st, h => by
    simp only [validate, Bool.and_eq_true] at h
    obtain ⟨⟨⟨h1, -⟩, h3⟩, -⟩ := h
    cases f <;> simp only [directCall, Bool.false_eq_true] at h1
    rename_i id
    have hid : id ∈ allowedFuncs := by simpa using h1
    obtain ⟨g, hg, hh, -⟩ := baseNs_call hid
    simp only [eval, hns id hid, hg]
    have ha := evalAll_reach hns args st h3
    split
    · rename_i st1 x e1
      rw [e1] at ha
      exact ⟨ha.1, by simp⟩
    · rename_i st1 vs e1
      rw [e1] at ha
      have hlog : Reach (AlmostHarmless ns) st1 (st1.log (.call g)) := Reach.log hh
      have hap := apply_reach (st := st1.log (.call g)) (g := g) (ha.2 vs rfl)
      exact ⟨(ha.1.trans hlog).trans hap.1, hap.2⟩
  | .other _ _, _, h => by simp [validate] at h
theorem evalAll_reach {ns : Ns} (hns : Unshadowed ns) : ∀ (l : List PyExpr) (st : St),
    validateAll l = true → Reach (AlmostHarmless ns) st (evalAll ns l st).1 ∧
      ∀ vs, (evalAll ns l st).2 = .ok vs → ∀ v ∈ vs, GoodVal ns v
  | [], st, _ => by
    simp only [evalAll]
    exact ⟨Reach.refl _, by rintro v ⟨rfl⟩; simp⟩
  | e :: t, st, h => by
    simp only [validateAll, Bool.and_eq_true] at h
    have he := eval_reach hns e st h.1
    simp only [evalAll]
    split
    · rename_i st1 x h1
      rw [h1] at he
      exact ⟨he.1, by simp⟩
    · rename_i st1 a h1
      rw [h1] at he
      have ht := evalAll_reach hns t st1 h.2
      split
      · rename_i st2 x h2
        rw [h2] at ht
        exact ⟨he.1.trans ht.1, by simp⟩
      · rename_i st2 vs h2
        rw [h2] at ht
        refine ⟨he.1.trans ht.1, ?_⟩
        rintro ws ⟨rfl⟩ v hv
        rcases List.mem_cons.1 hv with rfl | hv
        · exact he.2 _ rfl
        · exact ht.2 vs rfl v hv
end

/-- **C29** When no binding shadows a listed function, evaluating an accepted formula only does
arithmetic, signs and calls of the listed numpy functions; such a call may write to a bound array
(see `C65_formula_overwrites_survey`). -/
theorem C29_effects {ns : Ns} (hns : Unshadowed ns) {e : PyExpr} (he : IsArith e)
    (st : St) : Reach (AlmostHarmless ns) st (eval ns e st).1 :=
  (eval_reach hns e st (validate_complete he)).1

theorem apply_pure {f : String} (hf : f ∈ allowedFuncs) {g : Value} (hg : baseNs f = some g)
    {vs : List Value} (hl : vs.length = if f = "maximum" ∨ f = "minimum" then 2 else 1) (st : St) :
    (apply st g vs).1 = st := by
  simp only [allowedFuncs, List.mem_cons, List.not_mem_nil, or_false] at hf
  rcases hf with rfl | rfl | rfl | rfl | rfl | rfl | rfl | rfl | rfl | rfl | rfl | rfl | rfl <;>
    simp [baseNs] at hg <;> subst hg <;> simp at hl
  all_goals first
    | (obtain ⟨a, rfl⟩ := List.length_eq_one_iff.1 hl
       simp only [apply, Fn.fn1, Fn.fn2] <;> first | rfl | (split <;> rfl))
    | (obtain ⟨a, b, rfl⟩ := List.length_eq_two.1 hl
       simp only [apply, Fn.fn1, Fn.fn2]
       split <;> rfl)

theorem evalAll_length {ns : Ns} : ∀ (l : List PyExpr) (st : St) (vs : List Value),
    (evalAll ns l st).2 = .ok vs → vs.length = l.length
  | [], st, vs, h => by simp only [evalAll, Except.ok.injEq] at h; subst h; rfl
  | e :: t, st, vs, h => by
    simp only [evalAll] at h
    split at h
    · simp at h
    · split at h
      · simp at h
      · rename_i st1 _ _ _ st2 ws h2
        simp only [Except.ok.injEq] at h
        subst h
        simp [evalAll_length t st1 ws (by rw [h2])]

mutual
theorem eval_pure {ns : Ns} (hns : Unshadowed ns) : ∀ (e : PyExpr) (st : St), validate e = true →
    ExactArgs e → Reach Harmless st (eval ns e st).1 ∧ (eval ns e st).1.store = st.store
  | .const (.num r), st, _, _ => by simp only [eval]; exact ⟨Reach.refl _, trivial⟩
  | .const (.str _), st, _, _ => by simp only [eval]; exact ⟨Reach.refl _, trivial⟩
  | .const .other, st, _, _ => by simp only [eval]; exact ⟨Reach.refl _, trivial⟩
  | .name id, st, _, _ => by
    simp only [eval]
    split <;> exact ⟨Reach.refl _, rfl⟩
  | .binOp op l r, st, h, hx => by
    simp only [validate, Bool.and_eq_true] at h
    cases hx with
    | bin xl xr =>
    have hl := eval_pure hns l st h.1.2 xl
    simp only [eval]
    split
    · rename_i st1 x h1
      rw [h1] at hl
      exact hl
    · rename_i st1 a h1
      rw [h1] at hl
      have hr := eval_pure hns r st1 h.2 xr
      split
      · rename_i st2 x h2
        rw [h2] at hr
        exact ⟨hl.1.trans hr.1, hr.2.trans hl.2⟩
      · rename_i st2 b h2
        rw [h2] at hr
        have hlog : Reach Harmless st2 (st2.log (.arith op)) := Reach.log (by
          cases op <;> simp [Op.allowed] at h <;> simp [Harmless])
        split <;> exact ⟨(hl.1.trans hr.1).trans hlog, hr.2.trans hl.2⟩
  | .unaryOp op e, st, h, hx => by
    simp only [validate, Bool.and_eq_true] at h
    cases hx with
    | un xe =>
    have he := eval_pure hns e st h.2 xe
    simp only [eval]
    split
    · rename_i st1 x h1
      rw [h1] at he
      exact he
    · rename_i st1 a h1
      rw [h1] at he
      have hlog : Reach Harmless st1 (st1.log (.unary op)) := Reach.log (by
        cases op <;> simp [UOp.allowed] at h <;> simp [Harmless])
      split <;> exact ⟨he.1.trans hlog, he.2⟩
  | .call f args kws, st, h, hx => by
    simp only [validate, Bool.and_eq_true] at h
    obtain ⟨⟨⟨h1, -⟩, h3⟩, -⟩ := h
    cases hx with
    | @call id _ _ hlen xa =>
    simp only [directCall] at h1
    have hid : id ∈ allowedFuncs := by simpa using h1
    obtain ⟨g, hg, hh, -⟩ := baseNs_call hid
    simp only [eval, hns id hid, hg]
    have ha := evalAll_pure hns args st h3 xa
    have hln := evalAll_length (ns := ns) args st
    split
    · rename_i st1 x e1
      rw [e1] at ha
      exact ha
    · rename_i st1 vs e1
      rw [e1] at ha hln
      have hlog : Reach Harmless st1 (st1.log (.call g)) := Reach.log hh
      rw [apply_pure hid hg ((hln vs rfl).trans hlen)]
      exact ⟨ha.1.trans hlog, ha.2⟩
  | .other _ _, _, h, _ => by simp [validate] at h
theorem evalAll_pure {ns : Ns} (hns : Unshadowed ns) : ∀ (l : List PyExpr) (st : St),
    validateAll l = true → (∀ a ∈ l, ExactArgs a) →
      Reach Harmless st (evalAll ns l st).1 ∧ (evalAll ns l st).1.store = st.store
  | [], st, _, _ => by simp only [evalAll]; exact ⟨Reach.refl _, trivial⟩
  | e :: t, st, h, hx => by
    simp only [validateAll, Bool.and_eq_true] at h
    have he := eval_pure hns e st h.1 (hx e (by simp))
    simp only [evalAll]
    split
    · rename_i st1 x h1
      rw [h1] at he
      exact he
    · rename_i st1 a h1
      rw [h1] at he
      have ht := evalAll_pure hns t st1 h.2 (fun a ha => hx a (by simp [ha]))
      split
      · rename_i st2 x h2
        rw [h2] at ht
        exact ⟨he.1.trans ht.1, ht.2.trans he.2⟩
      · rename_i st2 vs h2
        rw [h2] at ht
        exact ⟨he.1.trans ht.1, ht.2.trans he.2⟩
end

/-- **C65** An accepted formula whose calls have the number of arguments of the mathematical
functions only does arithmetic and calls of the listed functions, and leaves the caller's data
as they are. -/
theorem C65_formula_is_pure_partial {ns : Ns} (hns : Unshadowed ns) {e : PyExpr} (he : IsArith e)
    (hx : ExactArgs e) (st : St) :
    Reach Harmless st (eval ns e st).1 ∧ (eval ns e st).1.store = st.store :=
  eval_pure hns e st (validate_complete he) hx

/-- The bindings of the error model shadow none of the listed functions. -/
theorem C29_json_unshadowed (scal : String → ℝ) :
    Unshadowed (update baseNs (jsonBindings scal)) := by
  intro f hf
  simp only [allowedFuncs, List.mem_cons, List.not_mem_nil, or_false] at hf
  rcases hf with rfl | rfl | rfl | rfl | rfl | rfl | rfl | rfl | rfl | rfl | rfl | rfl | rfl <;>
    simp [update, jsonBindings, arrayNames, scalarNames]

/-- **C65** is false without the condition on arguments: `sin(Inc, Inc)` is accepted and
replaces the caller's inclinations by their sines, because the second positional argument of a
numpy function is its output array. -/
theorem C65_formula_overwrites_survey (scal : String → ℝ) (st : St) :
    let e : PyExpr := .call (.name "sin") [.name "Inc", .name "Inc"] []
    IsArith e ∧ (evaluateFormula e (jsonBindings scal) st).1.store "Inc"
      = fun k => Real.sin (st.store "Inc" k) := by
  refine ⟨(C29_accepts_exactly_arithmetic _).1 (by decide), ?_⟩
  simp [evaluateFormula, validate, validateAll, directCall, allowedFuncs, eval, evalAll, update,
    jsonBindings, arrayNames, baseNs, scalarNames, apply, Fn.fn1, Fn.fn2, Value.read, store, St.log]

mutual
theorem eval_unbound {ns : Ns} {id : String} (hid : ns id = none) : ∀ (e : PyExpr) (st : St),
    Mentions id e → ∃ x, (eval ns e st).2 = .error x
  | .const _, _, h => by cases h
  | .name _, st, h => by cases h; exact ⟨.nameError, by simp [eval, hid]⟩
  | .binOp op l r, st, h => by
    simp only [eval]
    split
    · exact ⟨_, rfl⟩
    · rename_i st1 a h1
      split
      · exact ⟨_, rfl⟩
      · rename_i st2 b h2
        exfalso
        cases h with
        | left h =>
          obtain ⟨x, hx⟩ := eval_unbound hid l st h
          rw [h1] at hx; simp at hx
        | right h =>
          obtain ⟨x, hx⟩ := eval_unbound hid r st1 h
          rw [h2] at hx; simp at hx
  | .unaryOp op e, st, h => by
    simp only [eval]
    split
    · exact ⟨_, rfl⟩
    · rename_i st1 a h1
      cases h with
      | un h =>
        obtain ⟨x, hx⟩ := eval_unbound hid e st h
        rw [h1] at hx; simp at hx
  | .call f args _, st, h => by
    simp only [eval]
    split
    · exact ⟨_, rfl⟩
    · rename_i st1 g h1
      split
      · exact ⟨_, rfl⟩
      · rename_i st2 vs h2
        exfalso
        cases h with
        | func h =>
          obtain ⟨x, hx⟩ := eval_unbound hid f st h
          rw [h1] at hx; simp at hx
        | arg ha h =>
          obtain ⟨x, hx⟩ := evalAll_unbound hid args st1 ⟨_, ha, h⟩
          rw [h2] at hx; simp at hx
  | .other _ _, _, h => by cases h
theorem evalAll_unbound {ns : Ns} {id : String} (hid : ns id = none) :
    ∀ (l : List PyExpr) (st : St), (∃ a ∈ l, Mentions id a) → ∃ x, (evalAll ns l st).2 = .error x
  | [], _, h => by simp at h
  | e :: t, st, h => by
    simp only [evalAll]
    split
    · exact ⟨_, rfl⟩
    · rename_i st1 v h1
      split
      · exact ⟨_, rfl⟩
      · rename_i st2 vs h2
        exfalso
        obtain ⟨a, ha, h⟩ := h
        rcases List.mem_cons.1 ha with h3 | ha
        · obtain ⟨x, hx⟩ := eval_unbound hid e st (h3 ▸ h)
          rw [h1] at hx; simp at hx
        · obtain ⟨x, hx⟩ := evalAll_unbound hid t st1 ⟨a, ha, h⟩
          rw [h2] at hx; simp at hx
end

/-- The names a JSON formula can use. -/
def jsonNames : List String := allowedFuncs ++ arrayNames ++ scalarNames

theorem json_unbound (scal : String → ℝ) {id : String} (h : id ∉ jsonNames) :
    update baseNs (jsonBindings scal) id = none := by
  simp only [jsonNames, allowedFuncs, arrayNames, scalarNames, List.mem_append, List.mem_cons,
    List.not_mem_nil, or_false, not_or] at h
  simp [update, jsonBindings, arrayNames, scalarNames, baseNs, h]

/-- **C63** is false of the code: a term one of whose formulas mentions any other name (for
instance a value of the station above) contributes exactly nothing, at every station, whatever
its magnitude; no exception is raised. -/
theorem C63_term_silently_dropped (scal : String → ℝ) (s : Sv) (f : Formulas) (mag : ℝ)
    (unit : String) {p : Prop'} (hp : p ≠ .other) (st : St) {id : String} (hid : id ∉ jsonNames)
    (h : Mentions id f.depth ∨ Mentions id f.inc ∨ Mentions id f.azi) :
    ∃ st' t, callInterpreter scal s f mag unit p st = (st', .ok (some t)) ∧ ∀ k, t.cov k = 0 := by
  have hu := json_unbound scal hid
  have hz : ∃ st', evalTerm scal f st = (st', .ok fun _ => 0) := by
    have key : ∀ (e : PyExpr) (st : St), Mentions id e →
        ∃ x, (evaluateFormula e (jsonBindings scal) st).2 = .error x := by
      intro e st h
      unfold evaluateFormula
      split
      · exact eval_unbound hu e st h
      · exact ⟨_, rfl⟩
    simp only [evalTerm]
    split
    · exact ⟨_, rfl⟩
    · rename_i st1 d h1
      split
      · exact ⟨_, rfl⟩
      · rename_i st2 i h2
        split
        · exact ⟨_, rfl⟩
        · rename_i st3 a h3
          exfalso
          rcases h with h | h | h
          · obtain ⟨x, hx⟩ := key _ st h
            rw [h1] at hx; simp at hx
          · obtain ⟨x, hx⟩ := key _ st1 h
            rw [h2] at hx; simp at hx
          · obtain ⟨x, hx⟩ := key _ st2 h
            rw [h3] at hx; simp at hx
  obtain ⟨st', hz⟩ := hz
  have e0 : eNEV s (fun _ => 0) = fun _ => 0 := by
    funext k i; simp only [eNEV]; split <;> fin_cases i <;> simp
  have e1 : eNEVStar s (fun _ => 0) = fun _ => 0 := by
    funext k i; simp only [eNEVStar]; split <;> fin_cases i <;> simp
  have hc : covFromVec 0 = 0 := by ext i j; simp [covFromVec]
  simp only [callInterpreter, hz, smul_zero, generateError, e0, e1]
  cases p <;> simp only [propagate, Option.map_some, ne_eq, not_true] at hp ⊢
  all_goals
    refine ⟨_, _, rfl, fun k => ?_⟩
    first
      | (show covFromVec _ = 0
         have : sigmaSystematic (fun _ => 0) (fun _ => 0) k = 0 := by
           simp [sigmaSystematic]
         rw [this, hc])
      | (show covFromVec 0 + _ = 0
         simp [hc])

/-- The azimuth formula of the term `GXY-RN` in the shipped model `GYRO-NS`:
`NoiseReductionFactor * (Sqr(1 - (Cos(AzT))^2 * (Sin(Inc))^2)) /
(EarthRate * Cos(Latitude) * Cos(Inc))`. -/
noncomputable def gxyRn : PyExpr :=
  .binOp .div
    (.binOp .mult (.name "NoiseReductionFactor")
      (.call (.name "sqrt") [.binOp .sub (.const (.num 1))
        (.binOp .mult (.binOp .pow (.call (.name "cos") [.name "AzT"] []) (.const (.num 2)))
          (.binOp .pow (.call (.name "sin") [.name "Inc"] []) (.const (.num 2))))] []))
    (.binOp .mult (.binOp .mult (.name "EarthRate") (.call (.name "cos") [.name "Latitude"] []))
      (.call (.name "cos") [.name "Inc"] []))

/-- **C63** The random-noise term of the shipped gyro model `GYRO-NS` contributes nothing on any
survey. -/
theorem C63_gyro_noise_dropped (scal : String → ℝ) (s : Sv) (mag : ℝ) (st : St) :
    ∃ st' t, callInterpreter scal s ⟨.const (.num 0), .const (.num 0), gxyRn⟩ mag "deg/hr" .random st
      = (st', .ok (some t)) ∧ ∀ k, t.cov k = 0 :=
  C63_term_silently_dropped scal s _ mag _ (by decide) st (id := "NoiseReductionFactor")
    (by decide) (.inr (.inr (.left (.left .name))))

end Welleng.Props
