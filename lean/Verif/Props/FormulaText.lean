import Verif.Lemmas.FormulaParse
import Verif.Props.Formula

/-!
C230: a formula written in the notation of the tool model workbooks evaluates to its mathematical
value (`/repo/welleng/errors/interpreter.py` 33-129).
-/

namespace Welleng.Props

open Interp Spec Ftext

theorem excelFn1_py {f : String} {g : ℝ → ℝ} {d : ℝ → Prop} (h : excelFn1 f = some (g, d)) :
    mathFn1 (String.ofList (pyName f.toList)) = some g := by
  unfold excelFn1 at h
  split at h <;>
    simp only [Option.some.injEq, Prod.mk.injEq, reduceCtorEq] at h <;>
    (obtain ⟨rfl, -⟩ := h; rfl)

theorem excelFn2_py {f : String} {g : ℝ → ℝ → ℝ} (h : excelFn2 f = some g) :
    mathFn2 (String.ofList (pyName f.toList)) = some g := by
  unfold excelFn2 at h
  split at h <;>
    simp only [Option.some.injEq, reduceCtorEq] at h <;>
    (subst h; rfl)

theorem denotes_of_means {env : String → Option (ℕ → ℝ)} {e : Formula} {v : ℕ → ℝ}
    (h : Means env e v) : Denotes env (tree e).py v := by
  induction h with
  | num q => unfold tree Tree.py; exact .num _
  | pi => unfold tree Tree.py; rw [String.ofList_toList]; exact .pi
  | var h => unfold tree Tree.py; rw [String.ofList_toList]; exact .var h
  | neg _ ih => unfold tree Tree.py; exact .neg ih
  | add _ _ i1 i2 => unfold tree Tree.py; exact .add i1 i2
  | sub _ _ i1 i2 => unfold tree Tree.py; exact .sub i1 i2
  | mul _ _ i1 i2 => unfold tree Tree.py; exact .mul i1 i2
  | div _ _ _ i1 i2 => unfold tree Tree.py; exact .div i1 i2
  | pow _ _ _ i1 i2 => unfold tree Tree.py; exact .pow i1 i2
  | fn1 hf _ _ ih => simp only [tree, Tree.py, pyAll]; exact .fn1 (excelFn1_py hf) ih
  | fn2 hf _ _ i1 i2 => simp only [tree, Tree.py, pyAll]; exact .fn2 (excelFn2_py hf) i1 i2

/-- C230 (partial): a formula in which no power is raised to a power without parentheses evaluates
to its mathematical value at every station, and the caller's arrays are left as they are. -/
theorem C230_value_partial {b : Ns} (hb : ∀ f ∈ allowedFuncs, b f = none)
    (hbi : b "__builtins__" = none) {l : Level} {e : Formula} {s : List Char} {v : ℕ → ℝ} (st : St)
    (hs : Written false l e s) (hv : Means (envOf b st.store) e v) :
    ∃ st' val, evaluateText s b st = (st', .ok val) ∧ st'.store = st.store ∧
      val.read st' = some v := by
  unfold evaluateText
  rw [parse_written hs]
  exact C122_formula_value hb hbi st (denotes_of_means hv)

/-- Non-vacuity of C230: `-Sin(Inc) / Gfield`, as shipped. -/
example (scal : String → ℝ) (h : scal "Gfield" ≠ 0) (st : St) :
    Written false .sum (.div (.neg (.fn1 "Sin" (.var "Inc"))) (.var "Gfield"))
      "-Sin(Inc) / Gfield".toList ∧
    Means (envOf (jsonBindings scal) st.store)
      (.div (.neg (.fn1 "Sin" (.var "Inc"))) (.var "Gfield"))
      fun k => -Real.sin (st.store "Inc" k) / scal "Gfield" := by
  refine ⟨.sum ?_, .div (fun _ => h) (.neg (.fn1 (f := "Sin") (d := fun _ => True) rfl
    (fun _ => trivial) (.var rfl))) (.var rfl)⟩
  have i1 : Identifier "Inc".toList :=
    ⟨⟨'I', "nc".toList, rfl, .inl (by decide), by decide⟩, by decide⟩
  have i2 : Identifier "Gfield".toList :=
    ⟨⟨'G', "field".toList, rfl, .inl (by decide), by decide⟩, by decide⟩
  have none' : Blank [] := fun _ h => absurd h List.not_mem_nil
  have one : Blank [' '] := fun c h => by simpa using h
  have w1 : Written false .sum (.var "Inc") "Inc".toList :=
    .sum (.term (.sign (.power (.var i1))))
  have w2 : Written false .atom (.fn1 "Sin" (.var "Inc")) "Sin(Inc)".toList :=
    .call1 (f := "Sin") (u := []) (v := []) rfl none' none' w1
  have w3 : Written false .sign (.neg (.fn1 "Sin" (.var "Inc"))) "-Sin(Inc)".toList :=
    .neg (u := []) none' (.sign (.power w2))
  exact .div (u := [' ']) (s := "-Sin(Inc) ".toList) (t := "Gfield".toList) one
    (.blank (.term w3)) (.sign (.power (.var i2)))

/-- `2^3^2`, whose operations of the same level are done from left to right, is 64. -/
theorem chained_written :
    Written true .power (.pow (.pow (.num 2) (.num 3)) (.num 2)) "2^3^2".toList ∧
    ∀ env, Means env (.pow (.pow (.num 2) (.num 3)) (.num 2)) fun _ => 64 := by
  have none' : Blank [] := fun _ h => absurd h List.not_mem_nil
  have n2 : Written true .atom (.num 2) ['2'] :=
    .num (.whole ['2'] (by decide) (by decide)) (by decide)
  have n3 : Written true .atom (.num 3) ['3'] :=
    .num (.whole ['3'] (by decide) (by decide)) (by decide)
  refine ⟨.chain (u := []) (s := "2^3".toList) (t := ['2']) rfl none'
    (.pow (u := []) (s := ['2']) (t := ['3']) none' n2 n3) n2, fun env => ?_⟩
  have h1 : Means env (.pow (.num 2) (.num 3)) fun _ => 8 := by
    have := Means.pow (env := env) (fun _ => .inr (.inr ⟨3, by norm_num⟩)) (.num 2) (.num 3)
    convert this using 1
    funext _; norm_num
  have := Means.pow (env := env) (fun _ => .inr (.inr ⟨2, by norm_num⟩)) h1 (.num 2)
  convert this using 1
  funext _; norm_num

/-- C230 is false for a power of a power without parentheses, which the workbooks' notation reads
from left to right: `2^3^2` evaluates to 512, not to 64. -/
theorem C230_chained_powers {b : Ns} (st : St) :
    ∃ e, (Written true .power e "2^3^2".toList ∧ ∀ env, Means env e fun _ => 64) ∧
    ∃ st' val, evaluateText "2^3^2".toList b st = (st', .ok val) ∧
      val.read st' = some fun _ => 512 := by
  refine ⟨_, chained_written, ?_⟩
  have hp : parse (rewrite "2^3^2".toList) =
      some (.bin .pow (.num 2) (.bin .pow (.num 3) (.num 2))) := by rfl
  unfold evaluateText
  rw [hp]
  refine ⟨(st.log (.arith .pow)).log (.arith .pow), .scal 512, ?_, rfl⟩
  simp only [Tree.py, evaluateFormula, validate, Op.allowed, Bool.and_self, if_true, eval,
    Value.read, Value.isScal, wrap, Op.fn]
  norm_num

end Welleng.Props
