import Verif.Model.Interpreter

/-!
Specification of the formulas the interpreter is meant to accept, independent of the
validator.
-/

namespace Welleng.Spec

open Interp

/-- Arithmetic formulas: numbers (or other literals), variables, `+ - * / **`, signs, and calls
of the listed functions by their bare name with positional arguments. -/
inductive IsArith : PyExpr → Prop
  | const (c) : IsArith (.const c)
  | var (id) (h : id ≠ "__builtins__") : IsArith (.name id)
  | bin {op l r} (h : op = .add ∨ op = .sub ∨ op = .mult ∨ op = .div ∨ op = .pow)
      (hl : IsArith l) (hr : IsArith r) : IsArith (.binOp op l r)
  | un {op e} (h : op = .usub ∨ op = .uadd) (he : IsArith e) : IsArith (.unaryOp op e)
  | call {f args} (h : f ∈ ["sin", "cos", "tan", "asin", "acos", "atan", "abs", "sqrt", "exp",
      "log", "pi", "maximum", "minimum"]) (ha : ∀ a ∈ args, IsArith a) :
      IsArith (.call (.name f) args [])

/-- Every call has exactly as many arguments as the mathematical function. -/
inductive ExactArgs : PyExpr → Prop
  | const (c) : ExactArgs (.const c)
  | var (id) : ExactArgs (.name id)
  | bin {op l r} (hl : ExactArgs l) (hr : ExactArgs r) : ExactArgs (.binOp op l r)
  | un {op e} (he : ExactArgs e) : ExactArgs (.unaryOp op e)
  | call {f args kws}
      (h : args.length = if f = "maximum" ∨ f = "minimum" then 2 else 1)
      (ha : ∀ a ∈ args, ExactArgs a) : ExactArgs (.call (.name f) args kws)

/-- A variable occurs in an expression. -/
inductive Mentions (id : String) : PyExpr → Prop
  | name : Mentions id (.name id)
  | left {op l r} : Mentions id l → Mentions id (.binOp op l r)
  | right {op l r} : Mentions id r → Mentions id (.binOp op l r)
  | un {op e} : Mentions id e → Mentions id (.unaryOp op e)
  | func {f args kws} : Mentions id f → Mentions id (.call f args kws)
  | arg {f args kws a} : a ∈ args → Mentions id a → Mentions id (.call f args kws)

end Welleng.Spec
