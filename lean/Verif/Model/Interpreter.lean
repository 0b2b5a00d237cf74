import Verif.Model.ErrorModel
import Mathlib.Analysis.SpecialFunctions.Pow.Real
import Mathlib.Analysis.SpecialFunctions.Trigonometric.Arctan

/-!
Model of `welleng/errors/interpreter.py` and of its caller `ToolError._call_interpreter`
(`welleng/errors/tool_errors.py` 290-361).

The model starts from Python's expression tree; `Model/FormulaText.lean` adds the textual rewriting
of Excel names and `ast.parse`.  Arrays are functions of the station index.  An array bound
to a name is a reference to the caller's array (`np.asarray` does not copy a float array),
so a numpy function called with an output argument writes to the caller's data.  Division by
zero, which gives `inf`/`nan` in numpy, is real division here.
-/

namespace Welleng.Interp

open Welleng.Err

/-- Binary operators of Python; `other` is any of `% // @ << >> & | ^`, `interpreter.py` 71-78. -/
inductive Op | add | sub | mult | div | pow | other
  deriving DecidableEq

/-- Unary operators; `other` is `not` or `~`, `interpreter.py` 71-78. -/
inductive UOp | usub | uadd | other
  deriving DecidableEq

/-- Constants of Python source, `interpreter.py` 71-78. -/
inductive Const | num (r : ℝ) | str (s : String) | other

/-- Python expressions (`ast`).  `other` is any further expression node (Attribute, Subscript,
Lambda, IfExp, comprehension, Compare, BoolOp, Starred, keyword, …) with its children,
`interpreter.py` 84-96, 114. -/
inductive PyExpr
  | const (c : Const)
  | name (id : String)
  | binOp (op : Op) (l r : PyExpr)
  | unaryOp (op : UOp) (e : PyExpr)
  | call (f : PyExpr) (args : List PyExpr) (keywords : List PyExpr)
  | other (kind : String) (children : List PyExpr)

/-- `_ALLOWED_FUNCS`, `interpreter.py` 79-81. -/
def allowedFuncs : List String :=
  ["sin", "cos", "tan", "asin", "acos", "atan", "abs", "sqrt", "exp", "log", "pi",
   "maximum", "minimum"]

/-- The test of the operator nodes against `_ALLOWED_NODES`, `interpreter.py` 71-78. -/
def Op.allowed : Op → Bool
  | .other => false
  | _ => true

/-- As `Op.allowed` for unary operators, `interpreter.py` 71-78. -/
def UOp.allowed : UOp → Bool
  | .other => false
  | _ => true

/-- The test of a call node, `interpreter.py` 90-94. -/
def directCall : PyExpr → Bool
  | .name id => allowedFuncs.contains id
  | _ => false

mutual
/-- `_validate`, `interpreter.py` 84-96: `true` when no ValueError is raised.  `ast.walk` visits
every node; the order only decides which message is raised.  A keyword argument is an
`ast.keyword` node, which is not allowed. -/
def validate : PyExpr → Bool
  | .const _ => true
  | .name id => id != "__builtins__"
  | .binOp op l r => op.allowed && validate l && validate r
  | .unaryOp op e => op.allowed && validate e
  | .call f args kws => directCall f && validate f && validateAll args && kws.isEmpty
  | .other _ _ => false
/-- `_validate` over the children, `interpreter.py` 84-96. -/
def validateAll : List PyExpr → Bool
  | [] => true
  | e :: t => validate e && validateAll t
end

/-- The numpy functions of the namespace, `interpreter.py` 117-123. -/
inductive Fn
  | sin | cos | tan | arcsin | arccos | arctan | abs | sqrt | exp | log | maximum | minimum
  deriving DecidableEq

/-- A Python value: reference to a bound array, fresh array, scalar, numpy function, or
anything else, `interpreter.py` 118-129. -/
inductive Value
  | ref (name : String)
  | tmp (v : ℕ → ℝ)
  | scal (r : ℝ)
  | fn (f : Fn)
  | opaque

/-- Exceptions during evaluation, `interpreter.py` 84-129. -/
inductive PyErr | valueError | nameError | typeError | other
  deriving DecidableEq

/-- What evaluation does besides computing a value, `interpreter.py` 128-129. -/
inductive Event
  | arith (op : Op)
  | unary (op : UOp)
  | call (f : Value)
  | write (name : String)
  | foreign (kind : String)

/-- Evaluation state: contents of the caller's arrays, and what happened so far,
`interpreter.py` 128-129. -/
structure St where
  store : String → ℕ → ℝ
  events : List Event

/-- A namespace: `ns` after `ns.update(bindings)`, `interpreter.py` 118-124. -/
abbrev Ns := String → Option Value

/-- The namespace before the update, `interpreter.py` 117-123. -/
noncomputable def baseNs : Ns := fun id =>
  if id = "sin" then some (.fn .sin) else if id = "cos" then some (.fn .cos)
  else if id = "tan" then some (.fn .tan) else if id = "asin" then some (.fn .arcsin)
  else if id = "acos" then some (.fn .arccos) else if id = "atan" then some (.fn .arctan)
  else if id = "abs" then some (.fn .abs) else if id = "sqrt" then some (.fn .sqrt)
  else if id = "exp" then some (.fn .exp) else if id = "log" then some (.fn .log)
  else if id = "maximum" then some (.fn .maximum)
  else if id = "minimum" then some (.fn .minimum)
  else if id = "pi" then some (.scal Real.pi) else none

/-- `ns.update(bindings)`, `interpreter.py` 124. -/
def update (ns bindings : Ns) : Ns := fun id => (bindings id).orElse fun _ => ns id

/-- Numerical content of a value; scalars are broadcast, `interpreter.py` 128-129. -/
def Value.read (st : St) : Value → Option (ℕ → ℝ)
  | .ref n => some (st.store n)
  | .tmp v => some v
  | .scal r => some fun _ => r
  | _ => none

/-- Result of an element-wise operation: scalar when all operands are scalars,
`interpreter.py` 128-129. -/
def Value.isScal : Value → Bool
  | .scal _ => true
  | _ => false

/-- Real value of a binary operator, `interpreter.py` 128-129. -/
noncomputable def Op.fn : Op → ℝ → ℝ → ℝ
  | .add => (· + ·)
  | .sub => (· - ·)
  | .mult => (· * ·)
  | .div => (· / ·)
  | .pow => fun a b => a ^ b
  | .other => fun a _ => a

/-- Real value of a one-argument function, `interpreter.py` 118-123. -/
noncomputable def Fn.fn1 : Fn → Option (ℝ → ℝ)
  | .sin => some Real.sin
  | .cos => some Real.cos
  | .tan => some Real.tan
  | .arcsin => some Real.arcsin
  | .arccos => some Real.arccos
  | .arctan => some Real.arctan
  | .abs => some fun x => |x|
  | .sqrt => some Real.sqrt
  | .exp => some Real.exp
  | .log => some Real.log
  | _ => none

/-- Real value of a two-argument function, `interpreter.py` 118-123. -/
noncomputable def Fn.fn2 : Fn → Option (ℝ → ℝ → ℝ)
  | .maximum => some max
  | .minimum => some min
  | _ => none

/-- Wrap the result of an element-wise operation, `interpreter.py` 128-129. -/
def wrap (scalar : Bool) (v : ℕ → ℝ) : Value := if scalar then .scal (v 0) else .tmp v

/-- Record an event, `interpreter.py` 128-129. -/
def St.log (st : St) (e : Event) : St := { st with events := st.events ++ [e] }

/-- A numpy function stores its result in the output argument `out` if that is an array and
returns it; a scalar or other object is a TypeError, `interpreter.py` 128-129. -/
def store (st : St) (out : Value) (v : ℕ → ℝ) : St × Except PyErr Value :=
  match out with
  | .ref n =>
    (({ st with store := Function.update st.store n v }).log (.write n), .ok (.ref n))
  | .tmp _ => (st, .ok (.tmp v))
  | _ => (st, .error .typeError)

/-- A call `f(*args)`.  A numpy function takes its inputs and, optionally, an output array as
positional arguments, `interpreter.py` 128-129. -/
noncomputable def apply (st : St) (f : Value) (args : List Value) : St × Except PyErr Value :=
  match f with
  | .fn g =>
    match g.fn1, g.fn2, args with
    | some h, _, [a] =>
      match a.read st with
      | some v => (st, .ok (wrap a.isScal fun k => h (v k)))
      | none => (st, .error .typeError)
    | some h, _, [a, out] =>
      match a.read st with
      | some v => store st out fun k => h (v k)
      | none => (st, .error .typeError)
    | _, some h, [a, b] =>
      match a.read st, b.read st with
      | some v, some w => (st, .ok (wrap (a.isScal && b.isScal) fun k => h (v k) (w k)))
      | _, _ => (st, .error .typeError)
    | _, some h, [a, b, out] =>
      match a.read st, b.read st with
      | some v, some w => store st out fun k => h (v k) (w k)
      | _, _ => (st, .error .typeError)
    | _, _, _ => (st, .error .typeError)
  | .opaque => (st, .error .other)
  | _ => (st, .error .typeError)

mutual
/-- `eval(code, {"__builtins__": {}}, ns)`, `interpreter.py` 128-129: operands left to right.
Nodes outside the modelled language are recorded as `foreign` and not evaluated further. -/
noncomputable def eval (ns : Ns) : PyExpr → St → St × Except PyErr Value
  | .const (.num r), st => (st, .ok (.scal r))
  | .const _, st => (st, .ok .opaque)
  | .name id, st =>
    match ns id with
    | some v => (st, .ok v)
    | none => (st, .error .nameError)
  | .binOp op l r, st =>
    match eval ns l st with
    | (st, .error x) => (st, .error x)
    | (st, .ok a) =>
      match eval ns r st with
      | (st, .error x) => (st, .error x)
      | (st, .ok b) =>
        let st := st.log (.arith op)
        match a.read st, b.read st with
        | some v, some w =>
          (st, .ok (wrap (a.isScal && b.isScal) fun k => op.fn (v k) (w k)))
        | _, _ => (st, .error .typeError)
  | .unaryOp op e, st =>
    match eval ns e st with
    | (st, .error x) => (st, .error x)
    | (st, .ok a) =>
      let st := st.log (.unary op)
      match a.read st with
      | some v => (st, .ok (wrap a.isScal fun k => if op = .usub then -v k else v k))
      | none => (st, .error .typeError)
  | .call f args _, st =>
    match eval ns f st with
    | (st, .error x) => (st, .error x)
    | (st, .ok g) =>
      match evalAll ns args st with
      | (st, .error x) => (st, .error x)
      | (st, .ok vs) => apply (st.log (.call g)) g vs
  | .other kind _, st => (st.log (.foreign kind), .error .other)
/-- Arguments of a call, left to right, `interpreter.py` 128-129. -/
noncomputable def evalAll (ns : Ns) : List PyExpr → St → St × Except PyErr (List Value)
  | [], st => (st, .ok [])
  | e :: t, st =>
    match eval ns e st with
    | (st, .error x) => (st, .error x)
    | (st, .ok v) =>
      match evalAll ns t st with
      | (st, .error x) => (st, .error x)
      | (st, .ok vs) => (st, .ok (v :: vs))
end

/-- `evaluate_formula` on a parsed string, `interpreter.py` 99-129. -/
noncomputable def evaluateFormula (e : PyExpr) (bindings : Ns) (st : St) :
    St × Except PyErr Value :=
  if validate e then eval (update baseNs bindings) e st else (st, .error .valueError)

/-- Arrays bound by `_call_interpreter`, `tool_errors.py` 308-314. -/
def arrayNames : List String := ["MD", "Inc", "AzT", "AzM", "Az", "TVD"]

/-- Scalars bound by `_call_interpreter`, `tool_errors.py` 315-324. -/
def scalarNames : List String := ["Gfield", "Dip", "BField", "EarthRate", "Latitude", "RAD"]

/-- `bindings` of `_call_interpreter`; `scal` gives the header's scalars,
`tool_errors.py` 289-361. -/
def jsonBindings (scal : String → ℝ) : Ns := fun id =>
  if arrayNames.contains id then some (.ref id)
  else if scalarNames.contains id then some (.scal (scal id))
  else none

/-- The formulas of one JSON term, `tool_errors.py` 289-361. -/
structure Formulas where
  depth : PyExpr
  inc : PyExpr
  azi : PyExpr

/-- `np.asarray(d, dtype=float)` broadcast to all stations; an object that is not a number
raises outside the `try`, `tool_errors.py` 289-361. -/
def asArray (st : St) (v : Value) : Except PyErr (ℕ → ℝ) :=
  match v.read st with
  | some w => .ok w
  | none => .error .other

/-- The `try` block, `tool_errors.py` 325-350: any exception gives three zero arrays (and a
warning). -/
noncomputable def evalTerm (scal : String → ℝ) (f : Formulas) (st : St) :
    St × Except PyErr (ℕ → V) :=
  let b := jsonBindings scal
  let fail (st : St) : St × Except PyErr (ℕ → V) := (st, .ok fun _ => 0)
  match evaluateFormula f.depth b st with
  | (st, .error _) => fail st
  | (st, .ok d) =>
    match evaluateFormula f.inc b st with
    | (st, .error _) => fail st
    | (st, .ok i) =>
      match evaluateFormula f.azi b st with
      | (st, .error _) => fail st
      | (st, .ok a) =>
        match asArray st d, asArray st i, asArray st a with
        | .ok d, .ok i, .ok a => (st, .ok fun k => ![d k, i k, a k])
        | _, _, _ => (st, .error .other)

/-- `ToolError._call_interpreter`, `tool_errors.py` 290-361: state afterwards, and the term
(`none` when `_generate_error` returns `None`).  `s` is the error model's own survey table. -/
noncomputable def callInterpreter (scal : String → ℝ) (s : Sv) (f : Formulas) (mag : ℝ)
    (unit : String) (p : Prop') (st : St) : St × Except PyErr (Option Term) :=
  match evalTerm scal f st with
  | (st, .error x) => (st, .error x)
  | (st, .ok dpde) =>
    (st, .ok (generateError s (fun k => (mag * unitScale unit) • dpde k) p none))

end Welleng.Interp
