import Mathlib.Algebra.Order.Group.Defs
import Mathlib.Order.Lattice

/-!
Model of `/repo/welleng/architecture.py` (the whole file).

Depths and lengths live in an arbitrary ordered additive group `α` (Python floats are idealised),
all other keyword arguments are an association list with values in `V`. `self.sections` is a
Python dict with integer keys, modelled by the list of its items in insertion order.
-/

namespace Welleng.Arch

variable {α V : Type} [AddCommGroup α] [LinearOrder α]

/-- One value of `self.sections`: a dict that may or may not have the keys `top`, `bottom`,
`length`; `other` holds all remaining keys, `architecture.py` 30, 90-92, 156-158. -/
structure Sec (α V : Type) where
  top : Option α
  bottom : Option α
  length : Option α
  other : List (String × V)
  deriving DecidableEq, Repr

/-- Keyword arguments of `add_section` (numbers for the three known keys),
`architecture.py` 59-66, 90-92. -/
structure Kw (α V : Type) where
  top : Option α
  bottom : Option α
  length : Option α
  other : List (String × V)
  deriving DecidableEq, Repr

/-- Exceptions raised, `architecture.py` 33, 37, 62, 109-112, 176-179. -/
inductive Err
  | assertion | key | unbound
  deriving DecidableEq, Repr

/-- The class of the object, `architecture.py` 5, 187, 195. -/
inductive Kind | string | wellBore | bha
  deriving DecidableEq, Repr

/-- `method`, `architecture.py` 33-34. -/
inductive Method | topDown | bottomUp
  deriving DecidableEq, Repr

/-- A `String` object, `architecture.py` 27-34 (`name` is carried along unchanged and left
out). -/
structure Str (α V : Type) where
  kind : Kind
  top : α
  bottom : α
  sections : List (ℕ × Sec α V)
  complete : Bool
  method : Method
  deriving DecidableEq, Repr

/-- `String.__init__`, `architecture.py` 6-34, for a recognised method. -/
def Str.init (kind : Kind) (top bottom : α) (method : Method) : Str α V :=
  ⟨kind, top, bottom, [], false, method⟩

/-- `d[k]` on a dict, `architecture.py` 44-52, 111, 178. -/
def dictGet (d : List (ℕ × Sec α V)) (k : ℕ) : Except Err (Sec α V) :=
  match d.lookup k with
  | some s => .ok s
  | none => .error .key

/-- `d[k] = v` on a dict: an existing key keeps its place, a new one goes last,
`architecture.py` 75-99, 122-166. -/
def dictSet (d : List (ℕ × Sec α V)) (k : ℕ) (v : Sec α V) : List (ℕ × Sec α V) :=
  if d.any (fun e => e.1 == k) then d.map (fun e => if e.1 = k then (k, v) else e)
  else d ++ [(k, v)]

/-- `v['top']` etc.: a missing key raises `KeyError`, `architecture.py` 96-112, 162-179. -/
def need (o : Option α) : Except Err α :=
  match o with
  | some a => .ok a
  | none => .error .key

/-- Stable insertion of an item by key, `architecture.py` 96, 162. -/
def insertBy {β : Type} (e : α × β) : List (α × β) → List (α × β)
  | [] => [e]
  | f :: t => if e.1 ≤ f.1 then e :: f :: t else f :: insertBy e t

/-- Python's stable `sorted` on items decorated with their key, `architecture.py` 96, 162. -/
def sortBy {β : Type} : List (α × β) → List (α × β)
  | [] => []
  | e :: t => insertBy e (sortBy t)

/-- Evaluation of the sort key of every item; a missing key raises, `architecture.py` 96, 162. -/
def decorate (key : Sec α V → Option α) :
    List (ℕ × Sec α V) → Except Err (List (α × (ℕ × Sec α V)))
  | [] => .ok []
  | e :: t =>
    match need (key e.2), decorate key t with
    | .ok k, .ok r => .ok ((k, e) :: r)
    | .error x, _ => .error x
    | _, .error x => .error x

/-- The dict comprehensions over `sorted(self.sections.items(), key=…)`, `architecture.py`
94-99 and 160-165. -/
def sortSections (key : Sec α V → Option α) (d : List (ℕ × Sec α V)) :
    Except Err (List (ℕ × Sec α V)) :=
  match decorate key d with
  | .ok l => .ok ((sortBy l).map Prod.snd)
  | .error x => .error x

/-- Re-indexing, `architecture.py` 102-104 and 168-170, from index `i`. -/
def reindex (i : ℕ) : List (ℕ × Sec α V) → List (ℕ × Sec α V)
  | [] => []
  | e :: t => (i, e.2) :: reindex (i + 1) t

/-- `assert`, `architecture.py` 109-112, 176-179. -/
def check (b : Bool) : Except Err Unit := if b then .ok () else .error .assertion

/-- The checks of `add_section_top_down`, `architecture.py` 107-112, from the second section on;
`prev` is the section above. -/
def checkTopDownFrom (bottom : α) (prev : Sec α V) : List (Sec α V) → Except Err Unit
  | [] => .ok ()
  | v :: t => do
    check ((← need v.top) = (← need prev.bottom))
    check ((← need v.bottom) ≤ bottom)
    checkTopDownFrom bottom v t

/-- The checks of `add_section_top_down`, `architecture.py` 107-112. -/
def checkTopDown (top bottom : α) : List (Sec α V) → Except Err Unit
  | [] => .ok ()
  | v :: t => do
    check ((← need v.top) = top)
    check ((← need v.bottom) ≤ bottom)
    checkTopDownFrom bottom v t

/-- The checks of `add_section_bottom_up`, `architecture.py` 173-179. -/
def checkBottomUp (top bottom : α) : List (Sec α V) → Except Err Unit
  | [] => .ok ()
  | [v] => do
    check ((← need v.bottom) = bottom)
    check (top ≤ (← need v.top))
  | v :: w :: t => do
    check ((← need v.bottom) = (← need w.top))
    check (top ≤ (← need v.top))
    checkBottomUp top bottom (w :: t)

/-- `add_section_top_down`, `architecture.py` 72-117. The resulting state is returned also when
an exception is raised. -/
def addTopDown (s : Str α V) (kw : Kw α V) : Str α V × Except Err Unit :=
  let start : Except Err α :=
    if s.sections = [] then .ok s.top
    else do need (← dictGet s.sections (s.sections.length - 1)).bottom
  match start with
  | .error x => (s, .error x)
  | .ok top =>
    let sec : Sec α V := ⟨some (kw.top.getD top), kw.bottom, kw.length, kw.other⟩
    let d := dictSet s.sections s.sections.length sec
    match sortSections Sec.top d with
    | .error x => ({ s with sections := d }, .error x)
    | .ok sorted =>
      let s' := { s with sections := sorted }
      let temp := reindex 0 sorted
      match checkTopDown s.top s.bottom (temp.map Prod.snd) with
      | .error x => (s', .error x)
      | .ok () =>
        match temp.getLast? with
        | none => (s', .error .key)
        | some (_, last) =>
          match need last.bottom with
          | .error x => (s', .error x)
          | .ok b =>
            ({ s with sections := temp, complete := if b = s.bottom then true else s.complete },
              .ok ())

/-- The local variable `top` of `add_section_bottom_up`, `architecture.py` 140-149:
`none` = never assigned. The clamped `length` computed in line 144 is not used afterwards. -/
def localTop (s : Str α V) (kw : Kw α V) (bottom : α) : Except Err (Option α) :=
  match kw.length with
  | some l =>
    if l ≠ 0 then
      let top := bottom - l
      .ok (some (if top < s.top then s.top else top))
    else elseBranch
  | none => elseBranch
where
  /-- `architecture.py` 145-149. -/
  elseBranch : Except Err (Option α) :=
    match kw.top with
    | some t => if t ≠ 0 then .ok none else last
    | none => last
  /-- `architecture.py` 147-149: `length = self.sections[0]['top']` raises on an empty string. -/
  last : Except Err (Option α) :=
    match dictGet s.sections 0 with
    | .error x => .error x
    | .ok sec => match need sec.top with
      | .error x => .error x
      | .ok _ => .ok (some s.top)

/-- `add_section_bottom_up`, `architecture.py` 119-184. -/
def addBottomUp (s : Str α V) (kw : Kw α V) : Str α V × Except Err Unit :=
  let start : Except Err α :=
    if s.sections = [] then .ok s.bottom
    else do need (← dictGet s.sections 0).top
  match start with
  | .error x => (s, .error x)
  | .ok bottom =>
    match localTop s kw bottom with
    | .error x => (s, .error x)
    | .ok none =>
      -- `self.sections[temp] = {}` succeeds, then reading the unbound `top` raises
      ({ s with sections := dictSet s.sections s.sections.length ⟨none, none, none, []⟩ },
        .error .unbound)
    | .ok (some top) =>
      let sec : Sec α V :=
        ⟨some (kw.top.getD top), some (kw.bottom.getD bottom), kw.length, kw.other⟩
      let d := dictSet s.sections s.sections.length sec
      match sortSections Sec.bottom d with
      | .error x => ({ s with sections := d }, .error x)
      | .ok sorted =>
        let s' := { s with sections := sorted }
        let temp := reindex 0 sorted
        match checkBottomUp s.top s.bottom (temp.map Prod.snd) with
        | .error x => (s', .error x)
        | .ok () =>
          match temp.head? with
          | none => (s', .error .key)
          | some (_, first) =>
            match need first.top with
            | .error x => (s', .error x)
            | .ok t =>
              ({ s with sections := temp, complete := if t = s.top then true else s.complete },
                .ok ())

/-- `PARAMS['WellBore']`, `architecture.py` 1-3. -/
def wellBoreParams : List String := ["id", "coeff_friction_sliding"]

/-- `add_section`, `architecture.py` 59-70. `density0` is the value 7.85. -/
def addSection (density0 : V) (s : Str α V) (kw : Kw α V) : Str α V × Except Err Unit :=
  let go (kw : Kw α V) := match s.method with
    | .topDown => addTopDown s kw
    | .bottomUp => addBottomUp s kw
  match s.kind with
  | .wellBore =>
    if wellBoreParams.all (fun p => kw.other.any (fun e => e.1 == p)) then go kw
    else (s, .error .assertion)
  | .bha =>
    if kw.other.any (fun e => e.1 == "density") then go kw
    else go { kw with other := kw.other ++ [("density", density0)] }
  | .string => go kw

/-- The loop of `depth`, `architecture.py` 44-55. -/
def depthLoop (density0 : V) (top : α) :
    List (ℕ × Sec α V) → Str α V → Except Err (Str α V)
  | [], new => .ok new
  | e :: t, new => do
    let len ← need e.2.length
    let params := e.2.other.filter (fun p => p.1 != "buoyancy_factor")
    match addSection density0 new ⟨none, none, some len, params⟩ with
    | (_, .error x) => .error x
    | (new', .ok ()) =>
      let first ← dictGet new'.sections 0
      if (← need first.top) = top then .ok new'
      else depthLoop density0 top t new'

/-- `String.depth`, `architecture.py` 36-57. -/
def depth (density0 : V) (s : Str α V) (md : α) : Except Err (Str α V) := do
  check (s.top < md ∧ md ≤ s.bottom)
  depthLoop density0 s.top s.sections.reverse (Str.init .string s.top md .bottomUp)

/-- A sequence of `add_section` calls, stopping at the first exception, `architecture.py` 59-70. -/
def addAll (density0 : V) : Str α V → List (Kw α V) → Str α V × Except Err Unit
  | s, [] => (s, .ok ())
  | s, kw :: t =>
    match addSection density0 s kw with
    | (s', .ok ()) => addAll density0 s' t
    | (s', .error x) => (s', .error x)

end Welleng.Arch
