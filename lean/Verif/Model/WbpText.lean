import Verif.Model.Wbp
import Verif.Model.Dms
import Mathlib.Data.Rat.Floor

/-!
Model of `/repo/welleng/exchange/wbp.py` at the level of characters: the lines written by `export`
and what `load` makes of them.

A float is its exact value, a rational number (`inf`, NaN and the sign of a zero are left out).
The only white space in a line is the blank.
-/

namespace Welleng.Wbp

/-- The text of a line or a word, `wbp.py` 455-558. -/
abbrev Text := List Char

/-! ### Numbers -/

/-- `|x|` in units of the last of `d` decimals, as `f"{x:.df}"` prints it (nearest, ties to even),
`wbp.py` 469-471. -/
def scaled (d : ℕ) (x : ℚ) : ℕ := (Dms.roundEven (|x| * 10 ^ d)).toNat

/-- The `d` digits after the point, `wbp.py` 469-471. -/
def decimals (d n : ℕ) : Text :=
  List.replicate (d - (Nat.toDigits 10 n).length) '0' ++ Nat.toDigits 10 n

/-- `f"{x:.df}"`, `d > 0`, `wbp.py` 469-471, 520-530, 538-553. -/
def fixed (d : ℕ) (x : ℚ) : Text :=
  (if x < 0 then ['-'] else []) ++ Nat.toDigits 10 (scaled d x / 10 ^ d) ++
    '.' :: decimals d (scaled d x % 10 ^ d)

/-- A text of digits, `wbp.py` 290-367. -/
def digits? (s : Text) : Option ℕ :=
  if s ≠ [] ∧ s.all Char.isDigit then some (Nat.ofDigitChars 10 s 0) else none

/-- `float(s)` of a text without sign, `wbp.py` 290-367. -/
def parseUnsigned (s : Text) : Option ℚ :=
  match s.dropWhile (· ≠ '.') with
  | [] => (digits? s).map fun n : ℕ => (n : ℚ)
  | _ :: f =>
    match digits? (s.takeWhile (· ≠ '.')), digits? f with
    | some i, some j => some ((i : ℚ) + (j : ℚ) / 10 ^ f.length)
    | _, _ => none

/-- `float(s)`, `wbp.py` 290-367; `none` is the ValueError.  Of the texts Python accepts this takes
those with an optional minus, digits, and a point between digits. -/
def parseFloat : Text → Option ℚ
  | '-' :: t => (parseUnsigned t).map fun x => -x
  | t => parseUnsigned t

/-- `int(s)`, `wbp.py` 306-311; `none` is the ValueError. -/
def parseInt (s : Text) : Option ℤ :=
  match strip s with
  | '-' :: t => (digits? t).map fun n : ℕ => -(n : ℤ)
  | t => (digits? t).map fun n : ℕ => (n : ℤ)

/-- `str(c)` of an integer, `wbp.py` 461. -/
def intText (c : ℤ) : Text := (if c < 0 then ['-'] else []) ++ Nat.toDigits 10 c.natAbs

/-! ### Words -/

/-- `str.split()` with the word `cur` begun, `wbp.py` 246, 330, 365. -/
def splitWs : Text → Text → List Text
  | cur, [] => if cur = [] then [] else [cur]
  | cur, c :: t =>
    if c = ' ' then if cur = [] then splitWs [] t else cur :: splitWs [] t
    else splitWs (cur ++ [c]) t

/-- `str.split()`, `wbp.py` 246, 330, 365. -/
def words (s : Text) : List Text := splitWs [] s

/-- `s.split(':')[0]`, `wbp.py` 247. -/
def beforeColon (s : Text) : Text := s.takeWhile (· ≠ ':')

/-- `s.split(':')[1]`, `wbp.py` 247, 330; `none` is the IndexError. -/
def afterColon (s : Text) : Option Text :=
  match s.dropWhile (· ≠ ':') with
  | [] => none
  | _ :: t => some (t.takeWhile (· ≠ ':'))

/-- `line.rstrip()`, `wbp.py` 423. -/
def rstrip (s : Text) : Text := (s.reverse.dropWhile (· = ' ')).reverse

/-! ### Plans -/

/-- A location, `[x, y, z]`: east, north, up, `wbp.py` 466-474. -/
structure Loc where
  x : ℚ
  y : ℚ
  z : ℚ
  deriving DecidableEq

/-- `TurnPoint`, `survey.py` 1720-1777. -/
structure Turn where
  md : ℚ
  azi : ℚ
  inc : ℚ
  build : ℚ
  turn : ℚ
  dls : ℚ
  toolface : ℚ
  tieOn : Bool
  method : Option Text
  target : Option Text
  loc : Option Loc
  deriving DecidableEq

/-- The nine numbers of an extended survey point, `wbp.py` 347-357. -/
structure Cov where
  xx : ℚ
  xy : ℚ
  xz : ℚ
  yy : ℚ
  yz : ℚ
  zz : ℚ
  bx : ℚ
  byy : ℚ
  bz : ℚ
  deriving DecidableEq

/-- `SurveyPoint`, `wbp.py` 61-92; `station` is md, azimuth and inclination. -/
structure Surv where
  cov : Cov
  tool : Text
  station : Option (ℚ × ℚ × ℚ)
  loc : Option Loc
  deriving DecidableEq

/-- An element of `WellPlan.steps`, `wbp.py` 502-507. -/
inductive Step
  | turn (t : Turn)
  | surv (s : Surv)
  deriving DecidableEq

/-- A `Target` to be written, `wbp.py` 30-58: its colour is `geometry['color']['color']`. -/
structure Tgt where
  name : Text
  loc : Option Loc
  color : Option ℤ
  deriving DecidableEq

/-- `wbp_dict['LOCATION']['dirty_flag']`, `wbp.yaml` 40-42.  YAML reads `None` as a string. -/
def dirtyTable : List (Char × String) := [('0', "None"), ('4', "locked_plan")]

/-- A `WellPlan` to be written, `wbp.py` 193-206 (`parent_data` is `None`). -/
structure WPlan where
  kind : String
  method : String
  dirty : String
  sidetrack : Option Text
  plan : Option Text
  parent : Option Text
  dls : ℚ
  extension : ℚ
  surface : Option U
  depth : Option U
  targets : List Tgt
  steps : List Step
  deriving DecidableEq

/-! ### Writing -/

/-- A number or name in a column of width `w` after a blank, `wbp.py` 520-530. -/
def col (w : ℕ) (s : Text) : Text := ' ' :: rjust w s

/-- `add_location`, `wbp.py` 466-474. -/
def locLine (l : Loc) : Text :=
  ['L', ':'] ++ rjust 13 (fixed 2 l.x) ++ rjust 13 (fixed 2 l.y) ++ rjust 11 (fixed 2 l.z)

/-- The decimals of a toolface, `wbp.py` 519-520. -/
def toolfaceDecimals (t : ℚ) : ℕ := if t < -99 then 2 else 3

/-- `method` as written, `wbp.py` 511-514. -/
def methodText (t : Turn) : Text := if t.tieOn then [] else t.method.getD ['0']

/-- `add_turn_point` up to the location, `wbp.py` 510-532. -/
def turnLine (t : Turn) : Text :=
  ['P', ':'] ++ col 7 (fixed 2 t.md) ++ col 7 (fixed 3 t.azi) ++ col 7 (fixed 3 t.inc) ++
    col 7 (fixed 3 t.build) ++ col 7 (fixed 3 t.turn) ++ col 7 (fixed 3 t.dls) ++
    col 7 (fixed (toolfaceDecimals t.toolface) t.toolface) ++ col 4 (methodText t) ++
    col 10 (t.target.getD [])

/-- The `X` line, `wbp.py` 538-550. -/
def covLine (c : Cov) (tool : Text) : Text :=
  ['X', ':'] ++ col 8 (fixed 1 c.xx) ++ col 8 (fixed 1 c.xy) ++ col 8 (fixed 1 c.xz) ++
    col 8 (fixed 1 c.yy) ++ col 8 (fixed 1 c.yz) ++ col 8 (fixed 1 c.zz) ++
    col 7 (fixed 2 c.bx) ++ col 7 (fixed 2 c.byy) ++ col 7 (fixed 2 c.bz) ++
    ' ' :: ljust 38 tool

/-- The `S` line, `wbp.py` 551-556. -/
def stationLine (s : ℚ × ℚ × ℚ) : Text :=
  ['S', ':'] ++ col 7 (fixed 2 s.1) ++ col 7 (fixed 3 s.2.1) ++ col 7 (fixed 3 s.2.2)

/-- `add_step`, `wbp.py` 502-558.  `none`: a missing station or location (TypeError). -/
def stepLines : Step → Option (List Text)
  | .turn t => t.loc.map fun l => [turnLine t, locLine l]
  | .surv s =>
    match s.station, s.loc with
    | some st, some l => some [covLine s.cov s.tool, stationLine st, locLine l]
    | _, _ => none

/-- The steps of a plan, `wbp.py` 614-615. -/
def stepsLines : List Step → Option (List Text)
  | [] => some []
  | s :: t =>
    match stepLines s, stepsLines t with
    | some a, some b => some (a ++ b)
    | _, _ => none

/-- `add_targets`, `wbp.py` 455-463. -/
def targetLines : List Tgt → Option (List Text)
  | [] => some []
  | t :: r =>
    match t.loc, targetLines r with
    | some l, some b =>
      some ((['T', ':'] ++ t.name) :: locLine l ::
        (['C', ':'] ++ rjust 3 ((t.color.map intText).getD "None".toList)) :: b)
    | _, _ => none

/-- The fields of the header line of a plan, `wbp.py` 477-494: `none` is an unknown code
(IndexError) or a missing side track (TypeError). -/
def headerOf (p : WPlan) : Option Header :=
  match getKey typeTable p.kind, unitKey p.surface p.depth, getKey methodTable p.method,
      getKey dirtyTable p.dirty, p.sidetrack with
  | some k, some u, some m, some d, some s =>
    some ⟨k, u.toList.headD ' ', m, d, s, p.plan.getD [], p.parent.getD [], fixed 2 p.dls,
      fixed 5 p.extension⟩
  | _, _, _, _, _ => none

/-- A plan's header and steps, `wbp.py` 613-615. -/
def planLines (p : WPlan) : Option (List Text) :=
  match headerOf p, stepsLines p.steps with
  | some h, some b => some (writeHeader h :: b)
  | _, _ => none

/-- All the plans, `wbp.py` 599-615. -/
def plansLines : List WPlan → Option (List Text)
  | [] => some []
  | p :: t =>
    match planLines p, plansLines t with
    | some a, some b => some (a ++ b)
    | _, _ => none

/-- `export`, `wbp.py` 580-622, for plans without parent data; `notes` are the lines of
`add_comments` without their `! ` (625-633).  With no plan the file is empty. -/
def exportText (notes : List Text) : List WPlan → Option (List Text)
  | [] => some []
  | p :: t =>
    match unitKey p.surface p.depth, targetLines p.targets, plansLines (p :: t) with
    | some u, some g, some b =>
      some (("DEPTH ".toList ++ u.toList) :: notes.map (['!', ' '] ++ ·) ++
        ("TARGETS:".toList :: g) ++ ("WELLPLANS:".toList :: b))
    | _, _, _ => none

/-! ### Reading -/

/-- The header of a plan read, `wbp.py` 313-325. -/
structure Head where
  kind : String
  method : String
  dirty : Option String
  sidetrack : Option Text
  plan : Option Text
  parent : Option Text
  dls : Option ℚ
  extension : Option ℚ
  kickoff : Option ℚ
  deriving DecidableEq

/-- `string_strip(s, is_float=True)` of a stripped text, `wbp.py` 374-382; the outer `none` is the
ValueError. -/
def optFloat : Option Text → Option (Option ℚ)
  | none => some none
  | some s => (parseFloat s).map some

/-- `_add_wellplan_header`, `wbp.py` 313-325. -/
def readHead (line : Text) : Except Err Head :=
  let r := readHeader line
  match r.kind, r.method, r.dirty with
  | some k, some m, some d =>
    match typeTable.lookup k, methodTable.lookup m with
    | some k', some m' =>
      match optFloat r.dls, optFloat r.extension, optFloat (stringStrip (slice 160 171 line)) with
      | some dls, some ext, some kick =>
        .ok ⟨k', m', dirtyTable.lookup d, r.sidetrack, r.plan, r.parent, dls, ext, kick⟩
      | _, _, _ => .error .value
    | _, _ => .error .key
  | _, _, _ => .error .index

/-- A target read, `wbp.py` 290-295; its colour is in the shared dictionary. -/
structure RTgt where
  name : Text
  loc : Option Loc
  deriving DecidableEq

/-- A plan being read, `wbp.py` 177-191, 235-288; `units` is the key of `DEPTH`. -/
structure RPlan where
  flag : Flag
  tieOn : Bool
  units : Option Text
  head : Option Head
  targets : List RTgt
  steps : List Step
  deriving DecidableEq

/-- A new plan, `wbp.py` 177-191. -/
def RPlan.new (units : Option Text) : RPlan := ⟨.none, false, units, none, [], []⟩

/-- `x, y, z = data.split()` and the three numbers, `wbp.py` 293-295, 365-367. -/
def readLoc (data : Text) : Option Loc :=
  match words data with
  | [a, b, c] =>
    match parseFloat a, parseFloat b, parseFloat c with
    | some x, some y, some z => some ⟨x, y, z⟩
    | _, _, _ => none
  | _ => none

/-- Replace the last element, `wbp.py` 295, 361, 367; `none` is the IndexError of an empty list. -/
def setLast {α : Type} (f : α → α) : List α → Option (List α)
  | [] => none
  | [a] => some [f a]
  | a :: b :: t => (setLast f (b :: t)).map (a :: ·)

/-- `_add_turn_point`, `wbp.py` 327-345.  (A line with too few words fails with IndexError, or with
ValueError if one of its words is not a number.) -/
def readTurn (tie : Bool) (line : Text) : Except Err Turn :=
  match afterColon line with
  | none => .error .index
  | some body =>
    match words body with
    | a :: b :: c :: d :: e :: f :: g :: rest =>
      match parseFloat a, parseFloat b, parseFloat c, parseFloat d, parseFloat e, parseFloat f,
          parseFloat g with
      | some md, some azi, some inc, some bld, some trn, some dls, some tf =>
        if tie then .ok ⟨md, azi, inc, bld, trn, dls, tf, true, none, none, none⟩
        else
          match rest with
          | [] => .error .index
          | m :: r => .ok ⟨md, azi, inc, bld, trn, dls, tf, false, some m, r.head?, none⟩
      | _, _, _, _, _, _, _ => .error .value
    | _ => .error .index

/-- `_add_extended_survey_point`, `wbp.py` 347-358. -/
def readCov (data : List Text) : Except Err Surv :=
  match data with
  | a :: b :: c :: d :: e :: f :: g :: h :: i :: rest =>
    match parseFloat a, parseFloat b, parseFloat c, parseFloat d, parseFloat e, parseFloat f,
        parseFloat g, parseFloat h, parseFloat i with
    | some xx, some xy, some xz, some yy, some yz, some zz, some bx, some byy, some bz =>
      .ok ⟨⟨xx, xy, xz, yy, yz, zz, bx, byy, bz⟩, List.intercalate [' '] rest, none, none⟩
    | _, _, _, _, _, _, _, _, _ => .error .value
  | _ => .error .index

/-- `s.md, s.azi, s.inc = …`, `wbp.py` 361-363. -/
def Step.setStation (m a i : ℚ) : Step → Step
  | .turn t => .turn { t with
      md := m
      azi := a
      inc := i }
  | .surv s => .surv { s with station := some (m, a, i) }

/-- `….location = …`, `wbp.py` 367. -/
def Step.setLoc (l : Loc) : Step → Step
  | .turn t => .turn { t with loc := some l }
  | .surv s => .surv { s with loc := some l }

/-- `_add_survey_data`, `wbp.py` 361-363. -/
def readStation (data : List Text) (steps : List Step) : Except Err (List Step) :=
  match data with
  | [a, b, c] =>
    match parseFloat a, parseFloat b, parseFloat c with
    | some m, some z, some i =>
      match setLast (Step.setStation m z i) steps with
      | some l => .ok l
      | none => .error .index
    | _, _, _ => .error .value
  | _ => .error .value

/-- `_add_target_color`, `wbp.py` 303-311: the new content of the shared dictionary. -/
def readColor (line : Text) : Option ℤ :=
  if line.length > 5 then parseInt (slice 2 5 line) else parseInt (line.drop 2)

/-- What a line leaves: a failure, the `break` at a second header, or the colour in the shared
dictionary and the plan, `wbp.py` 235-288. -/
abbrev Res := Except Err (Option (Option ℤ × RPlan))

/-- A line of the target section, `wbp.py` 259-268; `c` is the colour in the dictionary that is the
default of every `Target.geometry` (30-53). -/
def targetLine (c : Option ℤ) (p : RPlan) (line : Text) : Res :=
  let m0 := beforeColon line
  if m0 = ['T'] then
    match afterColon line with
    | none => .error .index
    | some name => .ok (some (c, { p with targets := p.targets ++ [⟨name, none⟩] }))
  else if m0 = ['L'] then
    match afterColon line with
    | none => .error .index
    | some data =>
      match readLoc data with
      | none => .error .value
      | some l =>
        match setLast (fun t => { t with loc := some l }) p.targets with
        | none => .error .index
        | some ts => .ok (some (c, { p with targets := ts }))
  else if m0 = ['C'] then
    if p.targets = [] then .error .index
    else
      match readColor line with
      | none => .error .value
      | some k => .ok (some (some k, p))
  else if m0 = ['G'] then .error .attribute
  else .ok (some (c, p))

/-- Any other line, `wbp.py` 270-287. -/
def recLine (c : Option ℤ) (p : RPlan) (line : Text) : Res :=
  let m0 := beforeColon line
  if m0 = ['W'] then
    if p.flag = .done then .ok none
    else
      match readHead line with
      | .error e => .error e
      | .ok h => .ok (some (c, { p with
          flag := .done
          tieOn := true
          head := some h }))
  else if m0 = ['P'] then
    match readTurn p.tieOn line with
    | .error e => .error e
    | .ok t => .ok (some (c, { p with steps := p.steps ++ [.turn t] }))
  else if m0 = ['L'] then
    match afterColon line with
    | none => .error .index
    | some data =>
      match readLoc data with
      | none => .error .value
      | some l =>
        match setLast (Step.setLoc l) p.steps with
        | none => .error .index
        | some ss => .ok (some (c, { p with
            steps := ss
            tieOn := false }))
  else if m0 = ['X'] then
    match readCov ((words line).drop 1) with
    | .error e => .error e
    | .ok s => .ok (some (c, { p with steps := p.steps ++ [.surv s] }))
  else if m0 = ['S'] then
    if p.steps = [] then .error .index
    else
      match readStation ((words line).drop 1) p.steps with
      | .error e => .error e
      | .ok ss => .ok (some (c, { p with steps := ss }))
  else .ok (some (c, p))

/-- One line, `wbp.py` 245-287. -/
def readLine (c : Option ℤ) (p : RPlan) (line : Text) : Res :=
  match words line with
  | [] => .error .index
  | l0 :: rest =>
    if l0 = ['!'] then .ok (some (c, p))
    else if l0 = "DEPTH".toList then
      match rest with
      | [] => .error .index
      | k :: _ =>
        if String.ofList k ∈ depthKeys then
          .ok (some (c, { p with
            units := some k
            flag := .none }))
        else .error .key
    else if l0 = "TARGETS:".toList then .ok (some (c, { p with flag := .targets }))
    else if l0 = "WELLPLANS:".toList then
      .ok (some (c, { p with
        flag := .wellplans
        tieOn := true }))
    else if p.flag = .targets then targetLine c p line
    else recLine c p line

/-- `_process_wbp_data`, `wbp.py` 235-288: colour, plan and the lines not read. -/
def readPlan : Option ℤ → RPlan → List Text → Except Err (Option ℤ × RPlan × List Text)
  | c, p, [] => .ok (c, p, [])
  | c, p, ln :: t =>
    match readLine c p ln with
    | .error e => .error e
    | .ok none => .ok (c, p, ln :: t)
    | .ok (some (c', p')) => readPlan c' p' t

/-- The `while True` of `load`, `wbp.py` 434-452 (see `loadLoop` for the outer `none`). -/
def readPlans : ℕ → Option ℤ → Option Text → List Text →
    Option (Except Err (Option ℤ × List RPlan))
  | 0, _, _, _ => none
  | f + 1, c, units, lines =>
    match readPlan c (RPlan.new units) lines with
    | .error e => some (.error e)
    | .ok (c', p, rest) =>
      if rest = [] then some (.ok (c', [p]))
      else (readPlans f c' p.units rest).map fun r => r.map fun q => (q.1, p :: q.2)

/-- `load`, `wbp.py` 407-452: the plans, and the colour all their targets have.  `c` is the colour
left in the shared dictionary by earlier calls. -/
def loadText (c : Option ℤ) (file : List Text) : Option (Except Err (Option ℤ × List RPlan)) :=
  readPlans (file.length + 1) c none (file.map rstrip)

end Welleng.Wbp
