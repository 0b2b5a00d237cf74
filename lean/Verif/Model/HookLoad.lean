import Verif.Model.TorqueDrag

/-!
Model of `HookLoad` in `/repo/welleng/torque_drag.py` 425-515: the hook loads of a string at a range
of depths and friction factors.
-/

namespace Welleng.Td

/-- `TorqueDrag.tension` once computed, `torque_drag.py` 98: for every load case the tension from
the top down. -/
abbrev Tension := List (String × List ℝ)

/-- `wellbore_temp` of `HookLoad.get_data`, `torque_drag.py` 496-498: a copy of the wellbore with the
friction factor in every section. -/
def withFriction (ff : ℝ) (w : Tubular) : Tubular :=
  { w with sections := w.sections.map fun kv => (kv.1, { kv.2 with mu := ff }) }

/-- `d.tension[t][0]`, `torque_drag.py` 514. -/
def hookOf (t : String) (d : Tension) : Except Exc ℝ :=
  match d.lookup t with
  | none => .error .keyError
  | some [] => .error .indexError
  | some (x :: _) => .ok x

/-- `data_temp`, `torque_drag.py` 501-510: `lower` is `string.depth` and `td` the construction of a
`TorqueDrag`, giving its tensions. -/
def runDepths (td : Tubular → Tubular → Except Exc Tension) (lower : ℝ → Except Exc Tubular)
    (w : Tubular) : List ℝ → Except Exc (List Tension)
  | [] => .ok []
  | md :: mds =>
    match lower md with
    | .error e => .error e
    | .ok b =>
      match td w b with
      | .error e => .error e
      | .ok d =>
        match runDepths td lower w mds with
        | .error e => .error e
        | .ok ds => .ok (d :: ds)

/-- `f` on every element up to the first exception, as in the comprehension of `torque_drag.py`
513-515. -/
def eachOk {A B : Type} (f : A → Except Exc B) : List A → Except Exc (List B)
  | [] => .ok []
  | a :: as =>
    match f a with
    | .error e => .error e
    | .ok b =>
      match eachOk f as with
      | .error e => .error e
      | .ok bs => .ok (b :: bs)

/-- `self.data[ff]` once filled, `torque_drag.py` 500-515: a list for every load case of the first
depth. -/
def hookRow (td : Tubular → Tubular → Except Exc Tension) (lower : ℝ → Except Exc Tubular)
    (w : Tubular) (mds : List ℝ) (ff : ℝ) : Except Exc (List (String × List ℝ)) :=
  match runDepths td lower (withFriction ff w) mds with
  | .error e => .error e
  | .ok [] => .error .indexError
  | .ok (d :: ds) =>
    eachOk (fun t => match eachOk (hookOf t) (d :: ds) with
      | .error e => .error e
      | .ok l => .ok (t, l)) (d.map (·.1))

/-- `self.data` of `HookLoad.get_data`, `torque_drag.py` 486-515: an entry for every friction factor
in turn (in the code a factor that occurs twice is one key, filled twice with the same values). -/
def hookData (td : Tubular → Tubular → Except Exc Tension) (lower : ℝ → Except Exc Tubular)
    (w : Tubular) (mds ffs : List ℝ) : Except Exc (List (ℝ × List (String × List ℝ))) :=
  eachOk (fun ff => match hookRow td lower w mds ff with
    | .error e => .error e
    | .ok r => .ok (ff, r)) ffs

/-- `HookLoad.__init__`, `torque_drag.py` 438-515: the table for the friction factors and depths of
the arguments. -/
noncomputable def hookLoad (td : Tubular → Tubular → Except Exc Tension)
    (lower : ℝ → Except Exc Tubular) (w : Tubular) (top bottom step start stop ffStep : ℝ) :
    Except Exc (List (ℝ × List (String × List ℝ))) :=
  hookData td lower w (mdRange top bottom step) (ffRange start stop ffStep)

/-- `TorqueDrag(survey, wellbore, string, …).tension`, `torque_drag.py` 48-101: `rest` is what
follows `get_weight_buoyed_and_radius`. -/
noncomputable def tdTension (interp : ℝ → Except Exc TStn) (survey : List TStn)
    (rest : List TStn × ℕ × List ℝ → Except Exc Tension) (w b : Tubular) : Except Exc Tension :=
  match construct interp survey w b with
  | .error e => .error e
  | .ok s => rest s

end Welleng.Td
