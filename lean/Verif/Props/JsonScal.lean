import Verif.Model.JsonScal
import Verif.Props.Formula
import Verif.Props.Conformance

/-!
C330: the header values used in the formulas of a JSON tool model.
-/

namespace Welleng.Props

open Real Interp Spec Err

/-- What the names in a formula mean at the stations of a survey with this header: gravity, dip
(radians), field strength and earth rate (radians per hour) of the header, its latitude in radians;
`arrays` are the values at the stations. -/
noncomputable def headerEnv (h : Hdr.Header) (arrays : String → ℕ → ℝ) : String → Option (ℕ → ℝ)
  | "Gfield" => some fun _ => h.g
  | "Dip" => some fun _ => h.dip
  | "BField" => some fun _ => h.bTotal
  | "EarthRate" => some fun _ => h.earthRate
  | "Latitude" => some fun _ => h.latitude * π / 180
  | "RAD" => some fun _ => π / 180
  | "MD" => some (arrays "MD")
  | "Inc" => some (arrays "Inc")
  | "AzT" => some (arrays "AzT")
  | "AzM" => some (arrays "AzM")
  | "Az" => some (arrays "Az")
  | "TVD" => some (arrays "TVD")
  | _ => none

theorem radians_orElse (x : ℝ) : radians (orElse x 0) = x * π / 180 := by
  unfold orElse radians
  split_ifs with h
  · rw [h]
  · rfl

theorem headerEnv_env {h : Hdr.Header} (hb : h.bTotal ≠ 0) (arrays : String → ℕ → ℝ) {ok : String → Prop}
    (hr : ok "EarthRate" → h.earthRate = 0.262516) (id : String) (hid : ok id) (v : ℕ → ℝ)
    (hv : headerEnv h arrays id = some v) : envOf (jsonBindings (headerScal h)) arrays id = some v := by
  unfold headerEnv at hv
  split at hv
  case h_4 => rw [hr hid] at hv; rw [← hv]; rfl
  case h_3 => rw [← hv]; simp [envOf, jsonBindings, arrayNames, scalarNames, headerScal, orElse, hb]
  case h_5 =>
    rw [← hv]
    simp [envOf, jsonBindings, arrayNames, scalarNames, headerScal, radians_orElse]
  case h_13 => simp at hv
  all_goals rw [← hv]; rfl

/-- C330 (partial): if the header's earth rate is the built-in constant and its field is not zero, the
error of a JSON term is computed from the header's own values. -/
theorem C330_header_values_partial {h : Hdr.Header} (hb : h.bTotal ≠ 0) (hr : h.earthRate = 0.262516)
    {s : Sv} {f : Formulas} {mag : ℝ} {u : String} {r : ℝ} {p : Prop'} {st : St} {d i a : ℕ → ℝ}
    (hu : unitInBase u = some r) (h1 : u ≠ "deg.nT") (h2 : u ≠ "deg/sqr(hr)")
    (hd : Denotes (headerEnv h st.store) f.depth d) (hi : Denotes (headerEnv h st.store) f.inc i)
    (ha : Denotes (headerEnv h st.store) f.azi a) :
    ∃ st', st'.store = st.store ∧ callInterpreter (headerScal h) s f mag u p st = (st',
      .ok (generateError s (fun k => ![mag * r * d k, mag * r * i k, mag * r * a k]) p none)) := by
  have hm : ∀ id v, headerEnv h st.store id = some v →
      envOf (jsonBindings (headerScal h)) st.store id = some v := fun id v hv =>
    headerEnv_env (ok := fun _ => True) hb _ (fun _ => hr) id trivial v hv
  exact C124_json_term hu h1 h2 (denotes_mono hm hd) (denotes_mono hm hi) (denotes_mono hm ha)

/-- C330 (partial): whatever the earth rate, a term that does not mention it is computed from the
header's own values. -/
theorem C330_no_earth_rate_partial {h : Hdr.Header} (hb : h.bTotal ≠ 0)
    {s : Sv} {f : Formulas} {mag : ℝ} {u : String} {r : ℝ} {p : Prop'} {st : St} {d i a : ℕ → ℝ}
    (hu : unitInBase u = some r) (h1 : u ≠ "deg.nT") (h2 : u ≠ "deg/sqr(hr)")
    (hd : Denotes (fun id => if id = "EarthRate" then none else headerEnv h st.store id) f.depth d)
    (hi : Denotes (fun id => if id = "EarthRate" then none else headerEnv h st.store id) f.inc i)
    (ha : Denotes (fun id => if id = "EarthRate" then none else headerEnv h st.store id) f.azi a) :
    ∃ st', st'.store = st.store ∧ callInterpreter (headerScal h) s f mag u p st = (st',
      .ok (generateError s (fun k => ![mag * r * d k, mag * r * i k, mag * r * a k]) p none)) := by
  have hm : ∀ id v, (if id = "EarthRate" then none else headerEnv h st.store id) = some v →
      envOf (jsonBindings (headerScal h)) st.store id = some v := by
    intro id v hv
    split_ifs at hv with hid
    exact headerEnv_env (ok := fun id => id ≠ "EarthRate") hb _ (fun hn => absurd rfl hn) id hid v hv
  exact C124_json_term hu h1 h2 (denotes_mono hm hd) (denotes_mono hm hi) (denotes_mono hm ha)

/-- The azimuth formula of the gyro bias `GXY-B2`: `cos(AzT) / (EarthRate * cos(Latitude))`. -/
def gyroBias : PyExpr :=
  .binOp .div (.call (.name "cos") [.name "AzT"] [])
    (.binOp .mult (.name "EarthRate") (.call (.name "cos") [.name "Latitude"] []))

/-- Its mathematical value. -/
theorem gyroBias_denotes (h : Hdr.Header) (arrays : String → ℕ → ℝ) :
    Denotes (headerEnv h arrays) gyroBias fun k =>
      cos (arrays "AzT" k) / (h.earthRate * cos (h.latitude * π / 180)) :=
  .div (.fn1 (f := "cos") rfl (.var rfl)) (.mul (.var rfl) (.fn1 (f := "cos") rfl (.var rfl)))

/-- Non-vacuity of C330: a header with the constant, and the accelerometer and gyro terms. -/
example (h : Hdr.Header) (arrays : String → ℕ → ℝ) :
    (∃ v, Denotes (headerEnv h arrays) gyroBias v) ∧
    Denotes (fun id => if id = "EarthRate" then none else headerEnv h arrays id)
      (.binOp .div (.unaryOp .usub (.call (.name "sin") [.name "Inc"] [])) (.name "Gfield"))
      fun k => -sin (arrays "Inc" k) / h.g :=
  ⟨⟨_, gyroBias_denotes h arrays⟩,
    .div (.neg (.fn1 (f := "sin") rfl (.var rfl))) (.var rfl)⟩

/-- C330 is false: the earth rate of the header is never used; the term is the same for all headers
that differ in it. -/
theorem C330_earth_rate_ignored (h : Hdr.Header) (w : ℝ) (s : Sv) (f : Formulas) (mag : ℝ) (u : String)
    (p : Prop') (st : St) : callInterpreter (headerScal { h with earthRate := w }) s f mag u p st =
      callInterpreter (headerScal h) s f mag u p st := rfl

/-- C330 is false: with the default earth rate of a header the gyro bias term has an azimuth error
that is not the value of its formula. -/
theorem C330_gyro_bias {h : Hdr.Header} (hw : h.earthRate = 0.26251614)
    (hl : cos (h.latitude * π / 180) ≠ 0) (hb : h.bTotal ≠ 0) (s : Sv) {st : St} {k : ℕ}
    (hk : cos (st.store "AzT" k) ≠ 0) :
    ∃ st' t, callInterpreter (headerScal h) s ⟨.const (.num 0), .const (.num 0), gyroBias⟩ 1 "-" .systematic
        st = (st', .ok (some t)) ∧
      t.eDIA k 2 ≠ cos (st.store "AzT" k) / (h.earthRate * cos (h.latitude * π / 180)) := by
  have key := gyroBias_denotes { h with earthRate := 0.262516 } st.store
  obtain ⟨st', -, e⟩ := C330_header_values_partial (h := { h with earthRate := 0.262516 }) hb rfl (s := s)
    (f := ⟨.const (.num 0), .const (.num 0), gyroBias⟩) (mag := 1) (u := "-") (r := 1)
    (p := .systematic) (st := st) rfl (by decide) (by decide) (.num 0) (.num 0) key
  rw [C330_earth_rate_ignored] at e
  refine ⟨st', _, e, ?_⟩
  intro hh
  simp only [hw] at hh
  norm_num at hh
  change cos (st.store "AzT" k) / (65629 / 250000 * cos (h.latitude * π / 180)) = _ at hh
  rw [div_eq_div_iff (by simpa using hl) (by simpa using hl)] at hh
  have : cos (st.store "AzT" k) * cos (h.latitude * π / 180) = 0 := by linarith
  rcases mul_eq_zero.1 this with h' | h'
  · exact hk h'
  · exact hl h'

/-- The header made from the defaults has that earth rate. -/
example (env : Hdr.Env) : (Hdr.build env {}).earthRate = 0.26251614 := rfl

/-- C330 is false: a header with field strength zero is evaluated with 50000 nT. -/
theorem C330_zero_field (h : Hdr.Header) : headerScal { h with bTotal := 0 } "BField" = 50000 := by
  simp [headerScal, orElse]

end Welleng.Props
