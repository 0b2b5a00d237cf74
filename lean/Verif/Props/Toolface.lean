import Verif.Lemmas.Toolface
import Verif.Props.Dls

/-!
C102-C104: toolfaces, build rates and turn rates of a survey
(`/repo/welleng/survey.py` 976-1051).
-/

namespace Welleng.Props

open Real Welleng Spec Tf

theorem pairwise_length {α β : Type*} (f : α → α → β) : ∀ l : List α,
    (pairwise f l).length = l.length - 1
  | [] => rfl
  | [_] => rfl
  | a :: b :: t => by simp [pairwise, pairwise_length f (b :: t)]

/-- The normal at the upper end of an arc between two stations. -/
theorem normal_upper {a b : Station} {γ τ ν : ℝ → V3} {κ L : ℝ} (h : CircularCurve γ τ ν κ)
    (hκ : 0 < κ) (hL : 0 < L) (hpi : κ * L < π) (h1 : τ 0 = tangent a.inc a.azi)
    (h2 : τ L = tangent b.inc b.azi) :
    dogleg2 a b = κ * L ∧ ν 0 = toolDir a.inc a.azi (t1 a b) ∧
      ν L = toolDir b.inc b.azi (t2 a b) := by
  have hd : dogleg2 a b = κ * L := by
    unfold dogleg2
    rw [getDogleg_eq_arccos, ← h1, ← h2, h.tan_eq L, V3.dot_add_right, V3.dot_smul_right,
      V3.dot_smul_right, h.unit_tan 0, h.ortho 0]
    simp only [mul_one, mul_zero, add_zero]
    exact arccos_cos (by positivity) hpi.le
  have h0 : 0 < dogleg2 a b := by rw [hd]; positivity
  have hp : dogleg2 a b < π := by rw [hd]; exact hpi
  have hs := (sin_pos_of_pos_of_lt_pi h0 hp).ne'
  have e1 := t1_dir h0 hp
  have e2 := t2_dir h0 hp
  have f1 := h.tan_eq L
  have f2 := h.nor_eq L
  rw [← h1, ← h2, hd] at e1 e2
  rw [hd] at hs
  refine ⟨hd, ?_, ?_⟩
  · have := e1.symm.trans f1
    have e : sin (κ * L) • ν 0 = sin (κ * L) • toolDir a.inc a.azi (t1 a b) :=
      (add_left_cancel this).symm
    exact smul_right_injective V3 hs e
  · have := e2.symm.trans f2
    have e : sin (κ * L) • ν L = sin (κ * L) • toolDir b.inc b.azi (t2 a b) :=
      (sub_right_injective this).symm
    exact smul_right_injective V3 hs e

/-- **C102** For every survey and every pair of consecutive stations whose directions differ (and
are not opposite): the toolface listed at the upper station is the angle, clockwise from the high
side looking down, of the direction in which the minimum-curvature arc to the next station turns.
At the last station, where no arc leaves, it is the angle of the turn of the arc that arrives.
Every station has one toolface. -/
theorem C102_toolface_is_turn_direction {st : List Station} (hlen : 2 ≤ st.length) :
    (toolfaces st).length = st.length ∧
    ∀ (i : ℕ) (a b : Station), st[i]? = some a → st[i + 1]? = some b →
      ∀ (γ τ ν : ℝ → V3) (κ : ℝ), CircularCurve γ τ ν κ → 0 < κ → a.md < b.md →
        κ * (b.md - a.md) < π → τ 0 = tangent a.inc a.azi →
        τ (b.md - a.md) = tangent b.inc b.azi →
        (∃ t, (toolfaces st)[i]? = some t ∧ ν 0 = toolDir a.inc a.azi t) ∧
        (i + 2 = st.length → ∃ t, (toolfaces st)[i + 1]? = some t ∧ 0 ≤ t ∧ t < 2 * π ∧
          ν (b.md - a.md) = toolDir b.inc b.azi t) := by
  have hl1 := pairwise_length t1 st
  have hl2 := pairwise_length t2 st
  have hlast : ∃ t, (pairwise t2 st).getLast? = some t := by
    rw [List.getLast?_eq_getElem?]
    exact ⟨_, List.getElem?_eq_getElem (by omega)⟩
  obtain ⟨t, ht⟩ := hlast
  have htf : toolfaces st = pairwise t1 st ++ [t] := by unfold toolfaces; rw [ht]
  refine ⟨by rw [htf]; simp; omega, fun i a b ha hb γ τ ν κ hc hκ hmd hpi h1 h2 => ?_⟩
  have hb' : i + 1 < st.length := (List.getElem?_eq_some_iff.mp hb).1
  obtain ⟨-, n1, n2⟩ := normal_upper hc hκ (by linarith) hpi h1 h2
  refine ⟨⟨t1 a b, ?_, n1⟩, fun hi => ⟨t2 a b, ?_, ?_, ?_, n2⟩⟩
  · rw [htf, List.getElem?_append_left (by omega)]
    exact pairwise_getElem? t1 st i a b ha hb
  · rw [htf, List.getElem?_append_right (by omega), show i + 1 - (pairwise t1 st).length = 0 by omega]
    have := pairwise_getElem? t2 st i a b ha hb
    rw [List.getLast?_eq_getElem?, hl2, show st.length - 1 - 1 = i by omega, this] at ht
    simpa using ht.symm
  · unfold t2
    simp only
    split_ifs with hneg
    · have := Complex.neg_pi_lt_arg (⟨sin b.inc * cos a.inc - sin a.inc * cos b.inc
        * cos (b.azi - a.azi), sin a.inc * sin (b.azi - a.azi)⟩ : ℂ)
      unfold atan2
      linarith [pi_pos]
    · exact not_lt.mp hneg
  · unfold t2
    simp only
    split_ifs with hneg
    · linarith
    · have := Complex.arg_le_pi (⟨sin b.inc * cos a.inc - sin a.inc * cos b.inc
        * cos (b.azi - a.azi), sin a.inc * sin (b.azi - a.azi)⟩ : ℂ)
      unfold atan2
      linarith [pi_pos]

/-- Such an arc exists between any two directions that are neither equal nor opposite. -/
theorem C102_arc_exists {a b : Station} (hmd : a.md < b.md) (h0 : 0 < dogleg2 a b)
    (hpi : dogleg2 a b < π) :
    ∃ γ τ ν κ, CircularCurve γ τ ν κ ∧ 0 < κ ∧ κ * (b.md - a.md) < π ∧
      τ 0 = tangent a.inc a.azi ∧ τ (b.md - a.md) = tangent b.inc b.azi := by
  have hL : 0 < b.md - a.md := by linarith
  obtain ⟨γ, τ, ν, hc, -, e1, e2, -⟩ := exists_arc (L := b.md - a.md) (tangent_unit a.inc a.azi)
    (tangent_unit b.inc b.azi) h0 hpi (cos_getDogleg ..) hL
  exact ⟨γ, τ, ν, _, hc, by positivity, by rw [div_mul_cancel₀ _ hL.ne']; exact hpi, e1, e2⟩

theorem dogleg2_same_azi {m1 m2 i1 i2 a : ℝ} (h0 : i1 ≤ i2) (h1 : i2 - i1 ≤ π) :
    dogleg2 ⟨m1, i1, a⟩ ⟨m2, i2, a⟩ = i2 - i1 := by
  unfold dogleg2
  rw [getDogleg_eq_arccos, tangent_dot]
  simp only [sub_self, cos_zero, mul_one]
  rw [show sin i1 * sin i2 + cos i1 * cos i2 = cos (i2 - i1) by rw [cos_sub]; ring]
  exact arccos_cos (by linarith) h1

/-- C102 applies to a real survey: vertical, then building to 30 degrees. -/
example : ∃ γ τ ν κ, CircularCurve γ τ ν κ ∧ 0 < κ ∧ κ * (60 - 30) < π ∧
    τ 0 = tangent 0 0 ∧ τ (60 - 30) = tangent (π / 6) 0 := by
  have e : dogleg2 ⟨30, 0, 0⟩ ⟨60, π / 6, 0⟩ = π / 6 := by
    rw [dogleg2_same_azi (by positivity) (by linarith [pi_pos])]; ring
  exact C102_arc_exists (a := ⟨30, 0, 0⟩) (b := ⟨60, π / 6, 0⟩) (by norm_num)
    (by rw [e]; positivity) (by rw [e]; linarith [pi_pos])

/-! ### Rates -/

/-- Rates of change of inclination and azimuth along a curve that turns with curvature `κ` in
the direction at the angle `t` from the high side. -/
theorem rates_of_turn {γ τ ν : ℝ → V3} {κ : ℝ} (h : CircularCurve γ τ ν κ) {inc azi : ℝ → ℝ}
    {s i' a' t : ℝ} (hi : HasDerivAt inc i' s) (ha : HasDerivAt azi a' s)
    (hτ : ∀ u, τ u = tangent (inc u) (azi u)) (hν : ν s = toolDir (inc s) (azi s) t) :
    i' = κ * cos t ∧ a' * sin (inc s) = κ * sin t := by
  obtain ⟨dx, dy, dz⟩ := h.deriv_tan s
  have hx : HasDerivAt (fun u => (τ u).x)
      (cos (inc s) * i' * cos (azi s) + sin (inc s) * (-sin (azi s) * a')) s := by
    simp only [hτ, tangent]
    exact hi.sin.mul ha.cos
  have hy : HasDerivAt (fun u => (τ u).y)
      (cos (inc s) * i' * sin (azi s) + sin (inc s) * (cos (azi s) * a')) s := by
    simp only [hτ, tangent]
    exact hi.sin.mul ha.sin
  have hz : HasDerivAt (fun u => (τ u).z) (-sin (inc s) * i') s := by
    simp only [hτ, tangent]
    exact hi.cos
  have ex := dx.unique hx
  have ey := dy.unique hy
  have ez := dz.unique hz
  rw [hν] at ex ey ez
  simp only [toolDir, highSide, rightSide, V3.smul_x, V3.smul_y, V3.smul_z, V3.add_x, V3.add_y,
    V3.add_z] at ex ey ez
  have h1 := sin_sq_add_cos_sq (inc s)
  have h2 := sin_sq_add_cos_sq (azi s)
  constructor
  · linear_combination (-(cos (inc s) * cos (azi s))) * ex - cos (inc s) * sin (azi s) * ey
      + sin (inc s) * ez + (i' - κ * cos t) * (-h1)
      + (κ * cos t - i') * cos (inc s) ^ 2 * h2
  · linear_combination sin (azi s) * ex - cos (azi s) * ey
      + (κ * sin t - a' * sin (inc s)) * h2

theorem curvatureToRate_eq (u : LenUnit) (c : ℝ) :
    curvatureToRate u c = |degrees c * rateLength u| := by
  unfold curvatureToRate
  split_ifs with h
  · simp [h, degrees]
  · congr 2
    have := pi_ne_zero
    field_simp

theorem rateLength_pos (u : LenUnit) : 0 < rateLength u := by
  unfold rateLength; split_ifs <;> norm_num

theorem curvatureDls_eq (u : LenUnit) (d : ℝ) :
    degrees (curvatureDls u d) * rateLength u = d := by
  unfold curvatureDls curveRadius
  split_ifs with h
  · simp [degrees, h]
  · have := (rateLength_pos u).ne'
    have := pi_ne_zero
    simp only [degrees]
    field_simp
    ring

theorem buildRate_eq (u : LenUnit) (d t : ℝ) : buildRate u d t = .val |d * cos t| := by
  unfold buildRate
  rw [curvatureToRate_eq]
  congr 2
  conv_rhs => rw [← curvatureDls_eq u d]
  simp only [degrees]; ring

theorem turnRate_eq (u : LenUnit) (d t : ℝ) {i : ℝ} (h : sin i ≠ 0) :
    turnRate u d i t = .val |d * sin t / sin i| := by
  unfold turnRate
  rw [if_neg h, curvatureToRate_eq]
  congr 2
  conv_rhs => rw [← curvatureDls_eq u d]
  simp only [degrees]; ring

/-- The `k`-th row of the rates table. -/
theorem rates_getElem? {u : LenUnit} {st : List Station} {dls : List Dls} {k : ℕ} {a : Station}
    {d t : ℝ} (ha : st[k]? = some a) (hd : dls[k]? = some (.val d))
    (ht : (toolfaces st)[k]? = some t) :
    (rates u st dls)[k]? = some (buildRate u d t, turnRate u d a.inc t) := by
  simp [rates, List.getElem?_zipWith, List.zip, ha, hd, ht]

/-- **C104** At every station that is neither vertical nor at a repeated depth, build rate and
turn rate are not negative and together make up the dogleg severity of that station:
`build² + (turn · sin inc)² = dls²`. -/
theorem C104_rates_compose {u : LenUnit} {st : List Station} {dls : List Dls} {k : ℕ}
    {a : Station} {d t : ℝ} (ha : st[k]? = some a) (hd : dls[k]? = some (.val d))
    (ht : (toolfaces st)[k]? = some t) (hs : sin a.inc ≠ 0) :
    ∃ build turn, (rates u st dls)[k]? = some (.val build, .val turn) ∧ 0 ≤ build ∧ 0 ≤ turn ∧
      build ^ 2 + (turn * sin a.inc) ^ 2 = d ^ 2 := by
  refine ⟨_, _, by rw [rates_getElem? ha hd ht, buildRate_eq, turnRate_eq u d t hs],
    abs_nonneg _, abs_nonneg _, ?_⟩
  rw [mul_pow, sq_abs, sq_abs]
  field_simp
  rw [cos_sq']
  ring

/-- At a vertical station the turn rate is never a number; the build rate still is. -/
theorem C104_vertical_station {u : LenUnit} {st : List Station} {dls : List Dls} {k : ℕ}
    {a : Station} {d t : ℝ} (ha : st[k]? = some a) (hd : dls[k]? = some (.val d))
    (ht : (toolfaces st)[k]? = some t) (hs : sin a.inc = 0) :
    ∃ turn, (rates u st dls)[k]? = some (.val |d * cos t|, turn) ∧ ∀ r, turn ≠ .val r := by
  refine ⟨_, by rw [rates_getElem? ha hd ht, buildRate_eq], fun r => ?_⟩
  unfold turnRate
  rw [if_pos hs]
  split_ifs <;> simp

/-- The reported severity of an interval is the curvature of its arc. -/
theorem dls_eq_curvature {st : List Station} {start : V3} {u : LenUnit} {out : MinCurveOut}
    (h : minCurve st start u = .ok out) {k : ℕ} {a b : Station} (ha : st[k]? = some a)
    (hb : st[k + 1]? = some b) (hmd : a.md < b.md) {κ : ℝ}
    (hd : dogleg2 a b = κ * (b.md - a.md)) :
    out.dls[k + 1]? = some (.val (degrees κ * rateLength u)) := by
  obtain ⟨d, e1, e2⟩ := ((C64_dls_is_turn_rate h).2 k a b ha hb).2.2 hmd.ne'
  rw [← getDogleg_eq_arccos] at e2
  have hd' : getDogleg a.inc a.azi b.inc b.azi = κ * (b.md - a.md) := hd
  rw [hd'] at e2
  rw [e1]
  congr 2
  have hl : dlsLength u = rateLength u := by cases u <;> simp [dlsLength, rateLength]
  have hne : b.md - a.md ≠ 0 := by linarith
  have hp := (rateLength_pos u).ne'
  rw [hl] at e2
  have : d * (b.md - a.md) = κ * (b.md - a.md) * 180 / π * rateLength u := by
    rw [← e2]; field_simp
  apply mul_right_cancel₀ hne
  rw [this]
  simp only [degrees]; ring

/-- The rates listed at a station where the well turns with curvature `κ` at the listed
toolface. -/
theorem rates_are_derivatives {u : LenUnit} {st : List Station} {dls : List Dls}
    {γ τ ν : ℝ → V3} {κ s i' a' t : ℝ} {inc azi : ℝ → ℝ} {k : ℕ} {p : Station}
    (hp : st[k]? = some p) (ht : (toolfaces st)[k]? = some t)
    (hd : dls[k]? = some (.val (degrees κ * rateLength u))) (h : CircularCurve γ τ ν κ)
    (hi : HasDerivAt inc i' s) (ha : HasDerivAt azi a' s)
    (hτ : ∀ u, τ u = tangent (inc u) (azi u)) (his : inc s = p.inc) (has : azi s = p.azi)
    (hν : ν s = toolDir p.inc p.azi t) (hv : sin p.inc ≠ 0) :
    (rates u st dls)[k]? =
      some (.val |degrees i' * rateLength u|, .val |degrees a' * rateLength u|) := by
  obtain ⟨e1, e2⟩ := rates_of_turn h hi ha hτ (t := t) (by rw [his, has]; exact hν)
  rw [his] at e2
  rw [rates_getElem? hp hd ht, buildRate_eq, turnRate_eq u _ t hv, e1]
  have : a' = κ * sin t / sin p.inc := by field_simp; exact e2
  rw [this]
  simp only [degrees]
  congr 4
  · ring
  · ring

/-- **C103** (the part that holds, last station) At the last station of a survey the reported
build and turn rates are the sizes of the rates of change of inclination and azimuth, in degrees
per 30 m or 100 ft, at the end of the minimum-curvature arc that arrives there. -/
theorem C103_last_station_partial {st : List Station} {start : V3} {u : LenUnit}
    {out : MinCurveOut} (h : minCurve st start u = .ok out) {k : ℕ} {a b : Station}
    (ha : st[k]? = some a) (hb : st[k + 1]? = some b) (hlast : k + 2 = st.length)
    (hmd : a.md < b.md) {γ τ ν : ℝ → V3} {κ : ℝ} (hc : CircularCurve γ τ ν κ) (hκ : 0 < κ)
    (hpi : κ * (b.md - a.md) < π) (h1 : τ 0 = tangent a.inc a.azi) {inc azi : ℝ → ℝ}
    {i' a' : ℝ} (hi : HasDerivAt inc i' (b.md - a.md)) (haz : HasDerivAt azi a' (b.md - a.md))
    (hτ : ∀ u, τ u = tangent (inc u) (azi u)) (hib : inc (b.md - a.md) = b.inc)
    (hab : azi (b.md - a.md) = b.azi) (hv : sin b.inc ≠ 0) :
    (rates u st out.dls)[k + 1]? =
      some (.val |degrees i' * rateLength u|, .val |degrees a' * rateLength u|) := by
  have h2 : τ (b.md - a.md) = tangent b.inc b.azi := by rw [hτ, hib, hab]
  obtain ⟨hd, -, -⟩ := normal_upper hc hκ (by linarith) hpi h1 h2
  obtain ⟨t, ht, -, -, hν⟩ := ((C102_toolface_is_turn_direction (by omega)).2 k a b ha hb γ τ ν κ
    hc hκ hmd hpi h1 h2).2 hlast
  exact rates_are_derivatives hb ht (dls_eq_curvature h ha hb hmd hd) hc hi haz hτ hib hab hν hv

/-- **C103** (the part that holds, other stations) At a station where the well arrives and leaves
with the same dogleg severity, the reported build and turn rates are the sizes of the rates of
change of inclination and azimuth at the start of the minimum-curvature arc that leaves. -/
theorem C103_same_severity_partial {st : List Station} {start : V3} {u : LenUnit}
    {out : MinCurveOut} (h : minCurve st start u = .ok out) {k : ℕ} {a b : Station}
    (ha : st[k + 1]? = some a) (hb : st[k + 2]? = some b)
    (hsame : out.dls[k + 1]? = out.dls[k + 2]?)
    (hmd : a.md < b.md) {γ τ ν : ℝ → V3} {κ : ℝ} (hc : CircularCurve γ τ ν κ) (hκ : 0 < κ)
    (hpi : κ * (b.md - a.md) < π) (h2 : τ (b.md - a.md) = tangent b.inc b.azi)
    {inc azi : ℝ → ℝ} {i' a' : ℝ} (hi : HasDerivAt inc i' 0) (haz : HasDerivAt azi a' 0)
    (hτ : ∀ u, τ u = tangent (inc u) (azi u)) (hia : inc 0 = a.inc) (haa : azi 0 = a.azi)
    (hv : sin a.inc ≠ 0) :
    (rates u st out.dls)[k + 1]? =
      some (.val |degrees i' * rateLength u|, .val |degrees a' * rateLength u|) := by
  have h1 : τ 0 = tangent a.inc a.azi := by rw [hτ, hia, haa]
  obtain ⟨hd, -, -⟩ := normal_upper hc hκ (by linarith) hpi h1 h2
  have hlen : k + 2 < st.length := (List.getElem?_eq_some_iff.mp hb).1
  obtain ⟨t, ht, hν⟩ := ((C102_toolface_is_turn_direction (by omega)).2 (k + 1) a b ha hb γ τ ν κ
    hc hκ hmd hpi h1 h2).1
  exact rates_are_derivatives ha ht (hsame.trans (dls_eq_curvature h ha hb hmd hd)) hc hi haz hτ
    hia haa hν hv

/-- The arc of a well that builds at constant azimuth north. -/
theorem build_arc {κ : ℝ} (hκ : κ ≠ 0) (i : ℝ) :
    ∃ γ ν, CircularCurve γ (fun s => tangent (i + κ * s) 0) ν κ := by
  have h := arc_circular hκ (tangent_unit i 0) (toolDir_unit i 0 0) (toolDir_ortho i 0 0)
  have e : arcTan κ (tangent i 0) (toolDir i 0 0) = fun s => tangent (i + κ * s) 0 := by
    funext s
    ext <;> simp [arcTan, tangent, toolDir, highSide, rightSide, sin_add, cos_add] <;> ring
  rw [e] at h
  exact ⟨_, _, h⟩

/-- **C103** is false in general: the severity used at a station is that of the interval above,
the toolface that of the interval below.  A well that holds 30 degrees for 30 m and then builds
30 degrees in the next 30 m is reported with build rate 0 where the build starts, although its
inclination changes there by 30 degrees per 30 m. -/
theorem C103_mixes_intervals : ∃ (st : List Station) (out : MinCurveOut) (a b : Station)
    (γ ν : ℝ → V3) (inc : ℝ → ℝ) (i' κ : ℝ) (turn : Rate),
    minCurve st 0 .meters = .ok out ∧ st[1]? = some a ∧ st[2]? = some b ∧ sin a.inc ≠ 0 ∧
    0 < κ ∧ κ * (b.md - a.md) < π ∧
    CircularCurve γ (fun s => tangent (inc s) a.azi) ν κ ∧ inc 0 = a.inc ∧
    inc (b.md - a.md) = b.inc ∧ b.azi = a.azi ∧ HasDerivAt inc i' 0 ∧
    degrees i' * rateLength .meters = 30 ∧
    (rates .meters st out.dls)[1]? = some (.val 0, turn) := by
  obtain ⟨γ, ν, hc⟩ := build_arc (κ := π / 180) (by positivity) (π / 6)
  have hp := pi_pos
  refine ⟨[⟨0, π / 6, 0⟩, ⟨30, π / 6, 0⟩, ⟨60, π / 3, 0⟩], _, ⟨30, π / 6, 0⟩, ⟨60, π / 3, 0⟩, γ, ν,
    fun s => π / 6 + π / 180 * s, π / 180, π / 180,
    turnRate .meters 0 (π / 6) (t1 ⟨30, π / 6, 0⟩ ⟨60, π / 3, 0⟩), rfl, rfl, rfl, ?_, by positivity, ?_, hc,
    by simp, ?_, rfl, ?_, ?_, ?_⟩
  · simp only [sin_pi_div_six]; norm_num
  · simp only; linarith
  · simp only; ring
  · have := ((hasDerivAt_id (0 : ℝ)).const_mul (π / 180)).const_add (π / 6)
    simpa using this
  · simp only [degrees, rateLength, if_true]
    field_simp
  · have hz : dogleg2 ⟨0, π / 6, 0⟩ ⟨30, π / 6, 0⟩ = 0 := by
      rw [dogleg2_same_azi le_rfl (by linarith)]; ring
    rw [rates_getElem? (a := ⟨30, π / 6, 0⟩) (d := 0) (t := t1 ⟨30, π / 6, 0⟩ ⟨60, π / 3, 0⟩) rfl
      ?_ rfl, buildRate_eq]
    · simp only [zero_mul, abs_zero]
    · simp [pairwise, hz, dlsOf, degrees]

end Welleng.Props
