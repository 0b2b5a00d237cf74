import Verif.Props.Sections
import Verif.Props.Toolface

/-!
C128-C134: what is exported for a section between two control points
(`/repo/welleng/survey.py` 2274-2362), where it is wrong, and `wbp_to_survey`.
-/

namespace Welleng.Props

open Sec Spec Real

/-- `a … b` is a section of the survey: the well continues at every station strictly between, but
not at the ends, unless they are the ends of the survey. -/
structure IsSection (cont : ℕ → Prop) (n a b : ℕ) : Prop where
  lt : a < b
  le : b ≤ n
  first : a = 0 ∨ ¬ cont a
  last : b = n ∨ ¬ cont b
  inside : ∀ k, a < k → k < b → cont k

/-- The columns of a survey that `get_sections` reads are those computed by minimum curvature. -/
structure IsSurvey (u : LenUnit) (sv : ℕ → Row) (n : ℕ) : Prop where
  md : ∀ k < n, (sv k).st.md < (sv (k + 1)).st.md
  dogleg : ∀ k < n, dogleg2 (sv k).st (sv (k + 1)).st < π
  toolface : ∀ k < n, (sv k).toolface = Tf.t1 (sv k).st (sv (k + 1)).st
  dls : ∀ k < n, Dls.val (sv (k + 1)).dls =
    dlsOf (if u = .meters then 30 else 100) (dogleg2 (sv k).st (sv (k + 1)).st)
      ((sv (k + 1)).st.md - (sv k).st.md)

theorem mem_pairwise {α : Type*} {f : ℕ → ℕ → α} {p : α} {l : List ℕ} (h : p ∈ pairwise f l) :
    ∃ l1 l2 a b, l = l1 ++ a :: b :: l2 ∧ p = f a b := by
  induction l with
  | nil => simp [pairwise] at h
  | cons a t ih =>
    cases t with
    | nil => simp [pairwise] at h
    | cons b t =>
      rw [pairwise, List.mem_cons] at h
      rcases h with h | h
      · exact ⟨[], t, a, b, rfl, h⟩
      · obtain ⟨l1, l2, c, d, e, hp⟩ := ih h
        exact ⟨a :: l1, l2, c, d, by rw [e]; rfl, hp⟩

theorem md_strict {u : LenUnit} {sv : ℕ → Row} {n : ℕ} (hs : IsSurvey u sv n) {j k : ℕ}
    (hjk : j < k) (hk : k ≤ n) : (sv j).st.md < (sv k).st.md := by
  induction k, hjk using Nat.le_induction with
  | base => exact hs.md j (by omega)
  | succ k hk' ih => exact (ih (by omega)).trans (hs.md k (by omega))

/-- The control point at the end of a section is the one computed from the ends of the section. -/
theorem section_point {rtol atol : ℝ} {dlsCont : Bool} {around : ℝ → ℝ} {u : LenUnit}
    {sv : ℕ → Row} {n a b : ℕ} {l : List TurnPoint} (hs : IsSurvey u sv n)
    (h : getSections rtol atol dlsCont around u sv n = some l)
    (hab : IsSection (Continues rtol atol dlsCont around sv) n a b) {p : TurnPoint} (hp : p ∈ l)
    (hmd : p.md = (sv b).st.md) : p = point u sv a b := by
  unfold getSections at h
  split_ifs at h with hn
  simp only [Option.some.injEq] at h
  subst h
  have hlen := continuous_length (rtol := rtol) (atol := atol) (dlsCont := dlsCont)
    (around := around) (sv := sv) (Nat.pos_of_ne_zero hn)
  have hpos : 0 < b := by have := hab.lt; omega
  have hnf : p ≠ firstPoint sv := by
    rintro rfl
    have := md_strict hs hpos hab.le
    have e : (firstPoint sv).md = (sv 0).st.md := rfl
    linarith [e]
  unfold sectionsOf at hp
  simp only [List.mem_cons, hnf, false_or] at hp
  obtain ⟨l1, l2, c, d, e, rfl⟩ := mem_pairwise hp
  have hsort := sec_starts_sorted hlen
  have hmem := fun k => mem_sec_starts hlen (k := k)
  rw [e] at hsort hmem
  have hcd : c < d := by
    have := (List.pairwise_append.1 hsort).2.1
    exact (List.pairwise_cons.1 this).1 d List.mem_cons_self
  have hd : d ≤ n := by
    have := (hmem d).1 (by simp)
    rcases this with h | h | h <;> omega
  rw [(point_where u sv c d).1] at hmd
  have hdb : d = b := by
    rcases lt_trichotomy d b with h | h | h
    · exact absurd hmd (md_strict hs h hab.le).ne
    · exact h
    · exact absurd hmd (md_strict hs h hd).ne'
  subst hdb
  have hca : c = a := by
    rcases lt_trichotomy c a with h | h | h
    · exfalso
      have ha : a ∈ l1 ++ c :: d :: l2 := by
        refine (hmem a).2 ?_
        rcases hab.first with h0 | h0
        · omega
        · have h1 := hab.lt
          have h2 := hab.le
          exact Or.inr (Or.inr ⟨by omega, by omega, (continuous_false (by omega) (by omega)).2 h0⟩)
      have h3 := List.pairwise_append.1 hsort
      have h4 := List.pairwise_cons.1 h3.2.1
      have h5 := List.pairwise_cons.1 h4.2
      have h1 := hab.lt
      simp only [List.mem_append, List.mem_cons] at ha
      rcases ha with ha | ha | ha | ha
      · have := h3.2.2 a ha c List.mem_cons_self; omega
      · omega
      · omega
      · have := h5.1 a ha; omega
    · exact h
    · exfalso
      have hc := (hmem c).1 (by simp)
      rcases hc with hc | hc | ⟨hc1, hc2, hc3⟩
      · omega
      · omega
      · exact (continuous_false hc1 hc2).1 hc3 (hab.inside c h hcd)
  rw [hca]

theorem atan2_nonneg {y x : ℝ} (h : 0 ≤ y) : 0 ≤ atan2 y x := Complex.arg_nonneg_iff.2 h

theorem atan2_neg {y x : ℝ} (h : y < 0) : atan2 y x < 0 := Complex.arg_neg_iff.2 h

theorem abs_toolface_mul_sign {x y d : ℝ} (hx : 0 < x) (h1 : -360 < d) (h2 : d < 360)
    (h3 : d ≠ -180) :
    |atan2 (x * sin (radians d)) y| * turnSign d = atan2 (x * sin (radians d)) y := by
  have hp := pi_pos
  have pos : 0 ≤ sin (radians d) → turnSign d = 1 →
      |atan2 (x * sin (radians d)) y| * turnSign d = atan2 (x * sin (radians d)) y := by
    intro hs ht
    rw [ht, mul_one, abs_of_nonneg (atan2_nonneg (mul_nonneg hx.le hs))]
  have neg : sin (radians d) < 0 → turnSign d = -1 →
      |atan2 (x * sin (radians d)) y| * turnSign d = atan2 (x * sin (radians d)) y := by
    intro hs ht
    rw [ht, abs_of_neg (atan2_neg (mul_neg_of_pos_of_neg hx hs))]; ring
  have e1 : sin (radians d) = sin (radians d + 2 * π) := (sin_add_two_pi _).symm
  have e2 : sin (radians d) = sin (radians d - 2 * π) := (sin_sub_two_pi _).symm
  have hr : radians d * 180 = d * π := by unfold radians; ring
  rcases lt_or_ge d (-180) with h | h
  · refine pos ?_ (by unfold turnSign; rw [if_pos h])
    rw [e1]
    exact sin_nonneg_of_nonneg_of_le_pi (by nlinarith) (by nlinarith)
  · have h' : -180 < d := lt_of_le_of_ne h (Ne.symm h3)
    rcases lt_or_ge 180 d with h4 | h4
    · refine neg ?_ (by unfold turnSign; rw [if_neg (by linarith), if_pos h4])
      rw [e2]
      exact sin_neg_of_neg_of_neg_pi_lt (by nlinarith) (by nlinarith)
    · rcases lt_trichotomy d 0 with h5 | h5 | h5
      · refine neg (sin_neg_of_neg_of_neg_pi_lt (by nlinarith) (by nlinarith)) ?_
        unfold turnSign
        rw [if_neg (by linarith), if_neg (by linarith), if_neg h5.ne, abs_of_neg h5, div_neg,
          div_self h5.ne]
      · refine pos (by simp [h5, radians]) ?_
        unfold turnSign
        rw [if_neg (by linarith), if_neg (by linarith), if_pos h5]
      · refine pos (sin_nonneg_of_nonneg_of_le_pi (by nlinarith) (by nlinarith)) ?_
        unfold turnSign
        rw [if_neg (by linarith), if_neg (by linarith), if_neg h5.ne', abs_of_pos h5,
          div_self h5.ne']

theorem degrees_mul_pi (x : ℝ) : degrees x * π = x * 180 := by unfold degrees; field_simp

theorem degrees_sub (x y : ℝ) : degrees x - degrees y = degrees (x - y) := by unfold degrees; ring

/-- C129: for a section that is a single curved interval, the exported toolface is the direction
from high side, in degrees, in which the well turns at the start of the section. -/
theorem C129_toolface {rtol atol : ℝ} {dlsCont : Bool} {around : ℝ → ℝ} {u : LenUnit}
    {sv : ℕ → Row} {n a : ℕ} {l : List TurnPoint} (hs : IsSurvey u sv n)
    (h : getSections rtol atol dlsCont around u sv n = some l)
    (hab : IsSection (Continues rtol atol dlsCont around sv) n a (a + 1))
    (hcurve : dogleg2 (sv a).st (sv (a + 1)).st ≠ 0)
    (hinc : 0 < (sv (a + 1)).st.inc ∧ (sv (a + 1)).st.inc < π)
    (hazi : ∀ k, 0 ≤ (sv k).st.azi ∧ (sv k).st.azi < 2 * π)
    (hopp : (sv (a + 1)).st.azi - (sv a).st.azi ≠ -π)
    {p : TurnPoint} (hp : p ∈ l) (hmd : p.md = (sv (a + 1)).st.md) :
    ∃ t, p.toolface = degrees t ∧
      ∀ (γ τ ν : ℝ → V3) (κ : ℝ), CircularCurve γ τ ν κ → 0 < κ →
        κ * ((sv (a + 1)).st.md - (sv a).st.md) < π →
        τ 0 = tangent (sv a).st.inc (sv a).st.azi →
        τ ((sv (a + 1)).st.md - (sv a).st.md)
          = tangent (sv (a + 1)).st.inc (sv (a + 1)).st.azi →
        ν 0 = toolDir (sv a).st.inc (sv a).st.azi t := by
  have hpp := section_point hs h hab hp hmd
  have hpi := pi_pos
  have han : a < n := hab.le
  refine ⟨Tf.t1 (sv a).st (sv (a + 1)).st, ?_, ?_⟩
  · rw [hpp]
    unfold point
    simp only [hcurve, if_false]
    rw [hs.toolface a han, degrees_sub]
    have hd := degrees_mul_pi ((sv (a + 1)).st.azi - (sv a).st.azi)
    obtain ⟨z1, z2⟩ := hazi (a + 1)
    obtain ⟨z3, z4⟩ := hazi a
    have key := abs_toolface_mul_sign (x := sin (sv (a + 1)).st.inc)
      (y := sin (sv (a + 1)).st.inc * cos (sv a).st.inc * cos ((sv (a + 1)).st.azi - (sv a).st.azi)
        - sin (sv a).st.inc * cos (sv (a + 1)).st.inc)
      (d := degrees ((sv (a + 1)).st.azi - (sv a).st.azi))
      (sin_pos_of_pos_of_lt_pi hinc.1 hinc.2) (by by_contra hc; nlinarith)
      (by by_contra hc; nlinarith)
      (fun hc => hopp (by
        rw [hc] at hd
        linarith))
    rw [radians_degrees'] at key
    have e : ∀ t c : ℝ, |degrees t| * c = degrees (|t| * c) := by
      intro t c
      unfold degrees
      rw [abs_div, abs_mul, abs_of_pos hpi, abs_of_pos (by norm_num : (0 : ℝ) < 180)]
      ring
    rw [e]
    congr 1
  · intro γ τ ν κ hc hκ hlt t0 tL
    obtain ⟨h2, h3⟩ := C102_toolface_is_turn_direction
      (st := [(sv a).st, (sv (a + 1)).st]) (by simp)
    obtain ⟨⟨t, ht, hν⟩, -⟩ := h3 0 _ _ rfl rfl γ τ ν κ hc hκ (hs.md a han) hlt t0 tL
    have : t = Tf.t1 (sv a).st (sv (a + 1)).st := by
      simp [Tf.toolfaces, pairwise] at ht; exact ht.symm
    rw [hν, this]

/-- C130: over a curved section the exported turn rate is the change of azimuth the shorter way
round, and the exported build rate the size of the change of inclination, per 30 m or 100 ft. -/
theorem C130_rates {rtol atol : ℝ} {dlsCont : Bool} {around : ℝ → ℝ} {u : LenUnit}
    {sv : ℕ → Row} {n a b : ℕ} {l : List TurnPoint} (hs : IsSurvey u sv n)
    (h : getSections rtol atol dlsCont around u sv n = some l)
    (hab : IsSection (Continues rtol atol dlsCont around sv) n a b)
    (hcurve : dogleg2 (sv a).st (sv (a + 1)).st ≠ 0)
    (hazi : ∀ k, 0 ≤ (sv k).st.azi ∧ (sv k).st.azi < 2 * π)
    {p : TurnPoint} (hp : p ∈ l) (hmd : p.md = (sv b).st.md) :
    ∃ turn build : ℝ, p.turnRate = some turn ∧ p.buildRate = some build ∧ 0 ≤ build ∧
      (∃ m : ℤ, turn * (((sv b).st.md - (sv a).st.md) / (if u = .meters then 30 else 100))
        = degrees (sv b).st.azi - degrees (sv a).st.azi + 360 * m) ∧
      |turn * (((sv b).st.md - (sv a).st.md) / (if u = .meters then 30 else 100))| ≤ 180 ∧
      build * (((sv b).st.md - (sv a).st.md) / (if u = .meters then 30 else 100))
        = |degrees (sv b).st.inc - degrees (sv a).st.inc| := by
  have hpp := section_point hs h hab hp hmd
  have hL : 0 < (sv b).st.md - (sv a).st.md := by linarith [md_strict hs hab.lt hab.le]
  have hpi := pi_pos
  have hden : (0 : ℝ) < if u = .meters then 30 else 100 := by split_ifs <;> norm_num
  generalize hD : (if u = LenUnit.meters then (30 : ℝ) else 100) = D at hden ⊢
  rw [hpp]
  unfold point
  simp only [hcurve, if_false, divF, hL.ne', Option.map_some, hD]
  set d := degrees (sv b).st.azi - degrees (sv a).st.azi with hd
  have hdr : -360 < d ∧ d < 360 := by
    have e := degrees_mul_pi ((sv b).st.azi - (sv a).st.azi)
    rw [← degrees_sub] at e
    obtain ⟨z1, z2⟩ := hazi b
    obtain ⟨z3, z4⟩ := hazi a
    constructor <;> (by_contra hc; nlinarith)
  refine ⟨_, _, rfl, rfl, abs_nonneg _, ?_, ?_, ?_⟩
  · rw [show deltaAzi d / ((sv b).st.md - (sv a).st.md) * D
      * (((sv b).st.md - (sv a).st.md) / D) = deltaAzi d by field_simp]
    unfold deltaAzi
    simp only
    split_ifs
    · exact ⟨0, by push_cast; linarith⟩
    · exact ⟨1, by push_cast; ring⟩
    · exact ⟨-1, by push_cast; ring⟩
    · exact ⟨0, by push_cast; ring⟩
  · rw [show deltaAzi d / ((sv b).st.md - (sv a).st.md) * D
      * (((sv b).st.md - (sv a).st.md) / D) = deltaAzi d by field_simp]
    unfold deltaAzi
    simp only
    rw [abs_le]
    split_ifs <;> constructor <;> linarith
  · rw [abs_mul, abs_div, abs_of_pos hL, abs_of_pos hden]
    field_simp

/-- C131 (partial): over a curved section along which inclination does not decrease overall, the
exported build rate is the change of inclination per 30 m or 100 ft. -/
theorem C131_build_sign_partial {rtol atol : ℝ} {dlsCont : Bool} {around : ℝ → ℝ} {u : LenUnit}
    {sv : ℕ → Row} {n a b : ℕ} {l : List TurnPoint} (hs : IsSurvey u sv n)
    (h : getSections rtol atol dlsCont around u sv n = some l)
    (hab : IsSection (Continues rtol atol dlsCont around sv) n a b)
    (hcurve : dogleg2 (sv a).st (sv (a + 1)).st ≠ 0) (hup : (sv a).st.inc ≤ (sv b).st.inc)
    (hazi : ∀ k, 0 ≤ (sv k).st.azi ∧ (sv k).st.azi < 2 * π)
    {p : TurnPoint} (hp : p ∈ l) (hmd : p.md = (sv b).st.md) :
    ∃ build : ℝ, p.buildRate = some build ∧
      build * (((sv b).st.md - (sv a).st.md) / (if u = .meters then 30 else 100))
        = degrees (sv b).st.inc - degrees (sv a).st.inc := by
  obtain ⟨-, build, -, h1, -, -, -, h2⟩ := C130_rates hs h hab hcurve hazi hp hmd
  refine ⟨build, h1, ?_⟩
  rw [h2, abs_of_nonneg]
  rw [degrees_sub]
  unfold degrees
  have := pi_pos
  have : 0 ≤ (sv b).st.inc - (sv a).st.inc := by linarith
  positivity

/-- C131 is false: a section along which inclination decreases is exported with a positive build
rate. -/
theorem C131_drop_exported_as_build {rtol atol : ℝ} {dlsCont : Bool} {around : ℝ → ℝ}
    {u : LenUnit} {sv : ℕ → Row} {n a b : ℕ} {l : List TurnPoint} (hs : IsSurvey u sv n)
    (h : getSections rtol atol dlsCont around u sv n = some l)
    (hab : IsSection (Continues rtol atol dlsCont around sv) n a b)
    (hcurve : dogleg2 (sv a).st (sv (a + 1)).st ≠ 0) (hdown : (sv b).st.inc < (sv a).st.inc)
    {p : TurnPoint} (hp : p ∈ l) (hmd : p.md = (sv b).st.md) :
    ∃ build : ℝ, p.buildRate = some build ∧ 0 < build := by
  have hpp := section_point hs h hab hp hmd
  have hL : 0 < (sv b).st.md - (sv a).st.md := by linarith [md_strict hs hab.lt hab.le]
  have hden : (0 : ℝ) < if u = .meters then 30 else 100 := by split_ifs <;> norm_num
  rw [hpp]
  unfold point
  simp only [hcurve, if_false, divF, hL.ne', Option.map_some]
  refine ⟨_, rfl, abs_pos.2 (mul_ne_zero (div_ne_zero ?_ hL.ne') hden.ne')⟩
  rw [degrees_sub]
  unfold degrees
  have := pi_pos
  have : (sv b).st.inc - (sv a).st.inc ≠ 0 := (sub_neg.2 hdown).ne
  positivity

/-! ### Severity -/

theorem dogleg_onArc {st : ℕ → Station} {γ τ ν : ℝ → V3} {κ : ℝ} (hc : CircularCurve γ τ ν κ)
    (hκ : 0 ≤ κ) {x y : ℝ} (hxy : x ≤ y) (hpi : κ * (y - x) < π) {s t : Station}
    (hs : τ x = tangent s.inc s.azi) (ht : τ y = tangent t.inc t.azi) :
    dogleg2 s t = κ * (y - x) := by
  have h := hc.shift x
  have e := h.tan_eq (y - x)
  have ho := h.ortho 0
  have hu := h.unit_tan 0
  simp only [add_zero, add_sub_cancel] at e ho hu
  unfold dogleg2
  rw [getDogleg_eq_arccos, ← hs, ← ht, e, V3.dot_add_right, V3.dot_smul_right, V3.dot_smul_right,
    ho, hu, mul_one, mul_zero, add_zero,
    arccos_cos (mul_nonneg hκ (by linarith)) hpi.le]

/-- C132 (partial): if a curved section is one arc, its exported severity times its length is the
angle through which the well turns along the section. -/
theorem C132_severity_partial {rtol atol : ℝ} {dlsCont : Bool} {around : ℝ → ℝ} {u : LenUnit}
    {sv : ℕ → Row} {n a b : ℕ} {l : List TurnPoint} (hs : IsSurvey u sv n)
    (h : getSections rtol atol dlsCont around u sv n = some l)
    (hab : IsSection (Continues rtol atol dlsCont around sv) n a b)
    (harc : OnArc (fun k => (sv k).st) a b)
    {p : TurnPoint} (hp : p ∈ l) (hmd : p.md = (sv b).st.md) :
    p.dls * (((sv b).st.md - (sv a).st.md) / (if u = .meters then 30 else 100))
      = degrees (dogleg2 (sv a).st (sv b).st) := by
  have hpp := section_point hs h hab hp hmd
  have hL : 0 < (sv b).st.md - (sv a).st.md := by linarith [md_strict hs hab.lt hab.le]
  have hden : (0 : ℝ) < if u = .meters then 30 else 100 := by split_ifs <;> norm_num
  obtain ⟨γ, τ, ν, κ, hc, hκ, hpi, ht⟩ := harc
  simp only at hpi ht
  have hlt := hab.lt
  have hle := hab.le
  have mono : ∀ j k, j ≤ k → k ≤ n → (sv j).st.md ≤ (sv k).st.md := by
    intro j k hjk hk
    rcases hjk.eq_or_lt with e | e
    · rw [e]
    · exact (md_strict hs e hk).le
  have hdog : ∀ j k, a ≤ j → j ≤ k → k ≤ b →
      dogleg2 (sv j).st (sv k).st = κ * ((sv k).st.md - (sv j).st.md) := by
    intro j k h1 h2 h3
    have m1 := mono j k h2 (by omega)
    have m2 := mono a j h1 (by omega)
    have m3 := mono k b h3 (by omega)
    rw [dogleg_onArc (st := fun k => (sv k).st) hc hκ (x := (sv j).st.md - (sv a).st.md)
      (y := (sv k).st.md - (sv a).st.md) (by linarith)
      (lt_of_le_of_lt (mul_le_mul_of_nonneg_left (by linarith) hκ) hpi)
      (ht j h1 (by omega)) (ht k (by omega) h3)]
    ring
  have hdls : (sv b).dls = degrees (κ * ((sv b).st.md - (sv (b - 1)).st.md))
      / ((sv b).st.md - (sv (b - 1)).st.md) * (if u = .meters then 30 else 100) := by
    have e := hs.dls (b - 1) (by omega)
    have hm := hs.md (b - 1) (by omega)
    rw [show b - 1 + 1 = b by omega] at e hm
    unfold dlsOf at e
    rw [if_neg (by linarith), hdog (b - 1) b (by omega) (by omega) le_rfl] at e
    injection e
  have hm : (sv (b - 1)).st.md < (sv b).st.md := md_strict hs (by omega) hle
  rw [hdog a b le_rfl hlt.le le_rfl, hpp]
  unfold point
  simp only
  by_cases h0 : dogleg2 (sv a).st (sv (a + 1)).st = 0
  · rw [if_pos h0]
    rw [hdog a (a + 1) le_rfl (by omega) (by omega)] at h0
    have hm1 := hs.md a (by omega)
    have : κ = 0 := by
      rcases mul_eq_zero.1 h0 with h | h
      · exact h
      · linarith
    simp [this, degrees]
  · rw [if_neg h0]
    simp only
    rw [hdls]
    generalize (if u = LenUnit.meters then (30 : ℝ) else 100) = D at hden ⊢
    unfold degrees
    have : (sv b).st.md - (sv (b - 1)).st.md ≠ 0 := (sub_pos.2 hm).ne'
    field_simp

/-! ### Straight sections -/

theorem cross_zero_dogleg {s t : Station} (hpi : dogleg2 s t < π) :
    V3.cross (getVec s.inc s.azi true) (getVec t.inc t.azi true) = 0 ↔ dogleg2 s t = 0 := by
  rw [getVec_nev, getVec_nev]
  have hc : cos (dogleg2 s t) = V3.dot (tangent s.inc s.azi) (tangent t.inc t.azi) :=
    cos_getDogleg ..
  constructor
  · intro h
    have h1 := tangent_unit s.inc s.azi
    have h2 := tangent_unit t.inc t.azi
    have hsq : V3.dot (tangent s.inc s.azi) (tangent t.inc t.azi) ^ 2 = 1 := by
      generalize tangent s.inc s.azi = v at *
      generalize tangent t.inc t.azi = w at *
      simp only [V3.cross, V3.ext_iff] at h
      obtain ⟨e1, e2, e3⟩ := h
      simp only [V3.IsUnit, V3.dot] at *
      have z1 : v.y * w.z - v.z * w.y = 0 := e1
      have z2 : v.z * w.x - v.x * w.z = 0 := e2
      have z3 : v.x * w.y - v.y * w.x = 0 := e3
      linear_combination (w.x * w.x + w.y * w.y + w.z * w.z) * h1 + h2
        - (v.y * w.z - v.z * w.y) * z1 - (v.z * w.x - v.x * w.z) * z2
        - (v.x * w.y - v.y * w.x) * z3
    rw [← hc] at hsq
    have hs0 : sin (dogleg2 s t) ^ 2 = 0 := by rw [sin_sq, hsq, sub_self]
    have hs1 : sin (dogleg2 s t) = 0 := by simpa using hs0
    by_contra hne
    have h0 : 0 < dogleg2 s t := lt_of_le_of_ne (getDogleg_nonneg ..) (Ne.symm hne)
    exact (sin_pos_of_pos_of_lt_pi h0 hpi).ne' hs1
  · intro h
    rw [tangent_eq_of_dogleg_zero h]
    ext <;> simp [V3.cross] <;> ring

theorem normal_none {s t : Station} (hpi : dogleg2 s t < π) :
    normal s t = none ↔ dogleg2 s t = 0 := by
  unfold normal
  split_ifs with h
  · simpa using (cross_zero_dogleg hpi).1 h
  · simpa using fun e => h ((cross_zero_dogleg hpi).2 e)

theorem section_straight {rtol atol : ℝ} {dlsCont : Bool} {around : ℝ → ℝ} {u : LenUnit}
    {sv : ℕ → Row} {n a b : ℕ} (hs : IsSurvey u sv n)
    (hab : IsSection (Continues rtol atol dlsCont around sv) n a b) {k : ℕ} (hak : a ≤ k)
    (hkb : k < b) :
    dogleg2 (sv k).st (sv (k + 1)).st = 0 ↔ dogleg2 (sv a).st (sv (a + 1)).st = 0 := by
  have hle := hab.le
  induction k, hak using Nat.le_induction with
  | base => rfl
  | succ k hk ih =>
    have ih := ih (by omega)
    refine Iff.trans ?_ ih
    rw [← normal_none (hs.dogleg (k + 1) (by omega)),
      ← normal_none (hs.dogleg k (by omega))]
    have hc := (hab.inside (k + 1) (by omega) hkb).1
    simp only [Nat.add_sub_cancel] at hc
    cases h1 : normal (sv k).st (sv (k + 1)).st <;>
      cases h2 : normal (sv (k + 1)).st (sv (k + 1 + 1)).st <;> simp_all

/-- C133: a section is exported with zero severity exactly if it is straight: all its stations then
have one direction, and toolface and rates are zero; otherwise the well turns in every interval. -/
theorem C133_straight {rtol atol : ℝ} {dlsCont : Bool} {around : ℝ → ℝ} {u : LenUnit}
    {sv : ℕ → Row} {n a b : ℕ} {l : List TurnPoint} (hs : IsSurvey u sv n)
    (h : getSections rtol atol dlsCont around u sv n = some l)
    (hab : IsSection (Continues rtol atol dlsCont around sv) n a b)
    {p : TurnPoint} (hp : p ∈ l) (hmd : p.md = (sv b).st.md) :
    (p.dls = 0 → p.toolface = 0 ∧ p.buildRate = some 0 ∧ p.turnRate = some 0 ∧
      ∀ k, a ≤ k → k ≤ b →
        tangent (sv k).st.inc (sv k).st.azi = tangent (sv a).st.inc (sv a).st.azi) ∧
    (p.dls ≠ 0 → 0 < p.dls ∧ ∀ k, a ≤ k → k < b →
      tangent (sv k).st.inc (sv k).st.azi ≠ tangent (sv (k + 1)).st.inc (sv (k + 1)).st.azi) := by
  have hpp := section_point hs h hab hp hmd
  have hlt := hab.lt
  have hle := hab.le
  have hstr : ∀ k, a ≤ k → k < b → (dogleg2 (sv k).st (sv (k + 1)).st = 0 ↔
      dogleg2 (sv a).st (sv (a + 1)).st = 0) := fun k h1 h2 => section_straight hs hab h1 h2
  have hden : (0 : ℝ) < if u = .meters then 30 else 100 := by split_ifs <;> norm_num
  by_cases h0 : dogleg2 (sv a).st (sv (a + 1)).st = 0
  · have hz : p.dls = 0 ∧ p.toolface = 0 ∧ p.buildRate = some 0 ∧ p.turnRate = some 0 := by
      rw [hpp]; unfold point; simp only [h0, if_true, and_self]
    refine ⟨fun _ => ⟨hz.2.1, hz.2.2.1, hz.2.2.2, fun k h1 h2 => ?_⟩, fun hc => absurd hz.1 hc⟩
    induction k, h1 using Nat.le_induction with
    | base => rfl
    | succ k hk ih =>
      rw [← ih (by omega)]
      exact (tangent_eq_of_dogleg_zero ((hstr k hk (by omega)).2 h0)).symm
  · have hd : 0 < p.dls := by
      have e : p.dls = (sv b).dls := by
        rw [hpp]; unfold point; simp only [h0, if_false]
      have e2 := hs.dls (b - 1) (by omega)
      have hm := hs.md (b - 1) (by omega)
      have hne : dogleg2 (sv (b - 1)).st (sv (b - 1 + 1)).st ≠ 0 := fun hc =>
        h0 ((hstr (b - 1) (by omega) (by omega)).1 hc)
      have hpos : 0 < dogleg2 (sv (b - 1)).st (sv (b - 1 + 1)).st :=
        lt_of_le_of_ne (getDogleg_nonneg ..) (Ne.symm hne)
      unfold dlsOf at e2
      rw [if_neg (by linarith)] at e2
      injection e2 with e2
      rw [show b - 1 + 1 = b by omega] at e2 hm hpos
      rw [e, e2]
      have : 0 < (sv b).st.md - (sv (b - 1)).st.md := by linarith
      have := pi_pos
      unfold degrees
      positivity
    refine ⟨fun hc => absurd hc hd.ne', fun _ => ⟨hd, fun k h1 h2 hc => ?_⟩⟩
    refine h0 ((hstr k h1 h2).1 ?_)
    unfold dogleg2
    rw [getDogleg_eq_arccos, ← hc, tangent_unit, arccos_one]

/-! ### Concrete surveys -/

/-- Rows of a survey at azimuth zero with the given depths and inclinations, in metres. -/
noncomputable def planar (md inc : ℕ → ℝ) (k : ℕ) : Row :=
  { st := ⟨md k, inc k, 0⟩
    pos := 0
    dls := if k = 0 then 0
      else degrees |inc k - inc (k - 1)| / (md k - md (k - 1)) * 30
    toolface := Tf.t1 ⟨md k, inc k, 0⟩ ⟨md (k + 1), inc (k + 1), 0⟩ }

theorem dogleg2_planar (m1 m2 i1 i2 : ℝ) (h : |i2 - i1| ≤ π) :
    dogleg2 ⟨m1, i1, 0⟩ ⟨m2, i2, 0⟩ = |i2 - i1| := by
  rcases le_total i1 i2 with h1 | h1
  · rw [abs_of_nonneg (by linarith)] at h ⊢
    exact dogleg2_same_azi h1 h
  · rw [abs_of_nonpos (by linarith)] at h ⊢
    have := dogleg2_same_azi (m1 := m2) (m2 := m1) (a := 0) h1 (by linarith)
    unfold dogleg2 at this ⊢
    simp only at this ⊢
    rw [getDogleg_eq_arccos, V3.dot_comm, ← getDogleg_eq_arccos, this]
    ring

theorem planar_isSurvey {md inc : ℕ → ℝ} {n : ℕ} (h1 : ∀ k < n, md k < md (k + 1))
    (h2 : ∀ k < n, |inc (k + 1) - inc k| < π) : IsSurvey .meters (planar md inc) n where
  md := h1
  dogleg k hk := by
    have := h2 k hk
    simp only [planar]
    rw [dogleg2_planar _ _ _ _ this.le]
    exact this
  toolface k hk := rfl
  dls k hk := by
    have := h2 k hk
    have h := h1 k hk
    simp only [planar]
    rw [dogleg2_planar _ _ _ _ this.le]
    have hne : md (k + 1) - md k ≠ 0 := (sub_pos.2 h).ne'
    simp [dlsOf, hne]

/-- Two stations 100 m apart, dropping from 90 to 30 degrees. -/
noncomputable def dropSurvey : ℕ → Row :=
  planar (fun k => 100 * k) (fun k => if k = 0 then π / 2 else π / 6)

theorem dropSurvey_isSurvey : IsSurvey .meters dropSurvey 1 := by
  have hp := pi_pos
  refine planar_isSurvey (fun k _ => by push_cast; linarith) (fun k hk => ?_)
  have : k = 0 := by omega
  subst this
  simp only [zero_add, one_ne_zero, if_false, if_true]
  rw [abs_lt]; constructor <;> linarith

theorem dropSurvey_section (c : ℕ → Prop) : IsSection c 1 0 1 :=
  ⟨by omega, by omega, Or.inl rfl, Or.inl rfl, fun k h1 h2 => by omega⟩

theorem dropSurvey_dogleg : dogleg2 (dropSurvey 0).st (dropSurvey 1).st = π / 3 := by
  have hp := pi_pos
  simp only [dropSurvey, planar, if_true, one_ne_zero, if_false]
  rw [dogleg2_planar] <;> rw [abs_of_neg (by linarith)] <;> linarith

/-- The hypotheses of C129-C131 and C133 hold for this survey: its second control point. -/
example : ∃ l p, getSections 0.1 0.1 false id .meters dropSurvey 1 = some l ∧ p ∈ l ∧
    p.md = (dropSurvey 1).st.md ∧ dogleg2 (dropSurvey 0).st (dropSurvey (0 + 1)).st ≠ 0 ∧
    (dropSurvey 1).st.inc < (dropSurvey 0).st.inc ∧
    (∀ k, 0 ≤ (dropSurvey k).st.azi ∧ (dropSurvey k).st.azi < 2 * π) ∧
    0 < (dropSurvey 1).st.inc ∧ (dropSurvey 1).st.inc < π := by
  have hp := pi_pos
  refine ⟨_, point .meters dropSurvey 0 1, rfl, ?_, (point_where ..).1, ?_, ?_, ?_, ?_, ?_⟩
  · simp [sectionsOf, starts, continuous, Ti.starts, Ti.breaks, pairwise]
  · rw [zero_add, dropSurvey_dogleg]; positivity
  · simp only [dropSurvey, planar, if_true, one_ne_zero, if_false]; linarith
  · intro k; simp only [dropSurvey, planar]; exact ⟨le_rfl, by positivity⟩
  · simp only [dropSurvey, planar, one_ne_zero, if_false]; positivity
  · simp only [dropSurvey, planar, one_ne_zero, if_false]; linarith

/-- A single interval is an arc, so C128 and C132 apply to it. -/
theorem onArc_interval {sv : ℕ → Row} {a : ℕ} (hmd : (sv a).st.md < (sv (a + 1)).st.md)
    (h0 : 0 < dogleg2 (sv a).st (sv (a + 1)).st) (hpi : dogleg2 (sv a).st (sv (a + 1)).st < π) :
    OnArc (fun k => (sv k).st) a (a + 1) := by
  obtain ⟨γ, τ, ν, κ, hc, hκ, hlt, t0, tL⟩ := C102_arc_exists hmd h0 hpi
  refine ⟨γ, τ, ν, κ, hc, hκ.le, hlt, fun k h1 h2 => ?_⟩
  rcases (show k = a ∨ k = a + 1 by omega) with rfl | rfl
  · simpa using t0
  · exact tL

example : OnArc (fun k => (dropSurvey k).st) 0 1 := by
  have := pi_pos
  refine onArc_interval (dropSurvey_isSurvey.md 0 (by omega)) ?_ ?_ <;>
    rw [zero_add, dropSurvey_dogleg] <;> linarith

/-- Stations at 0, 100 and 300 m, building 60 degrees in each interval. -/
noncomputable def mergedSurvey : ℕ → Row :=
  planar (fun k => if k = 0 then 0 else if k = 1 then 100 else 300) (fun k => k * (π / 3))

theorem merged_stations : (mergedSurvey 0).st = ⟨0, 0, 0⟩ ∧
    (mergedSurvey 1).st = ⟨100, π / 3, 0⟩ ∧ (mergedSurvey 2).st = ⟨300, 2 * (π / 3), 0⟩ := by
  refine ⟨?_, ?_, ?_⟩ <;> simp [mergedSurvey, planar]

theorem merged_isSurvey : IsSurvey .meters mergedSurvey 2 := by
  have hp := pi_pos
  refine planar_isSurvey (fun k hk => ?_) (fun k _ => ?_)
  · rcases (show k = 0 ∨ k = 1 by omega) with rfl | rfl <;> norm_num
  · push_cast
    rw [show ((k : ℝ) + 1) * (π / 3) - k * (π / 3) = π / 3 by ring, abs_of_pos (by positivity)]
    linarith

theorem normal_planar {m1 m2 i1 i2 : ℝ} (h1 : i1 < i2) (h2 : i2 - i1 < π) :
    normal ⟨m1, i1, 0⟩ ⟨m2, i2, 0⟩ = some ⟨0, 1, 0⟩ := by
  have hs : 0 < sin (i2 - i1) := sin_pos_of_pos_of_lt_pi (by linarith) h2
  have e : V3.cross (getVec i1 0 true) (getVec i2 0 true) = sin (i2 - i1) • (⟨0, 1, 0⟩ : V3) := by
    rw [getVec_nev, getVec_nev, sin_sub]
    ext <;> simp [V3.cross, tangent] <;> ring
  unfold normal Tf.intervalNormal
  simp only [e]
  rw [if_neg]
  · congr 1
    unfold normalize
    rw [V3.norm_smul, abs_of_pos hs, show V3.norm (⟨0, 1, 0⟩ : V3) = 1 by
      simp [V3.norm, V3.dot]]
    ext <;> simp [hs.ne']
  · intro h
    have := congrArg V3.y h
    rw [e] at this
    simp at this
    linarith

theorem merged_continues (around : ℝ → ℝ) : Continues 0.1 0.1 false around mergedSurvey 1 := by
  have hp := pi_pos
  obtain ⟨e0, e1, e2⟩ := merged_stations
  refine ⟨?_, by simp⟩
  rw [show (1 : ℕ) - 1 = 0 from rfl, show (1 : ℕ) + 1 = 2 from rfl, e0, e1, e2,
    normal_planar (by positivity) (by linarith), normal_planar (by linarith) (by linarith)]
  norm_num

theorem merged_starts (around : ℝ → ℝ) :
    starts (continuous 0.1 0.1 false around mergedSurvey 2) 2 = [0, 2] := by
  have hlen : (continuous 0.1 0.1 false around mergedSurvey 2).length + 1 = 2 :=
    continuous_length (by norm_num)
  have h := (continuous_false (rtol := 0.1) (atol := 0.1) (dlsCont := false) (around := around)
    (sv := mergedSurvey) (n := 2) (k := 1) (by norm_num) (by norm_num)).not.2
    (not_not.2 (merged_continues around))
  generalize continuous 0.1 0.1 false around mergedSurvey 2 = c at hlen h
  match c, hlen with
  | [x], _ =>
    cases x with
    | false => simp at h
    | true => rfl

theorem tan_pi_six : tan (π / 6) = 1 / √3 := by
  rw [tan_eq_sin_div_cos, sin_pi_div_six, cos_pi_div_six]; field_simp

theorem step_z {m1 m2 i1 i2 d : ℝ} (hd : dogleg2 ⟨m1, i1, 0⟩ ⟨m2, i2, 0⟩ = d) (h0 : d ≠ 0) :
    (deltaXyz ⟨m1, i1, 0⟩ ⟨m2, i2, 0⟩).z =
      (m2 - m1) * (2 / d * tan (d / 2)) / 2 * (cos i1 + cos i2) := by
  unfold deltaXyz minCurveStepRf getRf
  simp only [hd, h0, if_false]

/-- C128 is false: with the default settings two arcs of different severity in one plane are
exported as one section, and the survey rebuilt from the listing ends elsewhere. -/
theorem C128_merged_arcs (around : ℝ → ℝ) :
    ∃ l out out', getSections 0.1 0.1 false around .meters mergedSurvey 2 = some l ∧
      minCurve ((List.range 3).map fun k => (mergedSurvey k).st) 0 .meters = .ok out ∧
      minCurve (rebuilt l) 0 .meters = .ok out' ∧
      (rebuilt l).getLast? = some (mergedSurvey 2).st ∧
      out'.poss.getLast? ≠ out.poss.getLast? := by
  have hp := pi_pos
  obtain ⟨e0, e1, e2⟩ := merged_stations
  have hl : rebuilt (sectionsOf .meters mergedSurvey 2
      (continuous 0.1 0.1 false around mergedSurvey 2))
      = [⟨0, 0, 0⟩, ⟨300, 2 * (π / 3), 0⟩] := by
    rw [rebuilt_eq, merged_starts]; simp [e0, e2]
  have hr : (List.range 3).map (fun k => (mergedSurvey k).st)
      = [⟨0, 0, 0⟩, ⟨100, π / 3, 0⟩, ⟨300, 2 * (π / 3), 0⟩] := by
    simp [List.range_succ, e0, e1, e2]
  obtain ⟨out, ho⟩ : ∃ out, minCurve ((List.range 3).map fun k => (mergedSurvey k).st) 0 .meters
      = .ok out := by rw [hr]; exact ⟨_, rfl⟩
  obtain ⟨out', ho'⟩ : ∃ out', minCurve (rebuilt (sectionsOf .meters mergedSurvey 2
      (continuous 0.1 0.1 false around mergedSurvey 2))) 0 .meters = .ok out' := by
    rw [hl]; exact ⟨_, rfl⟩
  refine ⟨_, out, out', rfl, ho, ho', ?_, ?_⟩
  · rw [hl, e2]; rfl
  · rw [minCurve_poss ho, minCurve_poss ho', hl, hr]
    simp only [positions, pairwise, cumsumFrom, List.getLast?_cons_cons, List.getLast?_singleton]
    intro h
    have hz := congrArg V3.z (Option.some.inj h)
    simp only [V3.add_z, V3.zero_z, zero_add] at hz
    have d1 : dogleg2 ⟨0, 0, 0⟩ ⟨100, π / 3, 0⟩ = π / 3 := by
      rw [dogleg2_planar] <;> rw [abs_of_pos (by linarith)] <;> linarith
    have d2 : dogleg2 ⟨100, π / 3, 0⟩ ⟨300, 2 * (π / 3), 0⟩ = π / 3 := by
      rw [dogleg2_planar] <;> rw [abs_of_pos (by linarith)] <;> linarith
    have d3 : dogleg2 ⟨0, 0, 0⟩ ⟨300, 2 * (π / 3), 0⟩ = 2 * (π / 3) := by
      rw [dogleg2_planar] <;> rw [abs_of_pos (by linarith)] <;> linarith
    have c2 : cos (2 * (π / 3)) = -1 / 2 := by
      rw [cos_two_mul, cos_pi_div_three]; norm_num
    have h3 : 0 < √3 := by positivity
    have h3' : √3 * √3 = 3 := mul_self_sqrt (by norm_num)
    rw [step_z d1 (by positivity), step_z d2 (by positivity), step_z d3 (by positivity), c2,
      cos_zero, cos_pi_div_three, show π / 3 / 2 = π / 6 by ring,
      show 2 * (π / 3) / 2 = π / 3 by ring, tan_pi_six, tan_pi_div_three] at hz
    field_simp at hz
    nlinarith

/-- C132 is false: the same survey turns 120 degrees in its one exported section, but the exported
severity over its length gives 90. -/
theorem C132_merged_severity (around : ℝ → ℝ) :
    ∃ l p, getSections 0.1 0.1 false around .meters mergedSurvey 2 = some l ∧ p ∈ l ∧
      p.md = (mergedSurvey 2).st.md ∧ IsSurvey .meters mergedSurvey 2 ∧
      IsSection (Continues 0.1 0.1 false around mergedSurvey) 2 0 2 ∧
      p.dls * (((mergedSurvey 2).st.md - (mergedSurvey 0).st.md) / 30) = 90 ∧
      degrees (dogleg2 (mergedSurvey 0).st (mergedSurvey 2).st) = 120 := by
  have hp := pi_pos
  obtain ⟨e0, e1, e2⟩ := merged_stations
  have d1 : dogleg2 ⟨0, 0, 0⟩ ⟨100, π / 3, 0⟩ = π / 3 := by
    rw [dogleg2_planar] <;> rw [abs_of_pos (by linarith)] <;> linarith
  refine ⟨_, point .meters mergedSurvey 0 2, rfl, ?_, (point_where ..).1, merged_isSurvey, ?_, ?_,
    ?_⟩
  · unfold sectionsOf; rw [merged_starts]; simp [pairwise]
  · refine ⟨by omega, le_rfl, Or.inl rfl, Or.inl rfl, fun k h1 h2 => ?_⟩
    have : k = 1 := by omega
    subst this
    exact merged_continues around
  · unfold point
    simp only [zero_add, e0, e1, e2, d1]
    rw [if_neg (by positivity)]
    simp only [mergedSurvey, planar, degrees]
    norm_num
    rw [show 2 * (π / 3) - π / 3 = π / 3 by ring, abs_of_pos (by positivity)]
    field_simp
    norm_num
  · rw [e0, e2, dogleg2_planar] <;> rw [abs_of_pos (by linarith)]
    · unfold degrees; field_simp; ring
    · linarith

/-- C134 is false of the code: `wbp_to_survey` raises for every plan. -/
theorem C134_wbp_to_survey_raises {S : Type} (connect : S → S → Conn) (steps : List S) :
    ∃ e, wbpToSurvey connect steps = .error e ∧ (3 ≤ steps.length → e = .attributeError) := by
  match steps with
  | [] => exact ⟨_, rfl, by simp⟩
  | [_] => exact ⟨_, rfl, by simp⟩
  | [_, _] => exact ⟨_, rfl, by simp⟩
  | _ :: b :: c :: t => exact ⟨.attributeError, rfl, fun _ => rfl⟩

end Welleng.Props
