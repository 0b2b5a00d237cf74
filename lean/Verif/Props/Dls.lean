import Verif.Lemmas.MinCurveList

/-!
C64: the tables reported by `MinCurve` besides the positions (interval lengths, doglegs,
ratio factors, dogleg severity).
-/

namespace Welleng.Props

open Real Welleng Spec

theorem pairwise_getElem? {α β : Type*} (f : α → α → β) : ∀ (l : List α) (i : ℕ) (a b : α),
    l[i]? = some a → l[i + 1]? = some b → (pairwise f l)[i]? = some (f a b)
  | [], _, _, _, h, _ => by simp at h
  | [_], _, _, _, _, h => by simp at h
  | x :: y :: t, 0, a, b, ha, hb => by
    simp only [List.getElem?_cons_zero, Option.some.injEq, zero_add, List.getElem?_cons_succ] at ha hb
    subst ha; subst hb
    simp [pairwise]
  | x :: y :: t, i + 1, a, b, ha, hb => by
    simp only [pairwise, List.getElem?_cons_succ] at ha hb ⊢
    exact pairwise_getElem? f (y :: t) i a b ha hb

/-- Length over which dogleg severity is stated: 30 m or 100 ft. -/
def dlsLength : LenUnit → ℝ
  | .meters => 30
  | _ => 100

/-- **C64** For every accepted survey and every pair of consecutive stations, the reported
interval is the difference of depths, and the reported dogleg is the angle between the two
tangents; if the interval is not zero the reported severity is that angle in degrees per 30 m
or 100 ft.  The first station has severity 0. -/
theorem C64_dls_is_turn_rate {s : List Station} {start : V3} {u : LenUnit} {out : MinCurveOut}
    (h : minCurve s start u = .ok out) :
    (∃ r, out.dls = .val 0 :: r) ∧
    ∀ (i : ℕ) (a b : Station), s[i]? = some a → s[i + 1]? = some b →
      out.deltaMd[i + 1]? = some (b.md - a.md) ∧
      out.dogleg[i + 1]? = some (arccos (V3.dot (tangent a.inc a.azi) (tangent b.inc b.azi))) ∧
      (b.md ≠ a.md → ∃ d, out.dls[i + 1]? = some (.val d) ∧
        d * (b.md - a.md) / dlsLength u
          = arccos (V3.dot (tangent a.inc a.azi) (tangent b.inc b.azi)) * 180 / π) := by
  unfold minCurve at h
  cases u with
  | other => simp at h
  | _ =>
    match s, h with
    | s0 :: s1 :: rest, h =>
    simp only [Except.ok.injEq] at h
    subst h
    refine ⟨⟨_, rfl⟩, fun i a b ha hb => ?_⟩
    have hp := fun {β : Type} (f : Station → Station → β) =>
      pairwise_getElem? f (s0 :: s1 :: rest) i a b ha hb
    have hg : dogleg2 a b = arccos (V3.dot (tangent a.inc a.azi) (tangent b.inc b.azi)) :=
      getDogleg_eq_arccos ..
    refine ⟨by simpa using hp _, by simpa [hg] using hp dogleg2, fun hne => ?_⟩
    have hne' : b.md - a.md ≠ 0 := sub_ne_zero.2 hne
    refine ⟨_, by simpa [dlsOf, hne'] using hp fun a b => dlsOf _ (dogleg2 a b) (b.md - a.md), ?_⟩
    rw [hg]
    simp only [degrees, dlsLength]
    field_simp

open Classical in
/-- **C64** At a repeated depth the severity is 0 if the direction is the same and infinite
otherwise. -/
theorem C64_repeated_depth {s : List Station} {start : V3} {u : LenUnit} {out : MinCurveOut}
    (h : minCurve s start u = .ok out) {i : ℕ} {a b : Station} (ha : s[i]? = some a)
    (hb : s[i + 1]? = some b) (hmd : b.md = a.md) :
    out.dls[i + 1]? = some (if tangent a.inc a.azi = tangent b.inc b.azi then .val 0 else .inf) := by
  unfold minCurve at h
  cases u with
  | other => simp at h
  | _ =>
    match s, h with
    | s0 :: s1 :: rest, h =>
    simp only [Except.ok.injEq] at h
    subst h
    have hp := fun c : ℝ => pairwise_getElem? (fun a b => dlsOf c (dogleg2 a b) (b.md - a.md))
      (s0 :: s1 :: rest) i _ _ ha hb
    have hz : ∀ a b : Station,
        (dogleg2 a b = 0) = (tangent a.inc a.azi = tangent b.inc b.azi) := by
      intro a b
      apply propext
      have hg : dogleg2 a b = arccos (V3.dot (tangent a.inc a.azi) (tangent b.inc b.azi)) :=
        getDogleg_eq_arccos ..
      rw [hg, arccos_eq_zero]
      constructor
      · intro h1
        exact V3.eq_of_dot_eq_one (tangent_unit ..) (tangent_unit ..)
          (le_antisymm (unit_dot_le (tangent_unit ..) (tangent_unit ..)) h1)
      · intro h1
        rw [← h1]
        exact (tangent_unit ..).ge
    simp only [List.getElem?_cons_succ]
    rw [hp]
    simp [dlsOf, hmd, hz]

/-- Non-vacuity: a quarter turn over 30 m is 90°/30 m. -/
example : ∃ out d, minCurve [⟨0, 0, 0⟩, ⟨30, π / 2, 0⟩] 0 .meters = .ok out ∧
    out.dls[1]? = some (.val d) ∧ d = 90 := by
  obtain ⟨d, h1, h2⟩ := ((C64_dls_is_turn_rate (s := [⟨0, 0, 0⟩, ⟨30, π / 2, 0⟩]) (start := 0)
    (u := .meters) rfl).2 0 ⟨0, 0, 0⟩ ⟨30, π / 2, 0⟩ rfl rfl).2.2 (by norm_num)
  refine ⟨_, d, rfl, h1, ?_⟩
  have hpi := pi_ne_zero
  simp [dlsLength, V3.dot, tangent] at h2
  rw [h2]
  field_simp
  norm_num

end Welleng.Props
