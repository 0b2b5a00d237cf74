import Verif.Props.DragStations

/-!
C377: a station recorded twice and the loads of a string.
-/

namespace Welleng.Props

open Real Td

/-- `new` is the survey `old` with station `i` recorded twice; between the two copies hangs no weight. -/
structure LegTwice (i : ℕ) (old new : List Leg) : Prop where
  split : ∃ (U B : List Leg) (p m : Leg), U.length = i ∧ old = U ++ p :: B ∧ new = U ++ p :: m :: B ∧
    m.inc = p.inc ∧ m.azi = p.azi ∧ m.weight = 0

/-- A part of no length, without a weight and without a bend, carries nothing. -/
theorem step_nothing (x : Loads × ℝ) (i mu r : ℝ) : step x ⟨i, 0, 0, 0, mu, r⟩ = x := by
  simp only [step, normalOf, forceNormal_straight, forceTensionDelta, torsionDelta]
  refine Prod.ext ?_ (by simp)
  obtain ⟨⟨a, b, c⟩, d⟩ := x
  simp

section
variable {i : ℕ} {old new : List Leg} (h : LegTwice i old new)
include h

theorem profile_twice (s : Loads × ℝ) (r : ℝ) {k : ℕ} (hk : k < new.length) :
    (profile s (rows (strung r new)))[k]?
      = (profile s (rows (strung r old)))[if k ≤ i then k else k - 1]? := by
  obtain ⟨U, B, p, m, rfl, rfl, rfl, a, b, w⟩ := h.split
  have hlen : k < U.length + B.length + 2 := by simpa [Nat.add_assoc] using hk
  rw [profile_parts s r hk,
    profile_parts s r (show (if k ≤ U.length then k else k - 1) < (U ++ p :: B).length by
      simp only [List.length_append, List.length_cons]; split_ifs <;> omega)]
  have hX : (parts r (U ++ [p])).length = U.length := by
    cases U with
    | nil => rfl
    | cons u t => rw [List.cons_append, parts_length]; simp
  have hY : parts r (m :: B) = parts r (p :: B) := by
    cases B with
    | nil => rfl
    | cons q t => simp only [parts, between, a, b]
  have e1 : between r p m = ⟨p.inc, 0, 0, 0, m.mu, r⟩ := by
    simp [between, a, b, w]
  rw [parts_append r p B, parts_append r p (m :: B)]
  simp only [parts, hY, e1]
  congr 1
  split_ifs with hki
  · rw [List.drop_append_of_le_length (by omega), List.drop_append_of_le_length (by omega), hang_append,
      hang_append]
    simp only [hang, step_nothing]
  · obtain ⟨j, rfl⟩ := Nat.exists_eq_add_of_le (show U.length + 1 ≤ k by omega)
    have n1 : List.drop (U.length + 1 + j) (parts r (U ++ [p])) = [] := List.drop_eq_nil_of_le (by omega)
    have n2 : List.drop (U.length + 1 + j - 1) (parts r (U ++ [p])) = [] := List.drop_eq_nil_of_le (by omega)
    rw [List.drop_append, List.drop_append, n1, n2, hX,
      show U.length + 1 + j - U.length = j + 1 by omega, show U.length + 1 + j - 1 - U.length = j by omega]
    rfl

/-- **C377** Recording a station twice changes none of the loads: at both copies they are those of the
station, and elsewhere what they were; off bottom, drilling, or with an overpull. -/
theorem C377_loads (r : ℝ) (wob tob overpull : Option ℝ) (f : Profiles → Option (List ℝ))
    (hf : f ∈ [Profiles.pickup, Profiles.slackoff, Profiles.rotating, Profiles.drilling, Profiles.sliding,
      Profiles.overpull, Profiles.torqueRotating, Profiles.torqueDrilling]) {P : Profiles}
    (hP : getForces (strung r old) wob tob overpull {} = .ok P) {l : List ℝ} (hl : f P = some l) :
    ∃ P' l', getForces (strung r new) wob tob overpull {} = .ok P' ∧ f P' = some l' ∧
      ∀ k < new.length, l'[k]? = l[if k ≤ i then k else k - 1]? := by
  unfold getForces at hP ⊢
  split_ifs at hP ⊢ with hc
  simp only [Except.ok.injEq] at hP
  generalize hs : ((⟨valueOf overpull, -valueOf wob, -valueOf wob⟩, valueOf tob) : Loads × ℝ) = s at hP ⊢
  have key : ∀ g : Loads × ℝ → ℝ, ∀ k < new.length,
      ((profile s (rows (strung r new))).map g)[k]?
        = ((profile s (rows (strung r old))).map g)[if k ≤ i then k else k - 1]? := by
    intro g k hk
    rw [List.getElem?_map, List.getElem?_map, profile_twice h s r hk]
  subst hP
  simp only [List.mem_cons, List.not_mem_nil, or_false] at hf
  by_cases hw : truthy wob <;> by_cases ht : truthy tob <;> by_cases ho : truthy overpull <;>
    rcases hf with rfl | rfl | rfl | rfl | rfl | rfl | rfl | rfl <;>
    simp only [store, hw, ht, ho, if_true, if_false, Option.some.injEq, reduceCtorEq] at hl <;>
    subst hl <;>
    exact ⟨_, _, rfl, by simp only [store, hw, ht, ho, if_true, if_false], key _⟩

end

/-- Non-vacuity: a build from vertical to 60° and on to 75°, the station at 60° recorded twice. -/
example : ∃ P l, LegTwice 1 [⟨0, 0, 0, 0⟩, ⟨π / 3, 0, 25, 0.3⟩, ⟨5 * π / 12, 1, 30, 0.3⟩]
      [⟨0, 0, 0, 0⟩, ⟨π / 3, 0, 25, 0.3⟩, ⟨π / 3, 0, 0, 0.3⟩, ⟨5 * π / 12, 1, 30, 0.3⟩] ∧
    getForces (strung 0.1 [⟨0, 0, 0, 0⟩, ⟨π / 3, 0, 25, 0.3⟩, ⟨5 * π / 12, 1, 30, 0.3⟩]) none none none {}
      = .ok P ∧ P.pickup = some l := by
  obtain ⟨out, pu, -, -, h1, h2, -⟩ := C41_off_bottom
    (strung 0.1 [⟨0, 0, 0, 0⟩, ⟨π / 3, 0, 25, 0.3⟩, ⟨5 * π / 12, 1, 30, 0.3⟩])
    (by simp [strung, arraysOf]; norm_num) {}
  exact ⟨out, pu, ⟨[⟨0, 0, 0, 0⟩], [⟨5 * π / 12, 1, 30, 0.3⟩], ⟨π / 3, 0, 25, 0.3⟩, ⟨π / 3, 0, 0, 0.3⟩,
    rfl, rfl, rfl, rfl, rfl, rfl⟩, h1, h2⟩

end Welleng.Props
