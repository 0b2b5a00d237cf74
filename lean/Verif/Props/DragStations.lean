import Verif.Props.TorqueDragMore

/-!
C347: further stations on a straight interval and the loads of a string.
-/

namespace Welleng.Props

open Real Td

/-- A station with the weight and the friction factor of the part of the string that ends there. -/
structure Leg where
  inc : ℝ
  azi : ℝ
  weight : ℝ
  mu : ℝ

/-- The arrays of a string of one diameter. -/
noncomputable def strung (r : ℝ) (st : List Leg) : Arrays :=
  arraysOf (st.map (·.inc)) (st.map (·.azi)) (st.map (·.weight)) (st.map (·.mu)) (List.replicate st.length r)

theorem strung_aligned (r : ℝ) (st : List Leg) : Aligned (strung r st) st.length := by
  have h1 : ∀ l : List ℝ, (incAverage l).length = l.length := by
    intro l; cases l <;> simp [incAverage]
  have h2 : ∀ l : List ℝ, (deltas l).length = l.length := by
    intro l; cases l <;> simp [deltas]
  simp [Aligned, strung, arraysOf, h1, h2]

/-- The part of the string between two stations. -/
noncomputable def between (r : ℝ) (p q : Leg) : Elem :=
  ⟨(q.inc + p.inc) / 2, q.inc - p.inc, q.azi - p.azi, q.weight, q.mu, r⟩

/-- The parts between neighbouring stations. -/
noncomputable def parts (r : ℝ) : List Leg → List Elem
  | p :: q :: t => between r p q :: parts r (q :: t)
  | _ => []

theorem strung_elements (r : ℝ) (p : Leg) (t : List Leg) :
    elements (strung r (p :: t)) = ⟨0, 0, 0, p.weight, p.mu, r⟩ :: parts r (p :: t) := by
  have key : ∀ (t : List Leg) (p : Leg),
      List.map (fun x : (((((ℝ × ℝ) × ℝ) × ℝ) × ℝ) × ℝ) =>
          (⟨x.1.1.1.1.1, x.1.1.1.1.2, x.1.1.1.2, x.1.1.2, x.1.2, x.2⟩ : Elem))
        ((((((List.zipWith (fun b a => (b + a) / 2) (t.map (·.inc)) ((p :: t).map (·.inc))).zip
          (List.zipWith (fun b a => b - a) (t.map (·.inc)) ((p :: t).map (·.inc)))).zip
          (List.zipWith (fun b a => b - a) (t.map (·.azi)) ((p :: t).map (·.azi)))).zip
          (t.map (·.weight))).zip (t.map (·.mu))).zip (List.replicate t.length r)) = parts r (p :: t) := by
    intro t
    induction t with
    | nil => intro p; rfl
    | cons q t ih =>
      intro p
      have := ih q
      simp only [List.map_cons, List.zipWith_cons_cons, List.zip_cons_cons, List.length_cons,
        List.replicate_succ, parts, between] at this ⊢
      rw [← this]
  simp only [elements, strung, arraysOf, List.map_cons, incAverage, deltas, List.length_cons,
    List.replicate_succ, List.zip_cons_cons]
  have := key t p
  simp only [List.map_cons] at this
  rw [this]

theorem parts_append (r : ℝ) (p : Leg) (R : List Leg) : ∀ U : List Leg,
    parts r (U ++ p :: R) = parts r (U ++ [p]) ++ parts r (p :: R)
  | [] => rfl
  | [u] => rfl
  | u :: u' :: t => by
    have := parts_append r p R (u' :: t)
    simp only [List.cons_append, parts] at this ⊢
    rw [this]

theorem parts_length (r : ℝ) : ∀ (p : Leg) (t : List Leg), (parts r (p :: t)).length = t.length
  | _, [] => rfl
  | _, q :: t => by simp [parts, parts_length r q t]

/-- Normal force on a straight part. -/
theorem forceNormal_straight (t i w : ℝ) : forceNormal t i 0 0 w = |w * sin i| := by
  simp [forceNormal, sqrt_sq_eq_abs]

/-- A straight part counts as much as the two parts it consists of. -/
theorem step_split (x : Loads × ℝ) {i mu r w₁ w₂ : ℝ} (h : 0 ≤ w₁ * w₂) :
    step (step x ⟨i, 0, 0, w₂, mu, r⟩) ⟨i, 0, 0, w₁, mu, r⟩ = step x ⟨i, 0, 0, w₁ + w₂, mu, r⟩ := by
  have e : |(w₁ + w₂) * sin i| = |w₁ * sin i| + |w₂ * sin i| := by
    rw [abs_mul, abs_mul, abs_mul, ← add_mul]
    congr 1
    rcases mul_nonneg_iff.mp h with ⟨a, b⟩ | ⟨a, b⟩
    · rw [abs_of_nonneg a, abs_of_nonneg b, abs_of_nonneg (add_nonneg a b)]
    · rw [abs_of_nonpos a, abs_of_nonpos b, abs_of_nonpos (add_nonpos a b)]; ring
  simp only [step, normalOf, forceNormal_straight, forceTensionDelta, torsionDelta, e]
  refine Prod.ext ?_ (by ring)
  simp only [Loads.mk.injEq]
  refine ⟨?_, ?_, ?_⟩ <;> ring

/-- `new` is the survey `old` with a further station on the straight interval below station `i`; the
weight of the string in the interval is divided between its two parts. -/
structure LegAdded (i : ℕ) (old new : List Leg) : Prop where
  split : ∃ (U B : List Leg) (p m q q' : Leg), U.length = i ∧ old = U ++ p :: q :: B ∧
    new = U ++ p :: m :: q' :: B ∧
    (q.inc = p.inc ∧ m.inc = p.inc ∧ q'.inc = p.inc) ∧ (q.azi = p.azi ∧ m.azi = p.azi ∧ q'.azi = p.azi) ∧
    q.weight = m.weight + q'.weight ∧ 0 ≤ m.weight * q'.weight ∧ m.mu = q.mu ∧ q'.mu = q.mu

theorem hang_append (s : Loads × ℝ) (a b : List Elem) : hang s (a ++ b) = hang (hang s b) a := by
  induction a with
  | nil => rfl
  | cons e t ih => simp [hang, ih]

/-- The state at a station is that of the parts below it. -/
theorem profile_parts (s : Loads × ℝ) (r : ℝ) {st : List Leg} {k : ℕ} (hk : k < st.length) :
    (profile s (rows (strung r st)))[k]? = some (hang s ((parts r st).drop k)) := by
  rw [C80_uniform_partial (strung_aligned r st) rfl s hk]
  match st, hk with
  | p :: t, _ => rw [strung_elements, List.drop_succ_cons]

section
variable {i : ℕ} {old new : List Leg} (h : LegAdded i old new)
include h

theorem legAdded_length : new.length = old.length + 1 ∧ i + 1 < old.length := by
  obtain ⟨U, B, p, m, q, q', rfl, rfl, rfl, -⟩ := h.split
  simp
  omega

theorem profile_added (s : Loads × ℝ) (r : ℝ) {k : ℕ} (hk : k < old.length) :
    (profile s (rows (strung r new)))[if k ≤ i then k else k + 1]?
      = (profile s (rows (strung r old)))[k]? := by
  have hl := legAdded_length h
  rw [profile_parts s r hk, profile_parts s r (by split_ifs <;> omega)]
  obtain ⟨U, B, p, m, q, q', rfl, rfl, rfl, ⟨a1, a2, a3⟩, ⟨b1, b2, b3⟩, hw, hs, m1, m2⟩ := h.split
  have hX : (parts r (U ++ [p])).length = U.length := by
    cases U with
    | nil => rfl
    | cons u t => rw [List.cons_append, parts_length]; simp
  have hY : parts r (q' :: B) = parts r (q :: B) := by
    cases B with
    | nil => rfl
    | cons b t => simp only [parts, between, a1, a3, b1, b3]
  have e1 : between r p m = ⟨p.inc, 0, 0, m.weight, q.mu, r⟩ := by
    simp [between, a2, b2, m1]
  have e2 : between r m q' = ⟨p.inc, 0, 0, q'.weight, q.mu, r⟩ := by
    simp [between, a2, b2, a3, b3, m2]
  have e3 : between r p q = ⟨p.inc, 0, 0, m.weight + q'.weight, q.mu, r⟩ := by
    simp [between, a1, b1, hw]
  rw [parts_append r p (q :: B), parts_append r p (m :: q' :: B)]
  simp only [parts, hY, e1, e2, e3]
  congr 1
  split_ifs with hki
  · rw [List.drop_append_of_le_length (by omega), List.drop_append_of_le_length (by omega), hang_append,
      hang_append]
    simp only [hang, step_split _ hs]
  · obtain ⟨j, rfl⟩ := Nat.exists_eq_add_of_le (show U.length + 1 ≤ k by omega)
    have n1 : List.drop (U.length + 1 + j + 1) (parts r (U ++ [p])) = [] := List.drop_eq_nil_of_le (by omega)
    have n2 : List.drop (U.length + 1 + j) (parts r (U ++ [p])) = [] := List.drop_eq_nil_of_le (by omega)
    rw [List.drop_append, List.drop_append, n1, n2, hX,
      show U.length + 1 + j + 1 - U.length = j + 1 + 1 by omega, show U.length + 1 + j - U.length = j + 1 by omega]
    rfl

/-- **C347** A further station on a straight interval changes none of the loads at the other stations: off
bottom, drilling, or with an overpull. -/
theorem C347_loads (r : ℝ) (wob tob overpull : Option ℝ) (f : Profiles → Option (List ℝ))
    (hf : f ∈ [Profiles.pickup, Profiles.slackoff, Profiles.rotating, Profiles.drilling, Profiles.sliding,
      Profiles.overpull, Profiles.torqueRotating, Profiles.torqueDrilling]) {P : Profiles}
    (hP : getForces (strung r old) wob tob overpull {} = .ok P) {l : List ℝ} (hl : f P = some l) :
    ∃ P' l', getForces (strung r new) wob tob overpull {} = .ok P' ∧ f P' = some l' ∧
      ∀ k < old.length, l'[if k ≤ i then k else k + 1]? = l[k]? := by
  unfold getForces at hP ⊢
  split_ifs at hP ⊢ with hc
  simp only [Except.ok.injEq] at hP
  generalize hs : ((⟨valueOf overpull, -valueOf wob, -valueOf wob⟩, valueOf tob) : Loads × ℝ) = s at hP ⊢
  have key : ∀ g : Loads × ℝ → ℝ, ∀ k < old.length,
      ((profile s (rows (strung r new))).map g)[if k ≤ i then k else k + 1]?
        = ((profile s (rows (strung r old))).map g)[k]? := by
    intro g k hk
    rw [List.getElem?_map, List.getElem?_map, profile_added h s r hk]
  subst hP
  simp only [List.mem_cons, List.not_mem_nil, or_false] at hf
  by_cases hw : truthy wob <;> by_cases ht : truthy tob <;> by_cases ho : truthy overpull <;>
    rcases hf with rfl | rfl | rfl | rfl | rfl | rfl | rfl | rfl <;>
    simp only [store, hw, ht, ho, if_true, if_false, Option.some.injEq, reduceCtorEq] at hl <;>
    subst hl <;>
    exact ⟨_, _, rfl, by simp only [store, hw, ht, ho, if_true, if_false], key _⟩

end

/-- Non-vacuity: a slant well at 60°, whose lower interval of weight 30 is divided into 10 and 20. -/
example : ∃ P l, LegAdded 1 [⟨π / 3, 0, 0, 0⟩, ⟨π / 3, 0, 25, 0.3⟩, ⟨π / 3, 0, 30, 0.3⟩]
      [⟨π / 3, 0, 0, 0⟩, ⟨π / 3, 0, 25, 0.3⟩, ⟨π / 3, 0, 10, 0.3⟩, ⟨π / 3, 0, 20, 0.3⟩] ∧
    getForces (strung 0.1 [⟨π / 3, 0, 0, 0⟩, ⟨π / 3, 0, 25, 0.3⟩, ⟨π / 3, 0, 30, 0.3⟩]) none none none {} = .ok P ∧
    P.pickup = some l := by
  obtain ⟨out, pu, -, -, h1, h2, -⟩ := C41_off_bottom
    (strung 0.1 [⟨π / 3, 0, 0, 0⟩, ⟨π / 3, 0, 25, 0.3⟩, ⟨π / 3, 0, 30, 0.3⟩])
    (by simp [strung, arraysOf]; norm_num) {}
  exact ⟨out, pu, ⟨[⟨π / 3, 0, 0, 0⟩], [], ⟨π / 3, 0, 25, 0.3⟩, ⟨π / 3, 0, 10, 0.3⟩, ⟨π / 3, 0, 30, 0.3⟩,
    ⟨π / 3, 0, 20, 0.3⟩, rfl, rfl, rfl, ⟨rfl, rfl, rfl⟩, ⟨rfl, rfl, rfl⟩, by norm_num, by norm_num, rfl, rfl⟩,
    h1, h2⟩

end Welleng.Props
