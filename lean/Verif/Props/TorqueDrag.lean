import Verif.Model.TorqueDrag
import Verif.Props.ConnectorGrid
import Mathlib.Data.List.Forall2

/-!
C41, C42, C78-C84: torque and drag.
-/

namespace Welleng.Props

open Real Td

/-! ### The loop -/

theorem forceNormal_nonneg (t i d z w : ℝ) : 0 ≤ forceNormal t i d z w := sqrt_nonneg _

/-- An invariant of the loop holds at every station. -/
theorem states_inv {P : Loads × ℝ → Prop} {es : List Elem}
    (hstep : ∀ s e, e ∈ es → P s → P (step s e)) :
    ∀ {s}, P s → ∀ x ∈ states s es, P x := by
  induction es with
  | nil => intro s hs x hx; simp only [states, List.mem_singleton] at hx; exact hx ▸ hs
  | cons e t ih =>
    intro s hs x hx
    simp only [states, List.mem_cons] at hx
    rcases hx with rfl | hx
    · exact hs
    · exact ih (fun s e he => hstep s e (List.mem_cons_of_mem _ he))
        (hstep s e List.mem_cons_self hs) x hx

theorem profile_inv {P : Loads × ℝ → Prop} {es : List Elem} {s : Loads × ℝ}
    (hstep : ∀ s e, e ∈ es → P s → P (step s e)) (hs : P s) :
    ∀ x ∈ profile s es, P x := by
  intro x hx
  have := List.mem_of_mem_drop hx
  rw [List.mem_reverse] at this
  exact states_inv hstep hs x this

theorem mem_rows {a : Arrays} {e : Elem} (h : e ∈ rows a) : e.mu ∈ a.mu ∧ e.radius ∈ a.radius := by
  unfold rows at h
  rw [List.mem_map] at h
  obtain ⟨r, hr, rfl⟩ := h
  obtain ⟨h1, h2⟩ := List.of_mem_zip (a := r.1) (b := r.2) hr
  obtain ⟨-, h3⟩ := List.of_mem_zip (a := r.1.1) (b := r.1.2) h1
  exact ⟨List.mem_of_mem_take (List.mem_reverse.mp h3), h2⟩

/-- The order of the load cases is kept by an element with non-negative friction. -/
theorem step_ordered {s : Loads × ℝ} {e : Elem} (hmu : 0 ≤ e.mu)
    (h : s.1.slackoff ≤ s.1.rotating ∧ s.1.rotating ≤ s.1.pickup) :
    (step s e).1.slackoff ≤ (step s e).1.rotating ∧
      (step s e).1.rotating ≤ (step s e).1.pickup := by
  have h1 := mul_nonneg hmu
    (forceNormal_nonneg s.1.pickup e.incAvg e.incDelta e.aziDelta e.weight)
  have h2 := mul_nonneg hmu
    (forceNormal_nonneg s.1.slackoff e.incAvg e.incDelta e.aziDelta e.weight)
  simp only [step, forceTensionDelta, normalOf]
  constructor <;> linarith

theorem profile_ordered {a : Arrays} (hmu : ∀ m ∈ a.mu, 0 ≤ m) {s : Loads × ℝ}
    (h : s.1.slackoff ≤ s.1.rotating ∧ s.1.rotating ≤ s.1.pickup) :
    ∀ x ∈ profile s (rows a),
      x.1.slackoff ≤ x.1.rotating ∧ x.1.rotating ≤ x.1.pickup :=
  profile_inv (P := fun x => x.1.slackoff ≤ x.1.rotating ∧ x.1.rotating ≤ x.1.pickup)
    (fun _ e he hs => step_ordered (hmu _ (mem_rows he).1) hs) h

theorem forall₂_of_mem {α : Type} {f g : α → ℝ} {l : List α} (h : ∀ x ∈ l, f x ≤ g x) :
    List.Forall₂ (· ≤ ·) (l.map f) (l.map g) := by
  induction l with
  | nil => simp
  | cons x t ih =>
    simp only [List.map_cons, List.forall₂_cons]
    exact ⟨h x List.mem_cons_self, ih fun y hy => h y (List.mem_cons_of_mem _ hy)⟩

@[simp] theorem not_truthy_none : ¬ truthy none := by simp [truthy]

theorem truthy_some {x : ℝ} (h : x ≠ 0) : truthy (some x) := ⟨x, rfl, h⟩

@[simp] theorem valueOf_none : valueOf none = 0 := by simp [valueOf]

theorem valueOf_some (x : ℝ) : valueOf (some x) = x := by
  unfold valueOf
  by_cases h : x = 0
  · subst h; simp [truthy]
  · rw [if_pos (truthy_some h)]; rfl

/-! ### C41 -/

/-- C41: without weight on bit and overpull, at every station the slack-off tension is at most
the rotating tension, and that at most the pick-up tension. -/
theorem C41_off_bottom (a : Arrays) (hmu : ∀ m ∈ a.mu, 0 ≤ m) (p : Profiles) :
    ∃ out pu ro so, getForces a none none none p = .ok out ∧
      out.pickup = some pu ∧ out.rotating = some ro ∧ out.slackoff = some so ∧
      List.Forall₂ (· ≤ ·) so ro ∧ List.Forall₂ (· ≤ ·) ro pu := by
  have h := profile_ordered hmu (s := (⟨0, -0, -0⟩, 0)) (by simp)
  simp only [getForces, store, not_truthy_none, valueOf_none, or_self, false_and, if_false]
  exact ⟨_, _, _, _, rfl, rfl, rfl, rfl, forall₂_of_mem fun x hx => (h x hx).1,
    forall₂_of_mem fun x hx => (h x hx).2⟩

/-- C41: with a weight on bit (and a torque on bit), the sliding tension is at most the drilling
tension at every station. -/
theorem C41_drilling (a : Arrays) (hmu : ∀ m ∈ a.mu, 0 ≤ m) (p : Profiles) {wob tob : ℝ}
    (hw : 0 < wob) (ht : tob ≠ 0) (overpull : Option ℝ) :
    ∃ out dr sl, getForces a (some wob) (some tob) overpull p = .ok out ∧
      out.drilling = some dr ∧ out.sliding = some sl ∧ List.Forall₂ (· ≤ ·) sl dr := by
  have h := profile_inv (es := rows a)
    (P := fun x => x.1.slackoff ≤ x.1.rotating)
    (s := (⟨valueOf overpull, -wob, -wob⟩, tob))
    (fun s e he hs => by
      have h2 := mul_nonneg (hmu _ (mem_rows he).1)
        (forceNormal_nonneg s.1.slackoff e.incAvg e.incDelta e.aziDelta e.weight)
      simp only [step, forceTensionDelta, normalOf]
      linarith) (le_refl _)
  have h1 := truthy_some hw.ne'
  have h2 := truthy_some ht
  by_cases h3 : truthy overpull
  · simp only [getForces, store, h1, h2, h3, valueOf_some, and_self, not_true_eq_false, and_false,
      if_true, if_false]
    exact ⟨_, _, _, rfl, rfl, rfl, forall₂_of_mem h⟩
  · simp only [getForces, store, h1, h2, h3, valueOf_some, and_self, not_true_eq_false, and_false,
      if_true, if_false]
    exact ⟨_, _, _, rfl, rfl, rfl, forall₂_of_mem h⟩

/-- C41: an overpull at the bit gives at least the rotating tension at every station. -/
theorem C41_overpull (a : Arrays) (hmu : ∀ m ∈ a.mu, 0 ≤ m) (p : Profiles) {over : ℝ}
    (ho : 0 < over) :
    ∃ out ov ro so, getForces a none none (some over) p = .ok out ∧
      out.overpull = some ov ∧ out.rotating = some ro ∧ out.slackoff = some so ∧
      List.Forall₂ (· ≤ ·) so ro ∧ List.Forall₂ (· ≤ ·) ro ov := by
  have h := profile_ordered hmu (s := (⟨over, -0, -0⟩, 0)) (by simp [ho.le])
  have h3 := truthy_some ho.ne'
  simp only [getForces, store, h3, not_truthy_none, valueOf_none, valueOf_some, or_self, false_and,
    if_false, if_true]
  exact ⟨_, _, _, _, rfl, rfl, rfl, rfl, forall₂_of_mem fun x hx => (h x hx).1,
    forall₂_of_mem fun x hx => (h x hx).2⟩

theorem states_head (s : Loads × ℝ) (es : List Elem) : ∃ t, states s es = s :: t := by
  cases es <;> simp [states]

theorem states_torque {es : List Elem} (h : ∀ e ∈ es, 0 ≤ e.mu ∧ 0 ≤ e.radius) (s : Loads × ℝ) :
    ((states s es).map (·.2)).IsChain (· ≤ ·) := by
  induction es generalizing s with
  | nil => simp [states]
  | cons e t ih =>
    obtain ⟨r, hr⟩ := states_head (step s e) t
    have := ih (fun e he => h e (List.mem_cons_of_mem _ he)) (step s e)
    simp only [states]
    rw [hr] at this ⊢
    simp only [List.map_cons] at this ⊢
    refine List.IsChain.cons_cons ?_ this
    have h1 := h e List.mem_cons_self
    have := mul_nonneg (mul_nonneg h1.1 (forceNormal_nonneg s.1.rotating e.incAvg e.incDelta
      e.aziDelta e.weight)) h1.2
    simp only [step, torsionDelta, normalOf]
    linarith

/-- C41: the torque is non-negative and does not decrease towards surface (profiles are listed
from surface downwards). -/
theorem C41_torque (a : Arrays) (hmu : ∀ m ∈ a.mu, 0 ≤ m) (hr : ∀ r ∈ a.radius, 0 ≤ r)
    (p : Profiles) (overpull : Option ℝ) :
    ∃ out tq, getForces a none none overpull p = .ok out ∧ out.torqueRotating = some tq ∧
      tq.IsChain (· ≥ ·) ∧ ∀ x ∈ tq, 0 ≤ x := by
  have hrow : ∀ e ∈ rows a, 0 ≤ e.mu ∧ 0 ≤ e.radius := fun e he =>
    ⟨hmu _ (mem_rows he).1, hr _ (mem_rows he).2⟩
  have hnn := profile_inv (es := rows a) (P := fun x => 0 ≤ x.2)
    (s := (⟨valueOf overpull, -0, -0⟩, 0))
    (fun s e he hs => by
      have := mul_nonneg (mul_nonneg (hrow e he).1 (forceNormal_nonneg s.1.rotating e.incAvg
        e.incDelta e.aziDelta e.weight)) (hrow e he).2
      simp only [step, torsionDelta, normalOf]
      linarith) (le_refl _)
  have hch : ((profile (⟨valueOf overpull, -0, -0⟩, 0) (rows a)).map (·.2)).IsChain (· ≥ ·) := by
    have := states_torque hrow (⟨valueOf overpull, -0, -0⟩, 0)
    unfold profile
    rw [List.map_drop, List.map_reverse]
    exact (List.isChain_reverse.mpr this).drop 1
  by_cases h3 : truthy overpull
  · simp only [getForces, store, h3, not_truthy_none, valueOf_none, or_self, false_and, if_false,
      if_true]
    refine ⟨_, _, rfl, rfl, hch, ?_⟩
    intro x hx
    obtain ⟨y, hy, rfl⟩ := List.mem_map.mp hx
    exact hnn y hy
  · simp only [getForces, store, h3, not_truthy_none, valueOf_none, or_self, false_and, if_false]
    refine ⟨_, _, rfl, rfl, hch, ?_⟩
    intro x hx
    obtain ⟨y, hy, rfl⟩ := List.mem_map.mp hx
    exact hnn y hy

/-- A horizontal string of two elements. -/
noncomputable def sample : Arrays :=
  ⟨[0, π / 2, π / 2], [0, 0, 0], [0, 0, 0], [0, 1, 1], [1, 1, 1], [1, 1, 2], 3⟩

theorem sample_rows : rows sample =
    [⟨π / 2, 0, 0, 1, 1, 1⟩, ⟨π / 2, 0, 0, 1, 1, 1⟩, ⟨0, 0, 0, 0, 1, 2⟩] := by
  simp [rows, sample]

example : (∀ m ∈ sample.mu, 0 ≤ m) ∧ ∀ r ∈ sample.radius, 0 ≤ r := by simp [sample]

/-- In the sample the three load cases differ at surface. -/
example : (profile (⟨0, 0, 0⟩, 0) (rows sample)).head?.map (·.1.pickup) = some 2 ∧
    (profile (⟨0, 0, 0⟩, 0) (rows sample)).head?.map (·.1.slackoff) = some (-2) := by
  rw [sample_rows]
  simp [profile, states, step, normalOf, forceNormal, forceTensionDelta]
  norm_num

end Welleng.Props
