import Verif.Props.TorqueDrag
import Mathlib.Tactic.LinearCombination
import Mathlib.Tactic.Positivity
import Mathlib.Tactic.FinCases
import Mathlib.Data.List.Forall2

/-! C318: how loads change with friction.  C319: loads are proportional to the weights. -/

namespace Welleng.Props

open Real Td

/-! ### C318 -/

/-- How far an element turns: the factor of the tension in its contact force. -/
noncomputable def turnOf (e : Elem) : ℝ := √((e.aziDelta * sin e.incAvg) ^ 2 + e.incDelta ^ 2)

/-- Triangle inequality in the plane. -/
theorem sqrt_triangle (a b c d : ℝ) :
    √((a + c) ^ 2 + (b + d) ^ 2) ≤ √(a ^ 2 + b ^ 2) + √(c ^ 2 + d ^ 2) := by
  have h1 := sqrt_nonneg (a ^ 2 + b ^ 2)
  have h2 := sqrt_nonneg (c ^ 2 + d ^ 2)
  have e1 : √(a ^ 2 + b ^ 2) ^ 2 = a ^ 2 + b ^ 2 := sq_sqrt (by positivity)
  have e2 : √(c ^ 2 + d ^ 2) ^ 2 = c ^ 2 + d ^ 2 := sq_sqrt (by positivity)
  have h3 : a * c + b * d ≤ √(a ^ 2 + b ^ 2) * √(c ^ 2 + d ^ 2) := by
    refine le_of_abs_le (abs_le_of_sq_le_sq ?_ (mul_nonneg h1 h2))
    rw [mul_pow, e1, e2]
    nlinarith [sq_nonneg (a * d - b * c)]
  rw [sqrt_le_left (by positivity)]
  nlinarith

/-- The contact force changes by at most the turn of the element times the change of the tension. -/
theorem forceNormal_le (e : Elem) (t t' : ℝ) :
    forceNormal t e.incAvg e.incDelta e.aziDelta e.weight
      ≤ forceNormal t' e.incAvg e.incDelta e.aziDelta e.weight + turnOf e * |t - t'| := by
  have h := sqrt_triangle (t' * e.aziDelta * sin e.incAvg) (t' * e.incDelta + e.weight * sin e.incAvg)
    ((t - t') * e.aziDelta * sin e.incAvg) ((t - t') * e.incDelta)
  have e1 : √(((t - t') * e.aziDelta * sin e.incAvg) ^ 2 + ((t - t') * e.incDelta) ^ 2)
      = turnOf e * |t - t'| := by
    unfold turnOf
    rw [← sqrt_sq_eq_abs, ← sqrt_mul (by positivity)]
    congr 1; ring
  rw [e1] at h
  unfold forceNormal
  refine le_trans (le_of_eq ?_) h
  congr 1; ring

/-- The same element with more friction. -/
def MoreFriction (e e' : Elem) : Prop :=
  e.incAvg = e'.incAvg ∧ e.incDelta = e'.incDelta ∧ e.aziDelta = e'.aziDelta ∧ e.weight = e'.weight ∧
    e.radius = e'.radius ∧ e.mu ≤ e'.mu

/-- What is compared of two calculations at a station: picking up takes no less, slacking off leaves no
more, the rotating tension is the same and the torque no less. -/
def Harder (x y : Loads × ℝ) : Prop :=
  x.1.pickup ≤ y.1.pickup ∧ y.1.slackoff ≤ x.1.slackoff ∧ x.1.rotating = y.1.rotating ∧ x.2 ≤ y.2

theorem step_harder {x y : Loads × ℝ} {e e' : Elem} (h : Harder x y) (he : MoreFriction e e')
    (h0 : 0 ≤ e.mu) (h1 : e.mu * turnOf e ≤ 1) (hr : 0 ≤ e.radius) : Harder (step x e) (step y e') := by
  obtain ⟨e1, e2, e3, e4, e5, e6⟩ := he
  obtain ⟨p, q, r, s⟩ := h
  have f1 := forceNormal_le e x.1.pickup y.1.pickup
  have f2 := forceNormal_le e x.1.slackoff y.1.slackoff
  rw [abs_of_nonpos (by linarith)] at f1
  rw [abs_of_nonneg (by linarith)] at f2
  have f3 := forceNormal_le e y.1.slackoff x.1.slackoff
  rw [abs_of_nonpos (by linarith)] at f3
  refine ⟨?_, ?_, ?_, ?_⟩ <;> simp only [step, forceTensionDelta, normalOf, torsionDelta, ← e1, ← e2, ← e3,
    ← e4, ← e5, ← r]
  · have n := forceNormal_nonneg y.1.pickup e.incAvg e.incDelta e.aziDelta e.weight
    have g1 := mul_le_mul_of_nonneg_left f1 h0
    have g2 := mul_le_mul_of_nonneg_right e6 n
    have g3 : e.mu * turnOf e * (y.1.pickup - x.1.pickup) ≤ 1 * (y.1.pickup - x.1.pickup) :=
      mul_le_mul_of_nonneg_right h1 (by linarith)
    linarith
  · have n := forceNormal_nonneg y.1.slackoff e.incAvg e.incDelta e.aziDelta e.weight
    have g1 := mul_le_mul_of_nonneg_left f2 h0
    have g2 := mul_le_mul_of_nonneg_right e6 n
    have g3 : e.mu * turnOf e * (x.1.slackoff - y.1.slackoff) ≤ 1 * (x.1.slackoff - y.1.slackoff) :=
      mul_le_mul_of_nonneg_right h1 (by linarith)
    linarith
  · ring
  · have n := forceNormal_nonneg x.1.rotating e.incAvg e.incDelta e.aziDelta e.weight
    have g2 := mul_le_mul_of_nonneg_right (mul_le_mul_of_nonneg_right e6 n) hr
    linarith

theorem states_harder : ∀ {es es' : List Elem}, List.Forall₂ MoreFriction es es' →
    (∀ e ∈ es, 0 ≤ e.mu ∧ e.mu * turnOf e ≤ 1 ∧ 0 ≤ e.radius) → ∀ {x y : Loads × ℝ}, Harder x y →
    List.Forall₂ Harder (states x es) (states y es') := by
  intro es es' h
  induction h with
  | nil => intro _ x y hxy; exact .cons hxy .nil
  | cons he _ ih =>
    intro hm x y hxy
    have hm' := hm _ List.mem_cons_self
    exact .cons hxy (ih (fun e he => hm e (List.mem_cons_of_mem _ he))
      (step_harder hxy he hm'.1 hm'.2.1 hm'.2.2))

theorem profile_harder {es es' : List Elem} (h : List.Forall₂ MoreFriction es es')
    (hm : ∀ e ∈ es, 0 ≤ e.mu ∧ e.mu * turnOf e ≤ 1 ∧ 0 ≤ e.radius) (s : Loads × ℝ) :
    List.Forall₂ Harder (profile s es) (profile s es') := by
  have := states_harder h hm (x := s) (y := s) ⟨le_rfl, le_rfl, rfl, le_rfl⟩
  exact List.forall₂_drop 1 (List.rel_reverse this)

/-- The arrays of a calculation with other friction factors. -/
def _root_.Welleng.Td.Arrays.withMu (a : Arrays) (mu : List ℝ) : Arrays := { a with mu := mu }

theorem rows_withMu (a : Arrays) {mu : List ℝ} (h : List.Forall₂ (· ≤ ·) a.mu mu) :
    List.Forall₂ MoreFriction (rows a) (rows (a.withMu mu)) := by
  unfold rows Arrays.withMu
  simp only
  rw [List.forall₂_map_left_iff, List.forall₂_map_right_iff]
  generalize (((a.incAvg.take a.index).reverse.zip (a.incDelta.take a.index).reverse).zip
      ((a.aziDelta.take a.index).reverse)).zip a.weight.reverse = z
  have hm : List.Forall₂ (· ≤ ·) (a.mu.take a.index).reverse (mu.take a.index).reverse :=
    List.rel_reverse (List.forall₂_take a.index h)
  generalize (a.mu.take a.index).reverse = m at hm
  generalize (mu.take a.index).reverse = m' at hm
  generalize a.radius = rs
  induction hm generalizing z rs with
  | nil => simp
  | cons hle _ ih =>
    cases z with
    | nil => simp
    | cons y z =>
      cases rs with
      | nil => simp
      | cons r rs =>
        simp only [List.zip_cons_cons]
        exact .cons ⟨rfl, rfl, rfl, rfl, rfl, hle⟩ (ih z rs)

/-- **C318** With more friction in some or all elements, at every station picking up takes no less,
slacking off leaves no more and turning takes no less torque, while the rotating tension stays the same:
for any weight and torque on bit and any overpull, as long as friction times turn is at most one in each
element. -/
theorem C318_more_friction (a : Arrays) {mu : List ℝ} (h : List.Forall₂ (· ≤ ·) a.mu mu)
    (h0 : ∀ m ∈ a.mu, 0 ≤ m) (hr : ∀ r ∈ a.radius, 0 ≤ r) (h1 : ∀ e ∈ rows a, e.mu * turnOf e ≤ 1)
    (wob tob overpull : Option ℝ) {out : Profiles}
    (ho : getForces a wob tob overpull {} = .ok out) :
    ∃ out', getForces (a.withMu mu) wob tob overpull {} = .ok out' ∧
      Option.Rel (List.Forall₂ (· ≤ ·)) out.pickup out'.pickup ∧
      Option.Rel (List.Forall₂ (· ≤ ·)) out.overpull out'.overpull ∧
      Option.Rel (List.Forall₂ (· ≤ ·)) out'.slackoff out.slackoff ∧
      Option.Rel (List.Forall₂ (· ≤ ·)) out'.sliding out.sliding ∧
      out'.rotating = out.rotating ∧ out'.drilling = out.drilling ∧
      Option.Rel (List.Forall₂ (· ≤ ·)) out.torqueRotating out'.torqueRotating ∧
      Option.Rel (List.Forall₂ (· ≤ ·)) out.torqueDrilling out'.torqueDrilling := by
  have hp := profile_harder (rows_withMu a h) (fun e he => ⟨h0 _ (mem_rows he).1, h1 e he,
    hr _ (mem_rows he).2⟩) (⟨valueOf overpull, -valueOf wob, -valueOf wob⟩, valueOf tob)
  unfold getForces at ho ⊢
  split at ho
  · simp at ho
  rename_i hc
  rw [if_neg hc]
  injection ho with ho
  subst ho
  refine ⟨_, rfl, ?_⟩
  generalize profile _ (rows a) = l at hp ⊢
  generalize profile _ (rows (a.withMu mu)) = l' at hp ⊢
  have p1 : List.Forall₂ (· ≤ ·) (l.map fun x => x.1.pickup) (l'.map fun x => x.1.pickup) := by
    rw [List.forall₂_map_left_iff, List.forall₂_map_right_iff]; exact hp.imp fun _ _ h => h.1
  have p2 : List.Forall₂ (· ≤ ·) (l'.map fun x => x.1.slackoff) (l.map fun x => x.1.slackoff) := by
    rw [List.forall₂_map_left_iff, List.forall₂_map_right_iff]; exact hp.flip.imp fun _ _ h => h.2.1
  have p3 : (l'.map fun x => x.1.rotating) = l.map fun x => x.1.rotating := by
    have : List.Forall₂ Eq (l'.map fun x => x.1.rotating) (l.map fun x => x.1.rotating) := by
      rw [List.forall₂_map_left_iff, List.forall₂_map_right_iff]
      exact hp.flip.imp fun _ _ h => h.2.2.1.symm
    exact List.forall₂_eq_eq_eq ▸ this
  have p4 : List.Forall₂ (· ≤ ·) (l.map fun x => x.2) (l'.map fun x => x.2) := by
    rw [List.forall₂_map_left_iff, List.forall₂_map_right_iff]; exact hp.imp fun _ _ h => h.2.2.2
  unfold store
  by_cases w : truthy wob <;> by_cases t : truthy tob <;> by_cases o : truthy overpull <;>
    simp [w, t, o, p1, p2, p3, p4, Option.rel_some_some, Option.rel_none_none]

/-- Non-vacuity: the sample with half the friction. -/
example : List.Forall₂ (· ≤ ·) (sample.withMu [1 / 2, 1 / 2, 1 / 2]).mu sample.mu ∧
    (∀ e ∈ rows (sample.withMu [1 / 2, 1 / 2, 1 / 2]), e.mu * turnOf e ≤ 1) ∧
    ∃ out, getForces (sample.withMu [1 / 2, 1 / 2, 1 / 2]) none none none {} = .ok out := by
  refine ⟨?_, ?_, ?_⟩
  · simp only [sample, Arrays.withMu]
    refine .cons ?_ (.cons ?_ (.cons ?_ .nil)) <;> norm_num
  · simp [rows, sample, Arrays.withMu, turnOf]
  · exact ⟨_, by simp [getForces]; rfl⟩

/-- **C318** The limit on friction times turn is needed: an element that turns by two radians, above one
with more friction. -/
theorem C318_limit_needed : ∃ (a : Arrays) (mu : List ℝ), List.Forall₂ (· ≤ ·) a.mu mu ∧
    (∀ m ∈ a.mu, 0 ≤ m) ∧ (∀ m ∈ mu, m ≤ 1) ∧ (∀ r ∈ a.radius, 0 ≤ r) ∧
    ∃ out out' x x' t t', getForces a none none none {} = .ok out ∧
      getForces (a.withMu mu) none none none {} = .ok out' ∧ out.pickup = some (x :: t) ∧
      out'.pickup = some (x' :: t') ∧ x' < x := by
  refine ⟨⟨[0, π / 2, π / 2], [0, -2, 0], [0, 0, 0], [0, 4, 1], [1, 1, 0], [1, 1, 1], 3⟩, [1, 1, 1],
    ?_, ?_, ?_, ?_, ?_⟩
  · exact .cons le_rfl (.cons le_rfl (.cons (by norm_num) .nil))
  · simp
  · simp
  · simp
  · have r : ∀ m : ℝ, rows ⟨[0, π / 2, π / 2], [0, -2, 0], [0, 0, 0], [0, 4, 1], [1, 1, m], [1, 1, 1], 3⟩
        = [⟨π / 2, 0, 0, 1, m, 1⟩, ⟨π / 2, -2, 0, 4, 1, 1⟩, ⟨0, 0, 0, 0, 1, 1⟩] := fun m => by simp [rows]
    have g : ∀ m : ℝ, 0 ≤ m → m ≤ 1 → ∃ out, getForces ⟨[0, π / 2, π / 2], [0, -2, 0], [0, 0, 0],
        [0, 4, 1], [1, 1, m], [1, 1, 1], 3⟩ none none none {} = .ok out ∧
        out.pickup = some [4 - m, m, 0] := by
      intro m h0 h1
      simp only [getForces, store, not_truthy_none, valueOf_none, or_self, false_and, if_false, r]
      refine ⟨_, rfl, ?_⟩
      have e1 : forceNormal 0 (π / 2) 0 0 1 = 1 := by simp [forceNormal]
      have e2 : forceNormal m (π / 2) (-2) 0 4 = 4 - 2 * m := by
        unfold forceNormal
        rw [sin_pi_div_two, show (m * 0 * 1) ^ 2 + (m * -2 + 4 * 1) ^ 2 = (4 - 2 * m) ^ 2 by ring,
          sqrt_sq (by linarith)]
      simp [profile, states, step, normalOf, forceTensionDelta, e1, e2]
      ring
    obtain ⟨o1, g1, g2⟩ := g 0 le_rfl zero_le_one
    obtain ⟨o2, g3, g4⟩ := g 1 zero_le_one le_rfl
    exact ⟨o1, o2, _, _, _, _, g1, g3, g2, g4, by norm_num⟩

/-! ### C319 -/

/-- Loads `c` times as large. -/
def _root_.Welleng.Td.Loads.times (c : ℝ) (l : Loads) : Loads := ⟨c * l.pickup, c * l.slackoff, c * l.rotating⟩

/-- An element `c` times as heavy. -/
def heavier (c : ℝ) (e : Elem) : Elem := { e with weight := c * e.weight }

theorem forceNormal_times {c : ℝ} (hc : 0 ≤ c) (t i d z w : ℝ) :
    forceNormal (c * t) i d z (c * w) = c * forceNormal t i d z w := by
  unfold forceNormal
  rw [← sqrt_sq hc, ← sqrt_mul (sq_nonneg _), sqrt_sq hc]
  congr 1; ring

theorem step_times {c : ℝ} (hc : 0 ≤ c) (s : Loads × ℝ) (e : Elem) :
    step (s.1.times c, c * s.2) (heavier c e) = ((step s e).1.times c, c * (step s e).2) := by
  simp only [step, heavier, normalOf, Loads.times, forceTensionDelta, torsionDelta, forceNormal_times hc]
  congr 1
  · congr 1 <;> ring
  · ring

theorem states_times {c : ℝ} (hc : 0 ≤ c) (es : List Elem) (s : Loads × ℝ) :
    states (s.1.times c, c * s.2) (es.map (heavier c))
      = (states s es).map fun x => (x.1.times c, c * x.2) := by
  induction es generalizing s with
  | nil => rfl
  | cons e t ih =>
    simp only [List.map_cons, states, step_times hc, ih]

theorem rows_times (c : ℝ) (a : Arrays) :
    rows { a with weight := a.weight.map (c * ·) } = (rows a).map (heavier c) := by
  unfold rows
  simp only [List.map_map, ← List.map_reverse, List.zip_map_right, List.zip_map_left]
  rfl

/-- Each list of the profiles multiplied by `c`. -/
def _root_.Welleng.Td.Profiles.times (c : ℝ) (p : Profiles) : Profiles :=
  ⟨p.pickup.map (·.map (c * ·)), p.slackoff.map (·.map (c * ·)), p.rotating.map (·.map (c * ·)),
    p.drilling.map (·.map (c * ·)), p.sliding.map (·.map (c * ·)), p.overpull.map (·.map (c * ·)),
    p.torqueRotating.map (·.map (c * ·)), p.torqueDrilling.map (·.map (c * ·))⟩

theorem truthy_times {c : ℝ} (hc : c ≠ 0) (o : Option ℝ) : truthy (o.map (c * ·)) ↔ truthy o := by
  cases o <;> simp [truthy, hc]

theorem valueOf_times (c : ℝ) (o : Option ℝ) : valueOf (o.map (c * ·)) = c * valueOf o := by
  cases o with
  | none => simp
  | some x => rw [Option.map_some, valueOf_some, valueOf_some]

/-- **C319** Every load is proportional to the weights: with all weights, the weight and torque on bit and
the overpull multiplied by a positive number, all tensions and torques are multiplied by it. -/
theorem C319_proportional {c : ℝ} (hc : 0 < c) (a : Arrays) (wob tob overpull : Option ℝ) (p : Profiles) :
    getForces { a with weight := a.weight.map (c * ·) } (wob.map (c * ·)) (tob.map (c * ·))
        (overpull.map (c * ·)) (p.times c)
      = (getForces a wob tob overpull p).map (Profiles.times c) := by
  have e : profile (⟨valueOf (overpull.map (c * ·)), -valueOf (wob.map (c * ·)),
        -valueOf (wob.map (c * ·))⟩, valueOf (tob.map (c * ·)))
      (rows { a with weight := a.weight.map (c * ·) })
      = (profile (⟨valueOf overpull, -valueOf wob, -valueOf wob⟩, valueOf tob) (rows a)).map
        fun x => (x.1.times c, c * x.2) := by
    unfold profile
    have := states_times hc.le (rows a) (⟨valueOf overpull, -valueOf wob, -valueOf wob⟩, valueOf tob)
    simp only [Loads.times, mul_neg] at this
    rw [rows_times, valueOf_times, valueOf_times, valueOf_times, this]
    simp only [List.map_drop, List.map_reverse, Loads.times]
  unfold getForces
  rw [e]
  generalize profile _ (rows a) = l
  have tw := truthy_times hc.ne' wob
  have tt := truthy_times hc.ne' tob
  have tov := truthy_times hc.ne' overpull
  generalize wob.map (c * ·) = wob' at *
  generalize tob.map (c * ·) = tob' at *
  generalize overpull.map (c * ·) = overpull' at *
  unfold store
  by_cases w : truthy wob <;> by_cases t : truthy tob <;> by_cases o : truthy overpull <;>
    simp [w, t, o, tw, tt, tov, Except.map, Profiles.times, Loads.times, Function.comp_def]

/-- Non-vacuity: the sample string twice as heavy. -/
example : ∃ out, getForces { sample with weight := sample.weight.map (2 * ·) } none none none {} = .ok out ∧
    out.pickup = some [4, 2, 0] := by
  have r : rows { sample with weight := sample.weight.map (2 * ·) }
      = [⟨π / 2, 0, 0, 2, 1, 1⟩, ⟨π / 2, 0, 0, 2, 1, 1⟩, ⟨0, 0, 0, 0, 1, 2⟩] := by
    simp [rows, sample]
  have e : ∀ t, forceNormal t (π / 2) 0 0 2 = 2 := fun t => by simp [forceNormal]
  simp only [getForces, store, not_truthy_none, valueOf_none, or_self, false_and, if_false, r]
  refine ⟨_, rfl, ?_⟩
  simp [profile, states, step, normalOf, forceTensionDelta, e]
  norm_num

end Welleng.Props
