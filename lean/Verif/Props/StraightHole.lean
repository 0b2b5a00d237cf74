import Verif.Props.VerticalHole

/-!
C417: the loads of a string in a straight inclined hole.
-/

namespace Welleng.Props

open Real Td

/-- The arrays of a string of elements of weights `ws` in a straight hole of inclination `i` and
azimuth `z`, with one friction factor and one radius. -/
noncomputable def straightHole (i z mu r : ℝ) (ws : List ℝ) : Arrays :=
  ⟨incAverage (List.replicate (ws.length + 1) i), deltas (List.replicate (ws.length + 1) i),
    deltas (List.replicate (ws.length + 1) z), 0 :: ws, List.replicate (ws.length + 1) mu,
    List.replicate (ws.length + 1) r, ws.length + 1⟩

theorem zipWith_replicate' (f : ℝ → ℝ → ℝ) (x : ℝ) (n : ℕ) :
    List.zipWith f (List.replicate n x) (List.replicate (n + 1) x) = List.replicate n (f x x) := by
  rw [List.zipWith_replicate]; congr 1; omega

theorem straight_arrays (i z mu r : ℝ) (ws : List ℝ) :
    straightHole i z mu r ws = ⟨0 :: List.replicate ws.length i, 0 :: List.replicate ws.length 0,
      0 :: List.replicate ws.length 0, 0 :: ws, List.replicate (ws.length + 1) mu,
      List.replicate (ws.length + 1) r, ws.length + 1⟩ := by
  unfold straightHole
  have h1 : ∀ x : ℝ, incAverage (List.replicate (ws.length + 1) x)
      = 0 :: List.replicate ws.length x := fun x => by
    rw [List.replicate_succ, incAverage, ← List.replicate_succ, zipWith_replicate']
    congr 2; ring
  have h2 : ∀ x : ℝ, deltas (List.replicate (ws.length + 1) x)
      = 0 :: List.replicate ws.length 0 := fun x => by
    rw [List.replicate_succ, deltas, ← List.replicate_succ, zipWith_replicate', sub_self]
  rw [h1, h2, h2]

/-- The elements of a straight hole, bit first; the first station has an element without weight. -/
theorem straightHole_rows (i z mu r : ℝ) (ws : List ℝ) :
    rows (straightHole i z mu r ws)
      = (ws.reverse.map fun w => (⟨i, 0, 0, w, mu, r⟩ : Elem)) ++ [⟨0, 0, 0, 0, mu, r⟩] := by
  rw [straight_arrays, List.map_reverse, ← List.reverse_cons]
  refine List.ext_getElem (by simp [rows]) fun k h1 h2 => ?_
  simp only [rows, List.getElem_map, List.getElem_zip, List.getElem_reverse, List.getElem_take,
    List.length_take, List.length_cons, List.length_replicate, List.getElem_replicate, min_self,
    List.length_map]
  obtain ⟨m, hm⟩ : ∃ m, ws.length + 1 - 1 - k = m := ⟨_, rfl⟩
  simp only [hm]
  cases m with
  | zero => simp
  | succ m => simp

theorem states_append (s : Loads × ℝ) (es : List Elem) (e : Elem) :
    states s (es ++ [e]) = states s es ++ [step (es.foldl step s) e] := by
  induction es generalizing s with
  | nil => rfl
  | cons a t ih => simp [states, ih]

theorem profile_append (s : Loads × ℝ) (es : List Elem) (e : Elem) :
    profile s (es ++ [e]) = (states s es).reverse := by
  simp [profile, states_append]

/-- The loads at a station of a straight hole below which the weight `w` hangs. -/
noncomputable def straightLoads (i mu r w : ℝ) : Loads × ℝ :=
  (⟨w * (cos i + mu * sin i), w * (cos i - mu * sin i), w * cos i⟩, w * (mu * sin i * r))

theorem straight_step {i mu r w : ℝ} (v : ℝ) (hs : 0 ≤ sin i) (hw : 0 ≤ w) :
    step (straightLoads i mu r v) ⟨i, 0, 0, w, mu, r⟩ = straightLoads i mu r (w + v) := by
  have hf : ∀ t, forceNormal t i 0 0 w = w * sin i := fun t => by
    unfold forceNormal
    rw [mul_zero, zero_mul, zero_add, zero_pow two_ne_zero, zero_add, sqrt_sq (mul_nonneg hw hs)]
  simp only [step, normalOf, forceTensionDelta, torsionDelta, hf, straightLoads, Prod.mk.injEq,
    Loads.mk.injEq]
  refine ⟨⟨?_, ?_, ?_⟩, ?_⟩ <;> ring

theorem straight_states {i mu r : ℝ} (hs : 0 ≤ sin i) {ws : List ℝ} (hw : ∀ w ∈ ws, 0 ≤ w) :
    (ws.reverse.map fun w => (⟨i, 0, 0, w, mu, r⟩ : Elem)).foldl step (straightLoads i mu r 0)
      = straightLoads i mu r ws.sum ∧
    (states (straightLoads i mu r 0)
      (ws.reverse.map fun w => (⟨i, 0, 0, w, mu, r⟩ : Elem))).reverse
      = ws.tails.map fun t => straightLoads i mu r t.sum := by
  induction ws with
  | nil => simp [states]
  | cons w t ih =>
    obtain ⟨h1, h2⟩ := ih fun x hx => hw x (by simp [hx])
    have h3 := straight_step (r := r) (mu := mu) t.sum hs (hw w (by simp))
    rw [List.reverse_cons, List.map_append, List.map_singleton]
    refine ⟨?_, ?_⟩
    · rw [List.foldl_append, h1, List.foldl_cons, List.foldl_nil, h3, List.sum_cons]
    · rw [states_append, List.reverse_append, h1, h3, h2, List.tails_cons, List.map_cons,
        List.sum_cons]
      rfl

/-- **C417** Off bottom in a straight hole of inclination `i`: at each station the pick-up,
slack-off and rotating tensions and the torque are the weight hanging below that station times
`cos i + μ sin i`, `cos i - μ sin i`, `cos i` and `μ r sin i`.  (`ws.tails.map List.sum` lists the
weights hanging below the stations, surface first.) -/
theorem C417_straight {i mu r : ℝ} (z : ℝ) {ws : List ℝ} (hi : 0 ≤ i ∧ i ≤ π)
    (hw : ∀ w ∈ ws, 0 ≤ w) (p : Profiles) :
    ∃ out, getForces (straightHole i z mu r ws) none none none p = .ok out ∧
      out.pickup = some ((ws.tails.map List.sum).map fun w => w * (cos i + mu * sin i)) ∧
      out.slackoff = some ((ws.tails.map List.sum).map fun w => w * (cos i - mu * sin i)) ∧
      out.rotating = some ((ws.tails.map List.sum).map fun w => w * cos i) ∧
      out.torqueRotating = some ((ws.tails.map List.sum).map fun w => w * (mu * sin i * r)) := by
  have hs : 0 ≤ sin i := sin_nonneg_of_nonneg_of_le_pi hi.1 hi.2
  have h0 : ((⟨0, -0, -0⟩, 0) : Loads × ℝ) = straightLoads i mu r 0 := by simp [straightLoads]
  have hp : profile (⟨0, -0, -0⟩, 0) (rows (straightHole i z mu r ws))
      = ws.tails.map fun t => straightLoads i mu r t.sum := by
    rw [straightHole_rows, profile_append, h0]
    exact (straight_states hs hw).2
  simp only [getForces, store, not_truthy_none, valueOf_none, or_self, false_and, if_false, hp]
  refine ⟨_, rfl, ?_, ?_, ?_, ?_⟩ <;>
    simp only [List.map_map] <;> rfl

/-- **C417** The critical angle: a string with weight slides down a straight hole under its own
weight (no station in compression while slacking off) exactly when `μ sin i ≤ cos i`. -/
theorem C417_critical_angle {i mu r : ℝ} (z : ℝ) {ws : List ℝ} (hi : 0 ≤ i ∧ i ≤ π)
    (hw : ∀ w ∈ ws, 0 ≤ w) (hpos : 0 < ws.sum) (p : Profiles) :
    ∃ out l, getForces (straightHole i z mu r ws) none none none p = .ok out ∧
      out.slackoff = some l ∧ ((∀ x ∈ l, 0 ≤ x) ↔ mu * sin i ≤ cos i) := by
  obtain ⟨out, h, -, h2, -⟩ := C417_straight (mu := mu) (r := r) z hi hw p
  refine ⟨out, _, h, h2, fun hl => ?_, fun hc x hx => ?_⟩
  · have := hl (ws.sum * (cos i - mu * sin i))
      (List.mem_map.2 ⟨ws.sum, List.mem_map.2 ⟨ws, (List.mem_tails ws ws).2 List.suffix_rfl, rfl⟩, rfl⟩)
    have := nonneg_of_mul_nonneg_right this hpos
    linarith
  · obtain ⟨w, hw', rfl⟩ := List.mem_map.1 hx
    obtain ⟨t, ht, rfl⟩ := List.mem_map.1 hw'
    have ht := (List.mem_tails t ws).1 ht
    exact mul_nonneg (List.sum_nonneg fun x hx => hw x (ht.subset hx)) (by linarith)

/-- C417: two elements at 60 degrees with friction 0.3. -/
example (p : Profiles) : ∃ out l,
    getForces (straightHole (π / 3) 1 0.3 0.1 [50, 60]) none none none p = .ok out ∧
      out.slackoff = some l ∧ ((∀ x ∈ l, 0 ≤ x) ↔ (0.3 : ℝ) * sin (π / 3) ≤ cos (π / 3)) :=
  C417_critical_angle 1 ⟨by positivity, by linarith [pi_pos]⟩ (by simp) (by norm_num) p

end Welleng.Props
