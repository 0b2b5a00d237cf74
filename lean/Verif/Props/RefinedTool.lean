import Verif.Props.Refined
import Verif.Props.MoreErrors

/-!
C341 for a tool model, and C342: random sources and further stations.
-/

namespace Welleng.Props

open Real Finset Spec Err Clr

/-- A source that can be evaluated for the first survey can be for the second. -/
theorem callFunc_added {i : ℕ} {c c' : Ctx} (h : StationAdded i c c') (hi0 : 1 ≤ i) {f : Func}
    {mag : ℝ} {p : Prop'} {t : Term} (ht : callFunc f c mag p = .ok (some t)) :
    ∃ t', callFunc f c' mag p = .ok (some t') ∧ t'.prop = t.prop := by
  have hq := (callFunc_some ht).1
  have ho := (callFunc_some ht).2.1
  rw [hq] at ho
  suffices hs : ∃ t', callFunc f c' mag p = .ok (some t') by
    obtain ⟨t', ht'⟩ := hs
    exact ⟨t', ht', by rw [hq, (callFunc_some ht').1]⟩
  have hτ : c'.tortuosity = c.tortuosity := h.same.2.2.2.2.2.2
  have n1 : ¬c.s.n < 3 := by have := h.inside; omega
  have n2 : ¬c'.s.n < 3 := by have := h.inside; have := h.count; omega
  have gen : ∀ nev, ∃ t', generateError c'.s (eDIA f c' (c.tortuosity.getD 0) mag) (forcedProp f p) nev
      = some t' := by
    intro nev
    generalize forcedProp f p = q at *
    cases q <;> simp [generateError, propagate] at ho ⊢
  by_cases hf : byCourseLength f = true
  · have hE : ¬(f = .XYM4E ∧ forcedProp f p = .other) := fun x => ho x.2
    simp only [callFunc, hτ, upright_added h, if_neg hE] at ht ⊢
    by_cases h1 : (f.usesTortuosity && c.tortuosity.isNone) = true
    · rw [if_pos h1] at ht; simp at ht
    rw [if_neg h1]
    by_cases h2 : f = .XCLA ∨ f = .XCLH
    · rw [if_pos h2]
      simpa using gen _
    rw [if_neg h2]
    cases f <;> simp [byCourseLength] at hf h2 <;> simp only [singRows, singL, n2, if_false] <;>
      split_ifs <;> simp only [Except.ok.injEq] <;> exact gen _
  · rw [Bool.not_eq_true] at hf
    have hX : ¬(f = .XCLA ∨ f = .XCLH) := by rintro (rfl | rfl) <;> simp [byCourseLength] at hf
    have hE : f ≠ .XYM4E := by rintro rfl; simp [byCourseLength] at hf
    have hu : f.usesTortuosity = false := by cases f <;> simp [byCourseLength] at hf <;> rfl
    simp only [callFunc, hu, Bool.false_and, Bool.false_eq_true, if_false, if_neg hX, hE, false_and, hτ,
      upright_added h] at ht ⊢
    rcases singRows_added h hf (c.tortuosity.getD 0) mag hi0 with ⟨h1, h2⟩ | ⟨x, h1, h2⟩ | ⟨x, x', h1, h2, -⟩
    · rw [h2]; simpa using gen _
    · rw [h1] at ht
      rw [h2]
      simp only at ht ⊢
      split_ifs at ht ⊢ with hc
      simpa using gen _
    · rw [h2]
      simp only
      split_ifs <;> simpa using gen _

theorem forall₂_terms {i : ℕ} {c c' : Ctx} {R : Entry → Term → Term → Prop} {codes : List Entry}
    (hR : ∀ e ∈ codes, ∀ t, callFunc e.f c e.mag e.prop = .ok (some t) →
      ∃ t', callFunc e.f c' e.mag e.prop = .ok (some t') ∧ t'.prop = t.prop ∧ R e t t') :
    ∀ {vs : List Term}, List.Forall₂ (fun e t => callFunc e.f c e.mag e.prop = .ok (some t)) codes vs →
      ∃ vs', List.Forall₂ (fun e t => callFunc e.f c' e.mag e.prop = .ok (some t)) codes vs' ∧
        List.Forall₂ (fun t t' => t'.prop = t.prop ∧ ∃ e ∈ codes, t.prop = forcedProp e.f e.prop ∧ R e t t')
          vs vs' := by
  induction codes with
  | nil => intro vs h; cases h; exact ⟨[], .nil, .nil⟩
  | cons e es ih =>
    intro vs h
    cases h with
    | cons h1 h2 =>
      obtain ⟨t', ht', hp, hr⟩ := hR e List.mem_cons_self _ h1
      obtain ⟨vs', hv, hw⟩ := ih (fun x hx => hR x (List.mem_cons_of_mem _ hx)) h2
      refine ⟨t' :: vs', .cons ht' hv, .cons ⟨hp, e, List.mem_cons_self, (callFunc_some h1).1, hr⟩ ?_⟩
      exact hw.imp fun t t' ⟨a, x, hx, b⟩ => ⟨a, x, List.mem_cons_of_mem _ hx, b⟩

/-- **C341** (tool model): a further station on a straight interval below the first one leaves the
systematic, global and within-pad parts of the covariance at every other station as they are.  Sources
weighted by the distance between stations may be random ones. -/
theorem C341_tool {i : ℕ} {c c' : Ctx} (h : StationAdded i c c') (hi0 : 1 ≤ i)
    (hv : c.vlim ≤ c.s.inc i) {codes : List Entry}
    (hf : ∀ e ∈ codes, byCourseLength e.f = true → forcedProp e.f e.prop = .random) {T : Totals}
    (hT : toolError c codes = .ok T) :
    ∃ T', toolError c' codes = .ok T' ∧ ∀ k,
      T'.systematic (movedTo i k) = T.systematic k ∧ T'.global (movedTo i k) = T.global k ∧
      T'.withinPad (movedTo i k) = T.withinPad k := by
  obtain ⟨vs, hvs, rfl⟩ := toolError_ok hT
  obtain ⟨vs', hvs', hw⟩ := forall₂_terms (i := i) (c' := c')
    (R := fun _ t t' => t.prop ≠ .random → ∀ k, t'.cov (movedTo i k) = t.cov k) (codes := codes) (by
      intro e he t ht
      by_cases hb : forcedProp e.f e.prop = .random
      · obtain ⟨t', ht', hp⟩ := callFunc_added h hi0 ht
        exact ⟨t', ht', hp, fun hr => absurd ((callFunc_some ht).1.trans hb) hr⟩
      · have hfe : byCourseLength e.f = false := by
          cases hq : byCourseLength e.f
          · rfl
          · exact absurd (hf e he hq) hb
        obtain ⟨t', ht', hc⟩ := C341_source h hi0 hv hfe hb ht
        exact ⟨t', ht', by rw [(callFunc_some ht').1, (callFunc_some ht).1], fun _ => hc⟩) hvs
  refine ⟨_, callAll_of_forall₂ hvs', fun k => ?_⟩
  obtain ⟨-, -, a3, a4, a5⟩ := foldl_step vs ⟨0, 0, 0, 0, 0⟩ k
  obtain ⟨-, -, b3, b4, b5⟩ := foldl_step vs' ⟨0, 0, 0, 0, 0⟩ (movedTo i k)
  rw [a3, a4, a5, b3, b4, b5]
  have key : ∀ q : Prop', q ≠ .random →
      ((vs'.filter fun v => v.prop = q).map fun v => v.cov (movedTo i k))
        = (vs.filter fun v => v.prop = q).map fun v => v.cov k := by
    intro q hq
    clear hvs hvs' hT a3 a4 a5 b3 b4 b5
    induction hw with
    | nil => rfl
    | @cons t t' l l' h1 _ ih =>
      obtain ⟨hp, e, -, -, hr⟩ := h1
      rw [List.filter_cons, List.filter_cons, hp]
      by_cases hqt : t.prop = q
      · simp only [hqt, decide_true, if_true, List.map_cons, ih, hr (hqt ▸ hq) k]
      · simp only [hqt, decide_false, Bool.false_eq_true, if_false, ih]
  simp [key .systematic (by decide), key .global (by decide), key .withinPad (by decide)]

/-! ### Random sources -/

/-- Scalar product. -/
def along (v x : V) : ℝ := ∑ j, v j * x j

theorem quad_covFromVec (v x : V) : ∑ a, ∑ b, v a * covFromVec x a b * v b = along v x ^ 2 := by
  simp only [covFromVec, along, Fin.sum_univ_three, Matrix.of_apply]; ring

/-- Covariance of a random source, `error.py` 278-284. -/
def randomCov (e es : ℕ → V) (k : ℕ) : M3 :=
  covFromVec (es k) + if k = 0 then 0 else ∑ j ∈ range k, covFromVec (e j)

theorem quad_randomCov (v : V) (e es : ℕ → V) (k : ℕ) :
    ∑ a, ∑ b, v a * randomCov e es k a b * v b = along v (es k) ^ 2 + ∑ j ∈ range k, along v (e j) ^ 2 := by
  have hadd : ∀ x y : M3, ∑ a, ∑ b, v a * (x + y) a b * v b
      = ∑ a, ∑ b, v a * x a b * v b + ∑ a, ∑ b, v a * y a b * v b := by
    intro x y
    simp only [Fin.sum_univ_three, Matrix.add_apply]; ring
  have hsum : ∀ m, ∑ a, ∑ b, v a * (∑ j ∈ range m, covFromVec (e j)) a b * v b
      = ∑ j ∈ range m, along v (e j) ^ 2 := by
    intro m
    induction m with
    | zero => simp
    | succ m ih => rw [Finset.sum_range_succ, hadd, ih, quad_covFromVec, Finset.sum_range_succ]
  rw [randomCov, hadd, quad_covFromVec]
  split_ifs with h0
  · subst h0; simp
  · rw [hsum]

theorem random_added {i : ℕ} {e e' es es' : ℕ → V} (h1 : ∀ j < i, e' j = e j)
    (h1s : ∀ j ≤ i, es' j = es j) (h2 : ∀ j, i + 1 < j → e' (j + 1) = e j)
    (h2s : ∀ j, i + 1 < j → es' (j + 1) = es j)
    (h3 : i + 2 < n → ∀ v, along v (e' i) ^ 2 + along v (e' (i + 1)) ^ 2 + along v (e' (i + 2)) ^ 2
      ≤ along v (e i) ^ 2 + along v (e (i + 1)) ^ 2)
    (h4 : ∀ v, along v (e' i) ^ 2 + along v (e' (i + 1)) ^ 2 + along v (es' (i + 2)) ^ 2
      ≤ along v (e i) ^ 2 + along v (es (i + 1)) ^ 2) {k : ℕ} (hk : k < n) :
    NoLessUncertain (randomCov e' es' (movedTo i k)) (randomCov e es k) := by
  intro v
  rw [quad_randomCov, quad_randomCov]
  have hup : ∀ m ≤ i, ∑ j ∈ range m, along v (e' j) ^ 2 = ∑ j ∈ range m, along v (e j) ^ 2 :=
    fun m hm => Finset.sum_congr rfl fun j hj => by
      rw [h1 j (by have := Finset.mem_range.mp hj; omega)]
  unfold movedTo
  split_ifs with hki
  · rw [h1s k hki, hup k hki]
  · rcases Nat.lt_or_ge (i + 1) k with hlt | hge
    · have hlow : ∀ m, ∑ j ∈ range (i + 2 + m + 1), along v (e' j) ^ 2
          ≤ ∑ j ∈ range (i + 2 + m), along v (e j) ^ 2 := by
        intro m
        induction m with
        | zero =>
          rw [show i + 2 + 0 + 1 = i + 3 by rfl, Finset.sum_range_succ, Finset.sum_range_succ,
            Finset.sum_range_succ, hup i le_rfl, show i + 2 + 0 = i + 1 + 1 by rfl,
            Finset.sum_range_succ, Finset.sum_range_succ]
          have := h3 (by omega) v
          linarith
        | succ m ih =>
          have a := Finset.sum_range_succ (fun j => along v (e' j) ^ 2) (i + 2 + m + 1)
          have b := Finset.sum_range_succ (fun j => along v (e j) ^ 2) (i + 2 + m)
          rw [h2 (i + 2 + m) (by omega)] at a
          rw [show i + 2 + (m + 1) + 1 = (i + 2 + m + 1) + 1 by omega,
            show i + 2 + (m + 1) = i + 2 + m + 1 by omega]
          linarith
      obtain ⟨m, rfl⟩ := Nat.exists_eq_add_of_le (show i + 2 ≤ k by omega)
      rw [h2s _ hlt]
      have := hlow m
      linarith
    · obtain rfl : k = i + 1 := by omega
      rw [Finset.sum_range_succ, Finset.sum_range_succ, Finset.sum_range_succ, hup i le_rfl]
      have := h4 v
      linarith

/-- The displacement of a unit interval by errors of inclination and azimuth. -/
noncomputable def angleShift (s : Sv) (k : ℕ) (a b : ℝ) : V :=
  ![a * (cos (s.inc k) * cos (s.azi k)) - b * (sin (s.inc k) * sin (s.azi k)),
    a * (cos (s.inc k) * sin (s.azi k)) + b * (sin (s.inc k) * cos (s.azi k)),
    -(a * sin (s.inc k))]

theorem eNEV_angleShift (s : Sv) {e : ℕ → V} {k : ℕ} (hk : 1 ≤ k) (hr : s.rev4 = true ∨ 2 ≤ k)
    (h0 : e k 0 = 0) :
    eNEV s e k = ((s.md k - s.md (k - 1)) / 2 + if k + 1 < s.n then (s.md (k + 1) - s.md k) / 2 else 0)
      • angleShift s k (e k 1) (e k 2) := by
  have h3 : ¬((!s.rev4 && k == 1) = true) := by
    rcases hr with hr | hr
    · simp [hr]
    · simp; omega
  have hkk : k - 1 + 1 = k := by omega
  funext j
  simp only [eNEV, if_neg (show k ≠ 0 by omega)]
  by_cases hn : k + 1 < s.n <;> fin_cases j <;>
    simp [drdp, angleShift, h3, h0, hk, hkk, hn] <;> ring

theorem eNEVStar_angleShift (s : Sv) {e : ℕ → V} {k : ℕ} (hk : 1 ≤ k) (hr : s.rev4 = true ∨ 2 ≤ k)
    (h0 : e k 0 = 0) :
    eNEVStar s e k = ((s.md k - s.md (k - 1)) / 2) • angleShift s k (e k 1) (e k 2) := by
  have h3 : ¬((!s.rev4 && k == 1) = true) := by
    rcases hr with hr | hr
    · simp [hr]
    · simp; omega
  have hkk : k - 1 + 1 = k := by omega
  funext j
  simp only [eNEVStar, if_neg (show k ≠ 0 by omega)]
  fin_cases j <;> simp [drdp, angleShift, h3, h0, hk, hkk] <;> ring

theorem along_smul (v x : V) (a : ℝ) : along v (a • x) = a * along v x := by
  simp only [along, Fin.sum_univ_three, Pi.smul_apply, smul_eq_mul]; ring

/-- A source not weighted by the distance between stations changes the depths only or the angles only. -/
theorem eDIA_split {f : Func} (hf : byCourseLength f = false) (τ mag : ℝ) :
    (∀ c k, eDIA f c τ mag k 0 = 0) ∨ ∀ c k, eDIA f c τ mag k 1 = 0 ∧ eDIA f c τ mag k 2 = 0 := by
  cases f <;> simp [byCourseLength] at hf <;> simp [eDIA, dpde]

section
variable {i : ℕ} {c c' : Ctx} (h : StationAdded i c c') (hi0 : 1 ≤ i)
include h hi0

theorem depth_middle {e e' : ℕ → V} (h0 : e' i = e i) (h2 : e' (i + 2) = e (i + 1))
    (z0 : e i 1 = 0 ∧ e i 2 = 0) (z1 : e' (i + 1) 1 = 0 ∧ e' (i + 1) 2 = 0)
    (z2 : e (i + 1) 1 = 0 ∧ e (i + 1) 2 = 0) :
    eNEV c'.s e' i = eNEV c.s e i ∧ eNEV c'.s e' (i + 1) = 0 ∧
    eNEV c'.s e' (i + 2) = eNEV c.s e (i + 1) ∧ eNEVStar c'.s e' (i + 2) = eNEVStar c.s e (i + 1) := by
  obtain ⟨hmA, hiA, haA, -⟩ := h.above (i - 1) (by omega)
  obtain ⟨hmB, hiB, haB, -⟩ := h.above i le_rfl
  obtain ⟨hmC, hiC, haC, -⟩ := h.below (i + 1) (by omega)
  obtain ⟨hmD, hiD, haD, -⟩ := h.below (i + 1 + 1) (by omega)
  obtain ⟨hsi, hsa, -⟩ := h.straight
  obtain ⟨hai, haa, -⟩ := h.added
  have hii : i - 1 + 1 = i := by omega
  have n1 : i + 1 < c.s.n := h.inside
  have n2 : i + 1 < c'.s.n := by have := h.count; omega
  have n3 : i + 1 + 1 < c'.s.n := by have := h.count; omega
  have n4 : (i + 2 + 1 < c'.s.n) = (i + 1 + 1 < c.s.n) := by rw [h.count]; apply propext; omega
  have y0 : i ≠ 0 := by omega
  have s1 : i + 1 - 1 = i := by omega
  have s2 : i + 2 - 1 = i + 1 := by omega
  refine ⟨?_, ?_, ?_, ?_⟩ <;>
    (funext j
     simp only [eNEV, eNEVStar, if_neg y0, if_neg (show i + 1 ≠ 0 by omega),
       if_neg (show i + 2 ≠ 0 by omega)]
     by_cases n5 : i + 1 + 1 < c.s.n <;>
       fin_cases j <;>
       simp [drdp, hii, s1, s2, n1, n2, n3, n4, n5, hi0, hiA, haA, hiB, haB,
         hiC, haC, hiD, haD, hsi, hsa, hai, haa, h0, h2, z0, z1, z2])

theorem random_middle {f : Func} (hf : byCourseLength f = false) (τ mag : ℝ)
    (hr : c.s.rev4 = true ∨ 2 ≤ i) (m0 : c.s.md (i - 1) ≤ c.s.md i) (m1 : c.s.md i ≤ c'.s.md (i + 1))
    (m2 : c'.s.md (i + 1) ≤ c.s.md (i + 1)) (v : V) :
    (i + 2 < c.s.n → c.s.md (i + 1) ≤ c.s.md (i + 2) →
      along v (eNEV c'.s (eDIA f c' τ mag) i) ^ 2 + along v (eNEV c'.s (eDIA f c' τ mag) (i + 1)) ^ 2
        + along v (eNEV c'.s (eDIA f c' τ mag) (i + 2)) ^ 2
      ≤ along v (eNEV c.s (eDIA f c τ mag) i) ^ 2 + along v (eNEV c.s (eDIA f c τ mag) (i + 1)) ^ 2) ∧
    along v (eNEV c'.s (eDIA f c' τ mag) i) ^ 2 + along v (eNEV c'.s (eDIA f c' τ mag) (i + 1)) ^ 2
        + along v (eNEVStar c'.s (eDIA f c' τ mag) (i + 2)) ^ 2
      ≤ along v (eNEV c.s (eDIA f c τ mag) i) ^ 2 + along v (eNEVStar c.s (eDIA f c τ mag) (i + 1)) ^ 2 := by
  obtain ⟨hr4, hG, hd, hb, hl, -⟩ := h.same
  have e0 := eDIA_above h hf τ mag (le_refl i)
  have e2 : eDIA f c' τ mag (i + 2) = eDIA f c τ mag (i + 1) := eDIA_below h hf τ mag (by omega)
  have e1 := eDIA_direction hf h.added.1 h.added.2.1 h.added.2.2 hG hd hb τ τ mag
  have es := eDIA_direction hf h.straight.1 h.straight.2.1 h.straight.2.2 rfl rfl rfl τ τ mag
  have hr' : c'.s.rev4 = true ∨ 2 ≤ i := by rw [hr4]; exact hr
  rcases eDIA_split hf τ mag with hz | hz
  · have t1 : ∀ x y, angleShift c'.s (i + 1) x y = angleShift c.s i x y := fun x y => by
      simp only [angleShift, h.added.1, h.added.2.1]
    have t0 : ∀ x y, angleShift c'.s i x y = angleShift c.s i x y := fun x y => by
      simp only [angleShift, (h.above i le_rfl).2.1, (h.above i le_rfl).2.2.1]
    have t2 : ∀ x y, angleShift c'.s (i + 2) x y = angleShift c.s i x y := fun x y => by
      simp only [angleShift, (h.below (i + 1) (by omega)).2.1, (h.below (i + 1) (by omega)).2.2.1,
        h.straight.1, h.straight.2.1]
    have t3 : ∀ x y, angleShift c.s (i + 1) x y = angleShift c.s i x y := fun x y => by
      simp only [angleShift, h.straight.1, h.straight.2.1]
    rw [eNEV_angleShift c'.s hi0 hr' (hz c' i), eNEV_angleShift c'.s (by omega) (.inr (by omega)) (hz c' (i + 1)),
      eNEV_angleShift c'.s (by omega) (.inr (by omega)) (hz c' (i + 2)), eNEV_angleShift c.s hi0 hr (hz c i),
      eNEV_angleShift c.s (by omega) (.inr (by omega)) (hz c (i + 1)),
      eNEVStar_angleShift c'.s (by omega) (.inr (by omega)) (hz c' (i + 2)),
      eNEVStar_angleShift c.s (by omega) (.inr (by omega)) (hz c (i + 1)), t0, t1, t2, t3, e0, e2, e1.1, e1.2,
      es.1, es.2]
    simp only [along_smul]
    generalize along v (angleShift c.s i (eDIA f c τ mag i 1) (eDIA f c τ mag i 2)) = g
    have n1 : i + 1 < c.s.n := h.inside
    have n2 : i + 1 < c'.s.n := by have := h.count; omega
    have n3 : i + 1 + 1 < c'.s.n := by have := h.count; omega
    have n4 : (i + 2 + 1 < c'.s.n) = (i + 2 < c.s.n) := by rw [h.count]; apply propext; omega
    have q0 : c'.s.md (i - 1) = c.s.md (i - 1) := (h.above (i - 1) (by omega)).1
    have q1 : c'.s.md i = c.s.md i := (h.above i le_rfl).1
    have q2 : c'.s.md (i + 2) = c.s.md (i + 1) := (h.below (i + 1) (by omega)).1
    have q3 : c'.s.md (i + 2 + 1) = c.s.md (i + 2) := (h.below (i + 2) (by omega)).1
    have s1 : i + 1 - 1 = i := by omega
    have s2 : i + 2 - 1 = i + 1 := by omega
    simp only [n1, n2, n3, n4, if_true, q0, q1, q2, q3, s1, s2, show i + 1 + 1 = i + 2 by rfl]
    obtain ⟨p, hp⟩ : ∃ p, p = c.s.md i - c.s.md (i - 1) := ⟨_, rfl⟩
    obtain ⟨x, hx⟩ : ∃ x, x = c'.s.md (i + 1) - c.s.md i := ⟨_, rfl⟩
    obtain ⟨y, hy⟩ : ∃ y, y = c.s.md (i + 1) - c'.s.md (i + 1) := ⟨_, rfl⟩
    have p0 : 0 ≤ p := by linarith
    have x0 : 0 ≤ x := by linarith
    have y0 : 0 ≤ y := by linarith
    have hxy : c.s.md (i + 1) - c.s.md i = x + y := by rw [hx, hy]; ring
    rw [← hp, ← hx, ← hy, hxy]
    have hg := sq_nonneg g
    constructor
    · intro n5 m3
      simp only [n5, if_true]
      obtain ⟨q, hq⟩ : ∃ q, q = c.s.md (i + 2) - c.s.md (i + 1) := ⟨_, rfl⟩
      have q0' : 0 ≤ q := by linarith
      rw [← hq]
      have : 0 ≤ (p * y + q * x + x * y) * g ^ 2 := by positivity
      nlinarith
    · have : 0 ≤ (p * y + x * y) * g ^ 2 := by positivity
      nlinarith
  · obtain ⟨d0, d1, d2, d3⟩ := depth_middle h hi0 e0 e2 (hz c i) (hz c' (i + 1)) (hz c (i + 1))
    rw [d0, d1, d2, d3]
    have : along v 0 = 0 := by simp [along]
    rw [this]
    exact ⟨fun _ _ => le_of_eq (by ring), le_of_eq (by ring)⟩

/-- **C342** (one source): a further station on a straight interval does not raise the covariance that a
random source contributes at any other station. -/
theorem C342_source (hv : c.vlim ≤ c.s.inc i) {f : Func} (hf : byCourseLength f = false)
    (hr : c.s.rev4 = true ∨ 2 ≤ i) (hm : ∀ k, k + 1 < c.s.n → c.s.md k ≤ c.s.md (k + 1))
    (m1 : c.s.md i ≤ c'.s.md (i + 1)) (m2 : c'.s.md (i + 1) ≤ c.s.md (i + 1)) {mag : ℝ} {p : Prop'}
    (hp : forcedProp f p = .random) {t : Term} (ht : callFunc f c mag p = .ok (some t)) :
    ∃ t', callFunc f c' mag p = .ok (some t') ∧
      ∀ k < c.s.n, NoLessUncertain (t'.cov (movedTo i k)) (t.cov k) := by
  have hX : ¬(f = .XCLA ∨ f = .XCLH) := by rintro (rfl | rfl) <;> simp [byCourseLength] at hf
  have hE : f ≠ .XYM4E := by rintro rfl; simp [byCourseLength] at hf
  have hu : f.usesTortuosity = false := by cases f <;> simp [byCourseLength] at hf <;> rfl
  have hτ : c'.tortuosity = c.tortuosity := h.same.2.2.2.2.2.2
  have hl : c'.vlim = c.vlim := h.same.2.2.2.2.1
  have hin := h.inside
  have m0 : c.s.md (i - 1) ≤ c.s.md i := by
    have := hm (i - 1) (by omega)
    rwa [show i - 1 + 1 = i by omega] at this
  simp only [callFunc, hu, Bool.false_and, Bool.false_eq_true, if_false, if_neg hX, hE, false_and, hτ,
    upright_added h, hp] at ht ⊢
  generalize c.tortuosity.getD 0 = τ at *
  have hmid := random_middle h hi0 hf τ mag hr m0 m1 m2
  have plain : ∀ k < c.s.n, NoLessUncertain
      (randomCov (eNEV c'.s (eDIA f c' τ mag)) (eNEVStar c'.s (eDIA f c' τ mag)) (movedTo i k))
      (randomCov (eNEV c.s (eDIA f c τ mag)) (eNEVStar c.s (eDIA f c τ mag)) k) := fun k hk =>
    random_added (fun j hj => eNEV_above h hj (eDIA_above h hf τ mag hj.le))
      (fun j hj => eNEVStar_above h hj (eDIA_above h hf τ mag hj))
      (fun j hj => eNEV_below h hj (eDIA_below h hf τ mag (by omega)))
      (fun j hj => eNEVStar_below h hj (eDIA_below h hf τ mag (by omega)))
      (fun hn v => (hmid v).1 hn (hm (i + 1) hn)) (fun v => (hmid v).2) hk
  have v0 : ¬c'.s.inc i < c'.vlim := by rw [hl, (h.above i le_rfl).2.1]; exact not_lt.mpr hv
  have v1 : ¬c'.s.inc (i + 1) < c'.vlim := by rw [hl, h.added.1]; exact not_lt.mpr hv
  have v2 : ¬c'.s.inc (i + 2) < c'.vlim := by
    rw [hl, (h.below (i + 1) (by omega)).2.1, h.straight.1]; exact not_lt.mpr hv
  have w0 : ¬c.s.inc i < c.vlim := not_lt.mpr hv
  have w1 : ¬c.s.inc (i + 1) < c.vlim := by rw [h.straight.1]; exact not_lt.mpr hv
  have replaced : ∀ x x' : (ℕ → V) × (ℕ → V), RowsMoved i x x' → ∀ k < c.s.n, NoLessUncertain
      (randomCov (replaceSing c' (eNEV c'.s (eDIA f c' τ mag)) x'.1)
        (replaceSing c' (eNEVStar c'.s (eDIA f c' τ mag)) x'.2) (movedTo i k))
      (randomCov (replaceSing c (eNEV c.s (eDIA f c τ mag)) x.1)
        (replaceSing c (eNEVStar c.s (eDIA f c τ mag)) x.2) k) := by
    intro x x' hx k hk
    refine random_added (fun j hj => ?_) (fun j hj => ?_) (fun j hj => ?_) (fun j hj => ?_)
      (fun hn v => ?_) (fun v => ?_) hk
    · simp only [replaceSing, hl, (h.above j hj.le).2.1, (hx.1 j hj).1,
        eNEV_above h hj (eDIA_above h hf τ mag hj.le)]
    · rcases Nat.lt_or_ge j i with h1 | h1
      · simp only [replaceSing, hl, (h.above j hj).2.1, (hx.1 j h1).2,
          eNEVStar_above h hj (eDIA_above h hf τ mag hj)]
      · obtain rfl : j = i := by omega
        simp only [replaceSing, if_neg v0, if_neg w0, eNEVStar_above h hj (eDIA_above h hf τ mag hj)]
    · simp only [replaceSing, hl, (h.below j (by omega)).2.1, (hx.2 j hj).1,
        eNEV_below h hj (eDIA_below h hf τ mag (by omega))]
    · simp only [replaceSing, hl, (h.below j (by omega)).2.1, (hx.2 j hj).2,
        eNEVStar_below h hj (eDIA_below h hf τ mag (by omega))]
    · simp only [replaceSing, if_neg v0, if_neg v1, if_neg v2, if_neg w0, if_neg w1]
      exact (hmid v).1 hn (hm (i + 1) hn)
    · simp only [replaceSing, if_neg v0, if_neg v1, if_neg v2, if_neg w0, if_neg w1]
      exact (hmid v).2
  have key : ∀ x x' : (ℕ → V) × (ℕ → V), (∀ k < c.s.n, NoLessUncertain
        (randomCov x'.1 x'.2 (movedTo i k)) (randomCov x.1 x.2 k)) →
      generateError c.s (eDIA f c τ mag) .random (some x) = some t →
      ∃ t', generateError c'.s (eDIA f c' τ mag) .random (some x') = some t' ∧
        ∀ k < c.s.n, NoLessUncertain (t'.cov (movedTo i k)) (t.cov k) := by
    intro x x' hs hg
    simp only [generateError, propagate, Option.map_some, Option.some.injEq] at hg ⊢
    subst hg
    exact ⟨_, rfl, hs⟩
  rcases singRows_added h hf τ mag hi0 with ⟨h1, h2⟩ | ⟨x, h1, h2⟩ | ⟨x, x', h1, h2, h3⟩
  · rw [h1] at ht
    rw [h2]
    simp only [Except.ok.injEq] at ht ⊢
    exact key (eNEV c.s (eDIA f c τ mag), eNEVStar c.s (eDIA f c τ mag))
        (eNEV c'.s (eDIA f c' τ mag), eNEVStar c'.s (eDIA f c' τ mag)) plain ht
  · rw [h1] at ht
    rw [h2]
    simp only at ht ⊢
    split_ifs at ht ⊢ with hc
    simp only [Except.ok.injEq] at ht ⊢
    exact key (eNEV c.s (eDIA f c τ mag), eNEVStar c.s (eDIA f c τ mag))
        (eNEV c'.s (eDIA f c' τ mag), eNEVStar c'.s (eDIA f c' τ mag)) plain ht
  · rw [h1] at ht
    rw [h2]
    simp only at ht ⊢
    split_ifs at ht ⊢ with hc
    · simp only [Except.ok.injEq] at ht ⊢
      exact key (replaceSing c (eNEV c.s (eDIA f c τ mag)) x.1,
          replaceSing c (eNEVStar c.s (eDIA f c τ mag)) x.2)
        (replaceSing c' (eNEV c'.s (eDIA f c' τ mag)) x'.1,
          replaceSing c' (eNEVStar c'.s (eDIA f c' τ mag)) x'.2) (replaced x x' h3) ht
    · simp only [Except.ok.injEq] at ht ⊢
      exact key (eNEV c.s (eDIA f c τ mag), eNEVStar c.s (eDIA f c τ mag))
        (eNEV c'.s (eDIA f c' τ mag), eNEVStar c'.s (eDIA f c' τ mag)) plain ht

/-- **C342** (tool model): a further station on a straight interval does not raise the uncertainty at any
other station. -/
theorem C342_tool (hv : c.vlim ≤ c.s.inc i) (hr : c.s.rev4 = true ∨ 2 ≤ i)
    (hm : ∀ k, k + 1 < c.s.n → c.s.md k ≤ c.s.md (k + 1))
    (m1 : c.s.md i ≤ c'.s.md (i + 1)) (m2 : c'.s.md (i + 1) ≤ c.s.md (i + 1)) {codes : List Entry}
    (hf : ∀ e ∈ codes, byCourseLength e.f = false) {T : Totals} (hT : toolError c codes = .ok T) :
    ∃ T', toolError c' codes = .ok T' ∧
      ∀ k < c.s.n, NoLessUncertain (T'.total (movedTo i k)) (T.total k) := by
  obtain ⟨vs, hvs, rfl⟩ := toolError_ok hT
  obtain ⟨vs', hvs', hw⟩ := forall₂_terms (i := i) (c' := c')
    (R := fun _ t t' => ∀ k < c.s.n, NoLessUncertain (t'.cov (movedTo i k)) (t.cov k)) (codes := codes) (by
      intro e he t ht
      by_cases hb : forcedProp e.f e.prop = .random
      · obtain ⟨t', ht', hc⟩ := C342_source h hi0 hv (hf e he) hr hm m1 m2 hb ht
        exact ⟨t', ht', by rw [(callFunc_some ht').1, (callFunc_some ht).1], hc⟩
      · obtain ⟨t', ht', hc⟩ := C341_source h hi0 hv (hf e he) hb ht
        exact ⟨t', ht', by rw [(callFunc_some ht').1, (callFunc_some ht).1],
          fun k _ => by rw [hc]; exact noLess_refl _⟩) hvs
  refine ⟨_, callAll_of_forall₂ hvs', fun k hk => ?_⟩
  rw [(foldl_step vs ⟨0, 0, 0, 0, 0⟩ k).1, (foldl_step vs' ⟨0, 0, 0, 0, 0⟩ (movedTo i k)).1]
  refine noLess_add (noLess_refl _) ?_
  clear hvs hvs' hT
  induction hw with
  | nil => exact noLess_refl _
  | cons h1 _ ih =>
    obtain ⟨-, e, -, -, hr⟩ := h1
    simp only [List.map_cons, List.sum_cons]
    exact noLess_add (hr k hk) ih
end

/-- A horizontal well heading north with stations at the given depths. -/
noncomputable def northCtx (n : ℕ) (md : ℕ → ℝ) : Ctx where
  s := { n := n, md := md, inc := fun _ => π / 2, azi := fun _ => 0, rev4 := true }
  tvd := fun _ => 0
  aziMag := fun _ => 0
  aziGrid := fun _ => 0
  G := 1
  dip := 0
  bTotal := 1
  vlim := 0
  ref := .grid
  tortuosity := none

/-- Depths 0, 30, 60, 90, and the same with a further station at `m` below station `i`. -/
def depthsWith (i : ℕ) (m : ℝ) (k : ℕ) : ℝ :=
  if k ≤ i then 30 * k else if k = i + 1 then m else 30 * (k - 1)

theorem level_added (i : ℕ) (m : ℝ) {n : ℕ} (hn : i + 1 < n) :
    StationAdded i (northCtx n fun k => 30 * k) (northCtx (n + 1) (depthsWith i m)) where
  inside := hn
  count := rfl
  straight := ⟨rfl, rfl, rfl⟩
  added := ⟨rfl, rfl, rfl⟩
  above k hk := by simp [northCtx, depthsWith, hk]
  below k hk := by
    simp [northCtx, depthsWith, show ¬k + 1 ≤ i by omega, show k ≠ i by omega]
  same := ⟨rfl, rfl, rfl, rfl, rfl, rfl, rfl⟩

theorem level_az (p : Prop') (n : ℕ) (md : ℕ → ℝ) (mag : ℝ) :
    callFunc .AZ (northCtx n md) mag p
      = .ok (generateError (northCtx n md).s (eDIA .AZ (northCtx n md) 0 mag) p none) := by
  simp [callFunc, singRows, Func.usesTortuosity, forcedProp, northCtx]

theorem level_e (n : ℕ) (md : ℕ → ℝ) (mag : ℝ) (k : ℕ) (hk : 1 ≤ k) :
    eNEV (northCtx n md).s (eDIA .AZ (northCtx n md) 0 mag) k
      = ![0, ((md k - md (k - 1)) / 2 + if k + 1 < n then (md (k + 1) - md k) / 2 else 0) * mag, 0] ∧
    eNEVStar (northCtx n md).s (eDIA .AZ (northCtx n md) 0 mag) k
      = ![0, (md k - md (k - 1)) / 2 * mag, 0] := by
  rw [eNEV_angleShift _ hk (.inl rfl) (by simp [eDIA, dpde]),
    eNEVStar_angleShift _ hk (.inl rfl) (by simp [eDIA, dpde])]
  constructor <;> (funext j; fin_cases j <;> simp [angleShift, eDIA, dpde, northCtx] <;> (left; rfl))

/-- Non-vacuity of C341 and C342: a station at 45 m of a survey at 0, 30, 60 and 90 m. -/
example : ∃ (i : ℕ) (c c' : Ctx), StationAdded i c c' ∧ 1 ≤ i ∧ c.vlim ≤ c.s.inc i ∧
    c.s.rev4 = true ∧ (∀ k, k + 1 < c.s.n → c.s.md k ≤ c.s.md (k + 1)) ∧
    c.s.md i < c'.s.md (i + 1) ∧ c'.s.md (i + 1) < c.s.md (i + 1) ∧
    ∃ t, callFunc .AZ c 1 .systematic = .ok (some t) := by
  refine ⟨1, northCtx 4 fun k => 30 * k, northCtx 5 (depthsWith 1 45), level_added 1 45 (by norm_num),
    le_rfl, ?_, rfl, fun k _ => ?_, ?_, ?_, ?_⟩
  · simp only [northCtx]; positivity
  · simp [northCtx]
  · norm_num [northCtx, depthsWith]
  · norm_num [northCtx, depthsWith]
  · rw [level_az]; exact ⟨_, rfl⟩

/-- The first interval is an exception, since the first station has no error: a station added to it makes a
systematic azimuth error count more. -/
theorem C341_first_interval :
    ∃ t t', callFunc .AZ (northCtx 2 fun k => 30 * k) 1 .systematic = .ok (some t) ∧
      callFunc .AZ (northCtx 3 (depthsWith 0 15)) 1 .systematic = .ok (some t') ∧
      t.cov 1 1 1 = 15 ^ 2 ∧ t'.cov (movedTo 0 1) 1 1 = 22.5 ^ 2 := by
  rw [level_az, level_az]
  simp only [generateError, propagate, Option.map_some]
  refine ⟨_, _, rfl, rfl, ?_, ?_⟩
  · simp only [covFromVec, sigmaSystematic, Finset.sum_range_one, Matrix.of_apply, if_neg one_ne_zero,
      Pi.add_apply, (level_e 2 (fun k => 30 * k) 1 1 le_rfl).2]
    norm_num [eNEV]
  · have h1 := (level_e 3 (depthsWith 0 15) 1 1 le_rfl).1
    have h2 := (level_e 3 (depthsWith 0 15) 1 2 (by norm_num)).2
    simp only [movedTo, covFromVec, sigmaSystematic, Matrix.of_apply, Pi.add_apply,
      show ¬(1 ≤ 0) by norm_num, if_false, show (1 + 1 : ℕ) = 2 by norm_num, two_ne_zero,
      Finset.sum_range_succ, Finset.sum_range_zero, h1, h2]
    norm_num [eNEV, depthsWith]

/-- For a random source the further station does make a difference. -/
theorem C342_smaller :
    ∃ t t', callFunc .AZ (northCtx 3 fun k => 30 * k) 1 .random = .ok (some t) ∧
      callFunc .AZ (northCtx 4 (depthsWith 1 45)) 1 .random = .ok (some t') ∧
      t'.cov (movedTo 1 2) 1 1 < t.cov 2 1 1 := by
  rw [level_az, level_az]
  simp only [generateError, propagate, Option.map_some]
  refine ⟨_, _, rfl, rfl, ?_⟩
  have h1 := (level_e 4 (depthsWith 1 45) 1 1 le_rfl).1
  have h2 := (level_e 4 (depthsWith 1 45) 1 2 (by norm_num)).1
  have h3 := (level_e 4 (depthsWith 1 45) 1 3 (by norm_num)).2
  have g1 := (level_e 3 (fun k => 30 * k) 1 1 le_rfl).1
  have g2 := (level_e 3 (fun k => 30 * k) 1 2 (by norm_num)).2
  simp only [movedTo, show ¬(2 ≤ 1) by norm_num, if_false, show (2 + 1 : ℕ) = 3 by norm_num,
    two_ne_zero, three_ne_zero, Finset.sum_range_succ, Finset.sum_range_zero, Matrix.add_apply, covFromVec,
    Matrix.of_apply, h1, h2, h3, g1, g2]
  norm_num [eNEV, depthsWith]

end Welleng.Props
