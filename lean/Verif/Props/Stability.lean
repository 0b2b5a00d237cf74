import Verif.Props.Accuracy
import Verif.Props.Refine
import Verif.Lemmas.MinCurveList
import Mathlib.Analysis.SpecialFunctions.Trigonometric.Deriv
import Mathlib.Analysis.SpecialFunctions.Trigonometric.Bounds
import Mathlib.Analysis.SpecialFunctions.Trigonometric.ArctanDeriv
import Mathlib.Analysis.Calculus.Deriv.MeanValue
import Mathlib.Analysis.Real.Pi.Bounds
import Mathlib.Tactic.FieldSimp
import Mathlib.Tactic.LinearCombination

/-!
C315: how far errors of the measured directions move the computed positions.
-/

namespace Welleng.Props

open Real Welleng Spec

/-! ### The ratio factor -/

theorem tan_div_mono : MonotoneOn (fun x => tan x / x) (Set.Ioo 0 (π / 2)) := by
  have hcos : ∀ x ∈ Set.Ioo (0 : ℝ) (π / 2), cos x ≠ 0 := fun x hx =>
    (cos_pos_of_mem_Ioo ⟨by linarith [hx.1, pi_pos], hx.2⟩).ne'
  have hder : ∀ x ∈ Set.Ioo (0 : ℝ) (π / 2),
      HasDerivAt (fun x => tan x / x) ((1 / cos x ^ 2 * x - tan x * 1) / x ^ 2) x := fun x hx =>
    (hasDerivAt_tan (hcos x hx)).div (hasDerivAt_id x) hx.1.ne'
  refine monotoneOn_of_deriv_nonneg (convex_Ioo _ _)
    (fun x hx => (hder x hx).continuousAt.continuousWithinAt) ?_ ?_
  · rw [interior_Ioo]
    exact fun x hx => (hder x hx).differentiableAt.differentiableWithinAt
  · rw [interior_Ioo]
    intro x hx
    rw [(hder x hx).deriv]
    refine div_nonneg ?_ (sq_nonneg x)
    have hc := hcos x hx
    have : 1 / cos x ^ 2 * x - tan x * 1 = (x - sin x * cos x) / cos x ^ 2 := by
      rw [tan_eq_sin_div_cos]; field_simp
    rw [this]
    refine div_nonneg ?_ (sq_nonneg _)
    have hs := sin_le hx.1.le
    have hs0 := sin_nonneg_of_nonneg_of_le_pi hx.1.le (by linarith [hx.2, pi_pos])
    nlinarith [cos_le_one x]

theorem sin_div_anti {x y : ℝ} (hx : 0 < x) (hxy : x ≤ y) (hy : y ≤ π) : sin y / y ≤ sin x / x := by
  have hy0 : 0 < y := hx.trans_le hxy
  have ha : 0 ≤ x / y := by positivity
  have hb : 0 ≤ 1 - x / y := by rw [sub_nonneg, div_le_one hy0]; exact hxy
  have h := strictConcaveOn_sin_Icc.concaveOn.2 (Set.mem_Icc.mpr ⟨hy0.le, hy⟩)
    (Set.mem_Icc.mpr ⟨le_rfl, pi_pos.le⟩) ha hb (by ring)
  simp only [smul_eq_mul, sin_zero, mul_zero, add_zero] at h
  rw [div_mul_cancel₀ _ hy0.ne'] at h
  rw [div_le_div_iff₀ hy0 hx]
  have := mul_le_mul_of_nonneg_right h hy0.le
  have e : x / y * sin y * y = x * sin y := by field_simp
  linarith

theorem rf_ge_one {d : ℝ} (h0 : 0 ≤ d) (h1 : d < π) : 1 ≤ getRf d := by
  unfold getRf
  split_ifs with h
  · exact le_rfl
  · have hd : 0 < d := lt_of_le_of_ne h0 (Ne.symm h)
    have := lt_tan (x := d / 2) (by linarith) (by linarith)
    rw [div_mul_eq_mul_div, le_div_iff₀ hd]
    linarith

theorem rf_mono {d e : ℝ} (h0 : 0 ≤ d) (h : d ≤ e) (h1 : e < π) : getRf d ≤ getRf e := by
  by_cases hd : d = 0
  · rw [hd]
    have : getRf 0 = 1 := by simp [getRf]
    rw [this]
    exact rf_ge_one (h0.trans h) h1
  · have hd0 : 0 < d := lt_of_le_of_ne h0 (Ne.symm hd)
    have he0 : 0 < e := hd0.trans_le h
    unfold getRf
    rw [if_neg hd, if_neg he0.ne']
    have := tan_div_mono (a := d / 2) (b := e / 2) ⟨by linarith, by linarith⟩ ⟨by linarith, by linarith⟩
      (by linarith)
    simp only at this
    have e1 : ∀ x : ℝ, 2 / x * tan (x / 2) = tan (x / 2) / (x / 2) := by
      intro x; rw [div_div_eq_mul_div]; ring
    rw [e1, e1]
    exact this

/-- The chord of an arc of unit length is shorter the more the arc turns. -/
theorem rf_cos_anti {d e : ℝ} (h0 : 0 ≤ d) (h : d ≤ e) (h1 : e < π) :
    getRf e * cos (e / 2) ≤ getRf d * cos (d / 2) := by
  have key : ∀ x : ℝ, 0 < x → x < π → getRf x * cos (x / 2) = sin (x / 2) / (x / 2) := by
    intro x hx0 hx1
    have hc : cos (x / 2) ≠ 0 := (cos_pos_of_mem_Ioo ⟨by linarith, by linarith⟩).ne'
    unfold getRf
    rw [if_neg hx0.ne', tan_eq_sin_div_cos]
    field_simp
  rcases h0.lt_or_eq with hd | hd
  · rw [key d hd (by linarith), key e (by linarith) h1]
    exact sin_div_anti (by linarith) (by linarith) (by linarith)
  · subst hd
    have e0 : getRf 0 * cos (0 / 2) = 1 := by simp [getRf]
    rw [e0]
    rcases h.lt_or_eq with he | he
    · rw [key e he h1, div_le_one (by linarith)]
      exact sin_le (by linarith)
    · rw [← he, e0]

/-! ### One step -/

theorem scaled_close {s s' : V3} {k k' K : ℝ} (h0 : 0 ≤ k') (h1 : k' ≤ k) (h2 : k ≤ K)
    (hr : V3.norm s ≤ V3.norm s') (hm : k * V3.norm s ≤ k' * V3.norm s') :
    V3.norm (k • s - k' • s') ≤ K * V3.norm (s - s') := by
  have hK : 0 ≤ K := h0.trans (h1.trans h2)
  have hk : 0 ≤ k := h0.trans h1
  refine abs_le_of_sq_le_sq' ?_ (mul_nonneg hK (V3.norm_nonneg _)) |>.2
  rw [mul_pow, V3.norm_sq, V3.norm_sq]
  have hA := V3.norm_sq s
  have hC := V3.norm_sq s'
  have hB := V3.dot_le_norm s s'
  have e1 : V3.dot (k • s - k' • s') (k • s - k' • s')
      = k ^ 2 * V3.dot s s - 2 * (k * k') * V3.dot s s' + k' ^ 2 * V3.dot s' s' := by
    rw [V3.dot_sub_left, V3.dot_sub_right, V3.dot_sub_right, V3.dot_smul_left, V3.dot_smul_left,
      V3.dot_smul_left, V3.dot_smul_left, V3.dot_smul_right, V3.dot_smul_right, V3.dot_smul_right,
      V3.dot_smul_right, V3.dot_comm s' s]
    ring
  have e2 : V3.dot (s - s') (s - s') = V3.dot s s - 2 * V3.dot s s' + V3.dot s' s' := by
    rw [V3.dot_sub_left, V3.dot_sub_right, V3.dot_sub_right, V3.dot_comm s' s]
    ring
  rw [e1, e2, ← hA, ← hC]
  have hr0 := V3.norm_nonneg s
  generalize V3.norm s = r at *
  generalize V3.norm s' = r' at *
  generalize V3.dot s s' = B at *
  have hkk : k * k' ≤ K ^ 2 := by nlinarith
  have hD : (r - r') ^ 2 ≤ r ^ 2 - 2 * B + r' ^ 2 := by nlinarith
  have hq : (k' * r' - k * r) ^ 2 ≤ (K * (r' - r)) ^ 2 := by
    refine pow_le_pow_left₀ (by linarith) ?_ 2
    have : k' * r' ≤ k * r' := mul_le_mul_of_nonneg_right h1 (by linarith)
    have : k * (r' - r) ≤ K * (r' - r) := mul_le_mul_of_nonneg_right h2 (by linarith)
    linarith
  have := mul_le_mul_of_nonneg_left hD (by linarith : 0 ≤ K ^ 2 - k * k')
  nlinarith

/-- A step of minimum curvature with other directions. -/
theorem step_close {L i1 a1 i2 a2 j1 b1 j2 b2 ε D : ℝ} (hL : 0 ≤ L) (hD : D < π)
    (hd : getDogleg i1 a1 i2 a2 ≤ D) (hd' : getDogleg j1 b1 j2 b2 ≤ D)
    (h1 : V3.norm (tangent i1 a1 - tangent j1 b1) ≤ ε)
    (h2 : V3.norm (tangent i2 a2 - tangent j2 b2) ≤ ε) :
    V3.norm (minCurveStep L i1 a1 i2 a2 - minCurveStep L j1 b1 j2 b2) ≤ getRf D * L * ε := by
  -- the step with the larger turn first
  have main : ∀ {i1 a1 i2 a2 j1 b1 j2 b2 : ℝ}, getDogleg i1 a1 i2 a2 ≤ D →
      getDogleg j1 b1 j2 b2 ≤ getDogleg i1 a1 i2 a2 →
      V3.norm (tangent i1 a1 - tangent j1 b1) ≤ ε → V3.norm (tangent i2 a2 - tangent j2 b2) ≤ ε →
      V3.norm (minCurveStep L i1 a1 i2 a2 - minCurveStep L j1 b1 j2 b2) ≤ getRf D * L * ε := by
    intro i1 a1 i2 a2 j1 b1 j2 b2 hd hle h1 h2
    have n1 := norm_add_unit (tangent_unit i1 a1) (tangent_unit i2 a2) (getDogleg_nonneg ..)
      (getDogleg_le_pi ..) (cos_getDogleg ..)
    have n2 := norm_add_unit (tangent_unit j1 b1) (tangent_unit j2 b2) (getDogleg_nonneg ..)
      (getDogleg_le_pi ..) (cos_getDogleg ..)
    have p1 := getDogleg_nonneg i1 a1 i2 a2
    have p2 := getDogleg_nonneg j1 b1 j2 b2
    unfold minCurveStep
    rw [minCurveStepRf_eq, minCurveStepRf_eq]
    generalize getDogleg i1 a1 i2 a2 = d at *
    generalize getDogleg j1 b1 j2 b2 = e at *
    have r0 := rf_ge_one p2 (by linarith : e < π)
    have r1 := rf_mono p2 hle (by linarith)
    have r2 := rf_mono p1 hd hD
    have r3 := rf_cos_anti p2 hle (by linarith)
    have hc : cos (d / 2) ≤ cos (e / 2) :=
      cos_le_cos_of_nonneg_of_le_pi (by linarith) (by linarith) (by linarith)
    have := scaled_close (s := tangent i1 a1 + tangent i2 a2) (s' := tangent j1 b1 + tangent j2 b2)
      (k := L * getRf d / 2) (k' := L * getRf e / 2) (K := L * getRf D / 2)
      (by positivity) (by have := mul_le_mul_of_nonneg_left r1 hL; linarith)
      (by have := mul_le_mul_of_nonneg_left r2 hL; linarith) (by rw [n1, n2]; linarith) (by
        rw [n1, n2]
        have := mul_le_mul_of_nonneg_left r3 hL
        linarith)
    refine this.trans ?_
    have hs : tangent i1 a1 + tangent i2 a2 - (tangent j1 b1 + tangent j2 b2)
        = (tangent i1 a1 - tangent j1 b1) + (tangent i2 a2 - tangent j2 b2) := by abel
    rw [hs]
    have hn := (V3.norm_add_le (tangent i1 a1 - tangent j1 b1) (tangent i2 a2 - tangent j2 b2)).trans
      (add_le_add h1 h2)
    have hK : 0 ≤ L * getRf D / 2 := by
      have := rf_ge_one (p1.trans hd) hD
      positivity
    have := mul_le_mul_of_nonneg_left hn hK
    linarith
  rcases le_total (getDogleg j1 b1 j2 b2) (getDogleg i1 a1 i2 a2) with h | h
  · exact main hd h h1 h2
  · rw [← norm_neg, neg_sub]
    refine main hd' h ?_ ?_
    · rw [← norm_neg, neg_sub]; exact h1
    · rw [← norm_neg, neg_sub]; exact h2

/-! ### C315: all positions -/

theorem positions_close {ε D : ℝ} (hD : D < π) (rows : List Station) :
    ∀ (rows' : List Station), List.Forall₂ (fun r r' => r.md = r'.md ∧
        V3.norm (tangent r.inc r.azi - tangent r'.inc r'.azi) ≤ ε) rows rows' →
      rows.IsChain (fun p q => p.md ≤ q.md ∧ dogleg2 p q ≤ D) →
      rows'.IsChain (fun p q => dogleg2 p q ≤ D) →
      ∀ (p0 p0' : V3) (e : ℝ) (s0 : Station), rows.head? = some s0 → V3.norm (p0 - p0') ≤ e →
      ∀ {k : ℕ} {s : Station} {p p' : V3}, rows[k]? = some s → (positions p0 rows)[k]? = some p →
        (positions p0' rows')[k]? = some p' →
        V3.norm (p - p') ≤ e + getRf D * ε * (s.md - s0.md) := by
  induction rows with
  | nil => intro rows' _ _ _ p0 p0' e s0 _ _ k s p p' hs; simp at hs
  | cons a t ih =>
    intro rows' hf hc hc' p0 p0' e s0 h0 he k s p p' hs hp hp'
    obtain rfl : a = s0 := by simpa using h0
    cases hf with
    | @cons _ a' _ t' ha ht =>
      cases k with
      | zero =>
        obtain rfl : a = s := by simpa using hs
        have q1 : p0 = p := by simpa [positions] using hp
        have q2 : p0' = p' := by simpa [positions] using hp'
        rw [← q1, ← q2]; linarith
      | succ k =>
        cases ht with
        | nil => simp at hs
        | @cons b b' t t' hb ht =>
          rw [List.isChain_cons_cons] at hc hc'
          rw [positions_cons2] at hp hp'
          simp only [List.getElem?_cons_succ] at hp hp' hs
          have hstep := step_close (L := b.md - a.md) (by linarith [hc.1.1]) hD hc.1.2 hc'.1 ha.2 hb.2
          have hb' : V3.norm (p0 + deltaXyz a b - (p0' + deltaXyz a' b'))
              ≤ e + getRf D * ε * (b.md - a.md) := by
            have e1 : p0 + deltaXyz a b - (p0' + deltaXyz a' b') = (p0 - p0')
                + swap (minCurveStep (b.md - a.md) a.inc a.azi b.inc b.azi
                  - minCurveStep (b.md - a.md) a'.inc a'.azi b'.inc b'.azi) := by
              rw [deltaXyz_eq, deltaXyz_eq, ← ha.1, ← hb.1]
              ext <;> simp [swap] <;> ring
            rw [e1]
            refine (V3.norm_add_le _ _).trans ?_
            rw [norm_swap]
            linarith
          have := ih (b' :: t') (.cons hb ht) hc.2 hc'.2 _ _ _ b rfl hb' hs hp hp'
          linarith

/-- **C315** If two surveys have the same depths, directions that differ by at most `ε` at every station,
and no turn between neighbouring stations of more than `D`, less than half a circle, then their positions
differ by no more than `ε` times the drilled length times the ratio factor of `D`. -/
theorem C315_directions {rows rows' : List Station} {ε D : ℝ} (hD : D < π)
    (hf : List.Forall₂ (fun r r' => r.md = r'.md ∧
      V3.norm (tangent r.inc r.azi - tangent r'.inc r'.azi) ≤ ε) rows rows')
    (hc : rows.IsChain fun p q => p.md ≤ q.md ∧ dogleg2 p q ≤ D)
    (hc' : rows'.IsChain fun p q => dogleg2 p q ≤ D)
    {u : LenUnit} {start : V3} {out out' : MinCurveOut} {s0 : Station} (h0 : rows[0]? = some s0)
    (ho : minCurve rows start u = .ok out) (ho' : minCurve rows' start u = .ok out')
    {k : ℕ} {s : Station} {p p' : V3} (hs : rows[k]? = some s) (hp : out.poss[k]? = some p)
    (hp' : out'.poss[k]? = some p') :
    V3.norm (p - p') ≤ getRf D * ε * (s.md - s0.md) := by
  rw [minCurve_poss ho] at hp
  rw [minCurve_poss ho'] at hp'
  have := positions_close hD rows rows' hf hc hc' start start 0 s0
    (by rw [← h0]; cases rows <;> rfl) (by rw [sub_self, V3.norm_zero]) hs hp hp'
  linarith

/-- Directions whose angles differ by `α` and `β` are at most `α + β` apart. -/
theorem tangent_close (i a j b : ℝ) :
    V3.norm (tangent i a - tangent j b) ≤ |i - j| + |a - b| := by
  have key : ∀ v : V3, ∀ x : ℝ, V3.dot v v ≤ x ^ 2 → V3.norm v ≤ |x| := fun v x h => by
    rw [← sqrt_sq_eq_abs]; exact sqrt_le_sqrt h
  have h1 : V3.norm (tangent i a - tangent j a) ≤ |i - j| := by
    refine key _ _ ?_
    have e : V3.dot (tangent i a - tangent j a) (tangent i a - tangent j a)
        = 2 - 2 * cos (i - j) := by
      simp only [V3.dot, tangent, V3.sub_x, V3.sub_y, V3.sub_z]
      rw [cos_sub]
      linear_combination (sin i - sin j) ^ 2 * sin_sq_add_cos_sq a + sin_sq_add_cos_sq i
        + sin_sq_add_cos_sq j
    rw [e]
    linarith [one_sub_sq_div_two_le_cos (x := i - j)]
  have h2 : V3.norm (tangent j a - tangent j b) ≤ |a - b| := by
    refine key _ _ ?_
    have e : V3.dot (tangent j a - tangent j b) (tangent j a - tangent j b)
        = sin j ^ 2 * (2 - 2 * cos (a - b)) := by
      simp only [V3.dot, tangent, V3.sub_x, V3.sub_y, V3.sub_z]
      rw [cos_sub]
      linear_combination sin j ^ 2 * sin_sq_add_cos_sq a + sin j ^ 2 * sin_sq_add_cos_sq b
    rw [e]
    have h3 := one_sub_sq_div_two_le_cos (x := a - b)
    have h4 := sin_sq_le_one j
    have h5 := cos_le_one (a - b)
    nlinarith [sq_nonneg (sin j)]
  have e : tangent i a - tangent j b = (tangent i a - tangent j a) + (tangent j a - tangent j b) := by
    abel
  rw [e]
  exact (V3.norm_add_le _ _).trans (add_le_add h1 h2)

/-- **C315** in terms of the angles: inclinations off by at most `α` and azimuths off by at most `β`. -/
theorem C315_angles {rows rows' : List Station} {α β D : ℝ} (hD : D < π)
    (hf : List.Forall₂ (fun r r' => r.md = r'.md ∧ |r.inc - r'.inc| ≤ α ∧ |r.azi - r'.azi| ≤ β)
      rows rows')
    (hc : rows.IsChain fun p q => p.md ≤ q.md ∧ dogleg2 p q ≤ D)
    (hc' : rows'.IsChain fun p q => dogleg2 p q ≤ D)
    {u : LenUnit} {start : V3} {out out' : MinCurveOut} {s0 : Station} (h0 : rows[0]? = some s0)
    (ho : minCurve rows start u = .ok out) (ho' : minCurve rows' start u = .ok out')
    {k : ℕ} {s : Station} {p p' : V3} (hs : rows[k]? = some s) (hp : out.poss[k]? = some p)
    (hp' : out'.poss[k]? = some p') :
    V3.norm (p - p') ≤ getRf D * (α + β) * (s.md - s0.md) :=
  C315_directions hD (hf.imp fun r r' h =>
    ⟨h.1, (tangent_close r.inc r.azi r'.inc r'.azi).trans (add_le_add h.2.1 h.2.2)⟩) hc hc' h0 ho ho'
    hs hp hp'

/-- **C315** with C306: a survey of a well whose curvature is at most `κ`, with stations at most `h` apart
and directions measured to within `ε`. -/
theorem C315_true_well {γ τ : ℝ → V3} {κ h a b ε D : ℝ} (hw : TrueWell γ τ κ a b) (hκ : 0 ≤ κ)
    (hk : κ * h < 2) (hD : D < π) {truth measured : List Station}
    (hr : ∀ r ∈ truth, a ≤ r.md ∧ r.md ≤ b) (hd : ∀ r ∈ truth, tangent r.inc r.azi = τ r.md)
    (hf : List.Forall₂ (fun r r' => r.md = r'.md ∧
      V3.norm (tangent r.inc r.azi - tangent r'.inc r'.azi) ≤ ε) truth measured)
    (hc : truth.IsChain fun p q => p.md < q.md ∧ q.md - p.md ≤ h ∧ dogleg2 p q ≤ D)
    (hc' : measured.IsChain fun p q => dogleg2 p q ≤ D)
    {u : LenUnit} {out' : MinCurveOut} {s0 : Station} (h0 : truth[0]? = some s0)
    (ho' : minCurve measured (swap (γ s0.md)) u = .ok out')
    {k : ℕ} {s : Station} {p' : V3} (hs : truth[k]? = some s) (hp' : out'.poss[k]? = some p') :
    V3.norm (p' - swap (γ s.md)) ≤ (κ * h + getRf D * ε) * (s.md - s0.md) := by
  obtain ⟨m0, m1, mr, rfl⟩ := minCurve_ok_length ho'
  obtain ⟨out, ho⟩ : ∃ out, minCurve truth (swap (γ s0.md)) u = .ok out := by
    cases hf with
    | cons _ hf => cases hf with
      | cons _ hf =>
        cases u
        · exact ⟨_, rfl⟩
        · exact ⟨_, rfl⟩
        · simp [minCurve] at ho'
  obtain ⟨p, hp⟩ : ∃ p, out.poss[k]? = some p := by
    have hlen : k < out.poss.length := by
      rw [minCurve_poss ho, positions_length]
      exact (List.getElem?_eq_some_iff.mp hs).1
    exact ⟨_, List.getElem?_eq_getElem hlen⟩
  have h1 := C306_accuracy hw hκ hk hr hd (hc.imp fun _ _ h => ⟨h.1, h.2.1⟩) h0 ho hs hp
  have h2 := C315_directions hD hf (hc.imp fun _ _ h => ⟨h.1.le, h.2.2⟩) hc' h0 ho ho' hs hp hp'
  have e : p' - swap (γ s.md) = -(p - p') + (p - swap (γ s.md)) := by abel
  rw [e]
  refine (V3.norm_add_le _ _).trans ?_
  rw [norm_neg]
  linarith

/-- **C315** for depths: two surveys with the same directions, in which the length of each interval
differs by at most the fraction `δ`. -/
theorem C315_depths {pairs : List (Station × Station)} {δ : ℝ}
    (hf : ∀ r ∈ pairs, tangent r.1.inc r.1.azi = tangent r.2.inc r.2.azi)
    (hc : pairs.IsChain fun p q => p.1.md ≤ q.1.md ∧
      |(q.2.md - p.2.md) - (q.1.md - p.1.md)| ≤ δ * (q.1.md - p.1.md))
    {u : LenUnit} {start : V3} {out out' : MinCurveOut} {s0 : Station × Station}
    (h0 : pairs[0]? = some s0) (ho : minCurve (pairs.map (·.1)) start u = .ok out)
    (ho' : minCurve (pairs.map (·.2)) start u = .ok out')
    {k : ℕ} {s : Station × Station} {p p' : V3} (hs : pairs[k]? = some s)
    (hp : out.poss[k]? = some p) (hp' : out'.poss[k]? = some p') :
    V3.norm (p - p') ≤ δ * (s.1.md - s0.1.md) := by
  rw [minCurve_poss ho] at hp
  rw [minCurve_poss ho'] at hp'
  have main : ∀ (l : List (Station × Station)),
      (∀ r ∈ l, tangent r.1.inc r.1.azi = tangent r.2.inc r.2.azi) →
      (l.IsChain fun p q => p.1.md ≤ q.1.md ∧
        |(q.2.md - p.2.md) - (q.1.md - p.1.md)| ≤ δ * (q.1.md - p.1.md)) →
      ∀ (p0 p0' : V3) (e : ℝ) (s0 : Station × Station), l.head? = some s0 → V3.norm (p0 - p0') ≤ e →
      ∀ (k : ℕ) (s : Station × Station) (p p' : V3), l[k]? = some s →
        (positions p0 (l.map (·.1)))[k]? = some p → (positions p0' (l.map (·.2)))[k]? = some p' →
        V3.norm (p - p') ≤ e + δ * (s.1.md - s0.1.md) := by
    intro l
    induction l with
    | nil => intro _ _ p0 p0' e s0 _ _ k s p p' hs; simp at hs
    | cons a t ih =>
      intro hf hc p0 p0' e s0 h0 he k s p p' hs hp hp'
      obtain rfl : a = s0 := by simpa using h0
      cases k with
      | zero =>
        obtain rfl : a = s := by simpa using hs
        have q1 : p0 = p := by simpa [positions] using hp
        have q2 : p0' = p' := by simpa [positions] using hp'
        rw [← q1, ← q2]; linarith
      | succ k =>
        cases t with
        | nil => simp at hs
        | cons b t =>
          rw [List.isChain_cons_cons] at hc
          simp only [List.map_cons] at hp hp'
          rw [positions_cons2] at hp hp'
          simp only [List.getElem?_cons_succ] at hp hp' hs
          have hb' : V3.norm (p0 + deltaXyz a.1 b.1 - (p0' + deltaXyz a.2 b.2))
              ≤ e + δ * (b.1.md - a.1.md) := by
            have e1 : p0 + deltaXyz a.1 b.1 - (p0' + deltaXyz a.2 b.2) = (p0 - p0')
                + swap (-(((b.2.md - a.2.md) - (b.1.md - a.1.md)) • minCurveStep 1 a.1.inc a.1.azi
                  b.1.inc b.1.azi)) := by
              rw [deltaXyz_eq, deltaXyz_eq, ← minCurveStep_congr (hf a (by simp)) (hf b (by simp))]
              ext <;> simp [swap, minCurveStep, minCurveStepRf] <;> ring
            rw [e1]
            refine (V3.norm_add_le _ _).trans ?_
            rw [norm_swap, norm_neg, V3.norm_smul]
            have h1 := step_norm_le (L := 1) (i1 := a.1.inc) (a1 := a.1.azi) (i2 := b.1.inc)
              (a2 := b.1.azi) (by norm_num)
            have h2 := mul_le_mul_of_nonneg_left h1
              (abs_nonneg ((b.2.md - a.2.md) - (b.1.md - a.1.md)))
            linarith [hc.1.2]
          have := ih (fun r hr => hf r (List.mem_cons_of_mem _ hr)) hc.2 _ _ _ b rfl hb' k s p p' hs
            (by simpa using hp) (by simpa using hp')
          linarith
  have := main pairs hf hc start start 0 s0 (by rw [← h0]; cases pairs <;> rfl)
    (by rw [sub_self, V3.norm_zero]) k s p p' hs hp hp'
  linarith

/-- A tape that reads one per cent too long. -/
example : [((⟨0, 0, 0⟩ : Station), (⟨0, 0, 0⟩ : Station)), (⟨100, 1, 0⟩, ⟨101, 1, 0⟩)].IsChain
    fun p q => p.1.md ≤ q.1.md ∧
      |(q.2.md - p.2.md) - (q.1.md - p.1.md)| ≤ 1 / 100 * (q.1.md - p.1.md) :=
  .cons_cons ⟨by norm_num, by norm_num⟩ (.singleton _)

/-- A vertical well of two stations, measured with inclinations of 1/100. -/
example : ∃ rows rows' : List Station, List.Forall₂ (fun r r' => r.md = r'.md ∧
      |r.inc - r'.inc| ≤ 1 / 100 ∧ |r.azi - r'.azi| ≤ 0) rows rows' ∧
    (rows.IsChain fun p q => p.md ≤ q.md ∧ dogleg2 p q ≤ 1) ∧
    (rows'.IsChain fun p q => dogleg2 p q ≤ 1) ∧ (1 : ℝ) < π ∧
    rows.map (·.inc) ≠ rows'.map (·.inc) := by
  have hd : ∀ i m m' : ℝ, dogleg2 ⟨m, i, 0⟩ ⟨m', i, 0⟩ ≤ 1 := by
    intro i m m'
    simp [dogleg2, getDogleg]
  refine ⟨[⟨0, 0, 0⟩, ⟨100, 0, 0⟩], [⟨0, 1 / 100, 0⟩, ⟨100, 1 / 100, 0⟩], ?_, ?_, ?_, ?_, ?_⟩
  · refine .cons ⟨rfl, ?_, by simp⟩ (.cons ⟨rfl, ?_, by simp⟩ .nil) <;> norm_num
  · exact .cons_cons ⟨by norm_num, hd ..⟩ (.singleton _)
  · exact .cons_cons (hd ..) (.singleton _)
  · linarith [pi_gt_three]
  · simp

end Welleng.Props
