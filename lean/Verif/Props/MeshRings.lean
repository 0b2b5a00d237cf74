import Verif.Model.Mesh
import Verif.Lemmas.Angles
import Verif.Spec.Geometry
import Mathlib.Tactic.LinearCombination
import Mathlib.Tactic.FieldSimp
import Mathlib.Tactic.Positivity
import Mathlib.Analysis.Real.Sqrt
import Mathlib.Data.List.Rotate
import Mathlib.Analysis.SpecialFunctions.Trigonometric.Angle

/-! C69-C72: the rings of a well mesh. -/

namespace Welleng.Props

open Real Welleng Mesh Spec

/-! ### C69 -/

/-- The offset of a ring vertex from its station. -/
noncomputable def offset (inc azi : ℝ) (nev w : Fin 3 → ℝ) : V3 :=
  ⟨placed inc azi nev w 0 - nev 0, placed inc azi nev w 1 - nev 1, placed inc azi nev w 2 - nev 2⟩

theorem offset_eq (inc azi : ℝ) (nev w : Fin 3 → ℝ) :
    offset inc azi nev w = ⟨w 0 * (cos inc * cos azi) + w 1 * (-sin azi) + w 2 * (sin inc * cos azi),
      w 0 * (cos inc * sin azi) + w 1 * cos azi + w 2 * (sin inc * sin azi),
      w 0 * (-sin inc) + w 2 * cos inc⟩ := by
  simp [offset, placed, hlaToNevVec, getTransform, Matrix.vecMul, dotProduct, Fin.sum_univ_three,
    Matrix.vecHead, Matrix.vecTail]
  refine ⟨?_, ?_⟩ <;> ring

/-- **C69** Whatever the method, every vertex of a ring lies in the plane through its station
perpendicular to the well, at the distance of its high-side and lateral coordinates. -/
theorem C69_ring_plane (inc azi : ℝ) (nev w : Fin 3 → ℝ) (hw : w 2 = 0) :
    V3.dot (offset inc azi nev w) (tangent inc azi) = 0 ∧
    V3.dot (offset inc azi nev w) (offset inc azi nev w) = w 0 ^ 2 + w 1 ^ 2 := by
  rw [offset_eq, hw]
  simp only [V3.dot, tangent]
  have h1 := sin_sq_add_cos_sq inc
  have h2 := sin_sq_add_cos_sq azi
  constructor
  · linear_combination (w 0 * cos inc * sin inc) * h2
  · linear_combination (w 0 ^ 2 * cos inc ^ 2 + w 1 ^ 2) * h2 + w 0 ^ 2 * h1

/-- **C69** In the circle method every vertex is at the hole radius from its station. -/
theorem C69_circle (inc azi radius : ℝ) (nev : Fin 3 → ℝ) (n j : ℕ) :
    V3.dot (offset inc azi nev (circleVertex radius n j)) (tangent inc azi) = 0 ∧
    V3.dot (offset inc azi nev (circleVertex radius n j))
      (offset inc azi nev (circleVertex radius n j)) = radius ^ 2 := by
  have h := C69_ring_plane inc azi nev (circleVertex radius n j) rfl
  refine ⟨h.1, h.2.trans ?_⟩
  simp only [circleVertex, Matrix.cons_val_zero, Matrix.cons_val_one]
  linear_combination radius ^ 2 * sin_sq_add_cos_sq (lam n j)

/-- **C69** In the ellipse method every vertex lies on the ellipse with semi-axes `h` along the
major axis (direction `θ` from high side) and `l` across it. -/
theorem C69_ellipse (h l θ : ℝ) (hh : h ≠ 0) (hl : l ≠ 0) (n j : ℕ) :
    let w := ellipseVertex h l θ n j
    w 2 = 0 ∧
    ((w 0 * cos θ + w 1 * sin θ) / h) ^ 2 + ((-w 0 * sin θ + w 1 * cos θ) / l) ^ 2 = 1 := by
  intro w
  have e1 : w 0 * cos θ + w 1 * sin θ = h * cos (lam n j) := by
    simp only [w, ellipseVertex, Matrix.cons_val_zero, Matrix.cons_val_one]
    linear_combination (h * cos (lam n j)) * sin_sq_add_cos_sq θ
  have e2 : -w 0 * sin θ + w 1 * cos θ = l * sin (lam n j) := by
    simp only [w, ellipseVertex, Matrix.cons_val_zero, Matrix.cons_val_one]
    linear_combination (l * sin (lam n j)) * sin_sq_add_cos_sq θ
  refine ⟨rfl, ?_⟩
  rw [e1, e2, mul_div_cancel_left₀ _ hh, mul_div_cancel_left₀ _ hl]
  exact cos_sq_add_sin_sq _

/-- **C69** In the pedal-curve method the vertex for angle `t` is the foot of the perpendicular
from the station to the tangent of the ellipse at `(h cos t, l sin t)`. -/
theorem C69_pedal (h l t : ℝ) (hh : 0 < h) (hl : 0 < l) :
    let w := pedalVertex h l t
    let p : ℝ × ℝ := (h * cos t, l * sin t)
    let d : ℝ × ℝ := (-h * sin t, l * cos t)
    w 2 = 0 ∧ w 0 * d.1 + w 1 * d.2 = 0 ∧ (w 0 - p.1) * d.2 = (w 1 - p.2) * d.1 := by
  intro w p d
  have hpos : 0 < l ^ 2 * cos t ^ 2 + h ^ 2 * sin t ^ 2 := by
    rcases eq_or_ne (cos t) 0 with hc | hc
    · have := sin_sq_add_cos_sq t
      rw [hc] at this ⊢
      have : sin t ^ 2 = 1 := by linarith
      rw [this]; positivity
    · positivity
  refine ⟨rfl, ?_, ?_⟩ <;> simp only [w, p, d, pedalVertex, Matrix.cons_val_zero, Matrix.cons_val_one]
  · field_simp; ring
  · have h1 := sin_sq_add_cos_sq t
    field_simp
    linear_combination (-(cos t ^ 2 * l ^ 2 + h ^ 2 * sin t ^ 2)) * h1

/-- **C126** The vertices of a ring are evenly spaced in angle and go once round: vertex `j` is at
`j` n-ths of a turn, and no two of the `n` vertices coincide, in the circle and in the ellipse
method. -/
theorem C126_ring_vertices (h l θ : ℝ) (hh : 0 < h) (hl : 0 < l) {n : ℕ} (hn : 0 < n) :
    (∀ j, lam n j * n = j * (2 * π)) ∧
    (∀ i j, i < n → j < n → ellipseVertex h l θ n i = ellipseVertex h l θ n j → i = j) ∧
    ∀ i j, i < n → j < n → circleVertex h n i = circleVertex h n j → i = j := by
  have hn' : (0 : ℝ) < n := by exact_mod_cast hn
  have hpi := pi_pos
  have key : ∀ i j, i < n → j < n → cos (lam n i) = cos (lam n j) → sin (lam n i) = sin (lam n j) →
      i = j := by
    intro i j hi hj hc hs
    have hr : ∀ k, k < n → lam n k ∈ Set.Ico 0 (2 * π) := by
      intro k hk
      have hk' : (k : ℝ) < n := by exact_mod_cast hk
      unfold lam
      constructor
      · positivity
      · rw [← mul_div_assoc, div_lt_iff₀ hn', mul_comm]
        exact mul_lt_mul_of_pos_left hk' (by positivity)
    have hang : ((lam n i : ℝ) : Real.Angle) = (lam n j : ℝ) := Real.Angle.cos_sin_inj hc hs
    rw [Real.Angle.angle_eq_iff_two_pi_dvd_sub] at hang
    obtain ⟨k, hk⟩ := hang
    obtain ⟨a0, a1⟩ := hr i hi
    obtain ⟨b0, b1⟩ := hr j hj
    have k0 : k = 0 := by
      have h1 : (k : ℝ) < 1 := by nlinarith
      have h2 : (-1 : ℝ) < k := by nlinarith
      have h1' : k < 1 := by exact_mod_cast h1
      have h2' : -1 < k := by exact_mod_cast h2
      omega
    rw [k0, Int.cast_zero, mul_zero] at hk
    have he : lam n i = lam n j := by linarith
    unfold lam at he
    have : (i : ℝ) = j := mul_right_cancel₀ (by positivity) he
    exact_mod_cast this
  refine ⟨fun j => ?_, fun i j hi hj he => ?_, fun i j hi hj he => ?_⟩
  · unfold lam; field_simp
  · have e0 := congrFun he 0
    have e1 := congrFun he 1
    simp only [ellipseVertex, Matrix.cons_val_zero, Matrix.cons_val_one] at e0 e1
    have ht := sin_sq_add_cos_sq θ
    have c1 : h * cos (lam n i) = h * cos (lam n j) := by
      linear_combination cos θ * e0 + sin θ * e1
        - (h * cos (lam n i) - h * cos (lam n j)) * ht
    have c2 : l * sin (lam n i) = l * sin (lam n j) := by
      linear_combination -sin θ * e0 + cos θ * e1
        - (l * sin (lam n i) - l * sin (lam n j)) * ht
    exact key i j hi hj (mul_left_cancel₀ hh.ne' c1) (mul_left_cancel₀ hl.ne' c2)
  · have e0 := congrFun he 0
    have e1 := congrFun he 1
    simp only [circleVertex, Matrix.cons_val_zero, Matrix.cons_val_one] at e0 e1
    exact key i j hi hj (mul_left_cancel₀ hh.ne' e0) (mul_left_cancel₀ hh.ne' e1)

/-! ### C72: does the ellipse ring contain the uncertainty plus the hole radius? -/

/-- How far the ellipse with semi-axes `h`, `l` extends in the direction at angle `t` from the
major axis: the largest value of `x cos t + y sin t` on it. -/
noncomputable def reach (h l t : ℝ) : ℝ := √(h ^ 2 * cos t ^ 2 + l ^ 2 * sin t ^ 2)

/-- `reach` is the maximum. -/
theorem reach_is_max (h l t : ℝ) :
    (∀ s, h * cos s * cos t + l * sin s * sin t ≤ reach h l t) ∧
    ∃ s, h * cos s * cos t + l * sin s * sin t = reach h l t := by
  have hnn : 0 ≤ h ^ 2 * cos t ^ 2 + l ^ 2 * sin t ^ 2 := by positivity
  constructor
  · intro s
    refine le_sqrt_of_sq_le ?_
    have := sin_sq_add_cos_sq s
    nlinarith [sq_nonneg (h * cos t * sin s - l * sin t * cos s)]
  · refine ⟨atan2 (l * sin t) (h * cos t), ?_⟩
    rcases eq_or_ne (h ^ 2 * cos t ^ 2 + l ^ 2 * sin t ^ 2) 0 with h0 | h0
    · have a : (h * cos t) ^ 2 + (l * sin t) ^ 2 = 0 := by rw [mul_pow, mul_pow]; exact h0
      have b : h * cos t = 0 := by nlinarith [sq_nonneg (h * cos t), sq_nonneg (l * sin t)]
      have c : l * sin t = 0 := by nlinarith [sq_nonneg (h * cos t), sq_nonneg (l * sin t)]
      rw [reach, h0, sqrt_zero, mul_right_comm, b, mul_right_comm, c]; ring
    · have hne : h * cos t ≠ 0 ∨ l * sin t ≠ 0 := by
        by_contra hc
        push Not at hc
        apply h0
        rw [← mul_pow, ← mul_pow, hc.1, hc.2]; ring
      have e : √((h * cos t) ^ 2 + (l * sin t) ^ 2) = reach h l t := by
        rw [reach, mul_pow, mul_pow]
      have hp : 0 < reach h l t := sqrt_pos.2 (lt_of_le_of_ne hnn (Ne.symm h0))
      have hs : reach h l t ^ 2 = h ^ 2 * cos t ^ 2 + l ^ 2 * sin t ^ 2 := sq_sqrt hnn
      rw [sin_atan2, cos_atan2 hne, e]
      field_simp
      linear_combination -hs

theorem ring_reach (s1 s2 sigma m : ℝ) (h1 : 0 ≤ s1) (h2 : 0 ≤ s2) (hk : 0 ≤ sigma)
    (hm : 0 ≤ m) :
    reach (semiAxis s1 sigma m 0 0) (semiAxis s2 sigma m 0 0) 0 = sigma * reach s1 s2 0 + m ∧
    reach (semiAxis s1 sigma m 0 0) (semiAxis s2 sigma m 0 0) (π / 2)
      = sigma * reach s1 s2 (π / 2) + m ∧
    ∀ t, reach (semiAxis s1 sigma m 0 0) (semiAxis s2 sigma m 0 0) t ≤ sigma * reach s1 s2 t + m := by
  have e1 : 0 ≤ s1 * sigma + m := by positivity
  have e2 : 0 ≤ s2 * sigma + m := by positivity
  refine ⟨?_, ?_, fun t => ?_⟩
  · simp [reach, semiAxis, sqrt_sq e1, sqrt_sq h1]; ring
  · simp [reach, semiAxis, sqrt_sq e2, sqrt_sq h2]; ring
  · simp only [reach, semiAxis]
    have hnn : 0 ≤ s1 ^ 2 * cos t ^ 2 + s2 ^ 2 * sin t ^ 2 := by positivity
    set r := √(s1 ^ 2 * cos t ^ 2 + s2 ^ 2 * sin t ^ 2) with hr
    have hr0 : 0 ≤ r := sqrt_nonneg _
    have hr2 : r ^ 2 = s1 ^ 2 * cos t ^ 2 + s2 ^ 2 * sin t ^ 2 := sq_sqrt hnn
    have ht := sin_sq_add_cos_sq t
    have hcs : s1 * cos t ^ 2 + s2 * sin t ^ 2 ≤ r := by
      refine abs_le_of_sq_le_sq' ?_ hr0 |>.2
      rw [hr2]
      have : (s1 ^ 2 * cos t ^ 2 + s2 ^ 2 * sin t ^ 2) * (sin t ^ 2 + cos t ^ 2)
          - (s1 * cos t ^ 2 + s2 * sin t ^ 2) ^ 2 = (s1 - s2) ^ 2 * (sin t * cos t) ^ 2 := by ring
      rw [ht, mul_one] at this
      nlinarith [mul_nonneg (sq_nonneg (s1 - s2)) (sq_nonneg (sin t * cos t))]
    refine sqrt_le_iff.2 ⟨by positivity, ?_⟩
    have : (sigma * r + m) ^ 2 - ((s1 * sigma + m + 0 + 0 / 2) ^ 2 * cos t ^ 2
        + (s2 * sigma + m + 0 + 0 / 2) ^ 2 * sin t ^ 2)
        = 2 * sigma * m * (r - (s1 * cos t ^ 2 + s2 * sin t ^ 2)) := by
      linear_combination sigma ^ 2 * hr2 - m ^ 2 * ht
    nlinarith [mul_nonneg (mul_nonneg hk hm) (sub_nonneg.2 hcs)]

/-- **C72** (partial) Along the two axes of the ellipse the ring extends exactly `sigma` standard
deviations plus hole radius, surface margin and half the project-ahead term, and in no direction
further. -/
theorem C72_ring_reach_partial (s1 s2 sigma radius Sm pa : ℝ) (h1 : 0 ≤ s1) (h2 : 0 ≤ s2)
    (hk : 0 ≤ sigma) (hr : 0 ≤ radius) (hS : 0 ≤ Sm) (hp : 0 ≤ pa) :
    let h := semiAxis s1 sigma radius Sm pa
    let l := semiAxis s2 sigma radius Sm pa
    reach h l 0 = sigma * reach s1 s2 0 + (radius + Sm + pa / 2) ∧
    reach h l (π / 2) = sigma * reach s1 s2 (π / 2) + (radius + Sm + pa / 2) ∧
    ∀ t, reach h l t ≤ sigma * reach s1 s2 t + (radius + Sm + pa / 2) := by
  have e : ∀ sd, semiAxis sd sigma radius Sm pa = semiAxis sd sigma (radius + Sm + pa / 2) 0 0 := by
    intro sd; unfold semiAxis; ring
  intro h l
  simp only [h, l, e]
  exact ring_reach s1 s2 sigma (radius + Sm + pa / 2) h1 h2 hk (by positivity)

/-- **C72** is false of the code: in an oblique direction the ring does not reach the uncertainty
plus the margin (here standard deviations 7 and 1, margin 1, at 45° to the axes). -/
theorem C72_ring_too_small :
    reach (semiAxis 7 1 1 0 0) (semiAxis 1 1 1 0 0) (π / 4) < 1 * reach 7 1 (π / 4) + 1 := by
  have hc : cos (π / 4) ^ 2 = 1 / 2 := by
    rw [cos_pi_div_four, div_pow, sq_sqrt (by norm_num)]; norm_num
  have hs : sin (π / 4) ^ 2 = 1 / 2 := by
    rw [sin_pi_div_four, div_pow, sq_sqrt (by norm_num)]; norm_num
  simp only [reach, semiAxis, hc, hs]
  have h5 : √((7 : ℝ) ^ 2 * (1 / 2) + 1 ^ 2 * (1 / 2)) = 5 := by
    rw [show (7 : ℝ) ^ 2 * (1 / 2) + 1 ^ 2 * (1 / 2) = 5 ^ 2 by norm_num]
    exact sqrt_sq (by norm_num)
  rw [h5, sqrt_lt' (by norm_num)]
  norm_num

/-! ### C70 -/

/-- **C70** (partial) The number of rows is the number of stations for the circle and ellipse
methods, and for the pedal-curve method with an even number of vertices. -/
theorem C70_rows_partial (m : Method) {nVerts : ℕ} (stations : ℕ) (hn : 0 < nVerts)
    (h : m = .pedalCurve → Even nVerts) : rowCount m nVerts stations = stations := by
  have hs : ringSize m nVerts = nVerts := by
    cases m with
    | pedalCurve =>
      obtain ⟨k, hk⟩ := h rfl
      simp only [ringSize]; omega
    | _ => rfl
  rw [rowCount, hs, Nat.mul_div_cancel _ hn]

example : rowCount .pedalCurve 12 5 = 5 := C70_rows_partial _ _ (by norm_num) fun _ => by decide

/-- **C70** is false of the code for the pedal-curve method with an odd number of vertices: a
well with at least one station gets fewer rows than stations. -/
theorem C70_odd_pedal_loses_rows {nVerts stations : ℕ} (h : Odd nVerts) (hs : 0 < stations) :
    rowCount .pedalCurve nVerts stations < stations := by
  obtain ⟨k, rfl⟩ := h
  simp only [rowCount, ringSize]
  rw [show (2 * k + 1) / 2 + (2 * k + 1) / 2 = 2 * k by omega]
  rw [Nat.div_lt_iff_lt_mul (by omega)]
  exact Nat.mul_lt_mul_of_pos_left (by omega) hs

/-! ### C71 -/

/-- **C71** Alignment keeps the vertices of every ring, in the same or the opposite cyclic
order. -/
theorem C71_alignment_keeps_ring {α : Type*} (verts : List α) {idxKey : ℕ} (idxRotation : ℕ)
    (h : idxKey ≤ verts.length) :
    alignRing verts idxKey idxRotation = verts.rotate idxKey ∨
      alignRing verts idxKey idxRotation = (verts.rotate idxKey).reverse := by
  rw [List.rotate_eq_drop_append_take h]
  unfold alignRing
  split <;> simp

/-- **C71** (partial) With at least six vertices, a ring that already has the sense of the one
above (its nearest vertices are `idxKey` and three places on) is not reversed, and starts with
the vertex nearest to the first one above. -/
theorem C71_same_sense_not_reversed_partial {α : Type*} (verts : List α) {idxKey : ℕ}
    (hn : 6 ≤ verts.length) (hk : idxKey < verts.length) :
    alignRing verts idxKey ((idxKey + 3) % verts.length) = verts.rotate idxKey := by
  rw [List.rotate_eq_drop_append_take hk.le]
  unfold alignRing
  have : reversed verts.length idxKey ((idxKey + 3) % verts.length) = false := by
    unfold reversed
    rw [decide_eq_false_iff_not]
    rcases lt_or_ge (idxKey + 3) verts.length with h | h
    · rw [Nat.mod_eq_of_lt h]; push_cast; omega
    · rw [Nat.mod_eq_sub_mod h, Nat.mod_eq_of_lt (by omega)]
      rintro ⟨h1, h2⟩
      rw [abs_of_neg h1] at h2
      omega
  rw [this]; rfl

example : alignRing [0, 1, 2, 3, 4, 5] 4 ((4 + 3) % 6) = [4, 5, 0, 1, 2, 3] := by decide

/-- **C71** is false of the code for four and five vertices: a ring with the right sense is
reversed, so that it runs against the ring above. -/
theorem C71_small_ring_reversed {α : Type*} (a b c d e : α) :
    alignRing [a, b, c, d] 3 ((3 + 3) % 4) = [c, b, a, d] ∧
    alignRing [a, b, c, d, e] 4 ((4 + 3) % 5) = [d, c, b, a, e] := ⟨rfl, rfl⟩

/-- **C71** is false of the code for reversed rings of any size: the vertex nearest to the first
one above ends up last instead of first. -/
theorem C71_reversed_ring_shifted {α : Type*} (verts : List α) {idxKey idxRotation : ℕ}
    (hk : idxKey < verts.length) (hr : reversed verts.length idxKey idxRotation = true) :
    (alignRing verts idxKey idxRotation).getLast? = verts[idxKey]? := by
  unfold alignRing
  rw [hr]
  simp [List.getLast?_reverse, List.head?_append, List.head?_drop, hk]

end Welleng.Props
