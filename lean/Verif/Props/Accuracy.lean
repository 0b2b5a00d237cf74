import Verif.Spec.TrueWell
import Verif.Lemmas.MinCurveList
import Verif.Lemmas.WellPath
import Verif.Lemmas.Survey
import Mathlib.Analysis.Calculus.Deriv.MeanValue
import Mathlib.Geometry.Euclidean.Angle.Unoriented.TriangleInequality
import Mathlib.Analysis.InnerProductSpace.PiL2

/-!
C306-C310: how the positions of a survey relate to the well that was drilled.
-/

namespace Welleng.Props

open Real Spec

/-! ### C306: accuracy -/

theorem hasDeriv_dot {f : ℝ → V3} {f' : V3} {s : ℝ} (w : V3) (h : HasDeriv f f' s) :
    HasDerivAt (fun u => V3.dot w (f u)) (V3.dot w f') s := by
  unfold V3.dot
  exact ((h.1.const_mul w.x).add (h.2.1.const_mul w.y)).add (h.2.2.const_mul w.z)

/-- Trapezoidal rule for a curve of bounded curvature. -/
theorem chord_trapezoid {γ τ : ℝ → V3} {κ a b : ℝ} (h : TrueWell γ τ κ a b) (hab : a < b)
    (hκ : 0 ≤ κ) :
    V3.norm (γ b - γ a - ((b - a) / 2) • (τ a + τ b)) ≤ κ * (b - a) ^ 2 / 2 := by
  set D := γ b - γ a - ((b - a) / 2) • (τ a + τ b) with hD
  set m : V3 := (1 / 2 : ℝ) • (τ a + τ b) with hm
  have hder : ∀ s, a ≤ s → s ≤ b →
      HasDerivAt (fun u => V3.dot D (γ u) - u * V3.dot D m) (V3.dot D (τ s - m)) s := by
    intro s h1 h2
    rw [V3.dot_sub_right]
    have := (hasDeriv_dot D (h.deriv s h1 h2)).sub ((hasDerivAt_id s).mul_const (V3.dot D m))
    rw [one_mul] at this
    exact this
  obtain ⟨c, hc, he⟩ := exists_hasDerivAt_eq_slope (fun u => V3.dot D (γ u) - u * V3.dot D m)
    (fun s => V3.dot D (τ s - m)) hab
    (fun s hs => (hder s hs.1 hs.2).continuousAt.continuousWithinAt)
    (fun s hs => hder s hs.1.le hs.2.le)
  have hba : 0 < b - a := by linarith
  have hDD : V3.dot D D = (b - a) * V3.dot D (τ c - m) := by
    rw [he, mul_div_cancel₀ _ hba.ne']
    have : D = γ b - γ a - (b - a) • m := by
      rw [hD, hm, smul_smul]; congr 2; ring
    calc V3.dot D D = V3.dot D (γ b - γ a - (b - a) • m) := by rw [← this]
      _ = _ := by rw [V3.dot_sub_right, V3.dot_sub_right, V3.dot_smul_right]; ring
  have hnear : V3.norm (τ c - m) ≤ κ * (b - a) / 2 := by
    have e : τ c - m = (1 / 2 : ℝ) • (τ c - τ a) + (-(1 / 2) : ℝ) • (τ b - τ c) := by
      rw [hm]; ext <;> simp <;> ring
    rw [e]
    refine (V3.norm_add_le _ _).trans ?_
    rw [V3.norm_smul, V3.norm_smul, abs_neg, abs_of_pos (by norm_num : (0 : ℝ) < 1 / 2)]
    have h1 := h.bend a c le_rfl hc.1.le hc.2.le
    have h2 := h.bend c b hc.1.le hc.2.le le_rfl
    nlinarith
  have hle := V3.dot_le_norm D (τ c - m)
  have hn := V3.norm_nonneg D
  have hsq := V3.norm_sq D
  rcases eq_or_lt_of_le hn with h0 | h0
  · rw [← h0]; positivity
  · have : V3.norm D * V3.norm D ≤ V3.norm D * (κ * (b - a) ^ 2 / 2) := by
      calc V3.norm D * V3.norm D = V3.dot D D := by rw [← hsq]; ring
        _ = (b - a) * V3.dot D (τ c - m) := hDD
        _ ≤ (b - a) * (V3.norm D * (κ * (b - a) / 2)) := by
          refine mul_le_mul_of_nonneg_left (hle.trans ?_) hba.le
          exact mul_le_mul_of_nonneg_left hnear hn
        _ = _ := by ring
    exact le_of_mul_le_mul_left this h0

theorem norm_sub_unit {a b : V3} (ha : a.IsUnit) (hb : b.IsUnit) {d : ℝ} (h0 : 0 ≤ d)
    (h1 : d ≤ π) (h : cos d = V3.dot a b) : V3.norm (b - a) = 2 * sin (d / 2) := by
  unfold V3.norm
  have hc : 0 ≤ sin (d / 2) := sin_nonneg_of_nonneg_of_le_pi (by linarith) (by linarith)
  have : V3.dot (b - a) (b - a) = (2 * sin (d / 2)) ^ 2 := by
    have hs := sin_sq_half d
    rw [V3.dot_sub_left, V3.dot_sub_right, V3.dot_sub_right, V3.dot_comm b a, ha, hb, ← h,
      mul_pow, hs]; ring
  rw [this, sqrt_sq (by linarith)]

/-- The ratio factor changes a step by at most half the turn of the direction. -/
theorem step_trapezoid {L i1 a1 i2 a2 : ℝ} (hL : 0 ≤ L) (hd : getDogleg i1 a1 i2 a2 < π) :
    V3.norm (minCurveStep L i1 a1 i2 a2 - (L / 2) • (tangent i1 a1 + tangent i2 a2))
      ≤ L * V3.norm (tangent i2 a2 - tangent i1 a1) / 2 := by
  set d := getDogleg i1 a1 i2 a2 with hdd
  have hd0 : 0 ≤ d := getDogleg_nonneg ..
  rw [norm_sub_unit (tangent_unit i1 a1) (tangent_unit i2 a2) hd0 hd.le (cos_getDogleg ..)]
  have e : minCurveStep L i1 a1 i2 a2 - (L / 2) • (tangent i1 a1 + tangent i2 a2)
      = (L / 2 * (getRf d - 1)) • (tangent i1 a1 + tangent i2 a2) := by
    unfold minCurveStep
    rw [minCurveStepRf_eq, ← hdd, ← sub_smul]
    congr 1; ring
  rw [e, V3.norm_smul, norm_add_unit (tangent_unit i1 a1) (tangent_unit i2 a2) hd0 hd.le
    (cos_getDogleg ..)]
  rcases eq_or_lt_of_le hd0 with h0 | h0
  · rw [← h0]; simp [getRf]
  · have hc : 0 < cos (d / 2) := cos_pos_of_mem_Ioo ⟨by linarith [pi_pos], by linarith⟩
    have hs : 0 ≤ sin (d / 2) := sin_nonneg_of_nonneg_of_le_pi (by linarith) (by linarith)
    have hrf : getRf d * cos (d / 2) = sin (d / 2) / (d / 2) := by
      unfold getRf
      rw [if_neg h0.ne', tan_eq_sin_div_cos]
      field_simp
    have h1 : sin (d / 2) / (d / 2) ≤ 1 := by
      rw [div_le_one (by linarith)]; exact Real.sin_le (by linarith)
    have h2 : cos (d / 2) ≤ sin (d / 2) / (d / 2) := by
      rw [le_div_iff₀ (by linarith)]
      have := Real.lt_tan (by linarith : 0 < d / 2) (by linarith)
      rw [tan_eq_sin_div_cos, lt_div_iff₀ hc] at this
      linarith
    have h3 : 1 ≤ sin (d / 2) + cos (d / 2) := by
      have := sin_sq_add_cos_sq (d / 2)
      nlinarith
    have h4 : |L / 2 * (getRf d - 1)| * (2 * cos (d / 2))
        = L * (sin (d / 2) / (d / 2) - cos (d / 2)) := by
      rw [← hrf]
      have : 0 ≤ getRf d - 1 := by
        by_contra hn
        nlinarith
      rw [abs_of_nonneg (by positivity)]
      ring
    rw [h4]
    nlinarith

theorem trueWell_step {γ τ : ℝ → V3} {κ : ℝ} (hκ : 0 ≤ κ) {p q : Station} (hpq : p.md < q.md)
    (h : TrueWell γ τ κ p.md q.md) (hk : κ * (q.md - p.md) < 2)
    (tp : τ p.md = tangent p.inc p.azi) (tq : τ q.md = tangent q.inc q.azi) :
    V3.norm (deltaXyz p q - swap (γ q.md - γ p.md)) ≤ κ * (q.md - p.md) ^ 2 := by
  have hb := h.bend p.md q.md le_rfl hpq.le le_rfl
  have hd : getDogleg p.inc p.azi q.inc q.azi < π := by
    refine lt_of_le_of_ne (getDogleg_le_pi ..) fun he => ?_
    have := norm_sub_unit (tangent_unit p.inc p.azi) (tangent_unit q.inc q.azi)
      (getDogleg_nonneg ..) (getDogleg_le_pi ..) (cos_getDogleg ..)
    rw [he, sin_pi_div_two, ← tp, ← tq] at this
    linarith
  have h1 := step_trapezoid (by linarith : 0 ≤ q.md - p.md) hd
  have h2 := chord_trapezoid h hpq hκ
  rw [tp, tq] at h2
  rw [tp, tq] at hb
  have e : deltaXyz p q - swap (γ q.md - γ p.md) = swap
      ((minCurveStep (q.md - p.md) p.inc p.azi q.inc q.azi
        - ((q.md - p.md) / 2) • (tangent p.inc p.azi + tangent q.inc q.azi))
      + -(γ q.md - γ p.md - ((q.md - p.md) / 2) • (tangent p.inc p.azi + tangent q.inc q.azi))) := by
    rw [deltaXyz_eq]
    ext <;> simp [swap]
  rw [e, norm_swap]
  refine (V3.norm_add_le _ _).trans ?_
  rw [norm_neg]
  have : (q.md - p.md) * V3.norm (tangent q.inc q.azi - tangent p.inc p.azi) / 2
      ≤ κ * (q.md - p.md) ^ 2 / 2 := by
    have := mul_le_mul_of_nonneg_left hb (by linarith : 0 ≤ q.md - p.md)
    nlinarith
  linarith

theorem positions_accuracy {γ τ : ℝ → V3} {κ h : ℝ} (hκ : 0 ≤ κ) (hk : κ * h < 2)
    (rows : List Station) (hd : ∀ r ∈ rows, τ r.md = tangent r.inc r.azi)
    (hc : rows.IsChain fun p q => p.md < q.md ∧ q.md - p.md ≤ h ∧ TrueWell γ τ κ p.md q.md)
    (p0 : V3) (e : ℝ) (s0 : Station) (h0 : rows.head? = some s0)
    (he : V3.norm (p0 - swap (γ s0.md)) ≤ e) {k : ℕ} {s : Station} {p : V3}
    (hs : rows[k]? = some s) (hp : (positions p0 rows)[k]? = some p) :
    V3.norm (p - swap (γ s.md)) ≤ e + κ * h * (s.md - s0.md) := by
  induction rows generalizing p0 e s0 k with
  | nil => simp at hs
  | cons a t ih =>
    obtain rfl : a = s0 := by simpa using h0
    cases k with
    | zero =>
      obtain rfl : a = s := by simpa using hs
      have : p0 = p := by simpa [positions] using hp
      rw [← this]; linarith
    | succ k =>
      cases t with
      | nil => simp at hs
      | cons b t =>
        rw [List.isChain_cons_cons] at hc
        obtain ⟨⟨hab, hh, hw⟩, hc⟩ := hc
        rw [positions_cons2] at hp
        simp only [List.getElem?_cons_succ] at hp hs
        have hstep := trueWell_step hκ hab hw
          (lt_of_le_of_lt (mul_le_mul_of_nonneg_left hh hκ) hk) (hd a (by simp)) (hd b (by simp))
        have hb : V3.norm (p0 + deltaXyz a b - swap (γ b.md)) ≤ e + κ * h * (b.md - a.md) := by
          have e1 : p0 + deltaXyz a b - swap (γ b.md)
              = (p0 - swap (γ a.md)) + (deltaXyz a b - swap (γ b.md - γ a.md)) := by
            ext <;> simp [swap] <;> ring
          rw [e1]
          refine (V3.norm_add_le _ _).trans ?_
          have : κ * (b.md - a.md) ^ 2 ≤ κ * h * (b.md - a.md) := by
            have := mul_le_mul_of_nonneg_right (mul_le_mul_of_nonneg_left hh hκ)
              (by linarith : 0 ≤ b.md - a.md)
            nlinarith
          linarith
        have := ih (fun r hr => hd r (List.mem_cons_of_mem _ hr)) hc _ _ b rfl hb hs hp
        refine this.trans (le_of_eq ?_)
        ring

/-- **C306** If the stations of a survey are at most `h` apart and have the directions of a well whose
curvature is at most `κ`, then no computed position is off that well by more than `κ h` times the
drilled length. -/
theorem C306_accuracy {γ τ : ℝ → V3} {κ h a b : ℝ} (hw : TrueWell γ τ κ a b) (hκ : 0 ≤ κ)
    (hk : κ * h < 2) {rows : List Station} (hr : ∀ r ∈ rows, a ≤ r.md ∧ r.md ≤ b)
    (hd : ∀ r ∈ rows, tangent r.inc r.azi = τ r.md)
    (hc : rows.IsChain fun p q => p.md < q.md ∧ q.md - p.md ≤ h)
    {u : LenUnit} {out : MinCurveOut} {s0 : Station} (h0 : rows[0]? = some s0)
    (ho : minCurve rows (swap (γ s0.md)) u = .ok out)
    {k : ℕ} {s : Station} {p : V3} (hs : rows[k]? = some s) (hp : out.poss[k]? = some p) :
    V3.norm (p - swap (γ s.md)) ≤ κ * h * (s.md - s0.md) := by
  rw [minCurve_poss ho] at hp
  have hc' : rows.IsChain fun p q => p.md < q.md ∧ q.md - p.md ≤ h ∧ TrueWell γ τ κ p.md q.md := by
    clear hd h0 ho hs hp
    induction rows with
    | nil => exact List.IsChain.nil
    | cons x t ih =>
      cases t with
      | nil => exact List.IsChain.singleton _
      | cons y t =>
        rw [List.isChain_cons_cons] at hc ⊢
        have hx := hr x (by simp)
        have hy := hr y (by simp)
        refine ⟨⟨hc.1.1, hc.1.2, fun s h1 h2 => hw.deriv s (by linarith) (by linarith),
          fun s h1 h2 => hw.unit s (by linarith) (by linarith),
          fun s s' h1 h2 h3 => hw.bend s s' (by linarith) h2 (by linarith)⟩,
          ih (fun r hr' => hr r (List.mem_cons_of_mem _ hr')) hc.2⟩
  have := positions_accuracy hκ hk rows (fun r hr => (hd r hr).symm) hc' (swap (γ s0.md)) 0 s0
    (by rw [← h0]; cases rows <;> rfl) (by rw [sub_self, V3.norm_zero]) hs hp
  linarith

/-- A helix, which is no arc, surveyed every `h`: the hypotheses hold with curvature 1/2. -/
example : TrueWell (fun s => ⟨1 / 2 * sin s, -(1 / 2) * cos s, √3 / 2 * s⟩)
    (fun s => ⟨1 / 2 * cos s, 1 / 2 * sin s, √3 / 2⟩) (1 / 2) 0 100 := by
  refine ⟨fun s _ _ => ⟨?_, ?_, ?_⟩, fun s _ _ => ?_, fun s s' _ h _ => ?_⟩
  · exact (hasDerivAt_sin s).const_mul _
  · have := (hasDerivAt_cos s).const_mul (-(1 / 2))
    refine this.congr_deriv ?_
    ring
  · simpa using (hasDerivAt_id s).const_mul (√3 / 2)
  · have := sin_sq_add_cos_sq s
    have h3 : √3 * √3 = 3 := mul_self_sqrt (by norm_num)
    simp only [V3.IsUnit, V3.dot]
    linear_combination 1 / 4 * this + 1 / 4 * h3
  · have e : V3.dot (⟨1 / 2 * cos s', 1 / 2 * sin s', √3 / 2⟩ - ⟨1 / 2 * cos s, 1 / 2 * sin s, √3 / 2⟩)
        (⟨1 / 2 * cos s', 1 / 2 * sin s', √3 / 2⟩ - ⟨1 / 2 * cos s, 1 / 2 * sin s, √3 / 2⟩)
        = sin ((s' - s) / 2) ^ 2 := by
      have h1 := sin_sq_add_cos_sq s
      have h2 := sin_sq_add_cos_sq s'
      rw [sin_sq_half, cos_sub]
      simp only [V3.dot, V3.sub_x, V3.sub_y, V3.sub_z]
      linear_combination 1 / 4 * h1 + 1 / 4 * h2
    unfold V3.norm
    rw [e, sqrt_sq_eq_abs]
    refine abs_sin_le_abs.trans ?_
    rw [abs_of_nonneg (by linarith)]
    linarith

/-! ### C307: units -/

/-- A station with the depth multiplied by `c`. -/
def scaledBy (c : ℝ) (s : Station) : Station := ⟨c * s.md, s.inc, s.azi⟩

theorem deltaXyz_scaled (c : ℝ) (a b : Station) :
    deltaXyz (scaledBy c a) (scaledBy c b) = c • deltaXyz a b := by
  have e : (scaledBy c b).md - (scaledBy c a).md = c * (b.md - a.md) := by
    simp only [scaledBy]; ring
  unfold deltaXyz
  rw [e]
  ext <;> simp [minCurveStepRf, scaledBy, dogleg2] <;> ring

theorem positions_scaled (c : ℝ) (p : V3) (l : List Station) :
    positions (c • p) (l.map (scaledBy c)) = (positions p l).map (c • ·) := by
  induction l generalizing p with
  | nil => rfl
  | cons a t ih =>
    cases t with
    | nil => rfl
    | cons b t =>
      have := ih (p + deltaXyz a b)
      rw [List.map_cons] at this
      rw [List.map_cons, List.map_cons, positions_cons2, positions_cons2, List.map_cons,
        deltaXyz_scaled, ← smul_add, this]

theorem pairwise_of_map {α β γ : Type*} (f : β → β → γ) (g : α → β) (l : List α) :
    pairwise f (l.map g) = pairwise (fun a b => f (g a) (g b)) l := by
  induction l with
  | nil => rfl
  | cons a t ih =>
    cases t with
    | nil => rfl
    | cons b t =>
      simp only [List.map_cons, pairwise] at ih ⊢
      rw [ih]

theorem map_pairwise {α β γ : Type*} (f : α → α → β) (g : β → γ) (l : List α) :
    (pairwise f l).map g = pairwise (fun a b => g (f a b)) l := by
  induction l with
  | nil => rfl
  | cons a t ih =>
    cases t with
    | nil => rfl
    | cons b t =>
      simp only [List.map_cons, pairwise] at ih ⊢
      rw [ih]

/-- A dogleg severity multiplied by `c`. -/
noncomputable def dlsTimes (c : ℝ) : Dls → Dls
  | .val d => .val (d * c)
  | .inf => .inf

/-- **C307** The same well in feet: positions are the same lengths in feet, the doglegs are equal, and
the severity per 100 ft is 1.016 times the severity per 30 m. -/
theorem C307_feet {rows : List Station} {start : V3} {out out' : MinCurveOut}
    (h : minCurve rows start .meters = .ok out)
    (h' : minCurve (rows.map fun s => ⟨s.md / 0.3048, s.inc, s.azi⟩)
      ⟨start.x / 0.3048, start.y / 0.3048, start.z / 0.3048⟩ .feet = .ok out') :
    out'.poss = out.poss.map (fun p => ⟨p.x / 0.3048, p.y / 0.3048, p.z / 0.3048⟩) ∧
    out'.dogleg = out.dogleg ∧ out'.dls = out.dls.map (dlsTimes 1.016) := by
  have e1 : (fun s : Station => (⟨s.md / 0.3048, s.inc, s.azi⟩ : Station)) = scaledBy (1 / 0.3048) := by
    funext s; simp only [scaledBy]; congr 1; ring
  have e2 : ∀ p : V3, (⟨p.x / 0.3048, p.y / 0.3048, p.z / 0.3048⟩ : V3) = (1 / 0.3048 : ℝ) • p := by
    intro p; ext <;> simp <;> ring
  rw [e1, e2] at h'
  simp only [e2]
  refine ⟨by rw [minCurve_poss h, minCurve_poss h', positions_scaled], ?_⟩
  obtain ⟨s0, s1, rest, rfl⟩ := minCurve_ok_length h
  rw [List.map_cons, List.map_cons] at h'
  have hd : out'.dogleg = 0 :: pairwise dogleg2 ((s0 :: s1 :: rest).map (scaledBy (1 / 0.3048))) :=
    (minCurve_ok h').2
  refine ⟨?_, ?_⟩
  · rw [hd, (minCurve_ok h).2, pairwise_of_map]
    rfl
  · simp only [minCurve] at h h'
    injection h with h
    injection h' with h'
    rw [← h, ← h']
    simp only [List.map_cons, if_true, reduceCtorEq, if_false]
    have e0 : dlsTimes 1.016 (.val 0) = .val 0 := by simp [dlsTimes]
    rw [e0]
    congr 1
    have : scaledBy (1 / 0.3048) s0 :: scaledBy (1 / 0.3048) s1 :: rest.map (scaledBy (1 / 0.3048))
        = (s0 :: s1 :: rest).map (scaledBy (1 / 0.3048)) := rfl
    rw [this, pairwise_of_map, map_pairwise]
    congr 1
    funext a b
    have e : (scaledBy (1 / 0.3048) b).md - (scaledBy (1 / 0.3048) a).md
        = (1 / 0.3048) * (b.md - a.md) := by
      simp only [scaledBy]; ring
    rw [e, show dogleg2 (scaledBy (1 / 0.3048) a) (scaledBy (1 / 0.3048) b) = dogleg2 a b from rfl]
    unfold dlsOf
    by_cases h0 : b.md - a.md = 0
    · rw [if_pos h0, if_pos (by rw [h0, mul_zero])]
      split_ifs <;> simp [dlsTimes]
    · rw [if_neg h0, if_neg (mul_ne_zero (by norm_num) h0)]
      simp only [dlsTimes]
      congr 1
      field_simp
      ring

/-! ### C308: wells that do not point upwards -/

/-- **C308** If no station points upwards, then no station is above an earlier one. -/
theorem C308_stations {rows : List Station} {start : V3} {u : LenUnit} {out : MinCurveOut}
    (h : minCurve rows start u = .ok out) (hinc : ∀ s ∈ rows, 0 ≤ cos s.inc)
    (hmd : rows.Pairwise fun a b => a.md ≤ b.md) :
    out.poss.Pairwise fun p q => p.z ≤ q.z := by
  rw [minCurve_poss h]
  clear h
  have key : ∀ (l : List Station) (p : V3), (∀ s ∈ l, 0 ≤ cos s.inc) →
      (l.Pairwise fun a b => a.md ≤ b.md) → (∀ q ∈ positions p l, p.z ≤ q.z) ∧
        (positions p l).Pairwise fun p q => p.z ≤ q.z := by
    intro l
    induction l with
    | nil => intro p _ _; simp [positions]
    | cons a t ih =>
      intro p hi hm
      cases t with
      | nil => simp [positions, pairwise, cumsumFrom]
      | cons b t =>
        have hab : a.md ≤ b.md := (List.pairwise_cons.1 hm).1 b (by simp)
        have hz : 0 ≤ (deltaXyz a b).z := by
          have ha := hi a (by simp)
          have hb := hi b (by simp)
          have hr := Sv.getRf_nonneg (getDogleg_nonneg a.inc a.azi b.inc b.azi)
            (getDogleg_le_pi ..)
          simp only [deltaXyz, minCurveStepRf, dogleg2]
          have : 0 ≤ b.md - a.md := by linarith
          positivity
        obtain ⟨h1, h2⟩ := ih (p + deltaXyz a b) (fun s hs => hi s (List.mem_cons_of_mem _ hs))
          (List.pairwise_cons.1 hm).2
        have h3 : ∀ q ∈ positions (p + deltaXyz a b) (b :: t), p.z ≤ q.z := by
          intro q hq
          have := h1 q hq
          simp only [V3.add_z] at this
          linarith
        rw [positions_cons2]
        refine ⟨fun q hq => ?_, List.pairwise_cons.2 ⟨h3, h2⟩⟩
        rcases List.mem_cons.1 hq with rfl | hq
        · exact le_rfl
        · exact h3 q hq
  exact (key rows start hinc hmd).2

/-- The direction along one arc between directions that do not point upwards does not point upwards. -/
theorem oneArc_down {a b : ℝ} {γ τ : ℝ → V3} (h : OneArc a b γ τ) (hab : a < b) (ha : 0 ≤ (τ a).z)
    (hb : 0 ≤ (τ b).z) {s : ℝ} (h1 : a ≤ s) (h2 : s ≤ b) : 0 ≤ (τ s).z := by
  obtain ⟨κ, n, hκ, hpi, -, -, -, hs⟩ := oneArc_tan h hab.le
  rcases eq_or_lt_of_le hκ with h0 | h0
  · rw [hs s h1 h2, ← h0]; simpa using ha
  have hpos : 0 < sin (κ * (b - a)) := sin_pos_of_pos_of_lt_pi (mul_pos h0 (by linarith)) hpi
  have e : sin (κ * (b - a)) * (τ s).z = sin (κ * (b - s)) * (τ a).z + sin (κ * (s - a)) * (τ b).z := by
    rw [hs s h1 h2, hs b hab.le le_rfl]
    simp only [V3.add_z, V3.smul_z]
    rw [show κ * (b - s) = κ * (b - a) - κ * (s - a) by ring, sin_sub]
    ring
  have m1 : 0 ≤ sin (κ * (b - s)) := sin_nonneg_of_nonneg_of_le_pi
    (mul_nonneg hκ (by linarith)) ((mul_le_mul_of_nonneg_left (by linarith) hκ).trans hpi.le)
  have m2 : 0 ≤ sin (κ * (s - a)) := sin_nonneg_of_nonneg_of_le_pi
    (mul_nonneg hκ (by linarith)) ((mul_le_mul_of_nonneg_left (by linarith) hκ).trans hpi.le)
  by_contra hn
  have : sin (κ * (b - a)) * (τ s).z < 0 := mul_neg_of_pos_of_neg hpos (by linarith)
  have : 0 ≤ sin (κ * (b - s)) * (τ a).z + sin (κ * (s - a)) * (τ b).z := by positivity
  linarith

theorem oneArc_descends {a b : ℝ} {γ τ : ℝ → V3} (h : OneArc a b γ τ) (hab : a < b)
    (ha : 0 ≤ (τ a).z) (hb : 0 ≤ (τ b).z) {x y : ℝ} (hx : a ≤ x) (hxy : x ≤ y) (hy : y ≤ b) :
    (γ x).z ≤ (γ y).z := by
  rcases eq_or_lt_of_le hxy with rfl | hlt
  · exact le_rfl
  have hd := fun s => oneArc_down h hab ha hb (s := s)
  obtain ⟨g, t, ν, κ, hc, -, -, hs⟩ := h
  obtain ⟨c, hc1, hc2⟩ := exists_hasDerivAt_eq_slope (fun u => (g u).z) (fun u => (t u).z)
    (sub_lt_sub_right hlt a) (fun u _ => (hc.deriv_pos u).2.2.continuousAt.continuousWithinAt)
    (fun u _ => (hc.deriv_pos u).2.2)
  have h0 : 0 ≤ (t c).z := by
    have := hd (c + a) (by linarith [hc1.1]) (by linarith [hc1.2])
    rwa [(hs (c + a) (by linarith [hc1.1]) (by linarith [hc1.2])).2, add_sub_cancel_right] at this
  rw [(hs x hx (by linarith)).1, (hs y (by linarith) hy).1]
  rw [hc2, sub_sub_sub_cancel_right] at h0
  have := (div_nonneg_iff.1 h0)
  rcases this with h | h
  · linarith [h.1]
  · linarith [h.2]

/-- **C308** If no station points upwards, then nowhere along the well is it above an earlier point. -/
theorem C308_path {p : V3} {st : List Station} {γ τ : ℝ → V3}
    (h : WellPath p (st.map fun s => (s.md, tangent s.inc s.azi)) γ τ)
    (hinc : ∀ s ∈ st, 0 ≤ cos s.inc) {s0 s1 : Station} (h0 : st.head? = some s0)
    (h1 : st.getLast? = some s1) {x y : ℝ} (hx : s0.md ≤ x) (hxy : x ≤ y) (hy : y ≤ s1.md) :
    (γ x).z ≤ (γ y).z := by
  have hdir : ∀ s ∈ st, 0 ≤ (τ s.md).z := by
    intro s hs
    rw [h.dirs (s.md, tangent s.inc s.azi) (List.mem_map_of_mem hs)]
    exact hinc s hs
  have hc := h.arcs
  rw [List.isChain_map] at hc
  clear h hinc
  induction st generalizing s0 x with
  | nil => simp at h0
  | cons a t ih =>
    obtain rfl : a = s0 := by simpa using h0
    cases t with
    | nil =>
      obtain rfl : a = s1 := by simpa using h1
      rw [le_antisymm (hxy.trans hy) hx, le_antisymm hy (hx.trans hxy)]
    | cons b t =>
      rw [List.isChain_cons_cons] at hc
      obtain ⟨⟨hab, harc⟩, hc⟩ := hc
      have da := hdir a (by simp)
      have db := hdir b (by simp)
      have ih' := fun {x} => ih (s0 := b) (x := x) rfl (by rw [← h1]; simp)
      by_cases hxb : b.md ≤ x
      · exact ih' hxb hxy (fun s hs => hdir s (List.mem_cons_of_mem _ hs)) hc
      · have hxb' : x ≤ b.md := by linarith
        by_cases hyb : y ≤ b.md
        · exact oneArc_descends harc hab da db hx hxy hyb
        · exact (oneArc_descends harc hab da db hx hxb' le_rfl).trans
            (ih' le_rfl (by linarith) (fun s hs => hdir s (List.mem_cons_of_mem _ hs)) hc)

/-- A build section from vertical to horizontal. -/
example : ∀ s ∈ ([⟨0, 0, 0⟩, ⟨30, π / 2, 1⟩] : List Station), 0 ≤ cos s.inc := by
  intro s hs
  simp only [List.mem_cons, List.not_mem_nil, or_false] at hs
  rcases hs with rfl | rfl <;> simp

/-! ### C309: total turn -/

/-- Rows as vectors of Euclidean space. -/
noncomputable def toE (v : V3) : EuclideanSpace ℝ (Fin 3) := !₂[v.x, v.y, v.z]

theorem toE_inner (a b : V3) : inner ℝ (toE a) (toE b) = V3.dot a b := by
  simp [toE, PiLp.inner_apply, Fin.sum_univ_three, V3.dot, mul_comm]

theorem toE_angle {a b : V3} (ha : a.IsUnit) (hb : b.IsUnit) :
    InnerProductGeometry.angle (toE a) (toE b) = arccos (V3.dot a b) := by
  have h : ∀ v : V3, v.IsUnit → ‖toE v‖ = 1 := by
    intro v hv
    have := real_inner_self_eq_norm_sq (toE v)
    rw [toE_inner, show V3.dot v v = 1 from hv] at this
    nlinarith [_root_.norm_nonneg (toE v)]
  unfold InnerProductGeometry.angle
  rw [toE_inner, h a ha, h b hb]
  simp

theorem dogleg2_triangle (a b c : Station) : dogleg2 a c ≤ dogleg2 a b + dogleg2 b c := by
  unfold dogleg2
  rw [getDogleg_eq_arccos, getDogleg_eq_arccos, getDogleg_eq_arccos,
    ← toE_angle (tangent_unit ..) (tangent_unit ..), ← toE_angle (tangent_unit ..) (tangent_unit ..),
    ← toE_angle (tangent_unit ..) (tangent_unit ..)]
  exact InnerProductGeometry.angle_le_angle_add_angle _ _ _

theorem dogleg2_nonneg (a b : Station) : 0 ≤ dogleg2 a b := getDogleg_nonneg ..

theorem turn_from (a b : Station) (l : List Station) : (pairwise dogleg2 (a :: l)).sum
    ≤ dogleg2 a b + (pairwise dogleg2 (b :: l)).sum := by
  cases l with
  | nil => simpa [pairwise] using dogleg2_nonneg a b
  | cons c t =>
    simp only [pairwise, List.sum_cons]
    linarith [dogleg2_triangle a b c]

theorem turn_sublist_from {l' l : List Station} (h : l'.Sublist l) (a : Station) :
    (pairwise dogleg2 (a :: l')).sum ≤ (pairwise dogleg2 (a :: l)).sum := by
  induction h generalizing a with
  | slnil => exact le_rfl
  | cons b _ ih =>
    refine (turn_from a b _).trans ?_
    simp only [pairwise, List.sum_cons]
    linarith [ih b]
  | cons_cons b _ ih =>
    simp only [pairwise, List.sum_cons]
    linarith [ih b]

theorem turn_sublist {l' l : List Station} (h : l'.Sublist l) :
    (pairwise dogleg2 l').sum ≤ (pairwise dogleg2 l).sum := by
  induction h with
  | slnil => exact le_rfl
  | @cons l' l b _ ih =>
    refine ih.trans ?_
    cases l with
    | nil => simp [pairwise]
    | cons c t =>
      simp only [pairwise, List.sum_cons]
      linarith [dogleg2_nonneg b c]
  | cons_cons b h _ => exact turn_sublist_from h b

/-- **C309** Leaving out stations never raises the total of the doglegs. -/
theorem C309_total_turn {rows rows' : List Station} {start start' : V3} {u u' : LenUnit}
    {out out' : MinCurveOut} (h : minCurve rows start u = .ok out)
    (h' : minCurve rows' start' u' = .ok out') (hs : rows'.Sublist rows) :
    out'.dogleg.sum ≤ out.dogleg.sum := by
  obtain ⟨s0, s1, rest, rfl⟩ := minCurve_ok_length h
  obtain ⟨t0, t1, rest', rfl⟩ := minCurve_ok_length h'
  rw [(minCurve_ok h).2, (minCurve_ok h').2, List.sum_cons, List.sum_cons]
  linarith [turn_sublist hs]

/-- **C309** The total of the doglegs is at least the angle between the directions of any two
stations. -/
theorem C309_net_turn {rows : List Station} {start : V3} {u : LenUnit} {out : MinCurveOut}
    (h : minCurve rows start u = .ok out) {a b : Station} (hs : [a, b].Sublist rows) :
    arccos (V3.dot (tangent a.inc a.azi) (tangent b.inc b.azi)) ≤ out.dogleg.sum := by
  obtain ⟨s0, s1, rest, rfl⟩ := minCurve_ok_length h
  rw [(minCurve_ok h).2, List.sum_cons, ← getDogleg_eq_arccos]
  have := turn_sublist hs
  rw [show pairwise dogleg2 [a, b] = [dogleg2 a b] from rfl, List.sum_singleton] at this
  have e : dogleg2 a b = getDogleg a.inc a.azi b.inc b.azi := rfl
  linarith

/-- A well that builds and drops turns although its first and last directions are equal. -/
example : [(⟨0, 0, 0⟩ : Station), ⟨60, 0, 0⟩].Sublist [⟨0, 0, 0⟩, ⟨30, 1, 0⟩, ⟨60, 0, 0⟩] :=
  .cons_cons _ (.cons _ (.cons_cons _ .slnil))

/-! ### C310: from the bottom up -/

/-- A station of the well that is run through from the bottom up, which is at depth `m`. -/
noncomputable def upward (m : ℝ) (s : Station) : Station := ⟨m - s.md, π - s.inc, s.azi + π⟩

theorem tangent_upward (i a : ℝ) : tangent (π - i) (a + π) = -tangent i a := by
  ext <;> simp [tangent, cos_pi_sub]

theorem deltaXyz_upward (m : ℝ) (a b : Station) :
    deltaXyz (upward m b) (upward m a) = -deltaXyz a b := by
  have hd : dogleg2 (upward m b) (upward m a) = dogleg2 a b := by
    unfold dogleg2
    rw [getDogleg_eq_arccos, getDogleg_eq_arccos]
    simp only [upward, tangent_upward]
    congr 1
    simp [V3.dot]; ring
  have e : (upward m a).md - (upward m b).md = b.md - a.md := by simp only [upward]; ring
  unfold deltaXyz
  rw [hd, e]
  simp only [minCurveStepRf_eq]
  simp only [upward, tangent_upward]
  ext <;> simp <;> ring

theorem positions_snoc (q : V3) (m : List Station) (x y : Station) {r : V3}
    (hr : (positions q (m ++ [x])).getLast? = some r) :
    positions q (m ++ [x, y]) = positions q (m ++ [x]) ++ [r + deltaXyz x y] := by
  induction m generalizing q with
  | nil =>
    have : q = r := by simpa [positions, pairwise, cumsumFrom] using hr
    subst this
    simp [positions, pairwise, cumsumFrom]
  | cons a t ih =>
    cases t with
    | nil =>
      simp only [List.cons_append, List.nil_append] at hr ⊢
      rw [positions_cons2] at hr ⊢
      rw [positions_cons2 q a x [], List.cons_append]
      congr 1
      exact ih _ (by simpa [positions] using hr)
    | cons b t =>
      simp only [List.cons_append] at hr ih ⊢
      rw [positions_cons2] at hr ⊢
      rw [positions_cons2 q a b (t ++ [x]), List.cons_append]
      congr 1
      refine ih _ ?_
      rw [← hr, List.getLast?_cons_of_ne_nil]
      simp [positions]

theorem positions_upward (m : ℝ) (l : List Station) (p r : V3)
    (hr : (positions p l).getLast? = some r) :
    positions r (l.map (upward m)).reverse = (positions p l).reverse := by
  induction l generalizing p with
  | nil => simp [positions] at hr
  | cons a t ih =>
    cases t with
    | nil =>
      have : p = r := by simpa [positions, pairwise, cumsumFrom] using hr
      subst this
      simp [positions, pairwise, cumsumFrom]
    | cons b t =>
      rw [positions_cons2] at hr ⊢
      have hne : positions (p + deltaXyz a b) (b :: t) ≠ [] := by simp [positions]
      have hr' : (positions (p + deltaXyz a b) (b :: t)).getLast? = some r := by
        rw [← hr, List.getLast?_cons_of_ne_nil hne]
      have h := ih _ hr'
      rw [List.reverse_cons, ← h]
      simp only [List.map_cons, List.reverse_cons, List.append_assoc, List.cons_append,
        List.nil_append] at h ⊢
      rw [positions_snoc r _ (upward m b) (upward m a) (r := p + deltaXyz a b), deltaXyz_upward]
      · simp
      · rw [h]
        simp [positions]

/-- **C310** The positions computed from the bottom up, starting where the computation from the top
ended, are those computed from the top. -/
theorem C310_bottom_up {rows : List Station} {start last : V3} {u : LenUnit} {m : ℝ}
    {out out' : MinCurveOut} (h : minCurve rows start u = .ok out)
    (hl : out.poss.getLast? = some last)
    (h' : minCurve (rows.map fun s => ⟨m - s.md, π - s.inc, s.azi + π⟩).reverse last u = .ok out') :
    out'.poss = out.poss.reverse := by
  rw [minCurve_poss h] at hl ⊢
  rw [minCurve_poss h']
  exact positions_upward m rows start last hl

example : ∃ out out' last, minCurve [⟨0, 0, 0⟩, ⟨30, 1, 0⟩] 0 .meters = .ok out ∧
    out.poss.getLast? = some last ∧ minCurve (([⟨0, 0, 0⟩, ⟨30, 1, 0⟩] : List Station).map
      fun s => ⟨30 - s.md, π - s.inc, s.azi + π⟩).reverse last .meters = .ok out' :=
  ⟨_, _, _, rfl, rfl, rfl⟩

/-- The hypotheses of `C307_feet` can be met. -/
example : ∃ out out', minCurve [⟨0, 0, 0⟩, ⟨30, 1, 0⟩] 0 .meters = .ok out ∧
    minCurve (([⟨0, 0, 0⟩, ⟨30, 1, 0⟩] : List Station).map
      fun s => ⟨s.md / 0.3048, s.inc, s.azi⟩) 0 .feet = .ok out' :=
  ⟨_, _, rfl, rfl⟩

end Welleng.Props
