import Verif.Lemmas.MinCurve
import Mathlib.Analysis.Calculus.MeanValue
import Mathlib.Analysis.Calculus.Deriv.Shift

namespace Welleng

open Real Spec

theorem Spec.HasDeriv.add {f g : ℝ → V3} {f' g' : V3} {s : ℝ} (hf : HasDeriv f f' s)
    (hg : HasDeriv g g' s) : HasDeriv (fun u => f u + g u) (f' + g') s :=
  ⟨hf.1.add hg.1, hf.2.1.add hg.2.1, hf.2.2.add hg.2.2⟩

theorem Spec.HasDeriv.sub {f g : ℝ → V3} {f' g' : V3} {s : ℝ} (hf : HasDeriv f f' s)
    (hg : HasDeriv g g' s) : HasDeriv (fun u => f u - g u) (f' - g') s :=
  ⟨hf.1.sub hg.1, hf.2.1.sub hg.2.1, hf.2.2.sub hg.2.2⟩

theorem Spec.HasDeriv.smul {c : ℝ → ℝ} {c' : ℝ} {f : ℝ → V3} {f' : V3} {s : ℝ}
    (hc : HasDerivAt c c' s) (hf : HasDeriv f f' s) :
    HasDeriv (fun u => c u • f u) (c' • f s + c s • f') s :=
  ⟨hc.mul hf.1, hc.mul hf.2.1, hc.mul hf.2.2⟩

theorem Spec.HasDeriv.smul_const {c : ℝ → ℝ} {c' : ℝ} {s : ℝ} (hc : HasDerivAt c c' s) (w : V3) :
    HasDeriv (fun u => c u • w) (c' • w) s :=
  ⟨hc.mul_const w.x, hc.mul_const w.y, hc.mul_const w.z⟩

theorem Spec.HasDeriv.congr {f : ℝ → V3} {f' g' : V3} {s : ℝ} (hf : HasDeriv f f' s) (h : f' = g') :
    HasDeriv f g' s := h ▸ hf

theorem const_of_hasDerivAt_zero {f : ℝ → ℝ} (h : ∀ s, HasDerivAt f 0 s) (s : ℝ) :
    f s = f 0 :=
  is_const_of_deriv_eq_zero (fun x => (h x).differentiableAt) (fun x => (h x).deriv) s 0

theorem const_of_hasDeriv_zero {f : ℝ → V3} (h : ∀ s, HasDeriv f 0 s) (s : ℝ) : f s = f 0 := by
  ext
  · exact const_of_hasDerivAt_zero (f := fun u => (f u).x) (fun u => (h u).1) s
  · exact const_of_hasDerivAt_zero (f := fun u => (f u).y) (fun u => (h u).2.1) s
  · exact const_of_hasDerivAt_zero (f := fun u => (f u).z) (fun u => (h u).2.2) s

theorem eq_of_hasDeriv_eq {f g : ℝ → V3} {f' : ℝ → V3} (hf : ∀ s, HasDeriv f (f' s) s)
    (hg : ∀ s, HasDeriv g (f' s) s) (h0 : f 0 = g 0) (s : ℝ) : f s = g s := by
  have := const_of_hasDeriv_zero (f := fun u => f u - g u)
    (fun u => ((hf u).sub (hg u)).congr (sub_self _)) s
  simp only [h0, sub_self] at this
  exact sub_eq_zero.mp this

theorem hasDerivAt_sin_mul (κ s : ℝ) : HasDerivAt (fun u => sin (κ * u)) (κ * cos (κ * s)) s := by
  have := ((hasDerivAt_id s).const_mul κ).sin
  simpa [mul_comm] using this

theorem hasDerivAt_cos_mul (κ s : ℝ) :
    HasDerivAt (fun u => cos (κ * u)) (-(κ * sin (κ * s))) s := by
  have := ((hasDerivAt_id s).const_mul κ).cos
  simpa [mul_comm] using this

/-- Tangent of a circular curve in closed form. -/
theorem Spec.CircularCurve.tan_eq {γ τ ν : ℝ → V3} {κ : ℝ} (h : CircularCurve γ τ ν κ) (s : ℝ) :
    τ s = cos (κ * s) • τ 0 + sin (κ * s) • ν 0 := by
  have hA := const_of_hasDeriv_zero
    (f := fun u => cos (κ * u) • τ u - sin (κ * u) • ν u)
    (fun u => by
      refine ((HasDeriv.smul (hasDerivAt_cos_mul κ u) (h.deriv_tan u)).sub
        (HasDeriv.smul (hasDerivAt_sin_mul κ u) (h.deriv_nor u))).congr ?_
      ext <;> simp <;> ring) s
  have hB := const_of_hasDeriv_zero
    (f := fun u => sin (κ * u) • τ u + cos (κ * u) • ν u)
    (fun u => by
      refine ((HasDeriv.smul (hasDerivAt_sin_mul κ u) (h.deriv_tan u)).add
        (HasDeriv.smul (hasDerivAt_cos_mul κ u) (h.deriv_nor u))).congr ?_
      ext <;> simp <;> ring) s
  simp only [mul_zero, cos_zero, sin_zero, one_smul, zero_smul, sub_zero, zero_add] at hA hB
  have hp := sin_sq_add_cos_sq (κ * s)
  rw [← hA, ← hB]
  ext <;> simp
  · linear_combination (-(τ s).x) * hp
  · linear_combination (-(τ s).y) * hp
  · linear_combination (-(τ s).z) * hp

/-- Position on a circular curve with non-zero curvature, in closed form. -/
theorem Spec.CircularCurve.pos_eq {γ τ ν : ℝ → V3} {κ : ℝ} (h : CircularCurve γ τ ν κ)
    (hκ : κ ≠ 0) (h0 : γ 0 = 0) (s : ℝ) :
    γ s = (sin (κ * s) / κ) • τ 0 + ((1 - cos (κ * s)) / κ) • ν 0 := by
  refine eq_of_hasDeriv_eq (f' := τ)
    (g := fun s => (sin (κ * s) / κ) • τ 0 + ((1 - cos (κ * s)) / κ) • ν 0) h.deriv_pos
    (fun u => ?_) ?_ s
  · have h1 := (hasDerivAt_sin_mul κ u).div_const κ
    have h2 := ((hasDerivAt_cos_mul κ u).const_sub 1).div_const κ
    rw [mul_div_cancel_left₀ _ hκ] at h1
    rw [neg_neg, mul_div_cancel_left₀ _ hκ] at h2
    refine ((HasDeriv.smul_const h1 (τ 0)).add (HasDeriv.smul_const h2 (ν 0))).congr ?_
    exact (h.tan_eq u).symm
  · simp [h0]

/-- Position on a circular curve with zero curvature: a straight line. -/
theorem Spec.CircularCurve.pos_eq_zero {γ τ ν : ℝ → V3} (h : CircularCurve γ τ ν 0)
    (h0 : γ 0 = 0) (s : ℝ) : γ s = s • τ 0 := by
  refine eq_of_hasDeriv_eq (f' := τ) (g := fun s => s • τ 0) h.deriv_pos (fun u => ?_) ?_ s
  · refine (HasDeriv.smul_const (hasDerivAt_id u) (τ 0)).congr ?_
    have := h.tan_eq u
    simp only [zero_mul, cos_zero, sin_zero, one_smul, zero_smul, add_zero] at this
    rw [this, one_smul]
  · simp [h0]

theorem tan_half_mul_sin {d : ℝ} (hc : cos (d / 2) ≠ 0) : tan (d / 2) * sin d = 1 - cos d := by
  have h1 := sin_two_mul (d / 2)
  have h2 := sin_sq_half d
  rw [show 2 * (d / 2) = d by ring] at h1
  rw [tan_eq_sin_div_cos, h1]
  field_simp
  linarith

theorem tan_half_mul_one_add_cos {d : ℝ} (hc : cos (d / 2) ≠ 0) :
    tan (d / 2) * (1 + cos d) = sin d := by
  have h1 := sin_two_mul (d / 2)
  have h2 := cos_sq (d / 2)
  rw [show 2 * (d / 2) = d by ring] at h1 h2
  rw [tan_eq_sin_div_cos, h1, show 1 + cos d = 2 * cos (d / 2) ^ 2 by linarith]
  field_simp

theorem cos_half_ne_zero {d : ℝ} (h0 : 0 ≤ d) (h1 : d < π) : cos (d / 2) ≠ 0 :=
  (cos_pos_of_mem_Ioo ⟨by linarith [pi_pos], by linarith⟩).ne'


/-- The circular curve that leaves along `t1`, turning towards the unit normal `n1`. -/
noncomputable def arcPos (κ : ℝ) (t1 n1 : V3) (s : ℝ) : V3 :=
  (sin (κ * s) / κ) • t1 + ((1 - cos (κ * s)) / κ) • n1
noncomputable def arcTan (κ : ℝ) (t1 n1 : V3) (s : ℝ) : V3 :=
  cos (κ * s) • t1 + sin (κ * s) • n1
noncomputable def arcNor (κ : ℝ) (t1 n1 : V3) (s : ℝ) : V3 :=
  (-sin (κ * s)) • t1 + cos (κ * s) • n1

theorem arc_circular {κ : ℝ} (hκ : κ ≠ 0) {t1 n1 : V3} (ht : t1.IsUnit) (hn : n1.IsUnit)
    (ho : V3.dot t1 n1 = 0) :
    CircularCurve (arcPos κ t1 n1) (arcTan κ t1 n1) (arcNor κ t1 n1) κ := by
  have ho' : V3.dot n1 t1 = 0 := by rw [V3.dot_comm]; exact ho
  refine ⟨fun u => ?_, fun u => ?_, fun u => ?_, fun u => ?_, fun u => ?_, fun u => ?_⟩
  · have h1 := (hasDerivAt_sin_mul κ u).div_const κ
    have h2 := ((hasDerivAt_cos_mul κ u).const_sub 1).div_const κ
    rw [mul_div_cancel_left₀ _ hκ] at h1
    rw [neg_neg, mul_div_cancel_left₀ _ hκ] at h2
    exact (HasDeriv.smul_const h1 t1).add (HasDeriv.smul_const h2 n1)
  · refine ((HasDeriv.smul_const (hasDerivAt_cos_mul κ u) t1).add
      (HasDeriv.smul_const (hasDerivAt_sin_mul κ u) n1)).congr ?_
    ext <;> simp [arcNor] <;> ring
  · refine ((HasDeriv.smul_const (hasDerivAt_sin_mul κ u).neg t1).add
      (HasDeriv.smul_const (hasDerivAt_cos_mul κ u) n1)).congr ?_
    ext <;> simp [arcTan] <;> ring
  · simp only [V3.IsUnit, arcTan, V3.dot_add_left, V3.dot_add_right, V3.dot_smul_left,
      V3.dot_smul_right, ho, ho']
    rw [ht, hn]
    linear_combination sin_sq_add_cos_sq (κ * u)
  · simp only [V3.IsUnit, arcNor, V3.dot_add_left, V3.dot_add_right, V3.dot_smul_left,
      V3.dot_smul_right, ho, ho']
    rw [ht, hn]
    linear_combination sin_sq_add_cos_sq (κ * u)
  · simp only [arcNor, arcTan, V3.dot_add_left, V3.dot_add_right, V3.dot_smul_left,
      V3.dot_smul_right, ho, ho']
    rw [ht, hn]
    ring

/-- The normal that turns `t1` into `t2` through the angle `d`. -/
noncomputable def turnNormal (t1 t2 : V3) (d : ℝ) : V3 :=
  (1 / sin d) • (t2 - cos d • t1)

theorem turnNormal_unit {t1 t2 : V3} {d : ℝ} (h1 : t1.IsUnit) (h2 : t2.IsUnit)
    (hd : sin d ≠ 0) (hc : cos d = V3.dot t1 t2) : (turnNormal t1 t2 d).IsUnit := by
  simp only [V3.IsUnit, turnNormal, V3.dot_sub_left, V3.dot_sub_right, V3.dot_smul_left,
    V3.dot_smul_right, V3.dot_comm t2 t1, ← hc]
  rw [h1, h2]
  have := sin_sq_add_cos_sq d
  field_simp
  linear_combination -this

theorem turnNormal_ortho {t1 t2 : V3} {d : ℝ} (h1 : t1.IsUnit)
    (hc : cos d = V3.dot t1 t2) : V3.dot t1 (turnNormal t1 t2 d) = 0 := by
  simp only [turnNormal, V3.dot_sub_right, V3.dot_smul_right, ← hc]
  rw [h1]
  ring

/-- For tangents at an angle `d` strictly between `0` and `π` and any positive length there
is a circular curve joining them. -/
theorem exists_arc {t1 t2 : V3} {d L : ℝ} (h1 : t1.IsUnit) (h2 : t2.IsUnit) (hd0 : 0 < d)
    (hd1 : d < π) (hc : cos d = V3.dot t1 t2) (hL : 0 < L) :
    ∃ γ τ ν, CircularCurve γ τ ν (d / L) ∧ γ 0 = 0 ∧ τ 0 = t1 ∧ τ L = t2 ∧
      ∀ s, τ s = (sin (d - s * (d / L)) / sin d) • t1 + (sin (s * (d / L)) / sin d) • t2 := by
  have hs : sin d ≠ 0 := (sin_pos_of_pos_of_lt_pi hd0 hd1).ne'
  have hκ : d / L ≠ 0 := (div_pos hd0 hL).ne'
  refine ⟨arcPos (d / L) t1 (turnNormal t1 t2 d), arcTan (d / L) t1 (turnNormal t1 t2 d),
    arcNor (d / L) t1 (turnNormal t1 t2 d),
    arc_circular hκ h1 (turnNormal_unit h1 h2 hs hc) (turnNormal_ortho h1 hc), ?_, ?_, ?_, ?_⟩
  · ext <;> simp [arcPos]
  · ext <;> simp [arcTan]
  · have : d / L * L = d := by field_simp
    ext <;> simp [arcTan, turnNormal, this] <;> field_simp <;> ring
  · intro s
    have e : d / L * s = s * (d / L) := mul_comm _ _
    ext <;> simp only [arcTan, turnNormal, e, sin_sub, V3.add_x, V3.add_y, V3.add_z, V3.smul_x,
      V3.smul_y, V3.smul_z, V3.sub_x, V3.sub_y, V3.sub_z] <;> field_simp <;> ring

/-- Restarting a circular curve at a later point gives a circular curve. -/
theorem Spec.CircularCurve.shift {γ τ ν : ℝ → V3} {κ : ℝ} (h : CircularCurve γ τ ν κ) (x : ℝ) :
    CircularCurve (fun s => γ (x + s) - γ x) (fun s => τ (x + s)) (fun s => ν (x + s)) κ := by
  have comp : ∀ {f : ℝ → V3} {f' : V3} {u : ℝ}, HasDeriv f f' (x + u) →
      HasDeriv (fun s => f (x + s)) f' u := by
    intro f f' u hf
    exact ⟨hf.1.comp_const_add x u, hf.2.1.comp_const_add x u, hf.2.2.comp_const_add x u⟩
  refine ⟨fun u => ?_, fun u => comp (h.deriv_tan _), fun u => comp (h.deriv_nor _),
    fun u => h.unit_tan _, fun u => h.unit_nor _, fun u => h.ortho _⟩
  have hk : HasDeriv (fun _ : ℝ => γ x) 0 u :=
    ⟨hasDerivAt_const _ _, hasDerivAt_const _ _, hasDerivAt_const _ _⟩
  exact ((comp (h.deriv_pos (x + u))).sub hk).congr (sub_zero _)

/-- A circular curve from tangent `t1` to tangent `t2` with total turn below `π` ends where the
minimum-curvature step says. -/
theorem arc_end {γ τ ν : ℝ → V3} {κ L i1 a1 i2 a2 : ℝ} (h : CircularCurve γ τ ν κ)
    (h0 : γ 0 = 0) (hκ : 0 ≤ κ) (hL : 0 ≤ L) (hpi : κ * L < π)
    (ht1 : τ 0 = tangent i1 a1) (ht2 : τ L = tangent i2 a2) :
    γ L = minCurveStep L i1 a1 i2 a2 := by
  have hdl : getDogleg i1 a1 i2 a2 = κ * L := by
    rw [getDogleg_eq_arccos, ← ht1, ← ht2, h.tan_eq L]
    have ho := h.ortho 0
    simp only [V3.dot_add_right, V3.dot_smul_right, ho]
    have := h.unit_tan 0
    rw [V3.IsUnit] at this
    rw [this, mul_one, mul_zero, add_zero, arccos_cos (mul_nonneg hκ hL) hpi.le]
  have hco := cos_half_ne_zero (mul_nonneg hκ hL) hpi
  unfold minCurveStep
  rw [minCurveStepRf_eq, hdl, ← ht1, ← ht2, h.tan_eq L]
  rcases eq_or_lt_of_le hL with hL0 | hLp
  · subst hL0
    rw [h0]; ext <;> simp
  rcases eq_or_lt_of_le hκ with hk0 | hkp
  · subst hk0
    rw [h.pos_eq_zero h0]
    ext <;> simp [getRf] <;> ring
  · rw [h.pos_eq hkp.ne' h0]
    have hd : κ * L ≠ 0 := (mul_pos hkp hLp).ne'
    have e1 := tan_half_mul_sin hco
    have e2 := tan_half_mul_one_add_cos hco
    have hrf : L * getRf (κ * L) / 2 = tan (κ * L / 2) / κ := by
      unfold getRf
      rw [if_neg hd]
      field_simp
    rw [hrf]
    have key : (sin (κ * L) / κ) • τ 0 + ((1 - cos (κ * L)) / κ) • ν 0
        = (tan (κ * L / 2) / κ) • (τ 0 + (cos (κ * L) • τ 0 + sin (κ * L) • ν 0)) := by
      rw [← e1, ← e2]
      simp only [smul_add, smul_smul]
      rw [← add_assoc, ← add_smul]
      congr 2
      · ring
      · ring
    exact key

end Welleng
