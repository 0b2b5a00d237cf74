import Verif.Props.Fluid
import Mathlib.Topology.Order.IntermediateValue
import Mathlib.MeasureTheory.Integral.IntervalIntegral.Basic

/-!
C359, C360: how the density sought at a depth changes with temperature and applied pressure.
-/

namespace Welleng.Props

open Fluid

/-- The density `rho` balances the mass of the column of the height `D`: the value that
`get_density_profile` looks for. -/
def Balances (rhoTop tempTop vw vo pressure D gradient rho : ℝ) : Prop :=
  getDensity rho rhoTop tempTop vw vo pressure D gradient = .ok 0

/-- The length taken in the hole by a unit of the mud at the depth `z`. -/
noncomputable def stretch (tempTop vw vo pressure gradient rho z : ℝ) : ℝ :=
  (1 - vw - vo) + vo * oil.density tempTop pressure /
      (oil.density tempTop pressure + (oil.c1 * gradient + G * oil.c2 * rho) * z)
    + vw * water.density tempTop pressure /
      (water.density tempTop pressure + (water.c1 * gradient + G * water.c2 * rho) * z)

/-- Along a column whose liquids have positive densities at both ends. -/
theorem along_pos {a1 a2 D z : ℝ} (h1 : 0 < a1) (h2 : 0 < a1 + a2 * D) (hz : z ∈ Set.Icc 0 D) :
    0 < a1 + a2 * z := by
  rcases le_total 0 a2 with h | h
  · have := mul_nonneg h hz.1; linarith
  · have := mul_le_mul_of_nonpos_left hz.2 h; linarith

theorem balances_iff {rhoTop tempTop vw vo pressure D gradient rho : ℝ} (hD : 0 < D)
    (ho : 0 < oil.density tempTop pressure) (hw : 0 < water.density tempTop pressure)
    (h : Balances rhoTop tempTop vw vo pressure D gradient rho) :
    0 < oil.density tempTop pressure + (oil.c1 * gradient + G * oil.c2 * rho) * D ∧
    0 < water.density tempTop pressure + (water.c1 * gradient + G * water.c2 * rho) * D ∧
    rho * ∫ z in (0 : ℝ)..D, stretch tempTop vw vo pressure gradient rho z = rhoTop * D := by
  have h' := h
  unfold Balances getDensity at h'
  simp only at h'
  split_ifs at h' with hr
  simp only [raises, not_and, not_or, not_le] at hr
  obtain ⟨r1, r2, r3, r4, r5, r6, r7⟩ := hr hD.ne'
  simp only [coefficients] at r1 r2 r3 r4 r5 r6
  have e1 : oil.c0 + oil.c1 * tempTop + oil.c2 * pressure = oil.density tempTop pressure := rfl
  have e2 : water.c0 + water.c1 * tempTop + water.c2 * pressure = water.density tempTop pressure := rfl
  rw [e1] at r5
  rw [e2] at r6
  have p1 := (div_pos_iff_of_pos_right ho).mp r5
  have p2 := (div_pos_iff_of_pos_right hw).mp r6
  have f1 : ∀ z, oil.density (tempTop + gradient * z) (pressure + G * rho * z)
      = oil.density tempTop pressure + (oil.c1 * gradient + G * oil.c2 * rho) * z := fun z => by
    simp only [Coef.density]; ring
  have f2 : ∀ z, water.density (tempTop + gradient * z) (pressure + G * rho * z)
      = water.density tempTop pressure + (water.c1 * gradient + G * water.c2 * rho) * z := fun z => by
    simp only [Coef.density]; ring
  have key := (C93_mass_balance_partial (rhoTop := rhoTop) (tempTop := tempTop) (vw := vw) (vo := vo)
    (pressure := pressure) (gradient := gradient) (rhoAvg := rho) hD (right_ne_zero_of_mul r7) _ _ rfl rfl
    (by simp only [f1]; simpa using ho) (by simp only [f1]; exact p1)
    (by simp only [f2]; simpa using hw) (by simp only [f2]; exact p2)
    (by simp only [f1]; simpa using ⟨r2, hD.ne'⟩) (by simp only [f2]; simpa using ⟨r4, hD.ne'⟩)).mp h
  refine ⟨p1, p2, ?_⟩
  simp only [f1, f2, mul_zero, add_zero] at key
  exact key

theorem stretch_continuousOn {tempTop vw vo pressure D gradient rho : ℝ}
    (ho : 0 < oil.density tempTop pressure) (hw : 0 < water.density tempTop pressure)
    (p1 : 0 < oil.density tempTop pressure + (oil.c1 * gradient + G * oil.c2 * rho) * D)
    (p2 : 0 < water.density tempTop pressure + (water.c1 * gradient + G * water.c2 * rho) * D) :
    ContinuousOn (stretch tempTop vw vo pressure gradient rho) (Set.Icc 0 D) := by
  unfold stretch
  refine ContinuousOn.add (ContinuousOn.add continuousOn_const ?_) ?_
  · exact ContinuousOn.div (by fun_prop) (by fun_prop) fun z hz => (along_pos ho p1 hz).ne'
  · exact ContinuousOn.div (by fun_prop) (by fun_prop) fun z hz => (along_pos hw p2 hz).ne'

/-- If the mud of one density is at each depth at least as long, times its density, as that of another,
and longer at one, they do not both balance the column. -/
theorem not_both {rhoTop tempTop vw vo pressure D gradient rho tempTop' pressure' gradient' rho' : ℝ}
    (hD : 0 < D)
    (ho : 0 < oil.density tempTop pressure) (hw : 0 < water.density tempTop pressure)
    (ho' : 0 < oil.density tempTop' pressure') (hw' : 0 < water.density tempTop' pressure')
    (h : Balances rhoTop tempTop vw vo pressure D gradient rho)
    (h' : Balances rhoTop tempTop' vw vo pressure' D gradient' rho')
    (hle : ∀ z ∈ Set.Icc 0 D, 0 < oil.density tempTop pressure + (oil.c1 * gradient + G * oil.c2 * rho) * z →
      0 < water.density tempTop pressure + (water.c1 * gradient + G * water.c2 * rho) * z →
      0 < oil.density tempTop' pressure' + (oil.c1 * gradient' + G * oil.c2 * rho') * z →
      0 < water.density tempTop' pressure' + (water.c1 * gradient' + G * water.c2 * rho') * z →
      rho * stretch tempTop vw vo pressure gradient rho z
        ≤ rho' * stretch tempTop' vw vo pressure' gradient' rho' z ∧
      (z = D → rho * stretch tempTop vw vo pressure gradient rho z
        < rho' * stretch tempTop' vw vo pressure' gradient' rho' z)) : False := by
  obtain ⟨p1, p2, e⟩ := balances_iff hD ho hw h
  obtain ⟨p1', p2', e'⟩ := balances_iff hD ho' hw' h'
  have c := (stretch_continuousOn (vw := vw) (vo := vo) ho hw p1 p2).const_smul rho
  have c' := (stretch_continuousOn (vw := vw) (vo := vo) ho' hw' p1' p2').const_smul rho'
  have := intervalIntegral.integral_lt_integral_of_continuousOn_of_le_of_exists_lt hD c c'
    (fun z hz => (hle z ⟨hz.1.le, hz.2⟩ (along_pos ho p1 ⟨hz.1.le, hz.2⟩) (along_pos hw p2 ⟨hz.1.le, hz.2⟩)
      (along_pos ho' p1' ⟨hz.1.le, hz.2⟩) (along_pos hw' p2' ⟨hz.1.le, hz.2⟩)).1)
    ⟨D, ⟨hD.le, le_rfl⟩, (hle D ⟨hD.le, le_rfl⟩ p1 p2 p1' p2').2 rfl⟩
  simp only [Pi.smul_apply, smul_eq_mul, intervalIntegral.integral_const_mul] at this
  rw [e, e'] at this
  exact lt_irrefl _ this

/-- **C359** Of two columns with the same mud at the same top temperature and applied pressure, the hotter
one is not the denser one. -/
theorem C359_hotter_not_denser {rhoTop tempTop vw vo pressure D g g' rho rho' : ℝ} (hD : 0 < D)
    (hvw : 0 ≤ vw) (hvo : 0 ≤ vo) (hs : 0 < 1 - vw - vo)
    (ho : 0 < oil.density tempTop pressure) (hw : 0 < water.density tempTop pressure)
    (hoD : 0 < oil.density (tempTop + g * D) pressure) (hwD : 0 < water.density (tempTop + g * D) pressure)
    (hg : g ≤ g') (hrho : 0 ≤ rho) (h : Balances rhoTop tempTop vw vo pressure D g rho)
    (h' : Balances rhoTop tempTop vw vo pressure D g' rho') : rho' ≤ rho := by
  by_contra hlt
  rw [not_le] at hlt
  have part : ∀ (c : Coef), c.c1 < 0 → 0 < c.density tempTop pressure →
      0 < c.density (tempTop + g * D) pressure → ∀ z ∈ Set.Icc 0 D,
      0 < c.density tempTop pressure + (c.c1 * g + G * c.c2 * rho) * z →
      0 < c.density tempTop pressure + (c.c1 * g' + G * c.c2 * rho') * z → ∀ v, 0 ≤ v →
      rho * (v * c.density tempTop pressure / (c.density tempTop pressure + (c.c1 * g + G * c.c2 * rho) * z)) ≤
      rho' * (v * c.density tempTop pressure /
        (c.density tempTop pressure + (c.c1 * g' + G * c.c2 * rho') * z)) := by
    intro c hc h0 hb z hz hp hp' v hv
    have hb' : 0 < c.density tempTop pressure + (c.c1 * g) * D := by
      have : c.density (tempTop + g * D) pressure = c.density tempTop pressure + (c.c1 * g) * D := by
        simp only [Coef.density]; ring
      rw [← this]; exact hb
    have hbz := along_pos h0 hb' hz
    generalize c.density tempTop pressure = a at *
    rw [← mul_div_assoc, ← mul_div_assoc, div_le_div_iff₀ hp hp']
    have k1 : rho * (a + c.c1 * g' * z) ≤ rho' * (a + c.c1 * g * z) := by
      have t1 : rho * (c.c1 * g' * z) ≤ rho * (c.c1 * g * z) := by
        refine mul_le_mul_of_nonneg_left ?_ hrho
        exact mul_le_mul_of_nonneg_right (mul_le_mul_of_nonpos_left hg hc.le) hz.1
      have t2 : rho * (a + c.c1 * g * z) ≤ rho' * (a + c.c1 * g * z) :=
        mul_le_mul_of_nonneg_right hlt.le hbz.le
      nlinarith
    have := mul_le_mul_of_nonneg_left k1 (mul_nonneg hv h0.le)
    nlinarith
  refine not_both hD ho hw ho hw h h' fun z hz q1 q2 q3 q4 => ?_
  have a1 := part oil (by norm_num [oil]) ho hoD z hz q1 q3 vo hvo
  have a2 := part water (by norm_num [water]) hw hwD z hz q2 q4 vw hvw
  have a3 : rho * (1 - vw - vo) < rho' * (1 - vw - vo) := mul_lt_mul_of_pos_right hlt hs
  unfold stretch
  simp only [mul_add]
  exact ⟨by linarith, fun _ => by linarith⟩

/-- **C359** At most one density that is not negative balances the column. -/
theorem C359_unique {rhoTop tempTop vw vo pressure D g rho rho' : ℝ} (hD : 0 < D)
    (hvw : 0 ≤ vw) (hvo : 0 ≤ vo) (hs : 0 < 1 - vw - vo)
    (ho : 0 < oil.density tempTop pressure) (hw : 0 < water.density tempTop pressure)
    (hoD : 0 < oil.density (tempTop + g * D) pressure) (hwD : 0 < water.density (tempTop + g * D) pressure)
    (hrho : 0 ≤ rho) (hrho' : 0 ≤ rho') (h : Balances rhoTop tempTop vw vo pressure D g rho)
    (h' : Balances rhoTop tempTop vw vo pressure D g rho') : rho = rho' :=
  le_antisymm (C359_hotter_not_denser hD hvw hvo hs ho hw hoD hwD le_rfl hrho' h' h)
    (C359_hotter_not_denser hD hvw hvo hs ho hw hoD hwD le_rfl hrho h h')

/-- **C360** is false of the code: at the reference temperature throughout, more applied pressure makes
the mud lighter at every depth below the surface. -/
theorem C360_pressure_lightens {rhoTop tempTop vw vo pressure pressure' D rho rho' : ℝ} (hD : 0 < D)
    (hvw : 0 ≤ vw) (hvo : 0 < vo) (hs : 0 < 1 - vw - vo)
    (ho : 0 < oil.density tempTop pressure) (hw : 0 < water.density tempTop pressure)
    (hp : pressure < pressure') (hrho : 0 < rho)
    (h : Balances rhoTop tempTop vw vo pressure D 0 rho)
    (h' : Balances rhoTop tempTop vw vo pressure' D 0 rho') : rho' < rho := by
  by_contra hle
  rw [not_lt] at hle
  have up : ∀ c : Coef, 0 < c.c2 → c.density tempTop pressure < c.density tempTop pressure' := by
    intro c hc
    simp only [Coef.density]
    have := mul_lt_mul_of_pos_left hp hc
    linarith
  have uo := up oil (by norm_num [oil])
  have uw := up water (by norm_num [water])
  have part : ∀ (c : Coef) (a a' : ℝ), 0 < c.c2 → 0 < a → a < a' → ∀ z, 0 ≤ z → ∀ v, 0 ≤ v →
      rho * (v * a / (a + (c.c1 * 0 + G * c.c2 * rho) * z)) ≤
        rho' * (v * a' / (a' + (c.c1 * 0 + G * c.c2 * rho') * z)) ∧
      (0 < z → 0 < v → rho * (v * a / (a + (c.c1 * 0 + G * c.c2 * rho) * z)) <
        rho' * (v * a' / (a' + (c.c1 * 0 + G * c.c2 * rho') * z))) := by
    intro c a a' hc ha haa z hz v hv
    have hG : 0 < G * c.c2 := mul_pos (by norm_num [G]) hc
    generalize G * c.c2 = κ at *
    have hrho' : 0 < rho' := lt_of_lt_of_le hrho hle
    have d1 : 0 < a + (c.c1 * 0 + κ * rho) * z := by
      have : 0 ≤ κ * rho * z := by positivity
      rw [mul_zero, zero_add]; linarith
    have d2 : 0 < a' + (c.c1 * 0 + κ * rho') * z := by
      have : 0 ≤ κ * rho' * z := by positivity
      rw [mul_zero, zero_add]; linarith
    have ha' : 0 < a' := ha.trans haa
    have e1 : 0 ≤ (rho' - rho) * (a * a') := mul_nonneg (sub_nonneg.mpr hle) (mul_pos ha ha').le
    have e2 : 0 ≤ κ * rho * rho' * z * (a' - a) :=
      mul_nonneg (by positivity) (sub_nonneg.mpr haa.le)
    have e : rho' * (v * a') * (a + (c.c1 * 0 + κ * rho) * z) - rho * (v * a) * (a' + (c.c1 * 0 + κ * rho') * z)
        = v * ((rho' - rho) * (a * a') + κ * rho * rho' * z * (a' - a)) := by ring
    constructor
    · rw [← mul_div_assoc, ← mul_div_assoc, div_le_div_iff₀ d1 d2, ← sub_nonneg, e]
      exact mul_nonneg hv (add_nonneg e1 e2)
    · intro hz hv
      rw [← mul_div_assoc, ← mul_div_assoc, div_lt_div_iff₀ d1 d2, ← sub_pos, e]
      have : 0 < κ * rho * rho' * z * (a' - a) := mul_pos (by positivity) (sub_pos.mpr haa)
      exact mul_pos hv (by linarith)
  refine not_both hD ho hw (ho.trans uo) (hw.trans uw) h h' fun z hz q1 q2 q3 q4 => ?_
  have a1 := part oil _ _ (by norm_num [oil]) ho uo z hz.1 vo hvo.le
  have a2 := part water _ _ (by norm_num [water]) hw uw z hz.1 vw hvw
  have a3 : rho * (1 - vw - vo) ≤ rho' * (1 - vw - vo) := mul_le_mul_of_nonneg_right hle hs.le
  unfold stretch
  simp only [mul_add]
  refine ⟨by linarith [a1.1, a2.1], fun hzD => ?_⟩
  have := a1.2 (by rw [hzD]; exact hD) hvo
  linarith [a2.1]

/-- **C360** (partial) Where oil and water get no denser down the column, more applied pressure does not
make the mud lighter. -/
theorem C360_expanding_partial {rhoTop tempTop vw vo pressure pressure' D g rho rho' : ℝ} (hD : 0 < D)
    (hvw : 0 ≤ vw) (hvo : 0 ≤ vo) (hs : 0 < 1 - vw - vo)
    (ho : 0 < oil.density tempTop pressure) (hw : 0 < water.density tempTop pressure)
    (hoD : 0 < oil.density (tempTop + g * D) pressure) (hwD : 0 < water.density (tempTop + g * D) pressure)
    (heo : oil.c1 * g + G * oil.c2 * rho ≤ 0) (hew : water.c1 * g + G * water.c2 * rho ≤ 0)
    (hp : pressure ≤ pressure') (hrho' : 0 ≤ rho')
    (h : Balances rhoTop tempTop vw vo pressure D g rho)
    (h' : Balances rhoTop tempTop vw vo pressure' D g rho') : rho ≤ rho' := by
  by_contra hlt
  rw [not_le] at hlt
  have up : ∀ c : Coef, 0 < c.c2 → c.density tempTop pressure ≤ c.density tempTop pressure' := by
    intro c hc
    simp only [Coef.density]
    have := mul_le_mul_of_nonneg_left hp hc.le
    linarith
  have uo := up oil (by norm_num [oil])
  have uw := up water (by norm_num [water])
  have part : ∀ (c : Coef), 0 < c.c2 → 0 < c.density tempTop pressure →
      0 < c.density (tempTop + g * D) pressure → c.c1 * g + G * c.c2 * rho ≤ 0 → ∀ z ∈ Set.Icc 0 D,
      0 < c.density tempTop pressure + (c.c1 * g + G * c.c2 * rho) * z →
      0 < c.density tempTop pressure' + (c.c1 * g + G * c.c2 * rho') * z → ∀ v, 0 ≤ v →
      rho' * (v * c.density tempTop pressure' /
        (c.density tempTop pressure' + (c.c1 * g + G * c.c2 * rho') * z)) ≤
      rho * (v * c.density tempTop pressure /
        (c.density tempTop pressure + (c.c1 * g + G * c.c2 * rho) * z)) := by
    intro c hc h0 hb hex z hz q q' v hv
    have haa := up c hc
    have hb' : 0 < c.density tempTop pressure + (c.c1 * g) * D := by
      have : c.density (tempTop + g * D) pressure = c.density tempTop pressure + (c.c1 * g) * D := by
        simp only [Coef.density]; ring
      rw [← this]; exact hb
    have hbz := along_pos h0 hb' hz
    generalize c.density tempTop pressure = a at *
    generalize c.density tempTop pressure' = a' at *
    generalize G * c.c2 = κ at *
    rw [← mul_div_assoc, ← mul_div_assoc, div_le_div_iff₀ q' q, ← sub_nonneg]
    have e : rho * (v * a) * (a' + (c.c1 * g + κ * rho') * z) - rho' * (v * a') * (a + (c.c1 * g + κ * rho) * z)
        = v * ((rho - rho') * a * (a' + c.c1 * g * z) + rho' * z * (a' - a) * -(c.c1 * g + κ * rho)) := by ring
    rw [e]
    refine mul_nonneg hv (add_nonneg ?_ ?_)
    · exact mul_nonneg (mul_nonneg (sub_nonneg.mpr hlt.le) h0.le) (by linarith)
    · exact mul_nonneg (mul_nonneg (mul_nonneg hrho' hz.1) (sub_nonneg.mpr haa)) (by linarith)
  refine not_both hD (ho.trans_le uo) (hw.trans_le uw) ho hw h' h fun z hz q1 q2 q3 q4 => ?_
  have a1 := part oil (by norm_num [oil]) ho hoD heo z hz q3 q1 vo hvo
  have a2 := part water (by norm_num [water]) hw hwD hew z hz q4 q2 vw hvw
  have a3 : rho' * (1 - vw - vo) < rho * (1 - vw - vo) := mul_lt_mul_of_pos_right hlt hs
  unfold stretch
  simp only [mul_add]
  exact ⟨by linarith, fun _ => by linarith⟩

/-! ### A balance exists -/

/-- At the reference temperature throughout there is a density that balances the column. -/
theorem balance_exists {rhoTop tempTop vw vo pressure D : ℝ} (hD : 0 < D) (hvw : 0 ≤ vw) (hvo : 0 ≤ vo)
    (hs : 0 < 1 - vw - vo) (ho : 0 < oil.density tempTop pressure) (hw : 0 < water.density tempTop pressure)
    (hr : 0 < rhoTop) : ∃ rho, 0 < rho ∧ Balances rhoTop tempTop vw vo pressure D 0 rho := by
  have hko : 0 < G * oil.c2 := by norm_num [G, oil]
  have hkw : 0 < G * water.c2 := by norm_num [G, water]
  set κ := G * oil.c2 with hκ
  set μ := G * water.c2 with hμ
  set a := oil.density tempTop pressure with haa
  set b := water.density tempTop pressure with hbb
  let F : ℝ → ℝ := fun r => (1 - vw - vo) * D * r + vo * a / κ * Real.log ((a + κ * r * D) / a)
    + vw * b / μ * Real.log ((b + μ * r * D) / b)
  have hM : 0 ≤ rhoTop / (1 - vw - vo) := by positivity
  have hpos : ∀ {c k r : ℝ}, 0 < c → 0 < k → 0 ≤ r → 0 < (c + k * r * D) / c := fun hc hk hr' => by positivity
  have hcont : ContinuousOn F (Set.Icc 0 (rhoTop / (1 - vw - vo))) := by
    refine ContinuousOn.add (ContinuousOn.add (by fun_prop) ?_) ?_
    · exact continuousOn_const.mul (ContinuousOn.log (by fun_prop) fun r hr' => (hpos ho hko hr'.1).ne')
    · exact continuousOn_const.mul (ContinuousOn.log (by fun_prop) fun r hr' => (hpos hw hkw hr'.1).ne')
  have h0 : F 0 = 0 := by
    simp only [F, mul_zero, zero_mul, add_zero, div_self ho.ne', div_self hw.ne', Real.log_one]
  have hlog : ∀ {c k r : ℝ}, 0 < c → 0 < k → 0 ≤ r → 0 ≤ Real.log ((c + k * r * D) / c) := fun hc hk hr' =>
    Real.log_nonneg (by rw [le_div_iff₀ hc, one_mul]; have : 0 ≤ _ * _ * D := mul_nonneg (mul_nonneg hk.le hr') hD.le; linarith)
  have h1 : rhoTop * D ≤ F (rhoTop / (1 - vw - vo)) := by
    have e : (1 - vw - vo) * D * (rhoTop / (1 - vw - vo)) = rhoTop * D := by field_simp
    simp only [F]
    rw [e]
    have l1 := mul_nonneg (show 0 ≤ vo * a / κ by positivity) (hlog ho hko hM)
    have l2 := mul_nonneg (show 0 ≤ vw * b / μ by positivity) (hlog hw hkw hM)
    linarith
  obtain ⟨r, ⟨hr0, -⟩, hF⟩ := intermediate_value_Icc hM hcont
    (show rhoTop * D ∈ Set.Icc (F 0) _ from ⟨by rw [h0]; positivity, h1⟩)
  have hrp : 0 < r := by
    refine lt_of_le_of_ne hr0 fun h => ?_
    rw [← h, h0] at hF
    have : 0 < rhoTop * D := by positivity
    linarith
  refine ⟨r, hrp, ?_⟩
  have e1 : (coefficients oil r pressure tempTop 0) = (a, κ * r) := by
    simp only [coefficients, haa, Coef.density, hκ, mul_zero, zero_add]
  have e2 : (coefficients water r pressure tempTop 0) = (b, μ * r) := by
    simp only [coefficients, hbb, Coef.density, hμ, mul_zero, zero_add]
  unfold Balances getDensity
  simp only [e1, e2]
  rw [if_neg]
  · rw [Except.ok.injEq]
    unfold objective
    simp only [e1, e2]
    rw [abs_eq_zero, sub_eq_zero]
    unfold func
    rw [if_neg hD.ne']
    simp only [F] at hF
    generalize Real.log ((a + κ * r * D) / a) = L1 at *
    generalize Real.log ((b + μ * r * D) / b) = L2 at *
    rw [← sub_div, eq_div_iff (mul_pos hD hs).ne']
    have q1 : vo * a * r / (κ * r) = vo * a / κ := by field_simp
    have q2 : vw * b * r / (μ * r) = vw * b / μ := by field_simp
    rw [q1, q2]
    linear_combination hF
  · rw [e1, e2]
    rintro ⟨-, h | h | h | h | h | h | h⟩
    · exact ho.ne' h
    · exact (mul_pos hko hrp).ne' h
    · exact hw.ne' h
    · exact (mul_pos hkw hrp).ne' h
    · exact absurd h (not_le.mpr (hpos ho hko hr0))
    · exact absurd h (not_le.mpr (hpos hw hkw hr0))
    · exact (mul_pos hD hs).ne' h

/-- **C360** is false of the code: 10 ppg mud at 120 °F with a fifth of water and seven tenths of oil. At
10000 ft it is lighter with 1000 psi applied than without. -/
theorem C360_example : ∃ rho rho', Balances 10 120 0.2 0.7 0 10000 0 rho ∧
    Balances 10 120 0.2 0.7 1000 10000 0 rho' ∧ 0 < rho' ∧ rho' < rho := by
  have ho : 0 < oil.density 120 0 := by norm_num [Coef.density, oil]
  have hw : 0 < water.density 120 0 := by norm_num [Coef.density, water]
  obtain ⟨r, r0, hr⟩ := balance_exists (rhoTop := 10) (tempTop := 120) (vw := 0.2) (vo := 0.7) (pressure := 0)
    (D := 10000) (by norm_num) (by norm_num) (by norm_num) (by norm_num) ho hw (by norm_num)
  obtain ⟨r', r0', hr'⟩ := balance_exists (rhoTop := 10) (tempTop := 120) (vw := 0.2) (vo := 0.7)
    (pressure := 1000) (D := 10000) (by norm_num) (by norm_num) (by norm_num) (by norm_num)
    (by norm_num [Coef.density, oil]) (by norm_num [Coef.density, water]) (by norm_num)
  exact ⟨r, r', hr, hr', r0', C360_pressure_lightens (by norm_num) (by norm_num) (by norm_num) (by norm_num)
    ho hw (by norm_num) r0 hr hr'⟩

/-- The hypotheses of `C359_hotter_not_denser` hold for 120 °F at the top and 250 °F at 10000 ft. -/
example : (0 : ℝ) < 1 - 0.2 - 0.7 ∧ 0 < oil.density 120 0 ∧ 0 < water.density 120 0 ∧
    0 < oil.density (120 + 0.013 * 10000) 0 ∧ 0 < water.density (120 + 0.013 * 10000) 0 := by
  norm_num [Coef.density, oil, water]

end Welleng.Props
