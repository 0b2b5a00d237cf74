import Verif.Model.Extend
import Verif.Props.ArcBuild
import Verif.Lemmas.ConnectorSolve

/-!
C197-C199: `drop_off` (`/repo/welleng/connector.py` 2545-2631).
-/

namespace Welleng.Props

open Real Welleng Spec Con Tf Proj Xt

/-! ### The arc in the vertical plane -/

/-- The inclination `get_angles` reports is the angle with the vertical. -/
theorem incl_getAngles {v : V3} (hv : v.IsUnit) :
    cos (getAngles v true).1 = v.z ∧ 0 ≤ (getAngles v true).1 ∧ (getAngles v true).1 ≤ π := by
  have h := congrArg V3.z (tangent_getAngles_nev hv)
  refine ⟨h, ?_, ?_⟩
  · have hs := sin_getAngles_nonneg v true
    have hm : -π < (getAngles v true).1 := by
      unfold getAngles getAnglesXyz
      exact (atan2_mem _ _).1
    by_contra hneg
    push Not at hneg
    exact absurd hs (not_le.mpr (sin_neg_of_neg_of_neg_pi_lt hneg hm))
  · unfold getAngles getAnglesXyz
    exact (atan2_mem _ _).2

theorem toolDir_zero (i a : ℝ) : toolDir i a 0 = highSide i a := by
  ext <;> simp [toolDir]

theorem toolDir_pi (i a : ℝ) : toolDir i a π = (-1 : ℝ) • highSide i a := by
  ext <;> simp [toolDir]

/-- The sign of the side the arc turns to: `1` towards the high side. -/
noncomputable def sideSign (toolface : ℝ) : ℝ := if -π / 2 ≤ toolface ∧ toolface ≤ π / 2 then 1 else -1

theorem toolDir_side (i a tf : ℝ) : toolDir i a (sideOf tf) = sideSign tf • highSide i a := by
  unfold sideOf sideSign
  split_ifs
  · rw [toolDir_zero, one_smul]
  · rw [toolDir_pi]

theorem sideSign_cases (tf : ℝ) : sideSign tf = 1 ∨ sideSign tf = -1 := by
  unfold sideSign; split_ifs <;> simp

/-- Turning by `d` in the vertical plane. -/
theorem turned (i a tf d : ℝ) :
    cos d • tangent i a + sin d • (sideSign tf • highSide i a) = tangent (i + sideSign tf * d) a := by
  rcases sideSign_cases tf with h | h <;> rw [h]
  · ext <;> simp [tangent, highSide, sin_add, cos_add] <;> ring
  · ext <;> simp [tangent, highSide, sin_add, cos_add] <;> ring

theorem dropRadius_pos {dls : ℝ} (h : 0 < dls) : 0 < dropRadius dls := by
  unfold dropRadius; positivity

theorem dropRadius_eq {dls : ℝ} (h : 0 < dls) : dropRadius dls = designRadius 30 dls := by
  have := pi_ne_zero
  unfold dropRadius designRadius radians
  field_simp; norm_num

/-- The arc of a node with a direction. -/
theorem dropArc_eq {i a r : ℝ} (hs : 0 < sin i) (hr : 0 < r) (node : Nd)
    (hv : node.vec = some (tangent i a)) (x : Choice) :
    (dropArc r node x).vec = tangent (i + sideSign x.toolface * x.dogleg) a ∧
    (dropArc r node x).deltaMd = x.dogleg * r ∧
    ArcTo r (x.dogleg * r) (node.pos.getD 0) (tangent i a) (dropArc r node x).pos
      (dropArc r node x).vec := by
  have hk : (1 / r) ≠ 0 := by positivity
  have e := toolDir_congr (tangent_getAngles_nev (tangent_unit i a)).symm hs
    (sin_getAngles_nonneg _ _) (sideOf x.toolface)
  have ho := toolDir_ortho i a (sideOf x.toolface)
  have hu := toolDir_unit i a (sideOf x.toolface)
  have hcirc := arc_circular hk (tangent_unit i a) hu ho
  have hkd : 1 / r * (x.dogleg * r) = x.dogleg := by field_simp
  unfold dropArc
  rw [hv, Option.getD_some, getArc_eq (tangent_unit _ _) _ _ _ hr.ne', ← e]
  refine ⟨?_, rfl, ?_⟩
  · simp only [arcTan, hkd, toolDir_side]
    exact turned i a x.toolface x.dogleg
  · refine ⟨_, _, _, Welleng.Con.CircularCurve.move hcirc (node.pos.getD 0), ?_, ?_, rfl, rfl⟩
    · have : arcPos (1 / r) (tangent i a) (toolDir i a (sideOf x.toolface)) 0 = 0 := by
        ext <;> simp [arcPos]
      simp only [this, add_zero]
    · ext <;> simp [arcTan]

/-- A vertical direction: the arc turns in the plane of north. -/
theorem dropArc_down {r : ℝ} (hr : 0 < r) (node : Nd)
    (hv : node.vec.getD ⟨0, 0, 1⟩ = ⟨0, 0, 1⟩) (x : Choice) :
    (dropArc r node x).vec = tangent (sideSign x.toolface * x.dogleg) 0 ∧
    (dropArc r node x).deltaMd = x.dogleg * r ∧
    ArcTo r (x.dogleg * r) (node.pos.getD 0) ⟨0, 0, 1⟩ (dropArc r node x).pos
      (dropArc r node x).vec := by
  have hk : (1 / r) ≠ 0 := by positivity
  have hd : (⟨0, 0, 1⟩ : V3).IsUnit := by simp [V3.IsUnit, V3.dot]
  have ha : getAngles ⟨0, 0, 1⟩ true = (0, 0) := by
    rw [getAngles_nev_of_unit hd]
    unfold getAnglesXyz
    have h1 : atan2 0 1 = 0 := by unfold atan2; exact Complex.arg_one
    have h2 : atan2 0 0 = 0 := by unfold atan2; exact Complex.arg_zero
    have h3 : pmod (0 + 2 * π) (2 * π) = 0 := by
      have := pmod_add_int_mul 0 (b := 2 * π) (by positivity) 1
      rw [Int.cast_one, one_mul] at this
      rw [this, pmod_eq_self] <;> positivity
    simp only [zero_pow (n := 2) (by norm_num), add_zero, sqrt_zero, h1, h2, h3]
  have ht : tangent 0 0 = ⟨0, 0, 1⟩ := by ext <;> simp [tangent]
  have ho := toolDir_ortho 0 0 (sideOf x.toolface)
  have hu := toolDir_unit 0 0 (sideOf x.toolface)
  have hcirc := arc_circular hk (tangent_unit 0 0) hu ho
  have hkd : 1 / r * (x.dogleg * r) = x.dogleg := by field_simp
  unfold dropArc
  rw [hv, getArc_eq hd _ _ _ hr.ne', ha]
  rw [ht] at hcirc
  refine ⟨?_, rfl, ?_⟩
  · simp only [arcTan, hkd, toolDir_side, ← ht]
    have := turned 0 0 x.toolface x.dogleg
    rw [zero_add] at this
    exact this
  · refine ⟨_, _, _, Welleng.Con.CircularCurve.move hcirc (node.pos.getD 0), ?_, ?_, rfl, rfl⟩
    · have : arcPos (1 / r) ⟨0, 0, 1⟩ (toolDir 0 0 (sideOf x.toolface)) 0 = 0 := by
        ext <;> simp [arcPos]
      simp only [this, add_zero]
    · ext <;> simp [arcTan]

/-! ### C197 -/

/-- What the nodes of a drop-off have to be: from position `p`, direction `v` and depth `m`, an arc of
radius `R`, then possibly a straight; with a length `l` asked for they end at most `tol` short of it
and never beyond. -/
def DropPath (R tol : ℝ) (l : Option ℝ) (p v : V3) (m : ℝ) : List At → Prop
  | [n2] => 0 ≤ n2.md - m ∧ ArcTo R (n2.md - m) p v n2.pos n2.vec ∧
      ∀ x, l = some x → m + x - tol ≤ n2.md ∧ n2.md ≤ m + x
  | [n2, n3] => 0 ≤ n2.md - m ∧ ArcTo R (n2.md - m) p v n2.pos n2.vec ∧
      tol < n3.md - n2.md ∧ StraightTo (n3.md - n2.md) n2.pos n2.vec n3.pos ∧ n3.vec = n2.vec ∧
      l = some (n3.md - m)
  | _ => False

theorem arc_length_le {r : ℝ} (hr : 0 < r) {l : ℝ} {x : Choice} (hx : InBounds r (some l) x) :
    x.dogleg * r ≤ l := by
  have := hx.2.1.trans (min_le_right _ _)
  simp only at this
  rwa [le_div_iff₀ hr] at this

theorem dropPath_of {dls tol : ℝ} (hd : 0 < dls) (ht : 0 ≤ tol) {l : Option ℝ} (node : Option Nd)
    {v : V3} (x : Choice) (hx : InBounds (dropRadius dls) l x)
    (ha : (dropArc (dropRadius dls) (node.getD {}) x).deltaMd = x.dogleg * dropRadius dls ∧
      ArcTo (dropRadius dls) (x.dogleg * dropRadius dls) ((node.getD {}).pos.getD 0) v
        (dropArc (dropRadius dls) (node.getD {}) x).pos
        (dropArc (dropRadius dls) (node.getD {}) x).vec) :
    DropPath (dropRadius dls) tol l ((node.getD {}).pos.getD 0) v ((node.getD {}).md.getD 0)
      (dropOff dls l node tol x) := by
  have hr := dropRadius_pos hd
  obtain ⟨h2, h3⟩ := ha
  have hu : (dropArc (dropRadius dls) (node.getD {}) x).vec.IsUnit := by
    obtain ⟨γ, τ, ν, hc, -, -, -, tL⟩ := h3
    rw [← tL]; exact hc.unit_tan _
  have h0 : 0 ≤ x.dogleg * dropRadius dls := mul_nonneg hx.1 hr.le
  unfold dropOff
  simp only [h2, normalize_of_unit hu]
  cases l with
  | none =>
    simp only
    rw [if_neg (not_lt.mpr ht)]
    refine ⟨by simpa using h0, by simpa using h3, by simp⟩
  | some l =>
    have hle := arc_length_le hr hx
    simp only
    split_ifs with hc
    · refine ⟨by simpa using h0, by simpa using h3, by simpa using hc, ⟨?_, ?_⟩, rfl, ?_⟩
      · simp only [add_sub_cancel_left]; linarith
      · simp only [add_sub_cancel_left]
      · simp only; congr 1; ring
    · refine ⟨by simpa using h0, by simpa using h3, ?_⟩
      intro y hy
      obtain rfl := Option.some.inj hy
      have := not_lt.mp hc
      simp only
      constructor <;> linarith

/-- **C197** From a node with an inclination strictly between 0 and 180 degrees: whatever the
optimiser returns within its bounds, the nodes are an arc with the design severity and possibly a
straight, with the depths of that path, and use up the length asked for. -/
theorem C197_drop_is_path {dls tol i a : ℝ} (hd : 0 < dls) (ht : 0 ≤ tol) (hs : 0 < sin i)
    (l : Option ℝ) (pos : Option V3) (md : Option ℝ) (x : Choice)
    (hx : InBounds (30 / (dls * (π / 180))) l x) :
    DropPath (30 / (dls * (π / 180))) tol l (pos.getD 0) (tangent i a) (md.getD 0)
      (dropOff dls l (some ⟨pos, some (tangent i a), md⟩) tol x) := by
  have hR : 30 / (dls * (π / 180)) = dropRadius dls := by
    rw [dropRadius_eq hd]; unfold designRadius radians; rw [mul_div_assoc]
  rw [hR] at hx ⊢
  exact dropPath_of hd ht (some ⟨pos, some (tangent i a), md⟩) x hx
    (dropArc_eq hs (dropRadius_pos hd) ⟨pos, some (tangent i a), md⟩ rfl x).2

/-- **C197** Without a start node the path starts at the origin, downwards, at depth zero. -/
theorem C197_default_start {dls tol : ℝ} (hd : 0 < dls) (ht : 0 ≤ tol) (l : Option ℝ) (x : Choice)
    (hx : InBounds (30 / (dls * (π / 180))) l x) :
    DropPath (30 / (dls * (π / 180))) tol l 0 ⟨0, 0, 1⟩ 0 (dropOff dls l none tol x) := by
  have hR : 30 / (dls * (π / 180)) = dropRadius dls := by
    rw [dropRadius_eq hd]; unfold designRadius radians; rw [mul_div_assoc]
  rw [hR] at hx ⊢
  exact dropPath_of hd ht none x hx (dropArc_down (dropRadius_pos hd) {} rfl x).2

/-- **C197** The path stays in the vertical plane of the start: every direction is the start's
inclination changed by the angle turned, at the start's azimuth. -/
theorem C197_vertical_plane {dls tol i a : ℝ} (hd : 0 < dls) (hs : 0 < sin i)
    (l : Option ℝ) (pos : Option V3) (md : Option ℝ) (x : Choice) :
    ∃ σ : ℝ, (σ = 1 ∨ σ = -1) ∧
      ∀ n ∈ dropOff dls l (some ⟨pos, some (tangent i a), md⟩) tol x,
        n.vec = tangent (i + σ * x.dogleg) a := by
  refine ⟨sideSign x.toolface, sideSign_cases _, ?_⟩
  obtain ⟨h1, -, -⟩ := dropArc_eq hs (dropRadius_pos hd) ⟨pos, some (tangent i a), md⟩ rfl x
  intro n hn
  unfold dropOff at hn
  simp only [Option.getD_some, h1, normalize_of_unit (tangent_unit _ _)] at hn
  split_ifs at hn with hc
  · simp only [List.mem_cons, List.not_mem_nil, or_false] at hn
    rcases hn with rfl | rfl <;> rfl
  · simp only [List.mem_cons, List.not_mem_nil, or_false] at hn
    rw [hn]

/-- C197 hypotheses: from 30 degrees, 3 degrees per 30, 500 long, the first guess of the optimiser. -/
example : (0 : ℝ) < sin (π / 6) ∧ InBounds (30 / (3 * (π / 180))) (some 500)
    (firstGuess (30 / (3 * (π / 180))) (some 500)) := by
  have hp := pi_pos
  refine ⟨by rw [sin_pi_div_six]; norm_num, ?_⟩
  have h : 0 ≤ maxDogleg (30 / (3 * (π / 180))) (some 500) :=
    le_min (by positivity) (by simp only; positivity)
  refine ⟨?_, ?_, ?_, ?_⟩ <;> simp only [firstGuess] <;> linarith

/-! ### C198 -/

/-- Two angles with the same cosine: the one between 0 and π is nearer to any angle between 0
and π. -/
theorem incl_lipschitz {i j J : ℝ} (hi : 0 ≤ i ∧ i ≤ π) (hJ : 0 ≤ J ∧ J ≤ π) (h : cos J = cos j) :
    |J - i| ≤ |j - i| := by
  have hp := pi_pos
  obtain ⟨k, hk⟩ := cos_eq_cos_iff.mp h
  rcases lt_trichotomy k 0 with hk0 | hk0 | hk0
  · have : (k : ℝ) ≤ -1 := by exact_mod_cast Int.le_sub_one_of_lt hk0
    rcases hk with hk | hk <;> rw [hk] <;>
      exact (abs_le.mpr ⟨by linarith [abs_nonneg (2 * k * π + J - i)], by
        nlinarith [hi.1, hi.2, hJ.1, hJ.2]⟩ : |J - i| ≤ π).trans (by
          rw [le_abs]; right; nlinarith [hi.1, hi.2, hJ.1, hJ.2])
  · subst hk0
    simp only [Int.cast_zero, mul_zero, zero_mul, zero_add, zero_sub] at hk
    rcases hk with hk | hk
    · rw [hk]
    · rw [hk, abs_le]
      rw [show |-J - i| = J + i by rw [abs_of_nonpos (by linarith [hi.1, hJ.1])]; ring]
      constructor <;> linarith [hi.1, hJ.1]
  · have : (1 : ℝ) ≤ k := by exact_mod_cast hk0
    rcases hk with hk | hk <;> rw [hk, le_abs] <;> left <;> rw [abs_le] <;>
      constructor <;> nlinarith [hi.1, hi.2, hJ.1, hJ.2]

/-- How far the end of the arc is from the wanted inclination. -/
theorem dropMiss_eq {i a r t : ℝ} (hs : 0 < sin i) (hr : 0 < r) (pos : Option V3) (md : Option ℝ)
    (x : Choice) :
    ∃ J, 0 ≤ J ∧ J ≤ π ∧ cos J = cos (i + sideSign x.toolface * x.dogleg) ∧
      dropMiss r t ⟨pos, some (tangent i a), md⟩ x = |degrees J - t| := by
  obtain ⟨h1, -, -⟩ := dropArc_eq hs hr ⟨pos, some (tangent i a), md⟩ rfl x
  obtain ⟨e1, e2, e3⟩ := incl_getAngles (tangent_unit (i + sideSign x.toolface * x.dogleg) a)
  refine ⟨_, e2, e3, e1, ?_⟩
  unfold dropMiss
  rw [h1]

theorem degrees_sub_abs (x t : ℝ) : |degrees x - t| = 180 / π * |x - radians t| := by
  have hp := pi_pos
  unfold degrees radians
  rw [← abs_of_pos (show 0 < 180 / π by positivity), ← abs_mul]
  congr 1
  field_simp

theorem sideSign_zero : sideSign 0 = 1 := by
  have := pi_pos
  unfold sideSign; rw [if_pos]; constructor <;> linarith

theorem sideSign_pi : sideSign π = -1 := by
  have := pi_pos
  unfold sideSign; rw [if_neg]; rintro ⟨-, h⟩; linarith

/-- **C198** If the optimiser finds a minimum within its bounds, the end of the arc has the wanted
inclination `t` (degrees) whenever the length suffices for the turn; otherwise the inclination falls
short of it by exactly the angle that could not be turned. -/
theorem C198_target_inclination {i a dls t : ℝ} (hi : 0 < i ∧ i < π) (hd : 0 < dls)
    (ht : 0 ≤ t ∧ t ≤ 180) (l : Option ℝ) (hl : ∀ y, l = some y → 0 ≤ y) (pos : Option V3)
    (md : Option ℝ) (tol : ℝ) (x : Choice) (hx : InBounds (30 / (dls * (π / 180))) l x)
    (hmin : ∀ y, InBounds (30 / (dls * (π / 180))) l y →
      dropMiss (30 / (dls * (π / 180))) t ⟨pos, some (tangent i a), md⟩ x
        ≤ dropMiss (30 / (dls * (π / 180))) t ⟨pos, some (tangent i a), md⟩ y)
    (n : At) (hn : n ∈ dropOff dls l (some ⟨pos, some (tangent i a), md⟩) tol x) :
    ∃ j, 0 ≤ j ∧ j ≤ π ∧ n.vec.z = cos j ∧
      |j - radians t| = max 0 (|i - radians t| - maxDogleg (30 / (dls * (π / 180))) l) := by
  have hp := pi_pos
  have hs : 0 < sin i := sin_pos_of_pos_of_lt_pi hi.1 hi.2
  have hR : 30 / (dls * (π / 180)) = dropRadius dls := by
    rw [dropRadius_eq hd]; unfold designRadius radians; rw [mul_div_assoc]
  rw [hR] at hx hmin ⊢
  have hr := dropRadius_pos hd
  set r := dropRadius dls with hrdef
  set D := maxDogleg r l with hD
  have hD0 : 0 ≤ D := le_min (by positivity) (by
    cases l with
    | none => simp only; positivity
    | some y => simp only; exact div_nonneg (hl y rfl) hr.le)
  have hT : 0 ≤ radians t ∧ radians t ≤ π := by
    unfold radians
    constructor
    · exact div_nonneg (mul_nonneg ht.1 hp.le) (by norm_num)
    · nlinarith [ht.2]
  obtain ⟨J, j0, j1, j2, j3⟩ := dropMiss_eq (t := t) (a := a) hs hr pos md x
  -- the direction of every node
  have hvec : n.vec = tangent (i + sideSign x.toolface * x.dogleg) a := by
    obtain ⟨h1, -, -⟩ := dropArc_eq hs hr ⟨pos, some (tangent i a), md⟩ rfl x
    unfold dropOff at hn
    simp only [Option.getD_some, ← hrdef, h1, normalize_of_unit (tangent_unit _ _)] at hn
    split_ifs at hn with hc
    · simp only [List.mem_cons, List.not_mem_nil, or_false] at hn
      rcases hn with rfl | rfl <;> rfl
    · simp only [List.mem_cons, List.not_mem_nil, or_false] at hn
      rw [hn]
  refine ⟨J, j0, j1, by rw [hvec, j2]; rfl, ?_⟩
  -- nothing within the bounds is nearer
  have hlow : |i - radians t| - D ≤ |J - radians t| := by
    have h1 := incl_lipschitz ⟨hi.1.le, hi.2.le⟩ ⟨j0, j1⟩ j2
    have h2 : |i + sideSign x.toolface * x.dogleg - i| ≤ D := by
      rw [add_sub_cancel_left, abs_mul]
      have : |sideSign x.toolface| = 1 := by
        rcases sideSign_cases x.toolface with h | h <;> rw [h] <;> norm_num
      rw [this, one_mul, abs_of_nonneg hx.1]
      exact hx.2.1
    have h3 : |i - radians t| ≤ |J - i| + |J - radians t| := by
      have := abs_sub_le i J (radians t)
      rw [abs_sub_comm i J] at this
      exact this
    linarith
  -- a choice within the bounds
  let s : ℝ := min |i - radians t| D
  have hs0 : 0 ≤ s := le_min (abs_nonneg _) hD0
  let y : Choice := ⟨s, if i ≤ radians t then 0 else π⟩
  have hy : InBounds r l y := by
    refine ⟨hs0, min_le_right _ _, ?_, ?_⟩ <;> simp only [y] <;> split_ifs <;> linarith
  obtain ⟨K, k0, k1, k2, k3⟩ := dropMiss_eq (t := t) (a := a) hs hr pos md y
  have hm := hmin y hy
  rw [j3, k3, degrees_sub_abs, degrees_sub_abs] at hm
  have hm' : |J - radians t| ≤ |K - radians t| := le_of_mul_le_mul_left hm (by positivity)
  have hK : |K - radians t| = max 0 (|i - radians t| - D) := by
    have hmem : ∀ w, 0 ≤ w → w ≤ π → cos K = cos w → K = w := fun w w0 w1 hw =>
      injOn_cos ⟨k0, k1⟩ ⟨w0, w1⟩ hw
    by_cases hit : i ≤ radians t
    · have hsgn : sideSign y.toolface = 1 := by
        simp only [y, if_pos hit]; exact sideSign_zero
      have habs : |i - radians t| = radians t - i := by
        rw [abs_of_nonpos (by linarith)]; ring
      rw [hsgn, one_mul] at k2
      have hsv : s ≤ radians t - i := habs ▸ min_le_left _ _
      have := hmem (i + s) (by linarith [hi.1]) (by linarith [hT.2]) k2
      rw [this, habs]
      rw [abs_of_nonpos (by linarith)]
      simp only [s, habs]
      rcases le_total (radians t - i) D with h | h
      · rw [min_eq_left h, max_eq_left (by linarith)]; ring
      · rw [min_eq_right h, max_eq_right (by linarith)]; ring
    · push Not at hit
      have hsgn : sideSign y.toolface = -1 := by
        simp only [y, if_neg (not_le.mpr hit)]; exact sideSign_pi
      have habs : |i - radians t| = i - radians t := abs_of_pos (by linarith)
      rw [hsgn] at k2
      have hsv : s ≤ i - radians t := habs ▸ min_le_left _ _
      have := hmem (i + -1 * s) (by linarith [hT.1]) (by linarith [hi.2]) k2
      rw [this, habs]
      rw [abs_of_nonneg (by linarith)]
      simp only [s, habs]
      rcases le_total (i - radians t) D with h | h
      · rw [min_eq_left h, max_eq_left (by linarith)]; ring
      · rw [min_eq_right h, max_eq_right (by linarith)]; ring
  apply le_antisymm
  · rw [← hK]; exact hm'
  · exact max_le (abs_nonneg _) hlow

/-- C198 hypotheses: dropping from 30 degrees to vertical with enough length; turning by 30 degrees to
the low side misses by nothing. -/
example (x : Choice) (hx : x = ⟨π / 6, π⟩) :
    InBounds (30 / (3 * (π / 180))) none x ∧
    dropMiss (30 / (3 * (π / 180))) 0 ⟨none, some (tangent (π / 6) 1), none⟩ x = 0 := by
  have hp := pi_pos
  subst hx
  refine ⟨⟨by positivity, ?_, by linarith, le_rfl⟩, ?_⟩
  · exact le_min (by linarith) (by simp only; linarith)
  · obtain ⟨J, j0, j1, j2, j3⟩ := dropMiss_eq (t := 0) (a := 1) (i := π / 6)
      (by rw [sin_pi_div_six]; norm_num) (r := 30 / (3 * (π / 180))) (by positivity) none none
      ⟨π / 6, π⟩
    rw [j3]
    rw [sideSign_pi, neg_one_mul, add_neg_cancel, cos_zero] at j2
    have : J = 0 := injOn_cos ⟨j0, j1⟩ ⟨le_rfl, hp.le⟩ (by rw [j2, cos_zero])
    rw [this]; simp [degrees]

/-! ### C199 -/

/-- **C199** The optimiser starts on the low side, and there the quantity it minimises does not depend
on the toolface at all: nothing tells it to turn up. -/
theorem C199_flat {radius t : ℝ} (node : Nd) (d tf tf' : ℝ) (h : π / 2 < tf) (h' : π / 2 < tf') :
    dropMiss radius t node ⟨d, tf⟩ = dropMiss radius t node ⟨d, tf'⟩ := by
  have e : ∀ z, π / 2 < z → sideOf z = π := fun z hz => by
    unfold sideOf; rw [if_neg]; rintro ⟨-, h⟩; linarith
  unfold dropMiss dropArc
  simp only [e tf h, e tf' h']

/-- **C199** Where the optimiser starts: the well turns down, and for every toolface within a quarter
turn of the first guess the quantity minimised is the same. -/
theorem C199_first_guess {radius t i a : ℝ} (hs : 0 < sin i) (hr : 0 < radius) (pos : Option V3)
    (md l : Option ℝ) :
    (∀ tf d, |tf - (firstGuess radius l).toolface| < π / 2 →
      dropMiss radius t ⟨pos, some (tangent i a), md⟩ ⟨d, tf⟩
        = dropMiss radius t ⟨pos, some (tangent i a), md⟩ ⟨d, (firstGuess radius l).toolface⟩) ∧
    (dropArc radius ⟨pos, some (tangent i a), md⟩ (firstGuess radius l)).vec
      = tangent (i - (firstGuess radius l).dogleg) a := by
  have hp := pi_pos
  refine ⟨fun tf d h => ?_, ?_⟩
  · simp only [firstGuess] at h ⊢
    rw [abs_lt] at h
    exact C199_flat _ d tf π (by linarith) (by linarith)
  · obtain ⟨v1, -, -⟩ := dropArc_eq (a := a) hs hr ⟨pos, some (tangent i a), md⟩ rfl
      (firstGuess radius l)
    rw [v1]
    have : sideSign (firstGuess radius l).toolface = -1 := by
      unfold sideSign; rw [if_neg]; rintro ⟨-, h⟩; simp only [firstGuess] at h; linarith
    rw [this, neg_one_mul, ← sub_eq_add_neg]

/-- **C199** On that side a higher inclination `t` is only reached through the vertical, which leaves the
well with the opposite azimuth, or by a turn of almost a full circle; `t - i` would do. -/
theorem C199_build_reversed {i a r t : ℝ} (hi : 0 < i) (hit : i < t) (ht : t < π) (hr : 0 < r)
    (pos : Option V3) (md : Option ℝ) (x : Choice) (hx : π / 2 < x.toolface)
    (h0 : 0 ≤ x.dogleg) (h1 : x.dogleg ≤ 2 * π)
    (hreach : dropMiss r (degrees t) ⟨pos, some (tangent i a), md⟩ x = 0) :
    (x.dogleg = i + t ∧
      (dropArc r ⟨pos, some (tangent i a), md⟩ x).vec = tangent t (a + π)) ∨
    x.dogleg = 2 * π - (t - i) := by
  have hp := pi_pos
  have hs : 0 < sin i := sin_pos_of_pos_of_lt_pi hi (hit.trans ht)
  have hsg : sideSign x.toolface = -1 := by
    unfold sideSign; rw [if_neg]; rintro ⟨-, h⟩; linarith
  obtain ⟨J, j0, j1, j2, j3⟩ := dropMiss_eq (t := degrees t) (a := a) hs hr pos md x
  obtain ⟨v1, -, -⟩ := dropArc_eq hs hr ⟨pos, some (tangent i a), md⟩ rfl x
  rw [hsg] at j2 v1
  rw [j3, abs_eq_zero] at hreach
  have hJ : J = t := by
    have : J * (180 / π) = t * (180 / π) := by
      unfold degrees at hreach; rw [mul_div_assoc, mul_div_assoc] at hreach; linarith
    exact mul_right_cancel₀ (by positivity) this
  rw [hJ] at j2
  obtain ⟨k, hk⟩ := cos_eq_cos_iff.mp j2
  rcases hk with hk | hk
  · -- i - d = 2kπ + t
    right
    have hk1 : k = -1 := by
      have u : (k : ℝ) < 0 := by nlinarith
      have v : (-2 : ℝ) < k := by nlinarith
      have u' : k < 0 := by exact_mod_cast u
      have v' : -2 < k := by exact_mod_cast v
      omega
    rw [hk1] at hk
    push_cast at hk
    linarith
  · left
    have hk0 : k = 0 := by
      have u : (k : ℝ) < 1 := by nlinarith
      have v : (-1 : ℝ) < k := by nlinarith
      have u' : k < 1 := by exact_mod_cast u
      have v' : -1 < k := by exact_mod_cast v
      omega
    rw [hk0] at hk
    simp only [Int.cast_zero, mul_zero, zero_mul, zero_sub] at hk
    refine ⟨by linarith, ?_⟩
    rw [v1, hk]
    ext <;> simp [tangent]

/-- C199 hypotheses: building from 30 to 60 degrees with the toolface of the first guess and a turn of
90 degrees reaches the inclination. -/
example : dropMiss 1 (degrees (π / 3)) ⟨none, some (tangent (π / 6) 0), none⟩ ⟨π / 2, π⟩ = 0 := by
  have hp := pi_pos
  obtain ⟨J, j0, j1, j2, j3⟩ := dropMiss_eq (t := degrees (π / 3)) (a := 0) (i := π / 6)
    (by rw [sin_pi_div_six]; norm_num) one_pos none none ⟨π / 2, π⟩
  rw [j3, sideSign_pi] at *
  have : J = π / 3 := injOn_cos ⟨j0, j1⟩ ⟨by linarith, by linarith⟩ (by
    rw [j2]; show cos (π / 6 + -1 * (π / 2)) = _
    rw [show π / 6 + -1 * (π / 2) = -(π / 3) by ring, cos_neg])
  rw [this, sub_self, abs_zero]

/-- **C199** (partial) As long as the vertical is not passed, a drop on the side of the first guess
keeps the azimuth and takes the angle turned off the inclination. -/
theorem C199_drop_partial {i a r : ℝ} (hi : 0 < i ∧ i < π) (hr : 0 < r) (pos : Option V3)
    (md : Option ℝ) (x : Choice) (hx : π / 2 < x.toolface) (h0 : 0 ≤ x.dogleg) (h1 : x.dogleg ≤ i) :
    ∃ j, 0 ≤ j ∧ j ≤ i ∧ j = i - x.dogleg ∧
      (dropArc r ⟨pos, some (tangent i a), md⟩ x).vec = tangent j a := by
  have hs : 0 < sin i := sin_pos_of_pos_of_lt_pi hi.1 hi.2
  have hsg : sideSign x.toolface = -1 := by
    unfold sideSign; rw [if_neg]; rintro ⟨-, h⟩; linarith
  obtain ⟨v1, -, -⟩ := dropArc_eq hs hr ⟨pos, some (tangent i a), md⟩ rfl x
  refine ⟨i - x.dogleg, by linarith, by linarith, rfl, ?_⟩
  rw [v1, hsg]; congr 1; ring

end Welleng.Props
