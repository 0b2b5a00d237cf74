import Verif.Spec.WellPath
import Verif.Lemmas.MinCurveList
import Verif.Lemmas.ConnectorSolve
import Verif.Props.ConnectorVec
import Verif.Lemmas.Toolface

namespace Welleng

open Real Spec Con Props

/-- Turn between two depths of one arc, and its normal. -/
theorem oneArc_tan {a b : ℝ} {γ τ : ℝ → V3} (h : OneArc a b γ τ) (hab : a ≤ b) :
    ∃ (κ : ℝ) (n : V3), 0 ≤ κ ∧ κ * (b - a) < π ∧ n.IsUnit ∧ (τ a).IsUnit ∧ V3.dot (τ a) n = 0 ∧
      ∀ s, a ≤ s → s ≤ b → τ s = cos (κ * (s - a)) • τ a + sin (κ * (s - a)) • n := by
  obtain ⟨g, t, ν, κ, hc, hκ, hpi, hs⟩ := h
  have h0 : τ a = t 0 := by have := (hs a le_rfl hab).2; rwa [sub_self] at this
  refine ⟨κ, ν 0, hκ, hpi, hc.unit_nor 0, by rw [h0]; exact hc.unit_tan 0,
    by rw [h0]; exact hc.ortho 0, fun s h1 h2 => ?_⟩
  rw [(hs s h1 h2).2, h0]
  exact hc.tan_eq _

theorem oneArc_unit {a b : ℝ} {γ τ : ℝ → V3} (h : OneArc a b γ τ) {s : ℝ} (h1 : a ≤ s)
    (h2 : s ≤ b) : (τ s).IsUnit := by
  obtain ⟨g, t, ν, κ, hc, -, -, hs⟩ := h
  rw [(hs s h1 h2).2]
  exact hc.unit_tan _

/-- The turn along one arc is the angle between its end directions. -/
theorem oneArc_turn {a b : ℝ} {γ τ : ℝ → V3} (h : OneArc a b γ τ) (hab : a ≤ b) :
    ∃ (κ : ℝ) (n : V3), κ * (b - a) = angle (τ a) (τ b) ∧ n.IsUnit ∧ V3.dot (τ a) n = 0 ∧
      ∀ s, a ≤ s → s ≤ b → τ s = cos (κ * (s - a)) • τ a + sin (κ * (s - a)) • n := by
  obtain ⟨κ, n, hκ, hpi, hn, ha, ho, hs⟩ := oneArc_tan h hab
  refine ⟨κ, n, ?_, hn, ho, hs⟩
  unfold angle
  have e : V3.dot (τ a) (τ b) = cos (κ * (b - a)) := by
    rw [hs b hab le_rfl, V3.dot_add_right, V3.dot_smul_right, V3.dot_smul_right, ho,
      show V3.dot (τ a) (τ a) = 1 from ha]
    ring
  rw [e, arccos_cos (mul_nonneg hκ (by linarith)) hpi.le]

/-- With equal end directions the arc is straight. -/
theorem oneArc_straight {a b : ℝ} {γ τ : ℝ → V3} (h : OneArc a b γ τ) (hab : a < b)
    (he : τ a = τ b) {s : ℝ} (h1 : a ≤ s) (h2 : s ≤ b) : τ s = τ a := by
  obtain ⟨κ, n, hk, -, -, hs⟩ := oneArc_turn h hab.le
  rw [← he, angle_self (oneArc_unit h le_rfl hab.le)] at hk
  have hk0 : κ = 0 := by
    rcases mul_eq_zero.mp hk with h | h
    · exact h
    · linarith
  rw [hs s h1 h2, hk0]
  simp

/-- The directions along one arc are those `interpolate_curve` computes from its end directions. -/
theorem oneArc_curveVec {a b : ℝ} {γ τ : ℝ → V3} (h : OneArc a b γ τ) (hab : a < b)
    (h0 : 0 < angle (τ a) (τ b)) (h1 : angle (τ a) (τ b) < π)
    (htol : 1e-10 ≤ sin (angle (τ a) (τ b))) {s : ℝ} (hs1 : a ≤ s) (hs2 : s ≤ b) :
    curveVec (τ a) (τ b) (b - a) (angle (τ a) (τ b)) (s - a) = τ s := by
  have ua := oneArc_unit h le_rfl hab.le
  have ub := oneArc_unit h hab.le le_rfl
  have hca := cos_angle ua ub
  have hsp := sin_pos_of_pos_of_lt_pi h0 h1
  have hn : V3.norm (V3.cross (τ a) (τ b)) = sin (angle (τ a) (τ b)) := by
    have e := cross_norm_sq (τ a) (τ b)
    rw [ua, ub, ← hca] at e
    have := sin_sq_add_cos_sq (angle (τ a) (τ b))
    have e2 : V3.norm (V3.cross (τ a) (τ b)) ^ 2 = sin (angle (τ a) (τ b)) ^ 2 := by linarith
    rwa [sq_eq_sq₀ (V3.norm_nonneg _) hsp.le] at e2
  have hL : 0 < b - a := by linarith
  obtain ⟨g, t, ν, hcc, t0, tL, hall⟩ := C40_directions_on_arc ua ub hL h0 h1 hca
    (by rw [hn]; exact htol)
  rw [hall, hcc.tan_eq]
  obtain ⟨κ, n, hk, -, -, hτ⟩ := oneArc_turn h hab.le
  have hκ : κ = angle (τ a) (τ b) / (b - a) := by rw [← hk]; field_simp
  have e1 := hτ b hab.le le_rfl
  have e2 := hcc.tan_eq (b - a)
  rw [div_mul_cancel₀ _ hL.ne', tL, t0] at e2
  rw [hk] at e1
  have hnn : ν 0 = n := by
    have : sin (angle (τ a) (τ b)) • ν 0 = sin (angle (τ a) (τ b)) • n :=
      add_left_cancel (e2.symm.trans e1)
    have h' := congrArg (fun v => (1 / sin (angle (τ a) (τ b))) • v) this
    simpa [smul_smul, hsp.ne'] using h'
  rw [hτ s hs1 hs2, hnn, t0, hκ]

/-- The minimum-curvature step between two depths of one arc. -/
theorem oneArc_step {a b : ℝ} {γ τ : ℝ → V3} (h : OneArc a b γ τ) {p q : Station}
    (hp : a ≤ p.md) (hpq : p.md ≤ q.md) (hq : q.md ≤ b) (tp : τ p.md = tangent p.inc p.azi)
    (tq : τ q.md = tangent q.inc q.azi) :
    deltaXyz p q = swap (γ q.md - γ p.md) := by
  obtain ⟨g, t, ν, κ, hc, hκ, hpi, hs⟩ := h
  have s1 := hs p.md hp (by linarith)
  have s2 := hs q.md (by linarith) hq
  have e : p.md - a + (q.md - p.md) = q.md - a := by ring
  have he := arc_end (hc.shift (p.md - a)) (by simp) hκ (by linarith : 0 ≤ q.md - p.md)
    (lt_of_le_of_lt (mul_le_mul_of_nonneg_left (by linarith) hκ) hpi)
    (i1 := p.inc) (a1 := p.azi) (i2 := q.inc) (a2 := q.azi)
    (by simp only [add_zero]; rw [← s1.2, tp]) (by simp only [e]; rw [← s2.2, tq])
  simp only [e] at he
  rw [deltaXyz_eq, ← he, s1.1, s2.1]

/-- Stations of a chain whose neighbours lie on one arc of the path, with the directions of the path, get
the positions of the path. -/
theorem positions_on_path {γ τ : ℝ → V3} (rows : List Station)
    (hd : ∀ r ∈ rows, τ r.md = tangent r.inc r.azi)
    (hc : rows.IsChain fun p q => p.md ≤ q.md ∧ ∃ a b, OneArc a b γ τ ∧ a ≤ p.md ∧ q.md ≤ b)
    (p0 : V3) (h0 : ∀ r, rows.head? = some r → p0 = swap (γ r.md)) :
    positions p0 rows = rows.map fun r => swap (γ r.md) := by
  induction rows generalizing p0 with
  | nil => rfl
  | cons a t ih =>
    cases t with
    | nil => simp [positions, pairwise, cumsumFrom, h0 a rfl]
    | cons b t =>
      rw [List.isChain_cons_cons] at hc
      obtain ⟨⟨hle, x, y, harc, hx, hy⟩, hc⟩ := hc
      rw [positions_cons2, List.map_cons, ← h0 a rfl]
      congr 1
      refine ih (fun r hr => hd r (List.mem_cons_of_mem _ hr)) hc _ ?_
      rintro r hr
      obtain rfl : b = r := by simpa using hr
      rw [h0 a rfl, oneArc_step harc hx hle hy (hd a (by simp)) (hd b (by simp)), ← swap_add]
      congr 1
      abel

/-- The positions of the stations themselves. -/
theorem wellPath_positions {p : V3} {st : List Station} {γ τ : ℝ → V3}
    (h : WellPath p (st.map fun s => (s.md, tangent s.inc s.azi)) γ τ) :
    positions (swap p) st = st.map fun s => swap (γ s.md) := by
  refine positions_on_path (τ := τ) st (fun r hr => ?_) ?_ _ ?_
  · exact h.dirs (r.md, tangent r.inc r.azi) (List.mem_map.mpr ⟨r, hr, rfl⟩)
  · have := h.arcs
    rw [List.isChain_map] at this
    refine this.imp fun a b hab => ⟨hab.1.le, _, _, hab.2, le_rfl, le_rfl⟩
  · intro r hr
    have := h.start (r.md, tangent r.inc r.azi) (by rw [List.head?_map, hr]; rfl)
    rw [← this]

theorem exists_normal {v : V3} (hv : v.IsUnit) : ∃ n : V3, n.IsUnit ∧ V3.dot v n = 0 := by
  rw [← tangent_getAngles_nev hv]
  generalize (getAngles v true).1 = i
  generalize (getAngles v true).2 = a
  have h1 := sin_sq_add_cos_sq i
  have h2 := sin_sq_add_cos_sq a
  refine ⟨⟨cos i * cos a, cos i * sin a, -sin i⟩, ?_, ?_⟩
  · simp only [V3.IsUnit, V3.dot]
    linear_combination h1 + cos i ^ 2 * h2
  · simp only [tangent, V3.dot]
    linear_combination (sin i * cos i) * h2

/-- Every list of stations with increasing depths and turns below half a circle has a path. -/
theorem wellPath_exists (st : List (ℝ × V3)) (hu : ∀ s ∈ st, s.2.IsUnit)
    (hc : st.IsChain fun a b => a.1 < b.1 ∧ angle a.2 b.2 < π) (p : V3) :
    ∃ γ τ, WellPath p st γ τ := by
  induction st generalizing p with
  | nil => exact ⟨fun _ => 0, fun _ => 0, by simp, by simp, List.IsChain.nil⟩
  | cons a t ih =>
    cases t with
    | nil => exact ⟨fun _ => p, fun _ => a.2, by simp, by simp, List.IsChain.singleton _⟩
    | cons b t =>
      rw [List.isChain_cons_cons] at hc
      obtain ⟨⟨hab, hpi⟩, hc⟩ := hc
      have ua := hu a (by simp)
      have ub := hu b (by simp)
      have hL : 0 < b.1 - a.1 := by linarith
      obtain ⟨g, tt, ν, κ, hcc, hκ, hk, g0, t0, tL⟩ : ∃ g tt ν κ, CircularCurve g tt ν κ ∧ 0 ≤ κ ∧
          κ * (b.1 - a.1) < π ∧ g 0 = p ∧ tt 0 = a.2 ∧ tt (b.1 - a.1) = b.2 := by
        rcases eq_or_lt_of_le (angle_nonneg a.2 b.2) with hz | hpos
        · have he : a.2 = b.2 := by
            have := cos_angle ua ub
            rw [← hz, cos_zero] at this
            exact V3.eq_of_dot_eq_one ua ub this.symm
          obtain ⟨n, hn, ho⟩ : ∃ n : V3, n.IsUnit ∧ V3.dot a.2 n = 0 :=
            exists_normal ua
          refine ⟨fun s => p + s • a.2, fun _ => a.2, fun _ => n, 0, ?_, le_rfl, by simp [pi_pos],
            by simp, rfl, he⟩
          refine CircularCurve.move (γ := fun s => s • a.2) ⟨fun u => ?_, fun u => ?_, fun u => ?_,
            fun _ => ua, fun _ => hn, fun _ => ho⟩ p
          · refine (HasDeriv.smul_const (hasDerivAt_id u) a.2).congr (one_smul ℝ _)
          · rw [zero_smul]
            exact ⟨hasDerivAt_const _ _, hasDerivAt_const _ _, hasDerivAt_const _ _⟩
          · rw [zero_smul, neg_zero]
            exact ⟨hasDerivAt_const _ _, hasDerivAt_const _ _, hasDerivAt_const _ _⟩
        · obtain ⟨g, tt, ν, hcc, g0, t0, tL, -⟩ := exists_arc ua ub hpos hpi (cos_angle ua ub) hL
          refine ⟨fun s => p + g s, tt, ν, _, CircularCurve.move hcc p, (div_pos hpos hL).le, ?_,
            by simp [g0], t0, tL⟩
          rwa [div_mul_cancel₀ _ hL.ne']
      obtain ⟨γ, τ, hw⟩ := ih (fun s hs => hu s (List.mem_cons_of_mem _ hs)) hc (g (b.1 - a.1))
      have hwb : γ b.1 = g (b.1 - a.1) := hw.start b rfl
      have hwt : τ b.1 = b.2 := hw.dirs b (by simp)
      have hinc : ∀ s ∈ b :: t, b.1 ≤ s.1 := by
        have hp : (b :: t).Pairwise fun x y => x.1 < y.1 := by
          have : (b :: t).IsChain fun x y : ℝ × V3 => x.1 < y.1 := hc.imp fun _ _ h => h.1
          haveI hT : IsTrans (ℝ × V3) fun x y => x.1 < y.1 := ⟨fun _ _ _ h1 h2 => h1.trans h2⟩
          exact List.isChain_iff_pairwise.mp this
        intro s hs
        rcases List.mem_cons.mp hs with rfl | hs
        · exact le_rfl
        · exact (List.rel_of_pairwise_cons hp hs).le
      refine ⟨fun s => if s < b.1 then g (s - a.1) else γ s,
        fun s => if s < b.1 then tt (s - a.1) else τ s, ?_, ?_, ?_⟩
      · rintro s hs
        obtain rfl : a = s := by simpa using hs
        simp [hab, g0]
      · intro s hs
        rcases List.mem_cons.mp hs with rfl | hs
        · simp [hab, t0]
        · simp only [not_lt.mpr (hinc s hs), if_false]
          exact hw.dirs s hs
      · rw [List.isChain_cons_cons]
        refine ⟨⟨hab, g, tt, ν, κ, hcc, hκ, hk, fun s h1 h2 => ?_⟩, ?_⟩
        · rcases eq_or_lt_of_le h2 with rfl | h2
          · simp [hwb, hwt, tL]
          · simp [h2]
        · refine (List.isChain_iff_forall_rel_of_append_cons_cons.mpr ?_)
          intro x y l1 l2 hl
          have hxy := (List.isChain_iff_forall_rel_of_append_cons_cons.mp hw.arcs) hl
          refine ⟨hxy.1, ?_⟩
          obtain ⟨g', t', ν', κ', hc', hκ', hk', hs'⟩ := hxy.2
          refine ⟨g', t', ν', κ', hc', hκ', hk', fun s h1 h2 => ?_⟩
          have hbx : b.1 ≤ x.1 := hinc x (by rw [hl]; simp)
          simp only [not_lt.mpr (hbx.trans h1), if_false]
          exact hs' s h1 h2

end Welleng
