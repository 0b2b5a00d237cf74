import Verif.Props.Resample
import Verif.Props.Extend

/-!
C339: `interpolate_survey` without a step.  C346: with a station at every multiple of the step.
-/

namespace Welleng.Props

open Real Spec Con Rs

theorem section_ends {c : Cfg} {a b : ℝ} {γ τ : ℝ → V3} (hg : gridRel a (b - a) c.step true = [0, b - a])
    (harc : OneArc a b γ τ) (hab : a < b) (hpi : angle (τ a) (τ b) < π) (hfit : Fit c a b (τ a) (τ b)) :
    targetVec c (τ a) (τ b) = τ b ∧ sectionRows c a (τ a) b (τ b) = some [(a, τ a), (b, τ b)] := by
  have ua := oneArc_unit harc le_rfl hab.le
  have ht : targetVec c (τ a) (τ b) = τ b := by
    unfold targetVec; rw [if_neg (ne_opposite ua hpi)]
  refine ⟨ht, ?_⟩
  unfold sectionRows
  rw [ht, if_neg (by linarith : ¬ b < a)]
  by_cases he : τ b = τ a
  · rw [if_pos he, he]
    simp [holdMds, hg]
  · rw [if_neg he]
    obtain ⟨hr, htol, hnp⟩ := hfit.resolve_left (fun h => he h.symm)
    have h0 : 0 < angle (τ a) (τ b) := by
      refine lt_of_le_of_ne (angle_nonneg _ _) fun h => ?_
      rw [← h, sin_zero] at htol
      norm_num at htol
    have hrc : radiusOfMd a b (angle (τ a) (τ b)) = .val ((b - a) / angle (τ a) (τ b)) := by
      unfold radiusOfMd
      rw [if_neg h0.ne', abs_of_pos (div_pos (by linarith) h0)]
    have hle : (b - a) / angle (τ a) (τ b) ≤ c.radius := by rw [div_le_iff₀ h0]; linarith
    have hmul : (b - a) / angle (τ a) (τ b) * angle (τ a) (τ b) = b - a := div_mul_cancel₀ _ h0.ne'
    have hmin : minCurveMd a (some b) (.val c.radius) (angle (τ a) (τ b))
        (c.nearPi (angle (τ a) (τ b))) = some (⟨a, none, none, b⟩, b - a) := by
      unfold minCurveMd
      have hgt : ¬ (Ext.gt (radiusOfMd a b (angle (τ a) (τ b))) (.val c.radius) ∨
          c.nearPi (angle (τ a) (τ b))) := by
        rw [hrc]
        rintro (h | h)
        · exact absurd h (not_lt.mpr hle)
        · exact hnp h
      simp only
      rw [if_neg hgt, hrc]
      simp only [hmul]
    have hL : 0 < b - a := by linarith
    have k1 : curveRow a (τ a) (τ b) (b - a) (angle (τ a) (τ b)) a = (a, τ a) := by
      simp only [curveRow]
      rw [if_neg hL.ne', oneArc_curveVec harc hab h0 hpi htol le_rfl hab.le]
    have k2 : curveRow a (τ a) (τ b) (b - a) (angle (τ a) (τ b)) b = (b, τ b) := by
      simp only [curveRow]
      rw [if_neg hL.ne', oneArc_curveVec harc hab h0 hpi htol hab.le le_rfl]
    unfold minCurveRows
    simp only [hmin]
    unfold curveMds
    rw [if_neg hL.ne', abs_of_pos hL, hg]
    simp [k1, k2]

/-- The rows of the sections: the two ends of each. -/
def endRows (τ : ℝ → V3) : Station → List Station → List (ℝ × V3)
  | _, [] => []
  | s, l :: t => (s.md, τ s.md) :: (l.md, τ l.md) :: endRows τ l t

theorem sections_ends {c : Cfg} {γ τ : ℝ → V3} (s : Station)
    (rest : List Station) (hdir : ∀ l ∈ s :: rest, τ l.md = tangent l.inc l.azi)
    (hc : (s :: rest).IsChain fun a b => gridRel a.md (b.md - a.md) c.step true = [0, b.md - a.md] ∧
      a.md < b.md ∧ OneArc a.md b.md γ τ ∧
      angle (tangent a.inc a.azi) (tangent b.inc b.azi) < π ∧
      Fit c a.md b.md (tangent a.inc a.azi) (tangent b.inc b.azi)) :
    sections c s.md (τ s.md) rest = some (endRows τ s rest) := by
  induction rest generalizing s with
  | nil => rfl
  | cons l rest ih =>
    rw [List.isChain_cons_cons] at hc
    obtain ⟨⟨hg, hab, harc, hpi, hfit⟩, hc⟩ := hc
    have hτs := hdir s (by simp)
    have hτl := hdir l (by simp)
    rw [← hτs, ← hτl] at hfit hpi
    obtain ⟨ht, hr⟩ := section_ends hg harc hab hpi hfit
    have ul := oneArc_unit harc hab.le le_rfl
    unfold sections
    rw [getVec_nev, ← hτl, hr, ht, normalize_of_unit ul,
      ih l (fun x hx => hdir x (List.mem_cons_of_mem _ hx)) hc]
    rfl

theorem kept_ends {key : ℝ → ℤ} {τ : ℝ → V3} (s l : Station) (t : List Station)
    (h : (s :: l :: t).IsChain fun a b => key b.md ≠ key a.md) :
    kept (fun x : Station => key x.md) ((endRows τ s (l :: t)).map toStation)
      = (s :: l :: t).map fun x => toStation (x.md, τ x.md) := by
  induction t generalizing s l with
  | nil =>
    have := (List.isChain_cons_cons.mp h).1
    simp [endRows, kept, pairwise, toStation, this]
  | cons m t ih =>
    obtain ⟨h1, h2⟩ := List.isChain_cons_cons.mp h
    have e := ih l m h2
    simp only [endRows, List.map_cons] at e ⊢
    obtain ⟨f, e1, e2⟩ := kept_cons2 (fun x : Station => key x.md) (toStation (l.md, τ l.md))
      (toStation (l.md, τ l.md)) (toStation (m.md, τ m.md) :: (endRows τ m t).map toStation)
    obtain ⟨g, g1, g2⟩ := kept_cons2 (fun x : Station => key x.md) (toStation (s.md, τ s.md))
      (toStation (l.md, τ l.md)) (toStation (l.md, τ l.md) :: toStation (m.md, τ m.md) ::
        (endRows τ m t).map toStation)
    have hk : key (toStation (l.md, τ l.md)).md ≠ key (toStation (s.md, τ s.md)).md := h1
    rw [if_neg (by simp)] at e2
    rw [if_pos hk] at g2
    rw [g2]
    rw [e2] at g1
    rw [← g1, ← e1, e]

/-- Surveys whose intervals get no further rows are returned as they are. -/
theorem resample_same {c : Cfg} {key : ℝ → ℤ} {st : List Station} (hk : RoundsTo4 key)
    (h2 : 2 ≤ st.length)
    (hg : st.IsChain fun a b => gridRel a.md (b.md - a.md) c.step true = [0, b.md - a.md])
    (hi : st.IsChain fun a b => a.md + 1e-4 < b.md ∧
      angle (tangent a.inc a.azi) (tangent b.inc b.azi) < π ∧
      Fit c a.md b.md (tangent a.inc a.azi) (tangent b.inc b.azi)) :
    ∃ out, resample c key .meters st = .ok out ∧
      List.Forall₂ (fun r s : Station => r.md = s.md ∧ tangent r.inc r.azi = tangent s.inc s.azi ∧
        0 ≤ r.inc ∧ r.inc ≤ π) out st := by
  obtain ⟨γ, τ, hw⟩ : ∃ γ τ, WellPath 0 (dirs st) γ τ := by
    refine wellPath_exists _ ?_ ?_ 0
    · intro s hs
      obtain ⟨x, -, rfl⟩ := List.mem_map.mp hs
      exact tangent_unit _ _
    · rw [dirs, List.isChain_map]
      exact hi.imp fun a b h => ⟨by dsimp only; linarith [h.1], h.2.1⟩
  have hdir : ∀ x ∈ st, τ x.md = tangent x.inc x.azi := fun x hx =>
    hw.dirs (x.md, tangent x.inc x.azi) (List.mem_map.mpr ⟨x, hx, rfl⟩)
  have harcs := hw.arcs
  rw [dirs, List.isChain_map] at harcs
  have hchain : st.IsChain fun a b => gridRel a.md (b.md - a.md) c.step true = [0, b.md - a.md] ∧
      a.md < b.md ∧ OneArc a.md b.md γ τ ∧
      angle (tangent a.inc a.azi) (tangent b.inc b.azi) < π ∧
      Fit c a.md b.md (tangent a.inc a.azi) (tangent b.inc b.azi) := by
    refine List.isChain_iff_forall_rel_of_append_cons_cons.mpr ?_
    intro x y l1 l2 hl
    have h1 := List.isChain_iff_forall_rel_of_append_cons_cons.mp harcs hl
    have h2 := List.isChain_iff_forall_rel_of_append_cons_cons.mp hi hl
    exact ⟨List.isChain_iff_forall_rel_of_append_cons_cons.mp hg hl, h1.1, h1.2, h2.2⟩
  have hkeys : st.IsChain fun a b => key b.md ≠ key a.md := hi.imp fun a b h =>
    rounds_apart hk (by rw [abs_of_pos] <;> linarith [h.1])
  match st, h2, hdir, hchain, hkeys with
  | s :: l :: rest, _, hdir, hchain, hkeys =>
    refine ⟨(s :: l :: rest).map fun x => toStation (x.md, τ x.md), ?_, ?_⟩
    · unfold resample
      simp only
      rw [getVec_nev, ← hdir s (by simp), sections_ends s (l :: rest) hdir hchain]
      simp only
      rw [← kept_ends (key := key) s l rest hkeys]
      simp only [endRows, List.map_cons]
      rw [removeDuplicates_kept]
      rfl
    · rw [List.forall₂_map_left_iff]
      refine List.forall₂_same.2 fun x hx => ?_
      have hu : (τ x.md).IsUnit := by rw [hdir x hx]; exact tangent_unit _ _
      refine ⟨rfl, ?_, ?_⟩
      · simp only [toStation]
        rw [tangent_getAngles_nev hu, hdir x hx]
      · exact (incl_getAngles hu).2

/-- C339: without a step a survey in metres is returned as it is: the same depths and at each the same
direction.  Neighbouring stations are more than `1e-4` apart. -/
theorem C339_no_step {c : Cfg} {key : ℝ → ℤ} {st : List Station} (hk : RoundsTo4 key)
    (hstep : c.step = none) (h2 : 2 ≤ st.length)
    (hi : st.IsChain fun a b => a.md + 1e-4 < b.md ∧
      angle (tangent a.inc a.azi) (tangent b.inc b.azi) < π ∧
      Fit c a.md b.md (tangent a.inc a.azi) (tangent b.inc b.azi)) :
    ∃ out, resample c key .meters st = .ok out ∧
      List.Forall₂ (fun r s : Station => r.md = s.md ∧ tangent r.inc r.azi = tangent s.inc s.azi ∧
        0 ≤ r.inc ∧ r.inc ≤ π) out st :=
  resample_same hk h2 (hi.imp fun a b _ => by rw [hstep]; simp [gridRel]) hi

/-- An interval without a multiple of the step strictly inside gets no further rows. -/
theorem gridRel_none_inside {a b p : ℝ} (hp : 0 < p) (hab : a < b)
    (hno : ∀ n : ℤ, ¬(a < n * p ∧ n * p < b)) : gridRel a (b - a) (some p) true = [0, b - a] := by
  have he : arange (p - pmod a p) (b - a) p = [] := by
    unfold arange
    have : ⌈(b - a - (p - pmod a p)) / p⌉ ≤ 0 := by
      refine Int.ceil_le.mpr ?_
      rw [Int.cast_zero]
      refine div_nonpos_of_nonpos_of_nonneg ?_ hp.le
      by_contra hlt
      push Not at hlt
      refine hno (⌊a / p⌋ + 1) ⟨?_, ?_⟩
      · have := Int.lt_floor_add_one (a / p)
        rw [div_lt_iff₀ hp] at this
        exact_mod_cast this
      · have : pmod a p = a - p * ⌊a / p⌋ := rfl
        rw [this] at hlt
        push_cast
        linarith
    rw [Int.toNat_of_nonpos this]
    rfl
  simp [gridRel, he]

/-- C346: a survey with a station at every multiple of the step within its depths is returned as it is:
resampling adds nothing and takes nothing away. -/
theorem C346_at_step {c : Cfg} {key : ℝ → ℤ} {st : List Station} {p : ℝ} (hk : RoundsTo4 key)
    (hstep : c.step = some p) (hp : 0 < p) (h2 : 2 ≤ st.length)
    (hall : ∀ n : ℤ, (∃ a ∈ st, a.md < n * p) → (∃ b ∈ st, n * p < b.md) → ∃ s ∈ st, s.md = n * p)
    (hi : st.IsChain fun a b => a.md + 1e-4 < b.md ∧
      angle (tangent a.inc a.azi) (tangent b.inc b.azi) < π ∧
      Fit c a.md b.md (tangent a.inc a.azi) (tangent b.inc b.azi)) :
    ∃ out, resample c key .meters st = .ok out ∧
      List.Forall₂ (fun r s : Station => r.md = s.md ∧ tangent r.inc r.azi = tangent s.inc s.azi ∧
        0 ≤ r.inc ∧ r.inc ≤ π) out st := by
  refine resample_same hk h2 ?_ hi
  have hs : st.Pairwise fun a b => a.md < b.md := by
    have : st.IsChain fun a b => a.md < b.md := hi.imp fun a b h => by linarith [h.1]
    have ht : IsTrans Station fun a b => a.md < b.md := ⟨fun a b c h h' => lt_trans h h'⟩
    exact List.isChain_iff_pairwise.mp this
  refine List.isChain_iff_forall_rel_of_append_cons_cons.mpr ?_
  intro a b l1 l2 hl
  subst hl
  rw [List.pairwise_append] at hs
  obtain ⟨-, hs2, hs3⟩ := hs
  rw [List.pairwise_cons, List.pairwise_cons] at hs2
  rw [hstep]
  refine gridRel_none_inside hp (hs2.1 b (by simp)) ?_
  rintro n ⟨h1, h2⟩
  obtain ⟨s, hs, he⟩ := hall n ⟨a, by simp, h1⟩ ⟨b, by simp, h2⟩
  rw [← he] at h1 h2
  rcases List.mem_append.mp hs with h | h
  · have := hs3 s h a (by simp); linarith
  · rcases List.mem_cons.mp h with rfl | h
    · linarith
    · rcases List.mem_cons.mp h with rfl | h
      · linarith
      · have := hs2.2.1 s h; linarith

/-! A vertical section and a build. -/

example : ∃ out, resample ⟨30 / 1e-8, none, fun d => |d - π| ≤ 1e-5, id⟩ round4 .meters kickOff = .ok out ∧
    out.map Station.md = [0, 30, 130] := by
  have hi := kickOff_regular.intervals
  obtain ⟨out, h1, h2⟩ := C339_no_step (c := ⟨30 / 1e-8, none, fun d => |d - π| ≤ 1e-5, id⟩) round4_rounds rfl
    (by simp [kickOff]) (st := kickOff) (by
      unfold kickOff at hi ⊢
      obtain ⟨a, hi⟩ := List.isChain_cons_cons.mp hi
      obtain ⟨b, hi⟩ := List.isChain_cons_cons.mp hi
      exact List.isChain_cons_cons.mpr ⟨⟨by norm_num, a.2⟩, List.isChain_cons_cons.mpr
        ⟨⟨by norm_num, b.2⟩, List.isChain_singleton _⟩⟩)
  refine ⟨out, h1, ?_⟩
  have : ∀ {a b : List Station}, List.Forall₂ (fun r s : Station => r.md = s.md ∧
      tangent r.inc r.azi = tangent s.inc s.azi ∧ 0 ≤ r.inc ∧ r.inc ≤ π) a b →
      a.map Station.md = b.map Station.md := by
    intro a b h
    induction h with
    | nil => rfl
    | cons h _ ih => simp [h.1, ih]
  rw [this h2]
  simp [kickOff]

/-! A vertical well with stations at 0, 30 and 60 m, resampled every 30 m. -/

example : ∃ out, resample ⟨30 / 1e-8, some 30, fun d => |d - π| ≤ 1e-5, id⟩ round4 .meters
    [⟨0, 0, 0⟩, ⟨30, 0, 0⟩, ⟨60, 0, 0⟩] = .ok out ∧
    List.Forall₂ (fun r s : Station => r.md = s.md ∧ tangent r.inc r.azi = tangent s.inc s.azi ∧
        0 ≤ r.inc ∧ r.inc ≤ π) out [⟨0, 0, 0⟩, ⟨30, 0, 0⟩, ⟨60, 0, 0⟩] := by
  refine C346_at_step round4_rounds rfl (by norm_num) (by simp) ?_ ?_
  · rintro n ⟨a, ha, h1⟩ ⟨b, hb, h2⟩
    have h1' : (0 : ℝ) < n * 30 := by
      simp only [List.mem_cons, List.not_mem_nil, or_false] at ha
      rcases ha with rfl | rfl | rfl <;> simp only at h1 <;> linarith
    have h2' : (n : ℝ) * 30 < 60 := by
      simp only [List.mem_cons, List.not_mem_nil, or_false] at hb
      rcases hb with rfl | rfl | rfl <;> simp only at h2 <;> linarith
    have n1 : 0 < n := by exact_mod_cast (by linarith : (0 : ℝ) < n)
    have n2 : n < 2 := by exact_mod_cast (by linarith : (n : ℝ) < 2)
    obtain rfl : n = 1 := by omega
    exact ⟨⟨30, 0, 0⟩, by simp, by norm_num⟩
  · have ha : angle (tangent 0 0) (tangent 0 0) < π := by
      rw [angle_self (tangent_unit 0 0)]; exact pi_pos
    refine List.isChain_cons_cons.mpr ⟨⟨by norm_num, ha, .inl rfl⟩, List.isChain_cons_cons.mpr
      ⟨⟨by norm_num, ha, .inl rfl⟩, List.isChain_singleton _⟩⟩

end Welleng.Props
