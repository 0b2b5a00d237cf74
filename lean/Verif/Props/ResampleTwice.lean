import Verif.Props.NoStep

/-!
C348, C349: resampling a survey that was resampled before.
-/

namespace Welleng.Props

open Welleng.Spec Real Con Rs

/-- The turn between two points of an arc. -/
theorem oneArc_part {a b : ℝ} {γ τ : ℝ → V3} (h : OneArc a b γ τ) (hab : a ≤ b) :
    ∃ κ, 0 ≤ κ ∧ κ * (b - a) < π ∧ ∀ x y, a ≤ x → x ≤ y → y ≤ b → angle (τ x) (τ y) = κ * (y - x) := by
  obtain ⟨κ, n, hκ, hpi, hn, ha, ho, hs⟩ := oneArc_tan h hab
  refine ⟨κ, hκ, hpi, fun x y h1 h2 h3 => ?_⟩
  have e : V3.dot (τ x) (τ y) = cos (κ * (y - x)) := by
    rw [hs x h1 (h2.trans h3), hs y (h1.trans h2) h3,
      show κ * (y - x) = κ * (y - a) - κ * (x - a) by ring, cos_sub]
    simp only [V3.IsUnit, V3.dot, V3.add_x, V3.add_y, V3.add_z, V3.smul_x, V3.smul_y, V3.smul_z] at *
    linear_combination (cos (κ * (x - a)) * cos (κ * (y - a))) * ha +
      (sin (κ * (x - a)) * sin (κ * (y - a))) * hn +
      (cos (κ * (x - a)) * sin (κ * (y - a)) + sin (κ * (x - a)) * cos (κ * (y - a))) * ho
  have hle : κ * (y - x) ≤ κ * (b - a) := mul_le_mul_of_nonneg_left (by linarith) hκ
  unfold angle
  rw [e, arccos_cos (mul_nonneg hκ (by linarith)) (by linarith)]

/-- Between the first and the last station every depth lies in an interval. -/
theorem in_interval {R : Station → Station → Prop} (s : Station) (t : List Station)
    (h : (s :: t).IsChain R) {x : ℝ} (h1 : s.md ≤ x) (h2 : x < lastMd s.md t) :
    ∃ a b l₁ l₂, s :: t = l₁ ++ a :: b :: l₂ ∧ R a b ∧ a.md ≤ x ∧ x < b.md := by
  induction t generalizing s with
  | nil => simp only [lastMd] at h2; linarith
  | cons l t ih =>
    rw [List.isChain_cons_cons] at h
    rcases lt_or_ge x l.md with hx | hx
    · exact ⟨s, l, [], t, rfl, h.1, h1, hx⟩
    · obtain ⟨a, b, l₁, l₂, e, r⟩ := ih l h.2 hx h2
      exact ⟨a, b, s :: l₁, l₂, by rw [e]; rfl, r⟩

/-- The parts of an interval that fits the parameters, fit them, if they turn by an angle that counts. -/
theorem fit_part {c : Cfg} {a b x y : ℝ} {γ τ : ℝ → V3} (harc : OneArc a b γ τ) (hab : a < b)
    (hfit : Fit c a b (τ a) (τ b)) (hcount : τ a = τ b ∨ 2e-6 * (b - a) ≤ angle (τ a) (τ b))
    (hpi : ∀ d d', d ≤ d' → d' < π → c.nearPi d → c.nearPi d') (hx : a ≤ x) (hxy : x + 1e-4 < y) (hy : y ≤ b) :
    angle (τ x) (τ y) < π ∧ Fit c x y (τ x) (τ y) := by
  obtain ⟨κ, hκ, hlt, hang⟩ := oneArc_part harc hab.le
  have hxy' : x ≤ y := by norm_num at hxy; linarith
  have e1 := hang x y hx hxy' hy
  have e2 := hang a b le_rfl hab.le le_rfl
  have hle : κ * (y - x) ≤ κ * (b - a) := mul_le_mul_of_nonneg_left (by linarith) hκ
  refine ⟨by rw [e1]; linarith, ?_⟩
  by_cases hs : τ a = τ b
  · left
    rw [oneArc_straight harc hab hs hx (by linarith), oneArc_straight harc hab hs (by linarith) hy]
  · right
    rcases hfit with h | ⟨f1, f2, f3⟩
    · exact absurd h hs
    have hcount := hcount.resolve_left hs
    rw [e2] at f1 f2 f3 hcount
    rw [e1]
    have hL : 0 < b - a := by linarith
    have hk : 2e-6 ≤ κ := le_of_mul_le_mul_right hcount hL
    refine ⟨?_, ?_, fun h => f3 (hpi _ _ hle hlt h)⟩
    · have : 1 ≤ c.radius * κ := by
        have : 1 * (b - a) ≤ c.radius * κ * (b - a) := by linarith
        exact le_of_mul_le_mul_right this hL
      have := mul_le_mul_of_nonneg_right this (show 0 ≤ y - x by linarith)
      linarith
    · have hmin : 2e-10 ≤ κ * (y - x) := by
        have := mul_le_mul hk (show (1e-4 : ℝ) ≤ y - x by linarith) (by norm_num) hκ
        norm_num at this ⊢
        linarith
      rcases le_total (κ * (y - x)) (π / 2) with h | h
      · have h1 := mul_le_sin (by linarith [show (0 : ℝ) ≤ 2e-10 by norm_num]) h
        have h2 : 1 / 2 ≤ 2 / π := by
          rw [div_le_div_iff₀ two_pos pi_pos]; linarith [pi_le_four]
        have h3 := mul_le_mul h2 hmin (by norm_num) (by positivity)
        norm_num at h3 h1 ⊢
        linarith
      · refine f2.trans ?_
        rw [← sin_pi_sub, ← sin_pi_sub (κ * (y - x))]
        exact sin_le_sin_of_le_of_le_pi_div_two (by linarith) (by linarith) (by linarith)

/-- Every interval of a resampled survey can be resampled with the same parameters. -/
theorem resampled_intervals {c : Cfg} {key : ℝ → ℤ} {step : ℝ} {s l : Station} {rest : List Station}
    (hr : Regular c step (s :: l :: rest))
    (hcount : (s :: l :: rest).IsChain fun a b => tangent a.inc a.azi = tangent b.inc b.azi ∨
      2e-6 * (b.md - a.md) ≤ angle (tangent a.inc a.azi) (tangent b.inc b.azi))
    (hpi : ∀ d d', d ≤ d' → d' < π → c.nearPi d → c.nearPi d') {p : V3} {γ τ : ℝ → V3}
    (hw : WellPath p (dirs (s :: l :: rest)) γ τ) (hk : RoundsTo4 key) :
    ∃ out, resample c key .meters (s :: l :: rest) = .ok out ∧ 2 ≤ out.length ∧
      (∀ r ∈ out, τ r.md = tangent r.inc r.azi) ∧
      (∀ x, x ∈ out.map Station.md ↔ s.md ≤ x ∧ x ≤ lastMd s.md (l :: rest) ∧
        OnGrid step ((s :: l :: rest).map Station.md) x) ∧
      out.Pairwise (fun a b => a.md < b.md) ∧
      out.IsChain fun a b => a.md + 1e-4 < b.md ∧
        (∃ a' b', OneArc a' b' γ τ ∧ a' ≤ a.md ∧ b.md ≤ b') ∧
        angle (tangent a.inc a.azi) (tangent b.inc b.azi) < π ∧
        Fit c a.md b.md (tangent a.inc a.azi) (tangent b.inc b.azi) := by
  obtain ⟨out, e, hdir, hch, hhd, hmem⟩ := rows_on_path hk hr hw
  have hdir₀ : ∀ x ∈ s :: l :: rest, τ x.md = tangent x.inc x.azi := fun x hx =>
    hw.dirs (x.md, tangent x.inc x.azi) (List.mem_map.mpr ⟨x, hx, rfl⟩)
  have harcs := hw.arcs
  rw [dirs, List.isChain_map] at harcs
  have hlt : s.md < l.md := (List.isChain_cons_cons.mp hr.intervals).1.1
  have hlast : l.md ≤ lastMd s.md (l :: rest) :=
    lastMd_ge rfl ((List.isChain_cons_cons.mp hr.intervals).2.imp fun _ _ h => h.1)
  have hgrid : ∀ r ∈ out, OnGrid step ((s :: l :: rest).map Station.md) r.md := fun r hr' =>
    ((hmem r.md).mp (List.mem_map.mpr ⟨r, hr', rfl⟩)).2.2
  have hsort : out.Pairwise fun a b => a.md < b.md := by
    have : out.IsChain fun a b => a.md < b.md := hch.imp fun a b h => h.1
    have ht : IsTrans Station fun a b => a.md < b.md := ⟨fun a b c h h' => lt_trans h h'⟩
    exact List.isChain_iff_pairwise.mp this
  have hlen : 2 ≤ out.length := by
    have m1 := (hmem s.md).mpr ⟨le_rfl, hlt.le.trans hlast, Or.inl (by simp)⟩
    have m2 := (hmem l.md).mpr ⟨hlt.le, hlast, Or.inl (by simp)⟩
    match out, m1, m2 with
    | [], h, _ => simp at h
    | [x], h1, h2 =>
      simp only [List.map_cons, List.map_nil, List.mem_singleton] at h1 h2
      linarith
    | r1 :: r2 :: t, _, _ => simp
  refine ⟨out, e, hlen, hdir, hmem, hsort, ?_⟩
  refine List.isChain_iff_forall_rel_of_append_cons_cons.mpr ?_
  intro x y l₁ l₂ hl
  have hx : x ∈ out := by rw [hl]; simp
  have hy : y ∈ out := by rw [hl]; simp
  have hxy := (List.isChain_iff_forall_rel_of_append_cons_cons.mp hch hl).1
  have hgap : x.md + 1e-4 < y.md := by
    have := (hr.apart _ _ (hgrid x hx) (hgrid y hy)).resolve_left hxy.ne
    rw [abs_sub_comm, abs_of_pos (by linarith)] at this
    linarith
  have X := (hmem x.md).mp (List.mem_map.mpr ⟨x, hx, rfl⟩)
  have Y := (hmem y.md).mp (List.mem_map.mpr ⟨y, hy, rfl⟩)
  obtain ⟨a, b, m₁, m₂, hm, hint, ha, hb⟩ := in_interval s (l :: rest) hr.intervals X.1
    (lt_of_lt_of_le hxy Y.2.1)
  have harc := (List.isChain_iff_forall_rel_of_append_cons_cons.mp harcs hm).2
  have hcnt := List.isChain_iff_forall_rel_of_append_cons_cons.mp hcount hm
  have ha' : a ∈ s :: l :: rest := by rw [hm]; simp
  have hb' : b ∈ s :: l :: rest := by rw [hm]; simp
  have hyb : y.md ≤ b.md := by
    by_contra hc
    push Not at hc
    have hin := (hmem b.md).mpr ⟨X.1.trans hb.le, hc.le.trans Y.2.1,
      Or.inl (List.mem_map.mpr ⟨b, hb', rfl⟩)⟩
    obtain ⟨r, hr', he⟩ := List.mem_map.mp hin
    rw [hl, List.pairwise_append, List.pairwise_cons, List.pairwise_cons] at hsort
    rw [hl] at hr'
    obtain ⟨-, ⟨q1, q2, -⟩, q3⟩ := hsort
    rcases List.mem_append.mp hr' with h | h
    · have := q3 r h x (by simp); linarith
    · rcases List.mem_cons.mp h with rfl | h
      · linarith
      · rcases List.mem_cons.mp h with rfl | h
        · linarith
        · have := q2 r h; linarith
  rw [← hdir₀ a ha', ← hdir₀ b hb'] at hint hcnt
  rw [← hdir x hx, ← hdir y hy]
  exact ⟨hgap, ⟨a.md, b.md, harc, ha, hyb⟩, fit_part harc hint.1 hint.2.2 hcnt hpi ha hgap hyb⟩

/-- **C348** A resampled survey that is resampled with the same step is returned as it is: the same depths
and at each the same direction. -/
theorem C348_twice {c : Cfg} {key : ℝ → ℤ} {step : ℝ} {st : List Station} (hk : RoundsTo4 key)
    (hr : Regular c step st) (h2 : 2 ≤ st.length)
    (hcount : st.IsChain fun a b => tangent a.inc a.azi = tangent b.inc b.azi ∨
      2e-6 * (b.md - a.md) ≤ angle (tangent a.inc a.azi) (tangent b.inc b.azi))
    (hpi : ∀ d d', d ≤ d' → d' < π → c.nearPi d → c.nearPi d') :
    ∃ out out', resample c key .meters st = .ok out ∧ resample c key .meters out = .ok out' ∧
      List.Forall₂ (fun r s : Station => r.md = s.md ∧ tangent r.inc r.azi = tangent s.inc s.azi ∧
        0 ≤ r.inc ∧ r.inc ≤ π) out' out := by
  match st, h2, hr, hcount with
  | s :: l :: rest, _, hr, hcount =>
    obtain ⟨γ, τ, hw⟩ := dirs_path hr 0
    obtain ⟨out, e, hlen, -, hmem, -, hch⟩ := resampled_intervals hr hcount hpi hw hk
    obtain ⟨out', e', hout⟩ := C346_at_step (st := out) hk hr.step_eq hr.step_pos hlen (by
      rintro n ⟨a, ha, h1⟩ ⟨b, hb, h2⟩
      have A := (hmem a.md).mp (List.mem_map.mpr ⟨a, ha, rfl⟩)
      have B := (hmem b.md).mp (List.mem_map.mpr ⟨b, hb, rfl⟩)
      have := (hmem (n * step)).mpr ⟨A.1.trans h1.le, h2.le.trans B.2.1, Or.inr ⟨n, rfl⟩⟩
      obtain ⟨r, h, h'⟩ := List.mem_map.mp this
      exact ⟨r, h, h'⟩) (hch.imp fun a b h => ⟨h.1, h.2.2⟩)
    exact ⟨out, out', e, e', hout⟩

/-- A part of an arc is an arc. -/
theorem oneArc_within {a b x y : ℝ} {γ τ : ℝ → V3} (h : OneArc a b γ τ) (hx : a ≤ x) (hy : y ≤ b) :
    OneArc x y γ τ := by
  obtain ⟨g, t, ν, κ, hc, hκ, hpi, hs⟩ := h
  refine ⟨_, _, _, κ, CircularCurve.move (hc.shift (x - a)) (g (x - a)), hκ, ?_, fun s h1 h2 => ?_⟩
  · have : κ * (y - x) ≤ κ * (b - a) := mul_le_mul_of_nonneg_left (by linarith) hκ
    linarith
  · obtain ⟨e1, e2⟩ := hs s (hx.trans h1) (h2.trans hy)
    have : x - a + (s - x) = s - a := by ring
    rw [e1, e2]
    refine ⟨?_, by simp only [this]⟩
    simp only [this]
    ext <;> simp

/-- Lists in order with the same depths and directions that depend on the depth. -/
theorem same_depths {τ : ℝ → V3} (u v : List Station) (hu : u.Pairwise fun a b => a.md < b.md)
    (hv : v.Pairwise fun a b => a.md < b.md) (h : ∀ x, x ∈ u.map Station.md ↔ x ∈ v.map Station.md)
    (du : ∀ r ∈ u, τ r.md = tangent r.inc r.azi) (dv : ∀ r ∈ v, τ r.md = tangent r.inc r.azi) :
    List.Forall₂ (fun r s : Station => r.md = s.md ∧ tangent r.inc r.azi = tangent s.inc s.azi) u v := by
  induction u generalizing v with
  | nil =>
    cases v with
    | nil => exact .nil
    | cons b v => have := (h b.md).mpr (by simp); simp at this
  | cons a u ih =>
    cases v with
    | nil => have := (h a.md).mp (by simp); simp at this
    | cons b v =>
      rw [List.pairwise_cons] at hu hv
      have key : a.md = b.md := by
        have h1 := (h a.md).mp (by simp)
        have h2 := (h b.md).mpr (by simp)
        rw [List.map_cons, List.mem_cons] at h1 h2
        rcases h1 with h1 | h1
        · exact h1
        · rcases h2 with h2 | h2
          · exact h2.symm
          · obtain ⟨r, hr, e⟩ := List.mem_map.mp h1
            obtain ⟨q, hq, e'⟩ := List.mem_map.mp h2
            have := hv.1 r hr; have := hu.1 q hq; linarith
      refine .cons ⟨key, by rw [← du a (by simp), ← dv b (by simp), key]⟩
        (ih v hu.2 hv.2 (fun x => ?_) (fun r hr => du r (by simp [hr])) (fun r hr => dv r (by simp [hr])))
      constructor
      · intro hx
        obtain ⟨r, hr, rfl⟩ := List.mem_map.mp hx
        have h1 := (h r.md).mp (by rw [List.map_cons]; exact List.mem_cons_of_mem _ hx)
        rw [List.map_cons, List.mem_cons] at h1
        have := hu.1 r hr
        exact h1.resolve_left (by intro e; linarith)
      · intro hx
        obtain ⟨r, hr, rfl⟩ := List.mem_map.mp hx
        have h1 := (h r.md).mpr (by rw [List.map_cons]; exact List.mem_cons_of_mem _ hx)
        rw [List.map_cons, List.mem_cons] at h1
        have := hv.1 r hr
        exact h1.resolve_left (by intro e; linarith)

/-- **C349** Resampling a survey with a multiple of a step and then with the step gives the survey resampled
with the step at once, and every station of the coarser survey is one of the finer survey. -/
theorem C349_finer {c : Cfg} {key : ℝ → ℤ} {step : ℝ} {n : ℕ} {st : List Station} (hk : RoundsTo4 key)
    (hn : 1 ≤ n) (hr : Regular { c with step := some step } step st) (h2 : 2 ≤ st.length)
    (hcount : st.IsChain fun a b => tangent a.inc a.azi = tangent b.inc b.azi ∨
      2e-6 * (b.md - a.md) ≤ angle (tangent a.inc a.azi) (tangent b.inc b.azi))
    (hpi : ∀ d d', d ≤ d' → d' < π → c.nearPi d → c.nearPi d') :
    ∃ coarse fine again,
      resample { c with step := some (n * step) } key .meters st = .ok coarse ∧
      resample { c with step := some step } key .meters st = .ok fine ∧
      resample { c with step := some step } key .meters coarse = .ok again ∧
      List.Forall₂ (fun r s : Station => r.md = s.md ∧ tangent r.inc r.azi = tangent s.inc s.azi) again fine ∧
      ∀ r ∈ coarse, ∃ q ∈ fine, q.md = r.md ∧ tangent q.inc q.azi = tangent r.inc r.azi := by
  match st, h2, hr, hcount with
  | s :: l :: rest, _, hr, hcount =>
    have hsub : ∀ {ds : List ℝ} {x : ℝ}, OnGrid (n * step) ds x → OnGrid step ds x := by
      rintro ds x (h | ⟨k, rfl⟩)
      · exact Or.inl h
      · exact Or.inr ⟨k * n, by push_cast; ring⟩
    have hn' : (1 : ℝ) ≤ n := by exact_mod_cast hn
    have hrc : Regular { c with step := some (n * step) } (n * step) (s :: l :: rest) :=
      ⟨rfl, mul_pos (by linarith) hr.step_pos, fun x y hx hy => hr.apart x y (hsub hx) (hsub hy), hr.intervals⟩
    obtain ⟨γ, τ, hw⟩ := dirs_path hr 0
    obtain ⟨coarse, e1, len1, dir1, mem1, sort1, ch1⟩ :=
      resampled_intervals (c := { c with step := some (n * step) }) hrc hcount hpi hw hk
    obtain ⟨fine, e2, -, dir2, mem2, sort2, -⟩ :=
      resampled_intervals (c := { c with step := some step }) hr hcount hpi hw hk
    have hgrid : ∀ x, OnGrid step (coarse.map Station.md) x →
        OnGrid step ((s :: l :: rest).map Station.md) x := by
      rintro x (h | h)
      · exact hsub ((mem1 x).mp h).2.2
      · exact Or.inr h
    have hr3 : Regular { c with step := some step } step coarse :=
      ⟨rfl, hr.step_pos, fun x y hx hy => hr.apart x y (hgrid x hx) (hgrid y hy),
        ch1.imp fun a b h => ⟨by linarith [h.1], h.2.2⟩⟩
    have hlt : s.md < l.md := (List.isChain_cons_cons.mp hr.intervals).1.1
    have hlast : l.md ≤ lastMd s.md (l :: rest) :=
      lastMd_ge rfl ((List.isChain_cons_cons.mp hr.intervals).2.imp fun _ _ h => h.1)
    have hin : ∀ r ∈ coarse, ∃ q ∈ fine, q.md = r.md ∧ tangent q.inc q.azi = tangent r.inc r.azi := by
      intro r hr'
      obtain ⟨a, b, g⟩ := (mem1 r.md).mp (List.mem_map.mpr ⟨r, hr', rfl⟩)
      obtain ⟨q, hq, e⟩ := List.mem_map.mp ((mem2 r.md).mpr ⟨a, b, hsub g⟩)
      exact ⟨q, hq, e, by rw [← dir1 r hr', ← dir2 q hq, e]⟩
    match coarse, len1, dir1, mem1, sort1, ch1, hr3, e1, hin with
    | s' :: l' :: rest', _, dir1, mem1, sort1, ch1, hr3, e1, hin =>
      have hw3 : WellPath (γ s'.md) (dirs (s' :: l' :: rest')) γ τ := by
        refine ⟨?_, ?_, ?_⟩
        · intro x hx
          simp only [dirs, List.map_cons, List.head?_cons, Option.some.injEq] at hx
          rw [← hx]
        · intro x hx
          obtain ⟨y, hy, rfl⟩ := List.mem_map.mp hx
          exact dir1 y hy
        · rw [dirs, List.isChain_map]
          refine ch1.imp fun a b h => ⟨by dsimp only; linarith [h.1], ?_⟩
          obtain ⟨a', b', harc, ha, hb⟩ := h.2.1
          exact oneArc_within harc ha hb
      obtain ⟨again, e3, dir3, ch3, -, mem3⟩ := rows_on_path hk hr3 hw3
      have sort3 : again.Pairwise fun a b => a.md < b.md := by
        have : again.IsChain fun a b => a.md < b.md := ch3.imp fun a b h => h.1
        have ht : IsTrans Station fun a b => a.md < b.md := ⟨fun a b c h h' => lt_trans h h'⟩
        exact List.isChain_iff_pairwise.mp this
      refine ⟨_, fine, again, e1, e2, e3, same_depths again fine sort3 sort2 (fun x => ?_) dir3 dir2, hin⟩
      -- the first and the last depth are the same
      have hfirst : s'.md = s.md := by
        have h1 := ((mem1 s'.md).mp (by simp)).1
        have h2 := (mem1 s.md).mpr ⟨le_rfl, hlt.le.trans hlast, Or.inl (by simp)⟩
        obtain ⟨r, hr', e⟩ := List.mem_map.mp h2
        rcases List.mem_cons.mp hr' with rfl | h
        · exact e
        · have := (List.pairwise_cons.mp sort1).1 r h; linarith
      have hend : lastMd s'.md (l' :: rest') = lastMd s.md (l :: rest) := by
        have top : ∀ (t : List Station) (a : Station), (a :: t).Pairwise (fun a b => a.md < b.md) →
            (∀ r ∈ a :: t, r.md ≤ lastMd a.md t) ∧ ∃ r ∈ a :: t, r.md = lastMd a.md t := by
          intro t
          induction t with
          | nil => intro a _; simp [lastMd]
          | cons b t ih =>
            intro a ha
            rw [List.pairwise_cons] at ha
            obtain ⟨i1, r, hr', i2⟩ := ih b ha.2
            refine ⟨fun q hq => ?_, r, List.mem_cons_of_mem _ hr', i2⟩
            rcases List.mem_cons.mp hq with rfl | hq
            · have := ha.1 b (by simp); have := i1 b (by simp); simp only [lastMd]; linarith
            · exact i1 q hq
        obtain ⟨t1, r, hr', t2⟩ := top _ _ sort1
        have sort0 : (s :: l :: rest).Pairwise fun a b => a.md < b.md := by
          have : (s :: l :: rest).IsChain fun a b => a.md < b.md := hr.intervals.imp fun a b h => h.1
          have ht : IsTrans Station fun a b => a.md < b.md := ⟨fun a b c h h' => lt_trans h h'⟩
          exact List.isChain_iff_pairwise.mp this
        obtain ⟨-, q, hq, t4⟩ := top _ _ sort0
        refine le_antisymm ?_ ?_
        · rw [← t2]; exact ((mem1 r.md).mp (List.mem_map.mpr ⟨r, hr', rfl⟩)).2.1
        · have := (mem1 (lastMd s.md (l :: rest))).mpr ⟨hlt.le.trans hlast, le_rfl,
            Or.inl (List.mem_map.mpr ⟨q, hq, t4⟩)⟩
          obtain ⟨w, hw', e⟩ := List.mem_map.mp this
          rw [← e]; exact t1 w hw'
      rw [mem3 x, mem2 x, hend, hfirst]
      constructor
      · rintro ⟨h1, h2, h3⟩
        exact ⟨h1, h2, hgrid x h3⟩
      · rintro ⟨h1, h2, h3⟩
        refine ⟨h1, h2, ?_⟩
        rcases h3 with h | h
        · exact Or.inl ((mem1 x).mpr ⟨h1, h2, Or.inl h⟩)
        · exact Or.inr h

theorem kickOff_turns : kickOff.IsChain fun a b => tangent a.inc a.azi = tangent b.inc b.azi ∨
    2e-6 * (b.md - a.md) ≤ angle (tangent a.inc a.azi) (tangent b.inc b.azi) := by
  unfold kickOff
  refine List.isChain_cons_cons.mpr ⟨Or.inl rfl, List.isChain_cons_cons.mpr ⟨Or.inr ?_, List.isChain_singleton _⟩⟩
  have : angle (tangent 0 0) (tangent (π / 2) 0) = π / 2 := by
    simp [angle, tangent, V3.dot]
  rw [this]
  norm_num
  linarith [pi_gt_three]

theorem defaults_nearPi {step : ℝ} (d d' : ℝ) (h1 : d ≤ d') (h2 : d' < π) (h : (defaults step).nearPi d) :
    (defaults step).nearPi d' := by
  simp only [defaults] at h ⊢
  rw [abs_of_neg (by linarith)] at h ⊢
  linarith

/-- Non-vacuity: a vertical section and a build, resampled every 30 m. -/
example : ∃ out out', resample (defaults 30) round4 .meters kickOff = .ok out ∧
    resample (defaults 30) round4 .meters out = .ok out' ∧
    List.Forall₂ (fun r s : Station => r.md = s.md ∧ tangent r.inc r.azi = tangent s.inc s.azi ∧
        0 ≤ r.inc ∧ r.inc ≤ π) out' out := by
  refine C348_twice round4_rounds kickOff_regular (by simp [kickOff]) kickOff_turns defaults_nearPi

/-- Non-vacuity: the same well resampled every 90 m and then every 30 m. -/
example : ∃ coarse fine again,
    resample { defaults 30 with step := some ((3 : ℕ) * 30) } round4 .meters kickOff = .ok coarse ∧
    resample (defaults 30) round4 .meters kickOff = .ok fine ∧
    resample (defaults 30) round4 .meters coarse = .ok again ∧
    List.Forall₂ (fun r s : Station => r.md = s.md ∧ tangent r.inc r.azi = tangent s.inc s.azi) again fine := by
  obtain ⟨a, b, c, h1, h2, h3, h4, -⟩ := C349_finer (c := defaults 30) (n := 3) round4_rounds (by norm_num)
    kickOff_regular (by simp [kickOff]) kickOff_turns defaults_nearPi
  exact ⟨a, b, c, h1, h2, h3, h4⟩

end Welleng.Props
