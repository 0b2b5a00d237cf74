import Verif.Props.ResampledNodes
import Verif.Props.Dls

/-!
C352: total turn and dogleg severity of a resampled survey.
-/

namespace Welleng.Props

open Real Welleng Spec Clr Con Rs

/-- Every interval of the resampled survey is a part of an interval of the survey. -/
theorem resampled_within {c : Cfg} {key : ℝ → ℤ} {step : ℝ} {s l : Station} {rest : List Station}
    (hk : RoundsTo4 key) (hr : Regular c step (s :: l :: rest)) {p : V3} {γ τ : ℝ → V3}
    (hw : WellPath p (dirs (s :: l :: rest)) γ τ) :
    ∃ out, resample c key .meters (s :: l :: rest) = .ok out ∧ 2 ≤ out.length ∧
      (∀ r ∈ out, τ r.md = tangent r.inc r.azi) ∧
      out.head?.map Station.md = some s.md ∧ lastMd s.md (l :: rest) ∈ out.map Station.md ∧
      (∀ r ∈ out, r.md ≤ lastMd s.md (l :: rest)) ∧ out.Pairwise (fun a b => a.md < b.md) ∧
      out.IsChain fun x y => x.md < y.md ∧ ∃ a b l₁ l₂, s :: l :: rest = l₁ ++ a :: b :: l₂ ∧ a.md < b.md ∧
        OneArc a.md b.md γ τ ∧ a.md ≤ x.md ∧ y.md ≤ b.md := by
  obtain ⟨out, e, hdir, hch, hhd, hmem⟩ := rows_on_path hk hr hw
  have harcs := hw.arcs
  rw [dirs, List.isChain_map] at harcs
  have hlt : s.md < l.md := (List.isChain_cons_cons.mp hr.intervals).1.1
  have hlast : l.md ≤ lastMd s.md (l :: rest) :=
    lastMd_ge rfl ((List.isChain_cons_cons.mp hr.intervals).2.imp fun _ _ h => h.1)
  have hsort : out.Pairwise fun a b => a.md < b.md := by
    have : out.IsChain fun a b => a.md < b.md := hch.imp fun a b h => h.1
    have ht : IsTrans Station fun a b => a.md < b.md := ⟨fun a b c h h' => lt_trans h h'⟩
    exact List.isChain_iff_pairwise.mp this
  have hlen : 2 ≤ out.length := by
    have m1 := (hmem s.md).mpr ⟨le_rfl, hlt.le.trans hlast, Or.inl (by simp)⟩
    have m2 := (hmem l.md).mpr ⟨hlt.le, hlast, Or.inl (by simp)⟩
    match out, m1, m2 with
    | [], h, _ => simp at h
    | [x], h1, h2 =>
      simp only [List.map_cons, List.map_nil, List.mem_singleton] at h1 h2
      linarith
    | r1 :: r2 :: t, _, _ => simp
  obtain ⟨last, hl⟩ : ∃ z, (s :: l :: rest).getLast? = some z := ⟨_, List.getLast?_eq_some_getLast (by simp)⟩
  refine ⟨out, e, hlen, hdir, hhd, (hmem _).mpr ⟨hlt.le.trans hlast, le_rfl, Or.inl ?_⟩,
    fun r hr' => ((hmem r.md).mp (List.mem_map.mpr ⟨r, hr', rfl⟩)).2.1, hsort, ?_⟩
  · rw [lastMd_getLast hl]
    exact List.mem_map.mpr ⟨last, List.mem_of_getLast? hl, rfl⟩
  refine List.isChain_iff_forall_rel_of_append_cons_cons.mpr ?_
  intro x y l₁ l₂ hl
  have hx : x ∈ out := by rw [hl]; simp
  have hy : y ∈ out := by rw [hl]; simp
  have hxy := (List.isChain_iff_forall_rel_of_append_cons_cons.mp hch hl).1
  have X := (hmem x.md).mp (List.mem_map.mpr ⟨x, hx, rfl⟩)
  have Y := (hmem y.md).mp (List.mem_map.mpr ⟨y, hy, rfl⟩)
  obtain ⟨a, b, m₁, m₂, hm, hint, ha, hb⟩ := in_interval s (l :: rest) hr.intervals X.1
    (lt_of_lt_of_le hxy Y.2.1)
  have harc := (List.isChain_iff_forall_rel_of_append_cons_cons.mp harcs hm).2
  have hb' : b ∈ s :: l :: rest := by rw [hm]; simp
  have hyb : y.md ≤ b.md := by
    by_contra hc
    push Not at hc
    have hin := (hmem b.md).mpr ⟨X.1.trans hb.le, hc.le.trans Y.2.1,
      Or.inl (List.mem_map.mpr ⟨b, hb', rfl⟩)⟩
    obtain ⟨r, hr', he⟩ := List.mem_map.mp hin
    rw [hl, List.pairwise_append, List.pairwise_cons, List.pairwise_cons] at hsort
    rw [hl] at hr'
    obtain ⟨-, ⟨q1, q2, -⟩, q3⟩ := hsort
    rcases List.mem_append.mp hr' with h | h
    · have := q3 r h x (by simp); linarith
    · rcases List.mem_cons.mp h with rfl | h
      · linarith
      · rcases List.mem_cons.mp h with rfl | h
        · linarith
        · have := q2 r h; linarith
  exact ⟨hxy, a, b, m₁, m₂, hm, hint.1, harc, ha, hyb⟩

/-- The turn along a path, as a function of the depth. -/
theorem turn_along {γ τ : ℝ → V3} (s : Station) (t : List Station)
    (h : (s :: t).IsChain fun a b => a.md < b.md ∧ OneArc a.md b.md γ τ) (c : ℝ) (hc : c ≤ s.md) :
    ∃ T : ℝ → ℝ, T s.md = 0 ∧ (s :: t).IsChain fun a b => c ≤ a.md ∧
      ∀ x y, a.md ≤ x → x ≤ y → y ≤ b.md → angle (τ x) (τ y) = T y - T x := by
  induction t generalizing s c with
  | nil => exact ⟨fun _ => 0, rfl, List.IsChain.singleton _⟩
  | cons l t ih =>
    rw [List.isChain_cons_cons] at h
    obtain ⟨T, h0, hT⟩ := ih l h.2 l.md le_rfl
    obtain ⟨κ, -, -, hall⟩ := oneArc_part h.1.2 h.1.1.le
    have hsl := h.1.1
    have hlow : ∀ x, l.md ≤ x → (if x ≤ l.md then κ * (x - s.md) else κ * (l.md - s.md) + T x)
        = κ * (l.md - s.md) + T x := by
      intro x hx
      split_ifs with h'
      · obtain rfl : x = l.md := le_antisymm h' hx
        rw [h0, add_zero]
      · rfl
    refine ⟨fun x => if x ≤ l.md then κ * (x - s.md) else κ * (l.md - s.md) + T x, ?_, ?_⟩
    · simp [hsl.le]
    · rw [List.isChain_cons_cons]
      refine ⟨⟨hc, fun x y h1 h2 h3 => ?_⟩, hT.imp fun a b hab => ⟨by linarith [hab.1], fun x y h1 h2 h3 => ?_⟩⟩
      · beta_reduce
        rw [hall x y h1 h2 h3, if_pos h3, if_pos (h2.trans h3)]; ring
      · have := hab.1
        beta_reduce
        rw [hlow x (by linarith), hlow y (by linarith), hab.2 x y h1 h2 h3]; ring

/-- The doglegs of stations on a path add up to the turn between the first and the last. -/
theorem sum_doglegs {T : ℝ → ℝ} {S : ℝ → V3} (s : Station) (t : List Station)
    (hd : ∀ r ∈ s :: t, S r.md = tangent r.inc r.azi)
    (h : (s :: t).IsChain fun a b => angle (S a.md) (S b.md) = T b.md - T a.md) :
    (pairwise dogleg2 (s :: t)).sum = T (lastMd s.md t) - T s.md := by
  induction t generalizing s with
  | nil => simp [pairwise, lastMd]
  | cons l t ih =>
    rw [List.isChain_cons_cons] at h
    have e : dogleg2 s l = T l.md - T s.md := by
      rw [← h.1, hd s (by simp), hd l (by simp)]; exact getDogleg_eq_arccos ..
    rw [pairwise, List.sum_cons, ih l (fun r hr => hd r (List.mem_cons_of_mem _ hr)) h.2, e]
    simp only [lastMd]; ring

/-- The reference of the azimuths does not change a dogleg. -/
theorem dogleg_grid (h : Sv.Header) (a b : Station) :
    dogleg2 { a with azi := (Sv.processAziRef h false a.azi).gridRad }
      { b with azi := (Sv.processAziRef h false b.azi).gridRad } = dogleg2 a b := by
  simp only [dogleg2, getDogleg_eq_arccos, gridRad_eq, tangent_rot, rotZ_dot]

theorem pairwise_grid (h : Sv.Header) (st : List Station) {β : Type*} (f : ℝ → ℝ → β) :
    pairwise (fun a b : Station => f (dogleg2 a b) (b.md - a.md)) (gridStations h st)
      = pairwise (fun a b : Station => f (dogleg2 a b) (b.md - a.md)) st := by
  induction st with
  | nil => rfl
  | cons a t ih =>
    cases t with
    | nil => rfl
    | cons b t =>
      simp only [gridStations, List.map_cons, pairwise, dogleg_grid] at ih ⊢
      rw [ih]

/-- C352: a survey that can be resampled exactly (`Regular`).  The doglegs reported for the resampled
survey add up to those reported for the survey, and each of its intervals is reported with the dogleg
severity of the interval of the survey it is a part of. -/
theorem C352_turn {c : Cfg} {key : ℝ → ℤ} {step : ℝ} {st : List Station} (hk : RoundsTo4 key)
    (hr : Regular c step st) (h2 : 2 ≤ st.length) (h : Sv.Header) (p : V3) :
    ∃ out o o', resample c key .meters st = .ok out ∧ minCurve (gridStations h st) p .meters = .ok o ∧
      minCurve (gridStations h out) p .meters = .ok o' ∧ o'.dogleg.sum = o.dogleg.sum ∧
      ∀ (j : ℕ) x y, out[j]? = some x → out[j + 1]? = some y →
        ∃ (i : ℕ) (a b : Station) (v : Dls), st[i]? = some a ∧ st[i + 1]? = some b ∧ a.md ≤ x.md ∧ y.md ≤ b.md ∧
          o'.dls[j + 1]? = some v ∧ o.dls[i + 1]? = some v := by
  match st, h2 with
  | s :: l :: rest, _ =>
    obtain ⟨γ, τ, hw⟩ := dirs_path hr 0
    obtain ⟨out, e, hlen, hdir, hhd, hlast, hle, hsort, hch⟩ := resampled_within hk hr hw
    have hdir₀ : ∀ x ∈ s :: l :: rest, τ x.md = tangent x.inc x.azi := fun x hx =>
      hw.dirs (x.md, tangent x.inc x.azi) (List.mem_map.mpr ⟨x, hx, rfl⟩)
    have harcs := hw.arcs
    rw [dirs, List.isChain_map] at harcs
    obtain ⟨T, -, hT⟩ := turn_along s (l :: rest) harcs s.md le_rfl
    match out, hlen, e, hdir, hhd, hlast, hle, hsort, hch with
    | x :: y :: t, _, e, hdir, hhd, hlast, hle, hsort, hch =>
      simp only [List.head?_cons, Option.map_some, Option.some.injEq] at hhd
      refine ⟨_, _, _, e, rfl, rfl, ?_, ?_⟩
      · have s1 := sum_doglegs (T := T) (S := τ) s (l :: rest) hdir₀ (by
          refine List.isChain_iff_forall_rel_of_append_cons_cons.mpr fun a b l₁ l₂ hm => ?_
          exact (List.isChain_iff_forall_rel_of_append_cons_cons.mp hT hm).2 _ _ le_rfl
            (List.isChain_iff_forall_rel_of_append_cons_cons.mp harcs hm).1.le le_rfl)
        have s2 := sum_doglegs (T := T) (S := τ) x (y :: t) hdir (hch.imp fun q r hqr => by
          obtain ⟨h1, a, b, l₁, l₂, hm, -, -, h3, h4⟩ := hqr
          exact (List.isChain_iff_forall_rel_of_append_cons_cons.mp hT hm).2 _ _ h3 h1.le h4)
        have hend : lastMd x.md (y :: t) = lastMd s.md (l :: rest) := by
          obtain ⟨z, hz⟩ : ∃ z, (x :: y :: t).getLast? = some z := ⟨_, List.getLast?_eq_some_getLast (by simp)⟩
          rw [lastMd_getLast hz]
          refine le_antisymm (hle z (List.mem_of_getLast? hz)) ?_
          obtain ⟨q, hq, hq'⟩ := List.mem_map.mp hlast
          obtain ⟨pre, hpre⟩ := List.getLast?_eq_some_iff.mp hz
          rw [hpre] at hq hsort
          rcases List.mem_append.mp hq with hq | hq
          · have := (List.pairwise_append.mp hsort).2.2 q hq z (by simp); linarith
          · rw [List.mem_singleton.mp hq] at hq'; exact hq'.ge
        rw [hend, hhd] at s2
        have key : ∀ u : List Station, (pairwise dogleg2 (gridStations h u)).sum = (pairwise dogleg2 u).sum :=
          fun u => congrArg List.sum (pairwise_grid h u fun d _ => d)
        show List.sum (0 :: pairwise dogleg2 (gridStations h (x :: y :: t)))
          = List.sum (0 :: pairwise dogleg2 (gridStations h (s :: l :: rest)))
        rw [List.sum_cons, List.sum_cons, key, key, s1, s2]
      · intro j q r hq hr'
        obtain ⟨hqr, a, b, l₁, l₂, hm, hab, harc, h3, h4⟩ : q.md < r.md ∧ ∃ a b l₁ l₂,
            s :: l :: rest = l₁ ++ a :: b :: l₂ ∧ a.md < b.md ∧ OneArc a.md b.md γ τ ∧ a.md ≤ q.md ∧
              r.md ≤ b.md := by
          obtain ⟨hj, e2⟩ := List.getElem?_eq_some_iff.mp hr'
          obtain ⟨hj', e1⟩ := List.getElem?_eq_some_iff.mp hq
          rw [← e1, ← e2]
          exact List.isChain_iff_getElem.mp hch j hj
        have ha : (s :: l :: rest)[l₁.length]? = some a := by rw [hm]; simp
        have hb : (s :: l :: rest)[l₁.length + 1]? = some b := by
          rw [hm, List.getElem?_append_right (by omega)]; simp
        refine ⟨l₁.length, a, b, dlsOf 30 (dogleg2 a b) (b.md - a.md), ha, hb, h3, h4, ?_, ?_⟩
        · show (Dls.val 0 :: pairwise (fun a b => dlsOf 30 (dogleg2 a b) (b.md - a.md))
            (gridStations h (x :: y :: t)))[j + 1]? = _
          rw [List.getElem?_cons_succ, pairwise_grid h _ (dlsOf 30), pairwise_getElem? _ _ _ _ _ hq hr']
          obtain ⟨κ, -, -, hall⟩ := oneArc_part harc hab.le
          have e1 : dogleg2 q r = κ * (r.md - q.md) := by
            rw [← hall _ _ h3 hqr.le h4, hdir q (List.mem_of_getElem? hq), hdir r (List.mem_of_getElem? hr')]
            exact getDogleg_eq_arccos ..
          have e2 : dogleg2 a b = κ * (b.md - a.md) := by
            rw [← hall _ _ le_rfl hab.le le_rfl, hdir₀ a (List.mem_of_getElem? ha),
              hdir₀ b (List.mem_of_getElem? hb)]
            exact getDogleg_eq_arccos ..
          have n1 : r.md - q.md ≠ 0 := by linarith
          have n2 : b.md - a.md ≠ 0 := by linarith
          rw [dlsOf, dlsOf, if_neg n1, if_neg n2, e1, e2]
          congr 2
          unfold degrees
          field_simp
        · show (Dls.val 0 :: pairwise (fun a b => dlsOf 30 (dogleg2 a b) (b.md - a.md))
            (gridStations h (s :: l :: rest)))[l₁.length + 1]? = _
          rw [List.getElem?_cons_succ, pairwise_grid h _ (dlsOf 30), pairwise_getElem? _ _ _ _ _ ha hb]

/-- Non-vacuity: a well kicking off from the vertical, resampled every 30 m. -/
example (h : Sv.Header) : ∃ out o o', resample (defaults 30) round4 .meters kickOff = .ok out ∧
    minCurve (gridStations h kickOff) 0 .meters = .ok o ∧
    minCurve (gridStations h out) 0 .meters = .ok o' ∧ o'.dogleg.sum = o.dogleg.sum := by
  obtain ⟨out, o, o', h1, h2, h3, h4, -⟩ :=
    C352_turn round4_rounds kickOff_regular (by simp [kickOff]) h 0
  exact ⟨out, o, o', h1, h2, h3, h4⟩

end Welleng.Props
