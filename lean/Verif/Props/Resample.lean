import Verif.Model.Resample
import Verif.Spec.Grid
import Verif.Lemmas.WellPath
import Verif.Props.ConnectorGrid
import Verif.Props.Trajectory
import Mathlib.Analysis.Real.Pi.Bounds

/-!
C183-C187: resampling of a survey, `interpolate_survey`.
-/

namespace Welleng.Props

open Real Spec Con Rs

/-! ### Sections -/

/-- `l` is inside `[a, b]`. -/
theorem grid_range {a b step : ℝ} {l : List ℝ} (h : AlignedGrid a b step l) :
    ∀ x ∈ l, a ≤ x ∧ x ≤ b := by
  have hp : l.Pairwise (· < ·) := by
    have : l.IsChain fun x y : ℝ => x < y := h.ordered.imp fun _ _ h => h.1
    exact List.isChain_iff_pairwise.mp this
  intro x hx
  constructor
  · obtain ⟨t, rfl⟩ : ∃ t, l = a :: t := by
      have := h.first
      cases l with
      | nil => simp at this
      | cons y t => exact ⟨t, by simpa using this⟩
    rcases List.mem_cons.mp hx with rfl | hx
    · exact le_rfl
    · exact (List.rel_of_pairwise_cons hp hx).le
  · have hl := h.last
    rw [List.getLast?_eq_some_iff] at hl
    obtain ⟨t, rfl⟩ := hl
    rcases List.mem_append.mp hx with hx | hx
    · exact ((List.pairwise_append.mp hp).2.2 x hx b (by simp)).le
    · simp at hx; exact hx.le

/-- What is asked of an interval: straight, or turning at least with the curvature of the `dls`
parameter by an angle that `interpolate_curve` does not take for zero and that does not round to a
half turn. -/
def Fit (c : Cfg) (a b : ℝ) (v w : V3) : Prop :=
  v = w ∨ (b - a ≤ c.radius * angle v w ∧ 1e-10 ≤ sin (angle v w) ∧ ¬ c.nearPi (angle v w))

theorem ne_opposite {v w : V3} (hv : v.IsUnit) (h : angle v w < π) : w ≠ (-1 : ℝ) • v := by
  rintro rfl
  unfold angle at h
  rw [V3.dot_smul_right, show V3.dot v v = 1 from hv] at h
  norm_num at h

theorem section_rows {c : Cfg} {a b step : ℝ} {γ τ : ℝ → V3} (hstep : c.step = some step)
    (hs0 : 0 < step) (harc : OneArc a b γ τ) (hab : a < b) (hfit : Fit c a b (τ a) (τ b)) :
    targetVec c (τ a) (τ b) = τ b ∧ ∃ rows, sectionRows c a (τ a) b (τ b) = some rows ∧
      (∀ r ∈ rows, r.2 = τ r.1) ∧ AlignedGrid a b step (rows.map Prod.fst) := by
  have ua := oneArc_unit harc le_rfl hab.le
  have ub := oneArc_unit harc hab.le le_rfl
  have hpi : angle (τ a) (τ b) < π := by
    obtain ⟨κ, n, hκ, hpi, hn, ha, ho, hs⟩ := oneArc_tan harc hab.le
    obtain ⟨κ', n', hk', -⟩ := oneArc_turn harc hab.le
    have e : V3.dot (τ a) (τ b) = cos (κ * (b - a)) := by
      rw [hs b hab.le le_rfl, V3.dot_add_right, V3.dot_smul_right, V3.dot_smul_right, ho,
        show V3.dot (τ a) (τ a) = 1 from ha]
      ring
    unfold angle
    rw [e, arccos_cos (mul_nonneg hκ (by linarith)) hpi.le]
    exact hpi
  have ht : targetVec c (τ a) (τ b) = τ b := by
    unfold targetVec; rw [if_neg (ne_opposite ua hpi)]
  refine ⟨ht, ?_⟩
  unfold sectionRows
  rw [ht, if_neg (by linarith : ¬ b < a)]
  by_cases he : τ b = τ a
  · rw [if_pos he]
    have hg := C39_hold_grid hs0 hab
    rw [← hstep] at hg
    refine ⟨_, rfl, ?_, ?_⟩
    · intro r hr
      obtain ⟨m, hm, rfl⟩ := List.mem_map.mp hr
      have := grid_range hg m hm
      exact (oneArc_straight harc hab he.symm this.1 this.2).symm
    · rw [List.map_map]
      have : (Prod.fst ∘ fun m : ℝ => (m, τ a)) = id := rfl
      rw [this, List.map_id]
      exact hg
  · rw [if_neg he]
    obtain ⟨hr, htol, hnp⟩ := hfit.resolve_left (fun h => he h.symm)
    have h0 : 0 < angle (τ a) (τ b) := by
      refine lt_of_le_of_ne (angle_nonneg _ _) fun h => ?_
      rw [← h, sin_zero] at htol
      norm_num at htol
    have hrc : radiusOfMd a b (angle (τ a) (τ b)) = .val ((b - a) / angle (τ a) (τ b)) := by
      unfold radiusOfMd
      rw [if_neg h0.ne', abs_of_pos (div_pos (by linarith) h0)]
    have hle : (b - a) / angle (τ a) (τ b) ≤ c.radius := by rw [div_le_iff₀ h0]; linarith
    have hmul : (b - a) / angle (τ a) (τ b) * angle (τ a) (τ b) = b - a := div_mul_cancel₀ _ h0.ne'
    have hmin : minCurveMd a (some b) (.val c.radius) (angle (τ a) (τ b))
        (c.nearPi (angle (τ a) (τ b))) = some (⟨a, none, none, b⟩, b - a) := by
      unfold minCurveMd
      have hgt : ¬ (Ext.gt (radiusOfMd a b (angle (τ a) (τ b))) (.val c.radius) ∨
          c.nearPi (angle (τ a) (τ b))) := by
        rw [hrc]
        rintro (h | h)
        · exact absurd h (not_lt.mpr hle)
        · exact hnp h
      simp only
      rw [if_neg hgt, hrc]
      simp only [hmul]
    unfold minCurveRows
    simp only [hmin]
    have hL : 0 < b - a := by linarith
    have hg := C39_curve_grid (md1 := a) hs0 hL
    rw [← hstep, add_sub_cancel] at hg
    refine ⟨_, rfl, ?_, ?_⟩
    · intro r hr
      obtain ⟨m, hm, rfl⟩ := List.mem_map.mp hr
      have := grid_range hg m hm
      simp only [curveRow]
      rw [if_neg hL.ne']
      exact oneArc_curveVec harc hab h0 hpi htol this.1 this.2
    · rw [List.map_map]
      have : (Prod.fst ∘ curveRow a (τ a) (τ b) (b - a) (angle (τ a) (τ b))) = id := rfl
      rw [this, List.map_id]
      exact hg

/-! ### All sections -/

/-- `x` is the depth of a station or a multiple of the step. -/
def OnGrid (step : ℝ) (ds : List ℝ) (x : ℝ) : Prop := x ∈ ds ∨ ∃ k : ℤ, x = k * step

/-- The depths that are wanted are equal or more than `1e-4` apart. -/
def GridApart (step : ℝ) (ds : List ℝ) : Prop :=
  ∀ x y, OnGrid step ds x → OnGrid step ds y → x = y ∨ 1e-4 < |x - y|

/-- Neighbouring rows: at the same depth, or in order on one arc and a step apart. -/
def Next {κ : Type} (key : ℝ → κ) (step : ℝ) (γ τ : ℝ → V3) (x y : ℝ) : Prop :=
  x = y ∨ (x < y ∧ y - x ≤ step ∧ key x ≠ key y ∧ ∃ a b, OneArc a b γ τ ∧ a ≤ x ∧ y ≤ b)

/-- Depth of the last of the stations `m`, `l`. -/
def lastMd (m : ℝ) : List Station → ℝ
  | [] => m
  | l :: t => lastMd l.md t

theorem lastMd_ge {m : ℝ} {t : List Station} {s : Station} (hm : s.md = m)
    (h : (s :: t).IsChain fun a b => a.md < b.md) : m ≤ lastMd m t := by
  induction t generalizing m s with
  | nil => exact le_rfl
  | cons l t ih =>
    rw [List.isChain_cons_cons] at h
    have := ih rfl h.2
    simp only [lastMd]
    linarith [h.1]

theorem sections_rows {κ : Type} {c : Cfg} {key : ℝ → κ} {step : ℝ} {γ τ : ℝ → V3} {ds : List ℝ}
    (hstep : c.step = some step) (hs0 : 0 < step)
    (hkey : ∀ x y, OnGrid step ds x → OnGrid step ds y → x ≠ y → key x ≠ key y)
    (s : Station) (rest : List Station) (hds : ∀ l ∈ s :: rest, l.md ∈ ds)
    (hdir : ∀ l ∈ s :: rest, τ l.md = tangent l.inc l.azi)
    (hc : (s :: rest).IsChain fun a b => a.md < b.md ∧ OneArc a.md b.md γ τ ∧
      Fit c a.md b.md (tangent a.inc a.azi) (tangent b.inc b.azi)) :
    ∃ rows, sections c s.md (τ s.md) rest = some rows ∧
      (∀ r ∈ rows, r.2 = τ r.1 ∧ r.2.IsUnit) ∧
      (rows.map Prod.fst).IsChain (Next key step γ τ) ∧
      (rest = [] → rows = []) ∧
      (rest ≠ [] → (rows.map Prod.fst).head? = some s.md) ∧
      (∀ x, x ∈ rows.map Prod.fst ↔ rest ≠ [] ∧ s.md ≤ x ∧ x ≤ lastMd s.md rest ∧
        (x ∈ (s :: rest).map Station.md ∨ ∃ k : ℤ, x = k * step)) := by
  induction rest generalizing s with
  | nil => exact ⟨[], rfl, by simp, by simp, by simp, by simp, by simp⟩
  | cons l rest ih =>
    rw [List.isChain_cons_cons] at hc
    obtain ⟨⟨hab, harc, hfit⟩, hc⟩ := hc
    have hτs := hdir s (by simp)
    have hτl := hdir l (by simp)
    rw [← hτs, ← hτl] at hfit
    obtain ⟨ht, rows, hr, hrd, hg⟩ := section_rows hstep hs0 harc hab hfit
    obtain ⟨tail, htl, htd, htc, ht0, ht1, htm⟩ := ih l
      (fun x hx => hds x (List.mem_cons_of_mem _ hx))
      (fun x hx => hdir x (List.mem_cons_of_mem _ hx)) hc
    have ul := oneArc_unit harc hab.le le_rfl
    have hlast := lastMd_ge (m := l.md) rfl (hc.imp fun _ _ h => h.1)
    have hrange := grid_range hg
    refine ⟨rows ++ tail, ?_, ?_, ?_, by simp, ?_, ?_⟩
    · unfold sections
      rw [getVec_nev, ← hτl, hr, ht, normalize_of_unit ul, htl]
    · intro r hr'
      rcases List.mem_append.mp hr' with h | h
      · have hx := hrange r.1 (List.mem_map.mpr ⟨r, h, rfl⟩)
        exact ⟨hrd r h, by rw [hrd r h]; exact oneArc_unit harc hx.1 hx.2⟩
      · exact htd r h
    · rw [List.map_append, List.isChain_append]
      refine ⟨?_, htc, ?_⟩
      · refine (List.isChain_iff_forall_rel_of_append_cons_cons.mpr ?_)
        intro x y l1 l2 hl
        have hxy := (List.isChain_iff_forall_rel_of_append_cons_cons.mp hg.ordered) hl
        have hx : x ∈ rows.map Prod.fst := by rw [hl]; simp
        have hy : y ∈ rows.map Prod.fst := by rw [hl]; simp
        have hw : ∀ z ∈ rows.map Prod.fst, OnGrid step ds z := by
          intro z hz
          obtain ⟨z1, z2⟩ := hrange z hz
          rcases eq_or_lt_of_le z1 with rfl | z1
          · exact Or.inl (hds s (by simp))
          rcases eq_or_lt_of_le z2 with rfl | z2
          · exact Or.inl (hds l (by simp))
          exact Or.inr ((hg.inside z z1 z2).mp hz)
        exact Or.inr ⟨hxy.1, hxy.2, hkey x y (hw x hx) (hw y hy) hxy.1.ne, s.md, l.md, harc,
          (hrange x hx).1, (hrange y hy).2⟩
      · intro x hx y hy
        rw [hg.last] at hx
        obtain rfl : l.md = x := by simpa using hx
        cases rest with
        | nil => rw [ht0 rfl] at hy; simp at hy
        | cons l' rest' =>
          rw [ht1 (by simp)] at hy
          exact Or.inl (by simpa using hy)
    · intro _
      rw [List.map_append, List.head?_append, hg.first]
      rfl
    · intro x
      rw [List.map_append, List.mem_append, htm]
      simp only [lastMd, List.map_cons, List.mem_cons, ne_eq, reduceCtorEq, not_false_eq_true,
        true_and]
      have hsl : s.md ∈ rows.map Prod.fst := List.mem_of_head? hg.first
      have hll : l.md ∈ rows.map Prod.fst := List.mem_of_getLast? hg.last
      have hmono : ∀ z ∈ rest, l.md < z.md := by
        have hp : (l :: rest).Pairwise fun x y : Station => x.md < y.md := by
          have : (l :: rest).IsChain fun x y : Station => x.md < y.md := hc.imp fun _ _ h => h.1
          haveI hT : IsTrans Station fun x y => x.md < y.md := ⟨fun _ _ _ h1 h2 => h1.trans h2⟩
          exact List.isChain_iff_pairwise.mp this
        exact fun z hz => List.rel_of_pairwise_cons hp hz
      constructor
      · rintro (h | ⟨hne, h1, h2, h3⟩)
        · obtain ⟨z1, z2⟩ := hrange x h
          refine ⟨z1, z2.trans hlast, ?_⟩
          rcases eq_or_lt_of_le z1 with rfl | z1
          · exact Or.inl (Or.inl rfl)
          rcases eq_or_lt_of_le z2 with rfl | z2
          · exact Or.inl (Or.inr (Or.inl rfl))
          exact Or.inr ((hg.inside x z1 z2).mp h)
        · exact ⟨by linarith, h2, h3.imp Or.inr id⟩
      · rintro ⟨h1, h2, h3⟩
        rcases eq_or_lt_of_le h1 with rfl | h1
        · exact Or.inl hsl
        rcases lt_trichotomy x l.md with h | rfl | h
        · left
          rw [hg.inside x h1 h]
          rcases h3 with (h3 | h3 | h3) | h3
          · exact absurd h3 h1.ne'
          · exact absurd h3 h.ne
          · obtain ⟨z, hz, rfl⟩ := List.mem_map.mp h3
            have := hmono z hz
            linarith
          · exact h3
        · exact Or.inl hll
        · right
          have hne : rest ≠ [] := by
            rintro rfl
            simp only [lastMd] at h2
            linarith
          refine ⟨hne, h.le, h2, ?_⟩
          rcases h3 with (h3 | h3 | h3) | h3
          · exact absurd h3 h1.ne'
          · exact absurd h3 h.ne'
          · exact Or.inl (Or.inr h3)
          · exact Or.inr h3

/-! ### Duplicates -/

/-- The rows `_remove_duplicates` keeps. -/
def kept {α κ : Type} [DecidableEq κ] (key : α → κ) : List α → List α
  | [] => []
  | a :: t => a :: (pairwise (fun x y => (x, y)) (a :: t)).filterMap
      fun (x, y) => if key y ≠ key x then some y else none

theorem removeDuplicates_kept {α κ : Type} [DecidableEq κ] (key : α → κ) (a b : α) (t : List α) :
    Sv.removeDuplicates key (a :: b :: t) = .ok (kept key (a :: b :: t)) := rfl

theorem kept_cons2 {α κ : Type} [DecidableEq κ] (key : α → κ) (a b : α) (t : List α) :
    ∃ f, kept key (b :: t) = b :: f ∧
      kept key (a :: b :: t) = a :: (if key b ≠ key a then b :: f else f) := by
  refine ⟨_, rfl, ?_⟩
  by_cases h : key b = key a
  · simp [kept, pairwise, h]
  · simp [kept, pairwise, h]

theorem kept_chain {α κ : Type} [DecidableEq κ] (md : α → ℝ) (key : ℝ → κ) (P : ℝ → ℝ → Prop)
    (l : List α) (h : l.IsChain fun x y => md x = md y ∨ (key (md x) ≠ key (md y) ∧
      P (md x) (md y))) :
    (kept (fun x => key (md x)) l).IsChain (fun x y => P (md x) (md y)) ∧
      (∀ x ∈ kept (fun x => key (md x)) l, x ∈ l) ∧
      (∀ x ∈ l, ∃ y ∈ kept (fun x => key (md x)) l, md y = md x) := by
  induction l with
  | nil => exact ⟨List.IsChain.nil, by simp [kept], by simp⟩
  | cons a t ih =>
    cases t with
    | nil => exact ⟨List.IsChain.singleton _, by simp [kept, pairwise], by simp [kept, pairwise]⟩
    | cons b t =>
      rw [List.isChain_cons_cons] at h
      obtain ⟨i1, i2, i3⟩ := ih h.2
      obtain ⟨f, e1, e2⟩ := kept_cons2 (fun x => key (md x)) a b t
      rw [e1] at i1 i2 i3
      rw [e2]
      by_cases hk : key (md b) = key (md a)
      · have hmd : md a = md b := h.1.resolve_right fun h' => h'.1 hk.symm
        rw [if_neg (not_not.mpr hk)]
        refine ⟨?_, ?_, ?_⟩
        · cases f with
          | nil => exact List.IsChain.singleton _
          | cons c f =>
            rw [List.isChain_cons_cons] at i1 ⊢
            exact ⟨by rw [hmd]; exact i1.1, i1.2⟩
        · intro x hx
          rcases List.mem_cons.mp hx with rfl | hx
          · simp
          · exact List.mem_cons_of_mem _ (i2 x (List.mem_cons_of_mem _ hx))
        · intro x hx
          rcases List.mem_cons.mp hx with rfl | hx
          · exact ⟨x, by simp, rfl⟩
          · obtain ⟨y, hy, hyx⟩ := i3 x hx
            rcases List.mem_cons.mp hy with rfl | hy
            · exact ⟨a, by simp, by rw [hmd, hyx]⟩
            · exact ⟨y, List.mem_cons_of_mem _ hy, hyx⟩
      · rw [if_pos hk]
        have hP : P (md a) (md b) := by
          rcases h.1 with h' | h'
          · exact absurd (by rw [h']) hk
          · exact h'.2
        refine ⟨List.isChain_cons_cons.mpr ⟨hP, i1⟩, ?_, ?_⟩
        · intro x hx
          rcases List.mem_cons.mp hx with rfl | hx
          · simp
          · exact List.mem_cons_of_mem _ (i2 x hx)
        · intro x hx
          rcases List.mem_cons.mp hx with rfl | hx
          · exact ⟨x, by simp, rfl⟩
          · obtain ⟨y, hy, hyx⟩ := i3 x hx
            exact ⟨y, List.mem_cons_of_mem _ hy, hyx⟩

/-! ### Reference of the azimuths -/

/-- Grid azimuth minus azimuth in the header's reference. -/
def northShift (h : Sv.Header) : ℝ :=
  match h.aziRef with
  | .grid => 0
  | .true_ => -h.convergence
  | .magnetic => h.declination - h.convergence

theorem gridRad_eq (h : Sv.Header) (azi : ℝ) :
    (Sv.processAziRef h false azi).gridRad = azi + northShift h := by
  unfold Sv.processAziRef northShift
  cases h.aziRef <;> simp <;> ring

theorem rotZ_unit (θ : ℝ) {v : V3} (h : v.IsUnit) : (rotZ θ v).IsUnit := by
  simp only [V3.IsUnit, V3.dot, rotZ] at *
  linear_combination h + (v.x * v.x + v.y * v.y) * sin_sq_add_cos_sq θ

theorem rotZ_dot (θ : ℝ) (v w : V3) : V3.dot (rotZ θ v) (rotZ θ w) = V3.dot v w := by
  simp only [V3.dot, rotZ]
  linear_combination (v.x * w.x + v.y * w.y) * sin_sq_add_cos_sq θ

theorem rotZ_neg_rotZ (θ : ℝ) (v : V3) : rotZ (-θ) (rotZ θ v) = v := by
  have := sin_sq_add_cos_sq θ
  ext <;> simp only [rotZ, cos_neg, sin_neg]
  · linear_combination v.x * this
  · linear_combination v.y * this

theorem rotZ_deriv (θ : ℝ) {f : ℝ → V3} {f' : V3} {s : ℝ} (h : HasDeriv f f' s) :
    HasDeriv (fun u => rotZ θ (f u)) (rotZ θ f') s :=
  ⟨(h.1.const_mul _).sub (h.2.1.const_mul _), (h.1.const_mul _).add (h.2.1.const_mul _), h.2.2⟩

theorem circular_rot (θ : ℝ) {g t ν : ℝ → V3} {κ : ℝ} (h : CircularCurve g t ν κ) :
    CircularCurve (fun s => rotZ θ (g s)) (fun s => rotZ θ (t s)) (fun s => rotZ θ (ν s)) κ := by
  refine ⟨fun s => rotZ_deriv θ (h.deriv_pos s), fun s => ?_, fun s => ?_,
    fun s => rotZ_unit θ (h.unit_tan s), fun s => rotZ_unit θ (h.unit_nor s),
    fun s => by rw [rotZ_dot]; exact h.ortho s⟩
  · refine (rotZ_deriv θ (h.deriv_tan s)).congr ?_
    rw [rotZ_smul]
  · refine (rotZ_deriv θ (h.deriv_nor s)).congr ?_
    ext <;> simp [rotZ] <;> ring

theorem oneArc_rot (θ : ℝ) {a b : ℝ} {γ τ : ℝ → V3} (h : OneArc a b γ τ) :
    OneArc a b (fun s => rotZ θ (γ s)) (fun s => rotZ θ (τ s)) := by
  obtain ⟨g, t, ν, κ, hc, hκ, hpi, hs⟩ := h
  refine ⟨_, _, _, κ, circular_rot θ hc, hκ, hpi, fun s h1 h2 => ?_⟩
  simp only [(hs s h1 h2).1, (hs s h1 h2).2, and_self]

/-- Depth and direction of stations. -/
noncomputable def dirs (st : List Station) : List (ℝ × V3) :=
  st.map fun s => (s.md, tangent s.inc s.azi)

/-- The path in the header's reference. -/
theorem wellPath_reference {h : Sv.Header} {p : V3} {st : List Station} {γ τ : ℝ → V3}
    (hw : WellPath p (dirs (gridStations h st)) γ τ) :
    WellPath (rotZ (-northShift h) p) (dirs st) (fun s => rotZ (-northShift h) (γ s))
      (fun s => rotZ (-northShift h) (τ s)) := by
  have e : dirs (gridStations h st)
      = (dirs st).map fun s => (s.1, rotZ (northShift h) s.2) := by
    simp only [dirs, gridStations, List.map_map]
    refine List.map_congr_left fun s _ => ?_
    simp [gridRad_eq, tangent_rot]
  rw [e] at hw
  refine ⟨?_, ?_, ?_⟩
  · intro s hs
    have := hw.start (s.1, rotZ (northShift h) s.2) (by rw [List.head?_map, hs]; rfl)
    simp only at this
    rw [this]
  · intro s hs
    have := hw.dirs (s.1, rotZ (northShift h) s.2) (List.mem_map.mpr ⟨s, hs, rfl⟩)
    simp only at this
    rw [this, rotZ_neg_rotZ]
  · have := hw.arcs
    rw [List.isChain_map] at this
    exact this.imp fun a b hab => ⟨hab.1, oneArc_rot _ hab.2⟩

/-! ### C183 -/

/-- Rounding to four decimals, as a number of ten-thousandths. -/
def RoundsTo4 (key : ℝ → ℤ) : Prop := ∀ x, |(key x : ℝ) - x * 10000| ≤ 1 / 2

theorem rounds_apart {key : ℝ → ℤ} (hk : RoundsTo4 key) {x y : ℝ} (h : 1e-4 < |x - y|) :
    key x ≠ key y := by
  intro he
  have h1 := abs_le.mp (hk x)
  have h2 := abs_le.mp (hk y)
  rw [he] at h1
  rcases lt_abs.mp h with h | h <;> norm_num at h <;> linarith

/-- A survey that can be resampled exactly: depths increase, each interval is straight or turns by less
than half a circle and fits the `dls` parameter, and stations and multiples of the step are equal or
more than `1e-4` apart. -/
structure Regular (c : Cfg) (step : ℝ) (st : List Station) : Prop where
  step_eq : c.step = some step
  step_pos : 0 < step
  apart : GridApart step (st.map Station.md)
  intervals : st.IsChain fun a b => a.md < b.md ∧
    angle (tangent a.inc a.azi) (tangent b.inc b.azi) < π ∧
    Fit c a.md b.md (tangent a.inc a.azi) (tangent b.inc b.azi)

theorem dirs_path {c : Cfg} {step : ℝ} {st : List Station} (hr : Regular c step st) (p : V3) :
    ∃ γ τ, WellPath p (dirs st) γ τ := by
  refine wellPath_exists _ ?_ ?_ p
  · intro s hs
    obtain ⟨x, -, rfl⟩ := List.mem_map.mp hs
    exact tangent_unit _ _
  · rw [dirs, List.isChain_map]
    exact hr.intervals.imp fun a b h => ⟨h.1, h.2.1⟩

theorem lastMd_getLast {s last : Station} {t : List Station}
    (h : (s :: t).getLast? = some last) : lastMd s.md t = last.md := by
  induction t generalizing s with
  | nil => simp at h; simp [lastMd, h]
  | cons l t ih =>
    rw [List.getLast?_cons_cons] at h
    exact ih h

/-- The rows for any path through the stations in the header's reference. -/
theorem rows_on_path {c : Cfg} {key : ℝ → ℤ} {step : ℝ} {s l : Station} {rest : List Station}
    (hk : RoundsTo4 key) (hr : Regular c step (s :: l :: rest)) {p : V3} {γ τ : ℝ → V3}
    (hw : WellPath p (dirs (s :: l :: rest)) γ τ) :
    ∃ out, resample c key .meters (s :: l :: rest) = .ok out ∧
      (∀ r ∈ out, τ r.md = tangent r.inc r.azi) ∧
      (out.IsChain fun x y => x.md < y.md ∧ y.md - x.md ≤ step ∧
        ∃ a b, OneArc a b γ τ ∧ a ≤ x.md ∧ y.md ≤ b) ∧
      (out.head?.map Station.md = some s.md) ∧
      (∀ x, x ∈ out.map Station.md ↔ s.md ≤ x ∧ x ≤ lastMd s.md (l :: rest) ∧
        (x ∈ (s :: l :: rest).map Station.md ∨ ∃ k : ℤ, x = k * step)) := by
  have hdir : ∀ x ∈ s :: l :: rest, τ x.md = tangent x.inc x.azi := fun x hx =>
    hw.dirs (x.md, tangent x.inc x.azi) (List.mem_map.mpr ⟨x, hx, rfl⟩)
  have harcs := hw.arcs
  rw [dirs, List.isChain_map] at harcs
  have hchain : (s :: l :: rest).IsChain fun a b => a.md < b.md ∧ OneArc a.md b.md γ τ ∧
      Fit c a.md b.md (tangent a.inc a.azi) (tangent b.inc b.azi) := by
    refine List.isChain_iff_forall_rel_of_append_cons_cons.mpr ?_
    intro x y l1 l2 hl
    have h1 := List.isChain_iff_forall_rel_of_append_cons_cons.mp harcs hl
    have h2 := List.isChain_iff_forall_rel_of_append_cons_cons.mp hr.intervals hl
    exact ⟨h1.1, h1.2, h2.2.2⟩
  obtain ⟨rows, e, hrd, hch, -, hhd, hmem⟩ := sections_rows (key := key)
    (ds := (s :: l :: rest).map Station.md) hr.step_eq hr.step_pos
    (fun x y hx hy hne => rounds_apart hk ((hr.apart x y hx hy).resolve_left hne)) s (l :: rest)
    (fun x hx => List.mem_map.mpr ⟨x, hx, rfl⟩) hdir hchain
  have hab : s.md < l.md := (List.isChain_cons_cons.mp hchain).1.1
  have hm1 : s.md ∈ rows.map Prod.fst := List.mem_of_head? (hhd (by simp))
  have hm2 : l.md ∈ rows.map Prod.fst := by
    rw [hmem]
    refine ⟨by simp, hab.le, ?_, Or.inl (by simp)⟩
    exact lastMd_ge rfl ((List.isChain_cons_cons.mp hchain).2.imp fun _ _ h => h.1)
  obtain ⟨r1, r2, t, hrows⟩ : ∃ r1 r2 t, rows = r1 :: r2 :: t := by
    match rows, hm1, hm2 with
    | [], h, _ => simp at h
    | [x], h1, h2 =>
      simp only [List.map_cons, List.map_nil, List.mem_singleton] at h1 h2
      linarith
    | r1 :: r2 :: t, _, _ => exact ⟨r1, r2, t, rfl⟩
  set srows := rows.map toStation with hsrows
  have hmd : srows.map Station.md = rows.map Prod.fst := by
    rw [hsrows, List.map_map]; rfl
  have hchs : srows.IsChain fun x y => x.md = y.md ∨ (key x.md ≠ key y.md ∧
      (x.md < y.md ∧ y.md - x.md ≤ step ∧ ∃ a b, OneArc a b γ τ ∧ a ≤ x.md ∧ y.md ≤ b)) := by
    rw [← hmd, List.isChain_map] at hch
    refine hch.imp fun x y h => ?_
    rcases h with h | ⟨h1, h2, h3, h4⟩
    · exact Or.inl h
    · exact Or.inr ⟨h3, h1, h2, h4⟩
  obtain ⟨k1, k2, k3⟩ := kept_chain Station.md key
    (fun x y => x < y ∧ y - x ≤ step ∧ ∃ a b, OneArc a b γ τ ∧ a ≤ x ∧ y ≤ b) srows hchs
  refine ⟨kept (fun x => key x.md) srows, ?_, ?_, k1, ?_, ?_⟩
  · unfold resample
    simp only
    rw [getVec_nev, ← hdir s (by simp), e]
    simp only
    rw [← hsrows, hsrows, hrows]
    simp only [List.map_cons]
    rw [removeDuplicates_kept]
    rfl
  · intro r hr'
    obtain ⟨x, hx, rfl⟩ := List.mem_map.mp (k2 r hr')
    obtain ⟨h1, h2⟩ := hrd x hx
    simp only [toStation]
    rw [tangent_getAngles_nev h2, h1]
  · have h0 := hhd (by simp)
    rw [hsrows, hrows]
    rw [hrows] at h0
    simpa [kept, toStation] using h0
  · intro x
    have h0 := hmem x
    simp only [ne_eq, reduceCtorEq, not_false_eq_true, true_and] at h0
    rw [← h0, ← hmd]
    constructor
    · intro h
      obtain ⟨r, hr', rfl⟩ := List.mem_map.mp h
      exact List.mem_map.mpr ⟨r, k2 r hr', rfl⟩
    · intro h
      obtain ⟨r, hr', rfl⟩ := List.mem_map.mp h
      obtain ⟨y, hy, hyr⟩ := k3 r hr'
      exact List.mem_map.mpr ⟨y, hy, hyr⟩

/-- C183: a regular survey in metres is resampled.  The depths of the result increase by at most `step`;
between the first and the last depth they are exactly the depths of the stations and the multiples of
`step`.  For every path that runs along one arc between the stations of the survey (in grid
directions), every station of the result has the direction of that path at its depth, and the position
the survey computes for it lies on the path, whatever reference the header gives the azimuths. -/
theorem C183_resampled {c : Cfg} {key : ℝ → ℤ} {step : ℝ} {st : List Station} {first last : Station}
    (hk : RoundsTo4 key) (hr : Regular c step st) (h2 : 2 ≤ st.length)
    (hf : st.head? = some first) (hl : st.getLast? = some last) :
    ∃ out, resample c key .meters st = .ok out ∧
      StepOrdered step (out.map Station.md) ∧
      (∀ x, x ∈ out.map Station.md ↔ first.md ≤ x ∧ x ≤ last.md ∧
        (x ∈ st.map Station.md ∨ ∃ k : ℤ, x = k * step)) ∧
      ∀ (h : Sv.Header) (p : V3) (γ τ : ℝ → V3), WellPath p (dirs (gridStations h st)) γ τ →
        (∀ r ∈ gridStations h out, tangent r.inc r.azi = τ r.md) ∧
        ∀ (u : LenUnit) (o : MinCurveOut), minCurve (gridStations h out) (swap p) u = .ok o →
          o.poss = out.map fun r => swap (γ r.md) := by
  match st, h2, hf, hl with
  | s :: l :: rest, _, hf, hl =>
    obtain rfl : s = first := by simpa using hf
    obtain ⟨γ₀, τ₀, hw₀⟩ := dirs_path hr 0
    obtain ⟨out, e, -, hch, -, hmem⟩ := rows_on_path hk hr hw₀
    rw [lastMd_getLast hl] at hmem
    refine ⟨out, e, ?_, hmem, ?_⟩
    · unfold StepOrdered
      rw [List.isChain_map]
      exact hch.imp fun _ _ h => ⟨h.1, h.2.1⟩
    · intro h p γ τ hw
      obtain ⟨out', e', hd, hch', hhd, -⟩ := rows_on_path hk hr (wellPath_reference hw)
      obtain rfl : out' = out := by
        have := e'.symm.trans e
        injection this
      have hback : ∀ v : V3, rotZ (northShift h) (rotZ (-northShift h) v) = v := fun v => by
        have := rotZ_neg_rotZ (-northShift h) v
        rwa [neg_neg] at this
      have hdg : ∀ r ∈ gridStations h out', τ r.md = tangent r.inc r.azi := by
        intro r hr'
        obtain ⟨x, hx, rfl⟩ := List.mem_map.mp hr'
        simp only [gridRad_eq]
        rw [tangent_rot, ← hd x hx, hback]
      refine ⟨fun r hr' => (hdg r hr').symm, fun u o ho => ?_⟩
      have hmap : (gridStations h out').map (fun r => swap (γ r.md))
          = out'.map fun r => swap (γ r.md) := by
        unfold gridStations; rw [List.map_map]; rfl
      rw [minCurve_poss ho, ← hmap]
      refine positions_on_path (τ := τ) _ hdg ?_ _ ?_
      · unfold gridStations
        rw [List.isChain_map]
        refine hch'.imp fun x y hxy => ⟨hxy.1.le, ?_⟩
        obtain ⟨-, -, a, b, harc, ha, hb⟩ := hxy
        refine ⟨a, b, ?_, ha, hb⟩
        have := oneArc_rot (northShift h) harc
        simpa only [hback] using this
      · intro r hr'
        have hs : γ s.md = p := by
          refine hw.start (s.md, tangent s.inc (Sv.processAziRef h false s.azi).gridRad) ?_
          simp [dirs, gridStations]
        have : r.md = s.md := by
          unfold gridStations at hr'
          rw [List.head?_map] at hr'
          cases ho' : out'.head? with
          | none => rw [ho'] at hr'; simp at hr'
          | some x =>
            rw [ho'] at hr' hhd
            simp only [Option.map_some, Option.some.injEq] at hr' hhd
            rw [← hr']; exact hhd
        rw [this, hs]

/-- C183: every station of a regular survey is a station of the resampled survey, at the same depth, in
the same direction and at the same position in both position tables. -/
theorem C183_stations_kept {c : Cfg} {key : ℝ → ℤ} {step : ℝ} {st out : List Station}
    (hk : RoundsTo4 key) (hr : Regular c step st) (h2 : 2 ≤ st.length)
    (ho : resample c key .meters st = .ok out) (h : Sv.Header) (sx sn : V3) {u u' : LenUnit}
    {t t' : List V3 × List V3} (ht : Sv.positionTables h sx sn (gridStations h st) u = .ok t)
    (ht' : Sv.positionTables h sx sn (gridStations h out) u' = .ok t') {i : ℕ} {s : Station}
    (hi : st[i]? = some s) :
    ∃ (j : ℕ) (r : Station), out[j]? = some r ∧ r.md = s.md ∧
      tangent r.inc r.azi = tangent s.inc s.azi ∧ t'.1[j]? = t.1[i]? ∧ t'.2[j]? = t.2[i]? := by
  obtain ⟨first, hf⟩ : ∃ first, st.head? = some first := by
    cases st with
    | nil => simp at h2
    | cons a t => exact ⟨a, rfl⟩
  obtain ⟨last, hl⟩ : ∃ last, st.getLast? = some last := by
    cases hl : st.getLast? with
    | none => rw [List.getLast?_eq_none_iff] at hl; subst hl; simp at h2
    | some x => exact ⟨x, rfl⟩
  obtain ⟨out', e, -, hmem, hpath⟩ := C183_resampled hk hr h2 hf hl
  obtain rfl : out' = out := by
    have := e.symm.trans ho
    injection this
  have hreg : ∃ γ τ, WellPath (swap sx) (dirs (gridStations h st)) γ τ := by
    refine wellPath_exists _ ?_ ?_ _
    · intro s hs
      obtain ⟨x, -, rfl⟩ := List.mem_map.mp hs
      exact tangent_unit _ _
    · rw [dirs, List.isChain_map, gridStations, List.isChain_map]
      refine hr.intervals.imp fun a b hab => ⟨hab.1, ?_⟩
      simp only [gridRad_eq, tangent_rot]
      have := hab.2.1
      unfold angle at this ⊢
      rwa [rotZ_dot]
  obtain ⟨γ, τ, hw⟩ := hreg
  obtain ⟨hdir, hpos⟩ := hpath h _ γ τ hw
  unfold Sv.positionTables at ht ht'
  cases hm : minCurve (gridStations h st) sx u with
  | error e => rw [hm] at ht; simp at ht
  | ok o =>
    cases hm' : minCurve (gridStations h out') sx u' with
    | error e => rw [hm'] at ht'; simp at ht'
    | ok o' =>
      rw [hm] at ht
      rw [hm'] at ht'
      simp only [Except.ok.injEq] at ht ht'
      have p1 : o.poss = st.map fun r => swap (γ r.md) := by
        have := wellPath_positions hw
        rw [swap_swap] at this
        rw [minCurve_poss hm, this]
        unfold gridStations; rw [List.map_map]; rfl
      have p2 : o'.poss = out'.map fun r => swap (γ r.md) := by
        refine hpos u' o' ?_
        rw [swap_swap]; exact hm'
      have hs : s ∈ st := List.mem_of_getElem? hi
      have hsm : s.md ∈ out'.map Station.md := by
        rw [hmem]
        have hp : st.Pairwise fun x y : Station => x.md < y.md := by
          have : st.IsChain fun x y : Station => x.md < y.md := hr.intervals.imp fun _ _ h => h.1
          haveI hT : IsTrans Station fun x y => x.md < y.md := ⟨fun _ _ _ h1 h2 => h1.trans h2⟩
          exact List.isChain_iff_pairwise.mp this
        refine ⟨?_, ?_, Or.inl (List.mem_map.mpr ⟨s, hs, rfl⟩)⟩
        · obtain ⟨t0, rfl⟩ : ∃ t0, st = first :: t0 := by
            cases st with
            | nil => simp at hf
            | cons y t => exact ⟨t, by simpa using hf⟩
          rcases List.mem_cons.mp hs with rfl | hs
          · exact le_rfl
          · exact (List.rel_of_pairwise_cons hp hs).le
        · rw [List.getLast?_eq_some_iff] at hl
          obtain ⟨t0, rfl⟩ := hl
          rcases List.mem_append.mp hs with hs | hs
          · exact ((List.pairwise_append.mp hp).2.2 s hs last (by simp)).le
          · simp at hs; rw [hs]
      obtain ⟨r, hrm, hrs⟩ := List.mem_map.mp hsm
      obtain ⟨j, hj⟩ := List.mem_iff_getElem?.mp hrm
      refine ⟨j, r, hj, hrs, ?_, ?_, ?_⟩
      · have e1 := hdir { r with azi := (Sv.processAziRef h false r.azi).gridRad }
          (List.mem_map.mpr ⟨r, hrm, rfl⟩)
        have e2 := hw.dirs (s.md, tangent s.inc (Sv.processAziRef h false s.azi).gridRad)
          (by
            unfold dirs gridStations
            rw [List.map_map]
            exact List.mem_map.mpr ⟨s, hs, rfl⟩)
        simp only [gridRad_eq, hrs] at e1 e2
        rw [e2, tangent_rot, tangent_rot] at e1
        have := congrArg (rotZ (-northShift h)) e1
        rwa [rotZ_neg_rotZ, rotZ_neg_rotZ] at this
      · rw [← ht, ← ht', p1, p2]
        simp [List.getElem?_map, hi, hj, hrs]
      · rw [← ht, ← ht', p1, p2]
        simp [List.getElem?_map, hi, hj, hrs]

/-- Vertical to 30 m, then a quarter turn to the north over 100 m. -/
noncomputable def kickOff : List Station := [⟨0, 0, 0⟩, ⟨30, 0, 0⟩, ⟨130, π / 2, 0⟩]

/-- The default parameters. -/
noncomputable def defaults (step : ℝ) : Cfg :=
  ⟨30 / 1e-8, some step, fun d => |d - π| ≤ 1e-5, id⟩

/-- C183 hypotheses. -/
theorem kickOff_regular : Regular (defaults 30) 30 kickOff := by
  have hang : angle (tangent 0 0) (tangent (π / 2) 0) = π / 2 := by
    unfold angle; simp [tangent, V3.dot]
  have hsame : angle (tangent 0 0) (tangent 0 0) = 0 := angle_self (tangent_unit _ _)
  refine ⟨rfl, by norm_num, ?_, ?_⟩
  · have hw : ∀ x, OnGrid 30 (kickOff.map Station.md) x → ∃ k : ℤ, x = k * 10 := by
      rintro x (h | ⟨k, rfl⟩)
      · simp only [kickOff, List.map_cons, List.map_nil, List.mem_cons, List.not_mem_nil,
          or_false] at h
        rcases h with rfl | rfl | rfl
        · exact ⟨0, by norm_num⟩
        · exact ⟨3, by norm_num⟩
        · exact ⟨13, by norm_num⟩
      · exact ⟨3 * k, by push_cast; ring⟩
    intro x y hx hy
    obtain ⟨a, rfl⟩ := hw x hx
    obtain ⟨b, rfl⟩ := hw y hy
    rcases eq_or_ne a b with rfl | hne
    · exact Or.inl rfl
    · right
      have h1 : (1 : ℤ) ≤ |a - b| := Int.one_le_abs (sub_ne_zero.mpr hne)
      have h2 : (1 : ℝ) ≤ |(a : ℝ) - b| := by exact_mod_cast h1
      rw [← sub_mul, abs_mul, abs_of_pos (by norm_num : (0 : ℝ) < 10)]
      norm_num
      linarith
  · unfold kickOff
    refine List.IsChain.cons_cons ?_ (List.IsChain.cons_cons ?_ (List.IsChain.singleton _))
    · exact ⟨by norm_num, by rw [hsame]; exact pi_pos, Or.inl rfl⟩
    · refine ⟨by norm_num, by rw [hang]; linarith [pi_pos], Or.inr ⟨?_, ?_, ?_⟩⟩
      · rw [hang]
        simp only [defaults]
        norm_num
        linarith [pi_gt_three]
      · rw [hang, sin_pi_div_two]; norm_num
      · rw [hang]
        simp only [defaults, not_le]
        rw [abs_of_neg (by linarith [pi_pos])]
        norm_num
        linarith [pi_gt_three]

/-- Round half away from zero, in ten-thousandths: one of the roundings allowed. -/
noncomputable def round4 (x : ℝ) : ℤ := round (x * 10000)

theorem round4_rounds : RoundsTo4 round4 := fun x => by
  rw [abs_sub_comm]; exact abs_sub_round _

example : ∃ out, resample (defaults 30) round4 .meters kickOff = .ok out ∧
    (120 : ℝ) ∈ out.map Station.md := by
  obtain ⟨out, h, -, hm, -⟩ := C183_resampled (first := ⟨0, 0, 0⟩) (last := ⟨130, π / 2, 0⟩)
    round4_rounds kickOff_regular (by simp [kickOff]) rfl rfl
  exact ⟨out, h, (hm 120).mpr ⟨by norm_num, by norm_num, Or.inr ⟨4, by norm_num⟩⟩⟩

/-! ### C184 -/

/-- Two vertical stations, the second 0.03 mm below a multiple of the step. -/
noncomputable def nearStep : List Station := [⟨0, 0, 0⟩, ⟨100.00003, 0, 0⟩]

theorem nearStep_rows : holdMds 0 100.00003 (some 100) true = [0, 100, 100.00003] := by
  have hf : ⌊(0 : ℝ) / 100⌋ = 0 := by norm_num
  have he : ((100.00003 - 0 : ℝ) - (100 - (0 - 100 * ((0 : ℤ) : ℝ)))) / 100 = 3 / 10000000 := by
    norm_num
  have hc2 : ⌈(3 / 10000000 : ℝ)⌉ = 1 := by rw [Int.ceil_eq_iff]; norm_num
  unfold holdMds gridRel arange pmod
  simp only
  rw [hf, he, hc2]
  simp

/-- C184 is false of the code: a station that is less than `1e-4` below a multiple of the step is taken
for a duplicate; here the last station of the survey is lost and the resampled survey ends above it. -/
theorem C184_station_lost {key : ℝ → ℤ} (hk : RoundsTo4 key) :
    ∃ out, resample (defaults 100) key .meters nearStep = .ok out ∧
      out.map Station.md = [0, 100] ∧ (100.00003 : ℝ) ∈ nearStep.map Station.md := by
  have h0 : key 0 = 0 := by
    have := abs_le.mp (hk 0)
    have h1 : (-1 : ℝ) < key 0 := by linarith
    have h2 : (key 0 : ℝ) < 1 := by linarith
    have h3 : (-1 : ℤ) < key 0 := by exact_mod_cast h1
    have h4 : key 0 < 1 := by exact_mod_cast h2
    omega
  have h1 : key 100 = 1000000 := by
    have := abs_le.mp (hk 100)
    have h1 : (999999 : ℝ) < key 100 := by linarith
    have h2 : (key 100 : ℝ) < 1000001 := by linarith
    have h3 : (999999 : ℤ) < key 100 := by exact_mod_cast h1
    have h4 : key 100 < 1000001 := by exact_mod_cast h2
    omega
  have h2 : key 100.00003 = 1000000 := by
    have := abs_le.mp (hk 100.00003)
    norm_num at this
    have h1 : (999999 : ℝ) < key 100.00003 := by norm_num; linarith
    have h2 : (key 100.00003 : ℝ) < 1000001 := by norm_num; linarith
    have h3 : (999999 : ℤ) < key 100.00003 := by exact_mod_cast h1
    have h4 : key 100.00003 < 1000001 := by exact_mod_cast h2
    omega
  have hne : getVec 0 0 true ≠ (-1 : ℝ) • getVec 0 0 true := by
    rw [getVec_nev]
    intro h
    have := congrArg V3.z h
    simp [tangent] at this
    linarith
  have hrows : sections (defaults 100) 0 (getVec 0 0 true) [⟨100.00003, 0, 0⟩]
      = some ([0, 100, 100.00003].map fun m => (m, getVec 0 0 true)) := by
    have ht : targetVec (defaults 100) (getVec 0 0 true) (getVec 0 0 true) = getVec 0 0 true := by
      unfold targetVec; rw [if_neg hne]
    have hs : sectionRows (defaults 100) 0 (getVec 0 0 true) 100.00003 (getVec 0 0 true)
        = some ([0, 100, 100.00003].map fun m => (m, getVec 0 0 true)) := by
      unfold sectionRows
      rw [ht, if_neg (by norm_num), if_pos rfl, ← nearStep_rows]
      rfl
    simp only [sections, hs, List.append_nil]
  refine ⟨[0, 100].map fun m => toStation (m, getVec 0 0 true), ?_, ?_, by simp [nearStep]⟩
  · unfold resample nearStep
    simp only [hrows, List.map_cons, List.map_nil]
    rw [removeDuplicates_kept]
    simp [kept, pairwise, toStation, h0, h1, h2]
  · simp [toStation]

/-- C184 (partial): the stations of a regular survey are all kept. -/
theorem C184_kept_partial {c : Cfg} {key : ℝ → ℤ} {step : ℝ} {st : List Station}
    (hk : RoundsTo4 key) (hr : Regular c step st) (h2 : 2 ≤ st.length) :
    ∃ out, resample c key .meters st = .ok out ∧
      ∀ s ∈ st, ∃ r ∈ out, r.md = s.md := by
  obtain ⟨first, hf⟩ : ∃ first, st.head? = some first := by
    cases st with
    | nil => simp at h2
    | cons a t => exact ⟨a, rfl⟩
  obtain ⟨last, hl⟩ : ∃ last, st.getLast? = some last := by
    cases hl : st.getLast? with
    | none => rw [List.getLast?_eq_none_iff] at hl; subst hl; simp at h2
    | some x => exact ⟨x, rfl⟩
  obtain ⟨out, e, -, hmem, hpath⟩ := C183_resampled hk hr h2 hf hl
  refine ⟨out, e, fun s hs => ?_⟩
  obtain ⟨i, hi⟩ := List.mem_iff_getElem?.mp hs
  have hlen : (gridStations ⟨.grid, 0, 0, 1, some 0, .meters⟩ st).length = st.length := by
    simp [gridStations]
  have hm : ∃ o, minCurve (gridStations ⟨.grid, 0, 0, 1, some 0, .meters⟩ st) 0 .meters = .ok o :=
    (C07_succeeds_iff _ _ _).mpr ⟨by simp, by omega⟩
  have hout : 2 ≤ out.length := by
    have hs1 := hmem first.md
    have hs2 := hmem last.md
    match st, h2, hf, hl, hr.intervals with
    | a :: b :: t, _, hf, hl, hch =>
      obtain rfl : a = first := by simpa using hf
      have hlt : a.md < last.md := by
        rw [← lastMd_getLast hl]
        have := lastMd_ge (m := b.md) rfl ((List.isChain_cons_cons.mp hch).2.imp fun _ _ h => h.1)
        have h0 := (List.isChain_cons_cons.mp hch).1.1
        simp only [lastMd]
        linarith
      have m1 := hs1.mpr ⟨le_rfl, hlt.le, Or.inl (by simp)⟩
      have m2 := hs2.mpr ⟨hlt.le, le_rfl, Or.inl
        (List.mem_map.mpr ⟨last, List.mem_of_getLast? hl, rfl⟩)⟩
      match out, m1, m2 with
      | [], h, _ => simp at h
      | [x], h1, h2 =>
        simp only [List.map_cons, List.map_nil, List.mem_singleton] at h1 h2
        linarith
      | _ :: _ :: _, _, _ => simp
  have hm' : ∃ o, minCurve (gridStations ⟨.grid, 0, 0, 1, some 0, .meters⟩ out) 0 .meters = .ok o :=
    (C07_succeeds_iff _ _ _).mpr ⟨by simp, by simpa [gridStations] using hout⟩
  obtain ⟨o, ho⟩ := hm
  obtain ⟨o', ho'⟩ := hm'
  obtain ⟨j, r, hj, hrs, -⟩ := C183_stations_kept hk hr h2 e ⟨.grid, 0, 0, 1, some 0, .meters⟩ 0 0
    (u := .meters) (u' := .meters) (by unfold Sv.positionTables; rw [ho])
    (by unfold Sv.positionTables; rw [ho']) hi
  exact ⟨r, List.mem_of_getElem? hj, hrs⟩

/-! ### C185 -/

/-- C185 is false of the code: a survey whose header is in feet is never resampled. -/
theorem C185_feet_fail {κ : Type} [DecidableEq κ] (c : Cfg) (key : ℝ → κ) {u : LenUnit}
    (hu : u ≠ .meters) (st out : List Station) : resample c key u st ≠ .ok out := by
  unfold resample
  split
  · split
    · simp
    · split
      · simp
      · rw [if_neg hu]; simp
  · simp

/-- C185 is false of the code: a regular survey in feet. -/
theorem C185_negated : ∃ st : List Station, Regular (defaults 30) 30 st ∧ 2 ≤ st.length ∧
    ∀ out, resample (defaults 30) round4 .feet st ≠ .ok out :=
  ⟨kickOff, kickOff_regular, by simp [kickOff], fun out =>
    C185_feet_fail _ _ (by simp) _ out⟩

/-- C185 (partial): in metres the resampling succeeds. -/
theorem C185_metres_partial {c : Cfg} {key : ℝ → ℤ} {step : ℝ} {st : List Station}
    (hk : RoundsTo4 key) (hr : Regular c step st) (h2 : 2 ≤ st.length) :
    ∃ out, resample c key .meters st = .ok out := by
  obtain ⟨out, h, -⟩ := C184_kept_partial hk hr h2
  exact ⟨out, h⟩

end Welleng.Props
