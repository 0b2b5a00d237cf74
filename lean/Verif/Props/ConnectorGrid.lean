import Verif.Spec.Grid
import Verif.Lemmas.Connector
import Mathlib.Tactic.FieldSimp
import Mathlib.Tactic.NormNum

/-!
C39, C76: depths of an interpolated connector.
-/

namespace Welleng.Props

open Real Spec Con

theorem start_mem (md1 : ℝ) {st : ℝ} (hst : 0 < st) :
    0 < st - pmod md1 st ∧ st - pmod md1 st ≤ st :=
  ⟨by linarith [pmod_lt md1 hst], by linarith [pmod_nonneg md1 hst]⟩

/-- Depths `acc, acc + st, …` (`n` of them), then what follows. -/
theorem chain_arange {st e : ℝ} (hst : 0 < st) (rest : List ℝ) :
    ∀ (n : ℕ) (prev s : ℝ), prev < s → s - prev ≤ st → s + n * st - st < e →
      e ≤ s + n * st → prev < e → e - prev ≤ st ∨ 0 < n → StepOrdered st (e :: rest) →
      StepOrdered st (prev :: ((List.range n).map (fun k : ℕ => s + k * st) ++ e :: rest))
  | 0, prev, s, _, _, _, _, h5, h6, h7 => by
    simp only [List.range_zero, List.map_nil, List.nil_append]
    refine List.IsChain.cons_cons ⟨h5, ?_⟩ h7
    rcases h6 with h | h
    · exact h
    · exact absurd h (lt_irrefl _)
  | n + 1, prev, s, h1, h2, h3, h4, h5, _, h7 => by
    rw [List.range_succ_eq_map, List.map_cons, List.map_map, List.cons_append]
    push_cast at h3 h4 ⊢
    simp only [zero_mul, add_zero]
    refine List.IsChain.cons_cons ⟨h1, h2⟩ ?_
    have e1 : (fun k : ℕ => s + (k : ℝ) * st) ∘ Nat.succ
        = fun k : ℕ => (s + st) + (k : ℝ) * st := by
      funext k; simp only [Function.comp]; push_cast; ring
    rw [e1]
    have hse : s < e := by
      have : (0 : ℝ) ≤ n * st := by positivity
      nlinarith
    refine chain_arange hst rest n s (s + st) (by linarith) (by linarith) (by nlinarith)
      (by nlinarith) hse ?_ h7
    rcases Nat.eq_zero_or_pos n with h | h
    · left; subst h; simp at h4; linarith
    · right; exact h

theorem ceil_facts {start stop st : ℝ} (hst : 0 < st) (hlt : start < stop) :
    start + (⌈(stop - start) / st⌉.toNat : ℝ) * st - st < stop ∧
    stop ≤ start + (⌈(stop - start) / st⌉.toNat : ℝ) * st ∧
    0 < ⌈(stop - start) / st⌉.toNat := by
  have hpos : 0 < (stop - start) / st := div_pos (by linarith) hst
  have hc : 0 < ⌈(stop - start) / st⌉ := Int.ceil_pos.mpr hpos
  have hcast : ((⌈(stop - start) / st⌉.toNat : ℕ) : ℝ) = (⌈(stop - start) / st⌉ : ℝ) := by
    have : ((⌈(stop - start) / st⌉.toNat : ℤ)) = ⌈(stop - start) / st⌉ :=
      Int.toNat_of_nonneg hc.le
    exact_mod_cast this
  rw [hcast]
  have h1 := Int.le_ceil ((stop - start) / st)
  have h2 := Int.ceil_lt_add_one ((stop - start) / st)
  rw [div_le_iff₀ hst] at h1
  have h3 : (⌈(stop - start) / st⌉ : ℝ) - 1 < (stop - start) / st := by linarith
  rw [lt_div_iff₀ hst] at h3
  exact ⟨by linarith, by linarith, by omega⟩

/-- The relative grid followed by its end point and anything ordered after that. -/
theorem gridRel_ordered {md1 e st : ℝ} (hst : 0 < st) (he : 0 < e) (rest : List ℝ)
    (hrest : StepOrdered st (e :: rest)) :
    StepOrdered st (gridRel md1 e (some st) false ++ e :: rest) := by
  unfold gridRel arange
  simp only [Bool.false_eq_true, if_false, List.cons_append]
  obtain ⟨s0, s1⟩ := start_mem md1 hst
  rcases lt_or_ge (st - pmod md1 st) e with h | h
  · obtain ⟨c1, c2, c3⟩ := ceil_facts hst h
    have hs1 : st - pmod md1 st - 0 ≤ st := by linarith
    exact chain_arange hst rest _ 0 _ s0 hs1 c1 c2 he (Or.inr c3) hrest
  · have : ⌈(e - (st - pmod md1 st)) / st⌉.toNat = 0 := by
      apply Int.toNat_of_nonpos
      apply Int.ceil_le.mpr
      rw [Int.cast_zero]
      exact div_nonpos_of_nonpos_of_nonneg (by linarith) hst.le
    rw [this]
    simp only [List.range_zero, List.map_nil, List.nil_append]
    exact List.IsChain.cons_cons ⟨he, by linarith⟩ hrest

theorem mem_arange {start stop st x : ℝ} (hst : 0 < st) :
    x ∈ arange start stop st ↔ ∃ k : ℕ, x = start + k * st ∧ x < stop := by
  unfold arange
  simp only [List.mem_map, List.mem_range, Int.lt_toNat]
  constructor
  · rintro ⟨k, hk, rfl⟩
    refine ⟨k, rfl, ?_⟩
    have := Int.lt_ceil.mp hk
    rw [Int.cast_natCast, lt_div_iff₀ hst] at this
    linarith
  · rintro ⟨k, rfl, hlt⟩
    refine ⟨k, ?_, rfl⟩
    rw [Int.lt_ceil, Int.cast_natCast, lt_div_iff₀ hst]
    linarith

/-- A depth strictly inside the section is on the grid iff it is a multiple of the step. -/
theorem mem_grid_inside {md1 e st x : ℝ} (hst : 0 < st) (h0 : md1 < x) (h1 : x < md1 + e)
    (endpoint : Bool) :
    x ∈ (gridRel md1 e (some st) endpoint).map (· + md1) ↔ ∃ k : ℤ, x = k * st := by
  have hmem : x ∈ (gridRel md1 e (some st) endpoint).map (· + md1)
      ↔ x - md1 ∈ arange (st - pmod md1 st) e st := by
    rw [List.mem_map]
    have : (∃ a ∈ gridRel md1 e (some st) endpoint, a + md1 = x)
        ↔ x - md1 ∈ gridRel md1 e (some st) endpoint := by
      constructor
      · rintro ⟨a, ha, rfl⟩; simpa using ha
      · intro h; exact ⟨_, h, by ring⟩
    rw [this]
    unfold gridRel
    have n0 : x - md1 ≠ 0 := by linarith [h0] |> fun (h : 0 < x - md1) => h.ne'
    have n1 : x - md1 ≠ e := fun h => by linarith
    cases endpoint <;> simp [n0, n1]
  rw [hmem, mem_arange hst]
  have hp : pmod md1 st = md1 - st * ⌊md1 / st⌋ := rfl
  have hfl := Int.lt_floor_add_one (md1 / st)
  have hfl2 := Int.floor_le (md1 / st)
  rw [div_lt_iff₀ hst] at hfl
  rw [le_div_iff₀ hst] at hfl2
  constructor
  · rintro ⟨k, hk, -⟩
    refine ⟨⌊md1 / st⌋ + 1 + k, ?_⟩
    push_cast
    rw [hp] at hk
    linarith
  · rintro ⟨k, rfl⟩
    have hk : ⌊md1 / st⌋ + 1 ≤ k := by
      by_contra hc
      have : k ≤ ⌊md1 / st⌋ := by omega
      have : (k : ℝ) ≤ (⌊md1 / st⌋ : ℝ) := by exact_mod_cast this
      nlinarith
    obtain ⟨m, hm⟩ := Int.eq_ofNat_of_zero_le (show 0 ≤ k - (⌊md1 / st⌋ + 1) by omega)
    refine ⟨m, ?_, by linarith⟩
    have : (k : ℝ) = m + ⌊md1 / st⌋ + 1 := by
      have : k = m + ⌊md1 / st⌋ + 1 := by omega
      exact_mod_cast this
    rw [this, hp]
    ring

theorem stepOrdered_map {st c : ℝ} {l : List ℝ} (h : StepOrdered st l) :
    StepOrdered st (l.map (· + c)) := by
  unfold StepOrdered at *
  rw [List.isChain_map]
  refine h.imp ?_
  intro x y ⟨h1, h2⟩
  exact ⟨by linarith, by linarith⟩

theorem gridRel_true (md1 e : ℝ) (step : Option ℝ) :
    gridRel md1 e step true = gridRel md1 e step false ++ [e] := by
  unfold gridRel; simp

theorem gridRel_head (md1 e : ℝ) (step : Option ℝ) :
    ∃ t, gridRel md1 e step false = 0 :: t := by
  unfold gridRel; cases step <;> simp

theorem section_grid {md1 e st : ℝ} (hst : 0 < st) (he : 0 < e) :
    AlignedGrid md1 (md1 + e) st ((gridRel md1 e (some st) true).map (· + md1)) := by
  refine ⟨?_, ?_, ?_, ?_⟩
  · rw [gridRel_true]
    obtain ⟨t, ht⟩ := gridRel_head md1 e (some st)
    rw [ht]; simp
  · rw [gridRel_true]; simp [add_comm]
  · rw [gridRel_true]
    exact stepOrdered_map (gridRel_ordered hst he [] (List.IsChain.singleton _))
  · intro x h0 h1
    exact mem_grid_inside hst h0 h1 true

/-- C39: the depths of a hold section of positive length. -/
theorem C39_hold_grid {md1 md2 st : ℝ} (hst : 0 < st) (h : md1 < md2) :
    AlignedGrid md1 md2 st (holdMds md1 md2 (some st) true) := by
  have := section_grid (md1 := md1) hst (sub_pos.mpr h)
  rwa [add_sub_cancel] at this

/-- C39: the depths of a curve section of positive length. -/
theorem C39_curve_grid {md1 distCurve st : ℝ} (hst : 0 < st) (h : 0 < distCurve) :
    AlignedGrid md1 (md1 + distCurve) st (curveMds md1 distCurve (some st) true) := by
  unfold curveMds
  rw [if_neg h.ne', abs_of_pos h]
  exact section_grid hst h

/-- C39 hypotheses: a hold from 45 to 130 with a step of 30 gives 45, 60, 90, 120, 130. -/
example : holdMds 45 130 (some 30) true = [45, 60, 90, 120, 130] := by
  have hf : ⌊(45 : ℝ) / 30⌋ = 1 := by rw [Int.floor_eq_iff]; norm_num
  have he : ((130 - 45 : ℝ) - (30 - (45 - 30 * ((1 : ℤ) : ℝ)))) / 30 = 7 / 3 := by norm_num
  have hc2 : ⌈(7 / 3 : ℝ)⌉ = 3 := by rw [Int.ceil_eq_iff]; norm_num
  unfold holdMds gridRel arange pmod
  simp only
  rw [hf, he, hc2]
  simp [List.range_succ]
  norm_num

/-- C76: a curve of positive length followed by a hold of positive length. -/
theorem C76_curve_hold_partial {md1 distCurve mdT st : ℝ} (hst : 0 < st) (h1 : 0 < distCurve)
    (h2 : md1 + distCurve < mdT) :
    StepOrdered st (curveHoldMds md1 distCurve (md1 + distCurve) mdT (some st)) := by
  unfold curveHoldMds curveMds
  rw [if_neg h1.ne', abs_of_pos h1]
  have h := (C39_hold_grid hst h2)
  obtain ⟨t, ht⟩ : ∃ t, holdMds (md1 + distCurve) mdT (some st) true
      = (md1 + distCurve) :: t := by
    cases hl : holdMds (md1 + distCurve) mdT (some st) true with
    | nil => have := h.first; rw [hl] at this; simp at this
    | cons a t =>
      have := h.first; rw [hl] at this
      simp at this
      exact ⟨t, by rw [this]⟩
  have hord := h.ordered
  rw [ht] at hord ⊢
  have hrel : StepOrdered st (distCurve :: t.map (· + -md1)) := by
    have := stepOrdered_map (c := -md1) hord
    rw [List.map_cons] at this
    rwa [show md1 + distCurve + -md1 = distCurve by ring] at this
  have := stepOrdered_map (c := md1) (gridRel_ordered (md1 := md1) hst h1 _ hrel)
  rw [List.map_append, List.map_cons, List.map_map] at this
  have hid : ((fun x => x + md1) ∘ fun x => x + -md1) = id := by
    funext x; simp
  rwa [hid, List.map_id, add_comm distCurve md1] at this

/-- C76: the whole curve-hold-curve path, every section of positive length. -/
theorem C76_curve_hold_curve_partial {md1 distCurve md2 md3 distCurve2 st : ℝ} (hst : 0 < st)
    (h1 : 0 < distCurve) (hm : md2 = md1 + distCurve) (h2 : md2 < md3) (h3 : 0 < distCurve2) :
    StepOrdered st (curveHoldCurveMds md1 distCurve md2 md3 distCurve2 (some st)) := by
  have shift : ∀ (a e : ℝ) (t : List ℝ), 0 < e → StepOrdered st ((a + e) :: t) →
      StepOrdered st ((gridRel a e (some st) false).map (· + a) ++ (a + e) :: t) := by
    intro a e t he hord
    have hrel : StepOrdered st (e :: t.map (· + -a)) := by
      have := stepOrdered_map (c := -a) hord
      rw [List.map_cons] at this
      rwa [show a + e + -a = e by ring] at this
    have := stepOrdered_map (c := a) (gridRel_ordered (md1 := a) hst he _ hrel)
    rw [List.map_append, List.map_cons, List.map_map] at this
    have hid : ((fun x => x + a) ∘ fun x => x + -a) = id := by funext x; simp
    rwa [hid, List.map_id, add_comm e a] at this
  unfold curveHoldCurveMds
  have hl3 : ∃ t, curveMds md3 distCurve2 (some st) true = md3 :: t ∧
      StepOrdered st (md3 :: t) := by
    have h := C39_curve_grid (md1 := md3) hst h3
    cases hl : curveMds md3 distCurve2 (some st) true with
    | nil => have := h.first; rw [hl] at this; simp at this
    | cons a t =>
      have hf := h.first
      have ho := h.ordered
      rw [hl] at hf ho
      simp at hf
      subst hf
      exact ⟨t, rfl, ho⟩
  obtain ⟨t3, e3, o3⟩ := hl3
  have o2 := shift md2 (md3 - md2) t3 (by linarith) (by rwa [add_sub_cancel])
  rw [add_sub_cancel] at o2
  obtain ⟨t2, ht2⟩ := gridRel_head md2 (md3 - md2) (some st)
  rw [List.append_assoc, e3]
  unfold curveMds holdMds
  rw [if_neg h1.ne', abs_of_pos h1]
  rw [ht2, List.map_cons, zero_add, List.cons_append] at o2 ⊢
  rw [hm] at o2 ⊢
  exact shift md1 distCurve _ h1 o2

/-- C76 is false when the straight between two curves has no length: its depth is listed
twice, so the depths do not increase strictly. -/
theorem C76_zero_hold_duplicates {md1 distCurve md2 distCurve2 st : ℝ} (hst : 0 < st)
    (h3 : 0 < distCurve2) :
    ¬ StepOrdered st (curveHoldCurveMds md1 distCurve md2 md2 distCurve2 (some st)) := by
  intro h
  unfold curveHoldCurveMds at h
  have hh : holdMds md2 md2 (some st) false = [md2] := by
    unfold holdMds gridRel
    have : arange (st - pmod md2 st) (md2 - md2) st = [] := by
      unfold arange
      have : ⌈(md2 - md2 - (st - pmod md2 st)) / st⌉.toNat = 0 := by
        apply Int.toNat_of_nonpos
        apply Int.ceil_le.mpr
        rw [Int.cast_zero]
        exact div_nonpos_of_nonpos_of_nonneg (by linarith [(start_mem md2 hst).1]) hst.le
      rw [this]; rfl
    rw [sub_self] at this
    simp [this]
  obtain ⟨t, ht⟩ : ∃ t, curveMds md2 distCurve2 (some st) true = md2 :: t := by
    unfold curveMds
    rw [if_neg h3.ne', gridRel_true]
    obtain ⟨t, ht⟩ := gridRel_head md2 |distCurve2| (some st)
    rw [ht]; simp
  rw [hh, ht, List.append_assoc] at h
  have := (List.isChain_append.mp h).2.1
  simp at this

/-- The same for a final hold without length: `[md, md]`. -/
theorem C76_zero_final_hold {md st : ℝ} (hst : 0 < st) :
    holdMds md md (some st) true = [md, md] := by
  unfold holdMds gridRel
  have : arange (st - pmod md st) (md - md) st = [] := by
    unfold arange
    have : ⌈(md - md - (st - pmod md st)) / st⌉.toNat = 0 := by
      apply Int.toNat_of_nonpos
      apply Int.ceil_le.mpr
      rw [Int.cast_zero]
      exact div_nonpos_of_nonpos_of_nonneg (by linarith [(start_mem md hst).1]) hst.le
    rw [this]; rfl
  rw [sub_self] at this
  simp [this]

example : ¬ StepOrdered 30 (curveHoldCurveMds 0 100 100 100 50 (some 30)) :=
  C76_zero_hold_duplicates (by norm_num) (by norm_num)

example : StepOrdered 30 (curveHoldCurveMds 0 100 100 220 50 (some 30)) :=
  C76_curve_hold_curve_partial (by norm_num) (by norm_num) (by norm_num) (by norm_num)
    (by norm_num)

end Welleng.Props
