import Verif.Props.Resample
import Verif.Spec.Covariance
import Mathlib.Data.List.Perm.Basic
import Mathlib.Data.List.Nodup

/-!
C186, C187: radii and covariances of a resampled survey.
-/

namespace Welleng.Props

open Real Spec Rs

theorem counts_get (fl : List Bool) (k j : ℕ) (hj : j < fl.length) :
    (counts k fl)[j]? = some (k + (fl.take (j + 1)).countP (fun b => !b)) := by
  induction fl generalizing k j with
  | nil => simp at hj
  | cons b t ih =>
    cases j with
    | zero => cases b <;> simp [counts]
    | succ j =>
      simp only [counts, List.getElem?_cons_succ]
      rw [ih _ _ (by simpa using hj)]
      cases b <;> simp <;> omega

theorem sorted_take_mem {l : List ℝ} (h : l.Pairwise (· < ·)) {i : ℕ} {a : ℝ} (hi : l[i]? = some a)
    (x : ℝ) : x ∈ l.take (i + 1) ↔ x ∈ l ∧ x ≤ a := by
  induction l generalizing i with
  | nil => simp at hi
  | cons b t ih =>
    rw [List.pairwise_cons] at h
    cases i with
    | zero =>
      obtain rfl : b = a := by simpa using hi
      simp only [zero_add, List.take_succ_cons, List.take_zero, List.mem_cons, List.not_mem_nil,
        or_false]
      constructor
      · rintro rfl; exact ⟨Or.inl rfl, le_rfl⟩
      · rintro ⟨rfl | hx, hle⟩
        · rfl
        · exact absurd (h.1 x hx) (not_lt.mpr hle)
    | succ i =>
      simp only [List.getElem?_cons_succ] at hi
      simp only [List.take_succ_cons, List.mem_cons]
      rw [ih h.2 hi]
      have hb : b < a := h.1 a (List.mem_of_getElem? hi)
      constructor
      · rintro (rfl | ⟨h1, h2⟩)
        · exact ⟨Or.inl rfl, hb.le⟩
        · exact ⟨Or.inr h1, h2⟩
      · rintro ⟨rfl | h1, h2⟩
        · exact Or.inl rfl
        · exact Or.inr ⟨h1, h2⟩

/-- The index used at a row is that of the last station at or above it. -/
theorem counts_index {orig mds : List ℝ} (ho : orig.Pairwise (· < ·)) (hm : mds.Pairwise (· < ·))
    (hsub : ∀ x ∈ orig, x ∈ mds) {i j : ℕ} {a m : ℝ} (hj : mds[j]? = some m)
    (hi : orig[i]? = some a) (h1 : a ≤ m) (h2 : ∀ b, orig[i + 1]? = some b → m < b) :
    (counts 0 (mds.map (flags orig)))[j]? = some (i + 1) := by
  classical
  have hjl : j < mds.length := (List.getElem?_eq_some_iff.mp hj).1
  have hil : i < orig.length := (List.getElem?_eq_some_iff.mp hi).1
  rw [counts_get _ _ _ (by simpa using hjl), ← List.map_take, List.countP_map, zero_add]
  congr 1
  rw [List.countP_eq_length_filter]
  have hlen : (orig.take (i + 1)).length = i + 1 := by simp; omega
  rw [← hlen]
  refine ((List.perm_ext_iff_of_nodup ?_ ?_).mpr ?_).length_eq
  · exact ((hm.imp fun h => h.ne).sublist (List.take_sublist _ _)).filter _
  · exact (ho.imp fun h => h.ne).sublist (List.take_sublist _ _)
  · intro x
    rw [List.mem_filter, sorted_take_mem hm hj, sorted_take_mem ho hi]
    simp only [flags, Function.comp_apply, Bool.not_eq_true', decide_eq_false_iff_not, not_not]
    constructor
    · rintro ⟨⟨-, hle⟩, hx⟩
      refine ⟨hx, ?_⟩
      by_contra hgt
      push Not at hgt
      obtain ⟨q, hq⟩ := List.mem_iff_getElem?.mp hx
      have hql : q < orig.length := (List.getElem?_eq_some_iff.mp hq).1
      have hiq : i < q := by
        by_contra hc
        have : x ∈ orig.take (i + 1) :=
          List.mem_iff_getElem?.mpr ⟨q, by rw [List.getElem?_take]; simp [hq]; omega⟩
        have := ((sorted_take_mem ho hi x).mp this).2
        linarith
      have hb : orig[i + 1]? = some (orig[i + 1]'(by omega)) := List.getElem?_eq_getElem (by omega)
      have hlt := h2 _ hb
      rcases Nat.lt_or_ge (i + 1) q with h | h
      · have := List.pairwise_iff_getElem.mp ho (i + 1) q (by omega) hql h
        rw [List.getElem?_eq_getElem hql] at hq
        simp only [Option.some.injEq] at hq
        linarith
      · obtain rfl : q = i + 1 := by omega
        rw [hb] at hq
        simp only [Option.some.injEq] at hq
        linarith
    · rintro ⟨hx, hle⟩
      exact ⟨⟨hsub x hx, hle.trans h1⟩, hx⟩

/-- C186: if every station of the survey is a station of the resampled survey, the radius of every
station of the latter is that of the last station of the survey at or above it. -/
theorem C186_radius {ρ : Type} {orig mds : List ℝ} {radius : List ρ}
    (ho : orig.Pairwise (· < ·)) (hm : mds.Pairwise (· < ·)) (hsub : ∀ x ∈ orig, x ∈ mds)
    {i j : ℕ} {a m : ℝ} (hj : mds[j]? = some m) (hi : orig[i]? = some a) (h1 : a ≤ m)
    (h2 : ∀ b, orig[i + 1]? = some b → m < b) :
    (radii orig radius mds)[j]? = some radius[i]? := by
  unfold radii
  rw [List.getElem?_map, counts_index ho hm hsub hj hi h1 h2]
  rfl

/-- C186: under the same condition the covariance between two stations is, entry by entry, on the
straight line between those of the two stations, and is a covariance matrix if those are. -/
theorem C186_covariance {orig mds : List ℝ} {cov : List M3}
    (ho : orig.Pairwise (· < ·)) (hm : mds.Pairwise (· < ·)) (hsub : ∀ x ∈ orig, x ∈ mds)
    {i j : ℕ} {a b m : ℝ} {c1 c2 : M3} (hj : mds[j]? = some m) (hi : orig[i]? = some a)
    (hi' : orig[i + 1]? = some b) (h1 : a ≤ m) (h2 : m < b) (hc1 : cov[i]? = some c1)
    (hc2 : cov[i + 1]? = some c2) :
    ∃ c, (covs orig cov mds)[j]? = some (some c) ∧
      (∀ x y, (c x y - c1 x y) * (b - a) = (c2 x y - c1 x y) * (m - a)) ∧
      (IsCov c1 → IsCov c2 → IsCov c) := by
  have hpos : 0 < b - a := by linarith
  have hlt : i < orig.length - 1 := by
    have := (List.getElem?_eq_some_iff.mp hi').1
    omega
  refine ⟨c1 + (m - a) • ((1 / (b - a)) • (c2 - c1)), ?_, ?_, ?_⟩
  · unfold covs
    rw [List.getElem?_zipWith, counts_index ho hm hsub hj hi h1
      (fun b' hb' => by rw [hi'] at hb'; simp at hb'; linarith), hj]
    simp only [covAt, hlt, if_true, hi, hi', hc1, hc2]
    rw [if_neg hpos.ne']
  · intro x y
    simp only [Matrix.add_apply, Matrix.smul_apply, Matrix.sub_apply, smul_eq_mul]
    field_simp
    ring
  · intro k1 k2
    have m0 : 0 ≤ (m - a) * (1 / (b - a)) := mul_nonneg (by linarith) (by positivity)
    have m1 : (m - a) * (1 / (b - a)) ≤ 1 := by
      rw [mul_one_div, div_le_one hpos]; linarith
    rw [smul_smul]
    generalize (m - a) * (1 / (b - a)) = q at m0 m1
    refine ⟨?_, ?_⟩
    · intro x y
      simp only [Matrix.add_apply, Matrix.smul_apply, Matrix.sub_apply, smul_eq_mul]
      rw [k1.symm x y, k2.symm x y]
    · intro v
      have := add_nonneg (mul_nonneg (sub_nonneg.mpr m1) (k1.nonneg v))
        (mul_nonneg m0 (k2.nonneg v))
      refine this.trans_eq ?_
      simp only [Fin.sum_univ_three, Matrix.add_apply, Matrix.smul_apply, Matrix.sub_apply,
        smul_eq_mul]
      ring

/-- C186: at the stations of the survey the covariance is unchanged, the last one included. -/
theorem C186_at_stations {orig mds : List ℝ} {cov : List M3}
    (ho : orig.Pairwise (· < ·)) (hm : mds.Pairwise (· < ·)) (hsub : ∀ x ∈ orig, x ∈ mds)
    (hlen : cov.length = orig.length) {i j : ℕ} {a : ℝ} (hj : mds[j]? = some a)
    (hi : orig[i]? = some a) : (covs orig cov mds)[j]? = some cov[i]? := by
  have hil := (List.getElem?_eq_some_iff.mp hi).1
  have h2 : ∀ b, orig[i + 1]? = some b → a < b := by
    intro b hb
    obtain ⟨q, hq⟩ := List.getElem?_eq_some_iff.mp hb
    obtain ⟨q', hq'⟩ := List.getElem?_eq_some_iff.mp hi
    have := List.pairwise_iff_getElem.mp ho i (i + 1) q' q (by omega)
    rw [hq, hq'] at this
    exact this
  rcases Nat.lt_or_ge i (orig.length - 1) with h | h
  · have hb : orig[i + 1]? = some (orig[i + 1]'(by omega)) := List.getElem?_eq_getElem (by omega)
    have e1 : cov[i]? = some (cov[i]'(by omega)) := List.getElem?_eq_getElem (by omega)
    have e2 : cov[i + 1]? = some (cov[i + 1]'(by omega)) := List.getElem?_eq_getElem (by omega)
    obtain ⟨c, hc, hl, -⟩ := C186_covariance ho hm hsub hj hi hb le_rfl (h2 _ hb) e1 e2
    rw [hc, e1]
    congr 2
    ext x y
    have := hl x y
    rw [sub_self, mul_zero] at this
    have hne : orig[i + 1]'(by omega) - a ≠ 0 := by
      have := h2 _ hb
      linarith [this] |> fun (h : 0 < orig[i + 1]'(by omega) - a) => h.ne'
    have := (mul_eq_zero.mp this).resolve_right hne
    linarith
  · unfold covs
    rw [List.getElem?_zipWith, counts_index ho hm hsub hj hi le_rfl h2, hj]
    simp only [covAt]
    rw [if_neg (by omega)]

/-- Two radii over three stations, resampled every 10. -/
example : (radii (ρ := ℕ) [0, 20, 30] [5, 6, 7] [0, 10, 20, 30])[1]? = some (some 5) :=
  C186_radius (i := 0) (a := 0) (m := 10) (by simp; norm_num) (by simp; norm_num)
    (by intro x hx; simp at hx ⊢; tauto) (by simp) (by simp) (by norm_num)
    (by intro b hb; simp at hb; rw [← hb]; norm_num)

/-! ### C187 -/

/-- Three vertical stations, the middle one 0.03 mm below a multiple of the step. -/
noncomputable def nearStep3 : List Station := [⟨0, 0, 0⟩, ⟨100.00003, 0, 0⟩, ⟨200, 0, 0⟩]

theorem nearStep3_rows : Con.holdMds 100.00003 200 (some 100) true = [100.00003, 200] := by
  have hf : ⌊(100.00003 : ℝ) / 100⌋ = 1 := by rw [Int.floor_eq_iff]; norm_num
  have he : ((200 - 100.00003 : ℝ) - (100 - (100.00003 - 100 * ((1 : ℤ) : ℝ)))) / 100 = 0 := by
    norm_num
  unfold Con.holdMds Con.gridRel Con.arange pmod
  simp only
  rw [hf, he]
  simp

theorem round4_value {key : ℝ → ℤ} (hk : RoundsTo4 key) {x : ℝ} {n : ℤ}
    (h : |x * 10000 - n| < 1 / 2) : key x = n := by
  have h1 := abs_le.mp (hk x)
  have h2 := abs_lt.mp h
  have h3 : (key x : ℝ) < n + 1 := by linarith
  have h4 : (n : ℝ) < key x + 1 := by linarith
  have h5 : key x < n + 1 := by exact_mod_cast h3
  have h6 : n < key x + 1 := by exact_mod_cast h4
  omega

/-- C187 is false of the code: with a station less than `1e-4` below a multiple of the step, which is
dropped as a duplicate, the stations below get the radius of the station above theirs. -/
theorem C187_radius_lags {ρ : Type} {key : ℝ → ℤ} (hk : RoundsTo4 key) (r0 r1 r2 : ρ) :
    ∃ out, resample (defaults 100) key .meters nearStep3 = .ok out ∧
      out.map Station.md = [0, 100, 200] ∧
      radii (nearStep3.map Station.md) [r0, r1, r2] (out.map Station.md)
        = [some r0, some r0, some r1] := by
  have k0 : key 0 = 0 := round4_value hk (by norm_num)
  have k1 : key 100 = 1000000 := round4_value hk (by norm_num)
  have k2 : key 100.00003 = 1000000 := round4_value hk (by norm_num)
  have k3 : key 200 = 2000000 := round4_value hk (by norm_num)
  have hu : (getVec 0 0 true).IsUnit := by rw [getVec_nev]; exact tangent_unit _ _
  have hne : getVec 0 0 true ≠ (-1 : ℝ) • getVec 0 0 true := by
    rw [getVec_nev]
    intro h
    have := congrArg V3.z h
    simp [tangent] at this
    linarith
  have ht : targetVec (defaults 100) (getVec 0 0 true) (getVec 0 0 true) = getVec 0 0 true := by
    unfold targetVec; rw [if_neg hne]
  have hs : ∀ a b : ℝ, a ≤ b → sectionRows (defaults 100) a (getVec 0 0 true) b (getVec 0 0 true)
      = some ((Con.holdMds a b (some 100) true).map fun m => (m, getVec 0 0 true)) := by
    intro a b hab
    unfold sectionRows
    rw [ht, if_neg (not_lt.mpr hab), if_pos rfl]
    rfl
  have hrows : sections (defaults 100) 0 (getVec 0 0 true) [⟨100.00003, 0, 0⟩, ⟨200, 0, 0⟩]
      = some ([0, 100, 100.00003, 100.00003, 200].map fun m => (m, getVec 0 0 true)) := by
    simp only [sections, ht, normalize_of_unit hu, hs 0 100.00003 (by norm_num),
      hs 100.00003 200 (by norm_num), nearStep_rows, nearStep3_rows]
    rfl
  refine ⟨[0, 100, 200].map fun m => toStation (m, getVec 0 0 true), ?_, ?_, ?_⟩
  · unfold resample nearStep3
    simp only [hrows, List.map_cons, List.map_nil]
    rw [removeDuplicates_kept]
    simp [kept, pairwise, toStation, k0, k1, k2, k3]
  · simp [toStation]
  · have f0 : flags [0, 100.00003, 200] 0 = false := by simp [flags]
    have f1 : flags [0, 100.00003, 200] 100 = true := by simp [flags]; norm_num
    have f2 : flags [0, 100.00003, 200] 200 = false := by simp [flags]
    simp only [nearStep3, toStation, radii, List.map_cons, List.map_nil, f0, f1, f2, counts,
      radiusAt]
    simp

/-- C187 (partial): in the resampled survey of a regular survey each station has the radius of the last
station of the survey at or above it. -/
theorem C187_regular_partial {ρ : Type} {c : Cfg} {key : ℝ → ℤ} {step : ℝ} {st : List Station}
    {radius : List ρ} (hk : RoundsTo4 key) (hr : Regular c step st) (h2 : 2 ≤ st.length) :
    ∃ out, resample c key .meters st = .ok out ∧
      ∀ (i j : ℕ) (s r : Station), st[i]? = some s → out[j]? = some r → s.md ≤ r.md →
        (∀ s', st[i + 1]? = some s' → r.md < s'.md) →
        (radii (st.map Station.md) radius (out.map Station.md))[j]? = some radius[i]? := by
  obtain ⟨first, hf⟩ : ∃ first, st.head? = some first := by
    cases st with
    | nil => simp at h2
    | cons a t => exact ⟨a, rfl⟩
  obtain ⟨last, hl⟩ : ∃ last, st.getLast? = some last := by
    cases hl : st.getLast? with
    | none => rw [List.getLast?_eq_none_iff] at hl; subst hl; simp at h2
    | some x => exact ⟨x, rfl⟩
  obtain ⟨out, e, hord, -, -⟩ := C183_resampled hk hr h2 hf hl
  obtain ⟨out', e', hkept⟩ := C184_kept_partial hk hr h2
  obtain rfl : out' = out := by
    have := e'.symm.trans e
    injection this
  refine ⟨out', e, fun i j s r hi hj h1 h2 => ?_⟩
  refine C186_radius (a := s.md) (m := r.md) ?_ ?_ ?_ ?_ ?_ h1 ?_
  · have h : (st.map Station.md).IsChain (· < ·) := by
      rw [List.isChain_map]; exact hr.intervals.imp fun _ _ h => h.1
    exact List.isChain_iff_pairwise.mp h
  · have h : (out'.map Station.md).IsChain (· < ·) := hord.imp fun _ _ h => h.1
    exact List.isChain_iff_pairwise.mp h
  · intro x hx
    obtain ⟨s, hs, rfl⟩ := List.mem_map.mp hx
    obtain ⟨r, hr, hrs⟩ := hkept s hs
    exact List.mem_map.mpr ⟨r, hr, hrs⟩
  · rw [List.getElem?_map, hj]; rfl
  · rw [List.getElem?_map, hi]; rfl
  · intro b hb
    rw [List.getElem?_map] at hb
    cases hs : st[i + 1]? with
    | none => rw [hs] at hb; simp at hb
    | some s' =>
      rw [hs] at hb
      simp only [Option.map_some, Option.some.injEq] at hb
      rw [← hb]
      exact h2 s' hs

end Welleng.Props
