import Verif.Model.ResampleTvd
import Verif.Spec.Levels
import Verif.Lemmas.WellPath
import Verif.Lemmas.ConnectorSolve
import Mathlib.Algebra.Order.Floor.Ring
import Mathlib.Tactic.Linarith
import Mathlib.Tactic.NormNum

/-!
Properties C191-C195: resampling a survey at regular vertical depths
(`/repo/welleng/survey.py` 2848-2917).
-/

namespace Welleng.Props

open Real Welleng Spec Rt

/-- The result: the stations after `a`, each preceded by the levels passed since the one before. -/
def Resampled (z0 step : ℝ) (mdAt : ℝ → ℝ → ℝ) : ℝ × ℝ → List (ℝ × ℝ) → List Nd → Prop
  | _, [], out => out = []
  | a, b :: rest, out => ∃ (ls : List ℝ) (tail : List Nd), LevelsBetween z0 step a.2 b.2 ls ∧
      out = ls.map (fun x => ⟨mdAt b.1 x, x, true⟩) ++ ⟨b.1, b.2, false⟩ :: tail ∧
      Resampled z0 step mdAt b rest tail

/-- From `a` to `b` the measured depth of a level is found, within tolerance of the station `b` only for
a level at `b` itself; the stations are not within tolerance of each other. -/
def LevelsApart (c : Cfg) (z0 : ℝ) (a b : ℝ × ℝ) : Prop :=
  ¬ c.near a.1 b.1 ∧ c.mdAt b.1 b.2 = b.1 ∧ c.near b.1 b.1 ∧
    ∀ x, OnLevel z0 c.step x → min a.2 b.2 ≤ x → x ≤ max a.2 b.2 → x ≠ b.2 →
      ¬ c.near (c.mdAt b.1 x) b.1

theorem onLevel_add {z0 step x : ℝ} (h : OnLevel z0 step x) : OnLevel z0 step (x + step) := by
  obtain ⟨k, rfl⟩ := h
  exact ⟨k + 1, by push_cast; ring⟩

theorem onLevel_sub {z0 step x : ℝ} (h : OnLevel z0 step x) : OnLevel z0 step (x - step) := by
  obtain ⟨k, rfl⟩ := h
  exact ⟨k - 1, by push_cast; ring⟩

theorem onLevel_unique {z0 step x y : ℝ} (hs : 0 < step) (hx : OnLevel z0 step x)
    (hy : OnLevel z0 step y) (h1 : x < y + step) (h2 : y ≤ x) : x = y := by
  obtain ⟨k, rfl⟩ := hx
  obtain ⟨m, rfl⟩ := hy
  have h3 : (k : ℝ) < m + 1 := by
    have : (k : ℝ) * step < (m + 1) * step := by linarith
    exact lt_of_mul_lt_mul_right this hs.le
  have h4 : (m : ℝ) ≤ k := by
    have : (m : ℝ) * step ≤ k * step := by linarith
    exact le_of_mul_le_mul_right this hs
  have h5 : k < m + 1 := by exact_mod_cast h3
  have h6 : m ≤ k := by exact_mod_cast h4
  rw [show k = m by omega]

/-- The loop on the way down. -/
theorem interval_down {c : Cfg} {z0 : ℝ} (hs : 0 < c.step) {b : ℝ × ℝ} (M : ℕ) :
    ∀ (n1 : Nd) (rest : List Nd) (t : ℝ), OnLevel z0 c.step t → t ≤ n1.z → n1.z < t + c.step →
      n1.z < b.2 → t + M * c.step < b.2 → b.2 ≤ t + (M + 1) * c.step →
      ¬ c.near n1.md b.1 → c.mdAt b.1 b.2 = b.1 → c.near b.1 b.1 →
      (∀ x, OnLevel z0 c.step x → n1.z ≤ x → x < b.2 → ¬ c.near (c.mdAt b.1 x) b.1) →
      ∃ (ls : List ℝ) (t' : ℝ), OnLevel z0 c.step t' ∧ t' ≤ b.2 ∧ b.2 < t' + c.step ∧
        ls.Pairwise (· < ·) ∧ (∀ x, x ∈ ls ↔ n1.z < x ∧ x < b.2 ∧ OnLevel z0 c.step x) ∧
        ∀ k, interval c b (M + 2 + k) (n1 :: rest) t = some (⟨b.1, b.2, false⟩ ::
          ((ls.map fun x => (⟨c.mdAt b.1 x, x, true⟩ : Nd)).reverse ++ n1 :: rest), t') := by
  induction M with
  | zero =>
    intro n1 rest t ht h1 h2 h3 h4 h5 hn hm hr hl
    simp only [Nat.cast_zero, zero_mul, add_zero, zero_add, one_mul] at h4 h5
    have hno : ∀ x, ¬ (n1.z < x ∧ x < b.2 ∧ OnLevel z0 c.step x) := by
      rintro x ⟨a1, a2, a3⟩
      have := onLevel_unique hs a3 ht (by linarith) (by linarith)
      linarith
    rcases h5.lt_or_eq with h5 | h5
    · refine ⟨[], t, ht, h4.le, h5, .nil, fun x => ?_, fun k => ?_⟩
      · simp only [List.not_mem_nil, false_iff]; exact hno x
      · rw [show 0 + 2 + k = (k + 1) + 1 by omega, interval, if_neg hn,
          if_neg (by rintro ⟨-, h⟩; linarith), if_neg (by rintro ⟨-, h⟩; linarith)]
        rfl
    · refine ⟨[], t + c.step, onLevel_add ht, h5.ge, by linarith, .nil, fun x => ?_, fun k => ?_⟩
      · simp only [List.not_mem_nil, false_iff]; exact hno x
      · rw [show 0 + 2 + k = (k + 1) + 1 by omega, interval, if_neg hn,
          if_neg (by rintro ⟨-, h⟩; linarith), if_pos ⟨h2, h5.ge⟩, interval]
        rw [← h5, hm, if_pos hr]
        rfl
  | succ M ih =>
    intro n1 rest t ht h1 h2 h3 h4 h5 hn hm hr hl
    push_cast at h4 h5
    have hMs : 0 ≤ (M : ℝ) * c.step := by positivity
    have hlt : t + c.step < b.2 := by linarith
    obtain ⟨ls, t', e1, e2, e3, e4, e5, e6⟩ := ih ⟨c.mdAt b.1 (t + c.step), t + c.step, true⟩
      (n1 :: rest) (t + c.step) (onLevel_add ht) le_rfl (by simp only; linarith) hlt (by linarith)
      (by linarith) (hl _ (onLevel_add ht) h2.le hlt) hm hr
      (fun x hx a1 a2 => hl x hx (by simp only at a1; linarith) a2)
    refine ⟨(t + c.step) :: ls, t', e1, e2, e3, ?_, fun x => ?_, fun k => ?_⟩
    · refine List.pairwise_cons.mpr ⟨fun x hx => ((e5 x).mp hx).1, e4⟩
    · rw [List.mem_cons, e5]
      constructor
      · rintro (rfl | ⟨a1, a2, a3⟩)
        · exact ⟨h2, hlt, onLevel_add ht⟩
        · exact ⟨by simp only at a1; linarith, a2, a3⟩
      · rintro ⟨a1, a2, a3⟩
        by_cases hx : x < t + c.step
        · have := onLevel_unique hs a3 ht hx (by linarith)
          linarith
        · rcases (not_lt.mp hx).lt_or_eq with hx | hx
          · exact .inr ⟨hx, a2, a3⟩
          · exact .inl hx.symm
    · rw [show M + 1 + 2 + k = (M + 2 + k) + 1 by omega, interval, if_neg hn,
        if_neg (by rintro ⟨-, h⟩; linarith), if_pos ⟨h2, hlt.le⟩, e6 k]
      simp

/-- The loop on the way up, to a station that is not at a level. -/
theorem interval_up {c : Cfg} {z0 : ℝ} (hs : 0 < c.step) {b : ℝ × ℝ} (hb : ¬ OnLevel z0 c.step b.2)
    (M : ℕ) :
    ∀ (n1 : Nd) (rest : List Nd) (t : ℝ), OnLevel z0 c.step t → t < n1.z → n1.z ≤ t + c.step →
      b.2 < n1.z → t - M * c.step < b.2 → b.2 < t - M * c.step + c.step →
      ¬ c.near n1.md b.1 →
      (∀ x, OnLevel z0 c.step x → b.2 < x → x ≤ n1.z → ¬ c.near (c.mdAt b.1 x) b.1) →
      ∃ (ls : List ℝ) (t' : ℝ), OnLevel z0 c.step t' ∧ t' < b.2 ∧ b.2 < t' + c.step ∧
        ls.Pairwise (· > ·) ∧ (∀ x, x ∈ ls ↔ b.2 < x ∧ x < n1.z ∧ OnLevel z0 c.step x) ∧
        ∀ k, interval c b (M + 1 + k) (n1 :: rest) t = some (⟨b.1, b.2, false⟩ ::
          ((ls.map fun x => (⟨c.mdAt b.1 x, x, true⟩ : Nd)).reverse ++ n1 :: rest), t') := by
  induction M with
  | zero =>
    intro n1 rest t ht h1 h2 h3 h4 h5 hn hl
    simp only [Nat.cast_zero, zero_mul, sub_zero] at h4 h5
    refine ⟨[], t, ht, h4, h5, .nil, fun x => ?_, fun k => ?_⟩
    · simp only [List.not_mem_nil, false_iff]
      rintro ⟨a1, a2, a3⟩
      have := onLevel_unique hs a3 ht (by linarith) (by linarith)
      linarith
    · rw [show 0 + 1 + k = k + 1 by omega, interval, if_neg hn,
        if_neg (by rintro ⟨-, h⟩; linarith), if_neg (by rintro ⟨-, h⟩; linarith)]
      rfl
  | succ M ih =>
    intro n1 rest t ht h1 h2 h3 h4 h5 hn hl
    push_cast at h4 h5
    have hMs : 0 ≤ (M : ℝ) * c.step := by positivity
    have hlt : b.2 < t := by linarith
    obtain ⟨ls, t', e1, e2, e3, e4, e5, e6⟩ := ih ⟨c.mdAt b.1 t, t, true⟩
      (n1 :: rest) (t - c.step) (onLevel_sub ht) (by simp only; linarith) (by simp only; linarith) hlt
      (by linarith) (by linarith) (hl _ ht hlt h1.le)
      (fun x hx a1 a2 => hl x hx a1 (by simp only at a2; linarith))
    refine ⟨t :: ls, t', e1, e2, e3, ?_, fun x => ?_, fun k => ?_⟩
    · refine List.pairwise_cons.mpr ⟨fun x hx => ((e5 x).mp hx).2.1, e4⟩
    · rw [List.mem_cons, e5]
      constructor
      · rintro (rfl | ⟨a1, a2, a3⟩)
        · exact ⟨hlt, h1, ht⟩
        · exact ⟨a1, by simp only at a2; linarith, a3⟩
      · rintro ⟨a1, a2, a3⟩
        by_cases hx : x < t
        · exact .inr ⟨a1, hx, a3⟩
        · exact .inl (onLevel_unique hs a3 ht (by linarith) (not_lt.mp hx))
    · rw [show M + 1 + 1 + k = (M + 1 + k) + 1 by omega, interval, if_neg hn,
        if_pos ⟨h1, hlt.le⟩, e6 k]
      simp

/-- The number of levels passed on the way down. -/
theorem count_down {step t z : ℝ} (hs : 0 < step) (h : t < z) :
    ∃ M : ℕ, t + M * step < z ∧ z ≤ t + (M + 1) * step := by
  have hq : 0 < (z - t) / step := div_pos (by linarith) hs
  have hc : 0 < ⌈(z - t) / step⌉ := Int.ceil_pos.mpr hq
  obtain ⟨M, hM⟩ := Int.eq_ofNat_of_zero_le (show (0 : ℤ) ≤ ⌈(z - t) / step⌉ - 1 by omega)
  have hM' : (⌈(z - t) / step⌉ : ℝ) = M + 1 := by
    have : ⌈(z - t) / step⌉ = M + 1 := by omega
    rw [this]; push_cast; ring
  refine ⟨M, ?_, ?_⟩
  · have h1 := Int.ceil_lt_add_one ((z - t) / step)
    rw [hM'] at h1
    have h2 : (M : ℝ) < (z - t) / step := by linarith
    have := (lt_div_iff₀ hs).mp h2
    linarith
  · have h1 := Int.le_ceil ((z - t) / step)
    rw [hM'] at h1
    have := (div_le_iff₀ hs).mp h1
    linarith

/-- The number of levels passed on the way up. -/
theorem count_up {z0 step t z y : ℝ} (hs : 0 < step) (ht : OnLevel z0 step t)
    (hz : ¬ OnLevel z0 step z) (h : z < y) (hy : y ≤ t + step) :
    ∃ M : ℕ, t - M * step < z ∧ z < t - M * step + step := by
  by_cases hzt : t < z
  · exact ⟨0, by simpa using hzt, by simp; linarith⟩
  · have hzt : z ≤ t := not_lt.mp hzt
    have hq : 0 ≤ (t - z) / step := div_nonneg (by linarith) hs.le
    refine ⟨⌊(t - z) / step⌋₊ + 1, ?_, ?_⟩
    · have := Nat.lt_floor_add_one ((t - z) / step)
      have := (div_lt_iff₀ hs).mp this
      push_cast
      linarith
    · have := Nat.floor_le hq
      have := (le_div_iff₀ hs).mp this
      push_cast
      have hne : z ≠ t - ⌊(t - z) / step⌋₊ * step := by
        intro he
        apply hz
        obtain ⟨k, rfl⟩ := ht
        exact ⟨k - ⌊(z0 + k * step - z) / step⌋₊, he.trans (by push_cast; ring)⟩
      rcases lt_or_gt_of_ne hne with h | h <;> linarith

/-- One interval, from a station within the current step. -/
theorem interval_one {c : Cfg} {z0 : ℝ} (hs : 0 < c.step) {a b : ℝ × ℝ} {t : ℝ}
    (ht : OnLevel z0 c.step t) (h1 : t ≤ a.2) (h2 : a.2 < t + c.step)
    (hup : b.2 < a.2 → t < a.2 ∧ ¬ OnLevel z0 c.step b.2) (hl : LevelsApart c z0 a b)
    (rest : List Nd) :
    ∃ (ls : List ℝ) (t' : ℝ) (K : ℕ), OnLevel z0 c.step t' ∧ t' ≤ b.2 ∧ b.2 < t' + c.step ∧
      LevelsBetween z0 c.step a.2 b.2 ls ∧
      ∀ k, interval c b (K + k) (⟨a.1, a.2, false⟩ :: rest) t = some (⟨b.1, b.2, false⟩ ::
        ((ls.map fun x => (⟨c.mdAt b.1 x, x, true⟩ : Nd)).reverse ++ ⟨a.1, a.2, false⟩ :: rest),
          t') := by
  obtain ⟨hn, hm, hr, hx⟩ := hl
  rcases lt_trichotomy a.2 b.2 with hab | hab | hab
  · obtain ⟨M, m1, m2⟩ := count_down hs (lt_of_le_of_lt h1 hab)
    obtain ⟨ls, t', e1, e2, e3, e4, e5, e6⟩ := interval_down hs M ⟨a.1, a.2, false⟩ rest t ht h1 h2
      hab m1 m2 hn hm hr (fun x hlx a1 a2 => hx x hlx (by rw [min_eq_left hab.le]; exact a1)
        (by rw [max_eq_right hab.le]; exact a2.le) a2.ne)
    refine ⟨ls, t', M + 2, e1, e2, e3, ⟨fun _ => e4, fun h => absurd h (not_le.mpr hab), fun x => ?_⟩,
      e6⟩
    rw [min_eq_left hab.le, max_eq_right hab.le]; exact e5 x
  · refine ⟨[], t, 1, ht, hab ▸ h1, hab ▸ h2, ⟨fun _ => .nil, fun _ => .nil, fun x => ?_⟩, fun k => ?_⟩
    · rw [hab, min_self, max_self]
      simp only [List.not_mem_nil, false_iff]
      rintro ⟨a1, a2, -⟩; linarith
    · rw [show 1 + k = k + 1 by omega, interval, if_neg hn,
        if_neg (by rintro ⟨p, q⟩; simp only at p; linarith),
        if_neg (by rintro ⟨p, q⟩; simp only at p; linarith)]
      rfl
  · obtain ⟨hta, hnl⟩ := hup hab
    obtain ⟨M, m1, m2⟩ := count_up hs ht hnl hab h2.le
    obtain ⟨ls, t', e1, e2, e3, e4, e5, e6⟩ := interval_up hs hnl M ⟨a.1, a.2, false⟩ rest t ht hta h2.le
      hab m1 m2 hn (fun x hlx a1 a2 => hx x hlx (by rw [min_eq_right hab.le]; exact a1.le)
        (by rw [max_eq_left hab.le]; exact a2) a1.ne')
    refine ⟨ls, t', M + 1, e1, e2.le, e3, ⟨fun h => absurd h (not_le.mpr hab), fun _ => e4, fun x => ?_⟩,
      e6⟩
    rw [min_eq_right hab.le, max_eq_left hab.le]; exact e5 x

theorem sweep_all {c : Cfg} {z0 : ℝ} (hs : 0 < c.step) (st : List (ℝ × ℝ)) :
    ∀ (a : ℝ × ℝ) (rest : List Nd) (t : ℝ), OnLevel z0 c.step t → t ≤ a.2 → a.2 < t + c.step →
      (a :: st).IsChain (LevelsApart c z0) →
      ((a :: st).IsChain (fun p q => p.2 ≤ q.2) ∨
        ((∀ b ∈ st, ¬ OnLevel z0 c.step b.2) ∧ (t < a.2 ∨ ∀ b ∈ st.head?, a.2 ≤ b.2))) →
      ∃ (out : List Nd) (K : ℕ), Resampled z0 c.step c.mdAt a st out ∧
        ∀ k, sweep c (K + k) st (⟨a.1, a.2, false⟩ :: rest) t
          = some (out.reverse ++ ⟨a.1, a.2, false⟩ :: rest) := by
  induction st with
  | nil => intro a rest t _ _ _ _ _; exact ⟨[], 0, rfl, fun k => rfl⟩
  | cons b st ih =>
    intro a rest t ht h1 h2 hl hd
    rw [List.isChain_cons_cons] at hl
    obtain ⟨ls, t', K1, e1, e2, e3, e4, e5⟩ := interval_one hs ht h1 h2 (by
      intro hba
      rcases hd with hd | ⟨hd1, hd2⟩
      · have := (List.isChain_cons_cons.mp hd).1
        linarith
      · refine ⟨hd2.resolve_right fun h => ?_, hd1 b (List.mem_cons_self ..)⟩
        have := h b rfl
        linarith) hl.1 rest
    obtain ⟨out, K2, f1, f2⟩ := ih b ((ls.map fun x => (⟨c.mdAt b.1 x, x, true⟩ : Nd)).reverse
      ++ ⟨a.1, a.2, false⟩ :: rest) t' e1 e2 e3 hl.2 (by
        rcases hd with hd | ⟨hd1, -⟩
        · exact .inl (List.isChain_cons_cons.mp hd).2
        · refine .inr ⟨fun x hx => hd1 x (List.mem_cons_of_mem _ hx), .inl ?_⟩
          rcases e2.lt_or_eq with h | h
          · exact h
          · exact absurd (h ▸ e1) (hd1 b (List.mem_cons_self ..)))
    refine ⟨ls.map (fun x => ⟨c.mdAt b.1 x, x, true⟩) ++ ⟨b.1, b.2, false⟩ :: out, K1 + K2,
      ⟨ls, out, e4, rfl, f1⟩, fun k => ?_⟩
    simp only [sweep]
    rw [show K1 + K2 + k = K1 + (K2 + k) by omega, e5 (K2 + k)]
    simp only
    rw [show K1 + (K2 + k) = K2 + (K1 + k) by omega, f2 (K1 + k)]
    simp

/-- The result for a survey that never climbs. -/
theorem nodes_down {c : Cfg} (hs : 0 < c.step) (start : Option ℝ) (a : ℝ × ℝ) (st : List (ℝ × ℝ))
    (hst : ∀ x ∈ start, x ≤ a.2 ∧ a.2 < x + c.step)
    (hl : (a :: st).IsChain (LevelsApart c (start.getD a.2)))
    (hd : (a :: st).IsChain fun p q => p.2 ≤ q.2) :
    ∃ (out : List Nd) (K : ℕ), Resampled (start.getD a.2) c.step c.mdAt a st out ∧
      ∀ fuel, K ≤ fuel → nodes c fuel start (a :: st) = some (⟨a.1, a.2, false⟩ :: out) := by
  have h12 : start.getD a.2 ≤ a.2 ∧ a.2 < start.getD a.2 + c.step := by
    cases start with
    | none => exact ⟨le_rfl, by simp; linarith⟩
    | some x => exact hst x rfl
  obtain ⟨out, K, e1, e2⟩ := sweep_all hs st a [] (start.getD a.2) ⟨0, by simp⟩ h12.1 h12.2 hl (.inl hd)
  refine ⟨out, K, e1, fun fuel hf => ?_⟩
  obtain ⟨k, rfl⟩ := Nat.exists_eq_add_of_le hf
  simp only [nodes, e2 k]
  simp

/-! ### C191: surveys that never climb -/

/-- C191: for a survey that never climbs, the resampled survey consists of the first station and then,
for each interval, the levels `tvd_0 + k * step` strictly between its ends, in order and flagged as
interpolated, followed by the station itself, flagged as original. -/
theorem C191_levels {c : Cfg} (hs : 0 < c.step) (a : ℝ × ℝ) (st : List (ℝ × ℝ))
    (hl : (a :: st).IsChain (LevelsApart c a.2))
    (hd : (a :: st).IsChain fun p q => p.2 ≤ q.2) :
    ∃ (out : List Nd) (K : ℕ), Resampled a.2 c.step c.mdAt a st out ∧
      ∀ fuel, K ≤ fuel → nodes c fuel none (a :: st) = some (⟨a.1, a.2, false⟩ :: out) :=
  nodes_down hs none a st (by simp) hl hd

/-- A vertical well with levels every 10: the depth of a level is the level. -/
noncomputable def every10 : Cfg := ⟨10, isclose, fun _ x => x⟩

theorem isclose_level {k : ℤ} {m : ℝ} (h : isclose (0 + k * 10) m) (h0 : 0 ≤ m) (h1 : m ≤ 100) :
    m - 0.01 < k * 10 ∧ k * 10 < m + 0.01 := by
  unfold isclose at h
  rw [abs_of_nonneg h0, abs_le] at h
  norm_num at h ⊢
  constructor <;> linarith [h.1, h.2]

/-- Three stations of a vertical well, the last one at a level, meet the hypotheses. -/
example : [((0 : ℝ), (0 : ℝ)), (25, 25), (40, 40)].IsChain (LevelsApart every10 0) := by
  have h1 : LevelsApart every10 0 (0, 0) (25, 25) := by
    refine ⟨by simp [every10, isclose]; norm_num, rfl, by simp [every10, isclose]; norm_num, ?_⟩
    rintro x ⟨k, rfl⟩ - - - hc
    obtain ⟨c1, c2⟩ := isclose_level hc (by norm_num) (by norm_num)
    have d1 : (2 : ℝ) < k := by norm_num at c1; linarith
    have d2 : (k : ℝ) < 3 := by norm_num at c2; linarith
    have d3 : 2 < k := by exact_mod_cast d1
    have d4 : k < 3 := by exact_mod_cast d2
    omega
  have h2 : LevelsApart every10 0 (25, 25) (40, 40) := by
    refine ⟨by simp only [every10, isclose]; norm_num [abs_of_nonpos], rfl,
      by simp [every10, isclose]; norm_num, ?_⟩
    rintro x ⟨k, rfl⟩ - - hne hc
    obtain ⟨c1, c2⟩ := isclose_level hc (by norm_num) (by norm_num)
    have d1 : (3 : ℝ) < k := by norm_num at c1; linarith
    have d2 : (k : ℝ) < 5 := by norm_num at c2; linarith
    have d3 : 3 < k := by exact_mod_cast d1
    have d4 : k < 5 := by exact_mod_cast d2
    obtain rfl : k = 4 := by omega
    apply hne
    simp only [every10]; norm_num
  exact .cons_cons h1 (.cons_cons h2 (.singleton _))

/-! ### C192: surveys that climb -/

/-- C192, proved part: also for a survey that climbs, if its first interval does not and no later station
is exactly at a level. -/
theorem C192_climbing_partial {c : Cfg} (hs : 0 < c.step) (a : ℝ × ℝ) (st : List (ℝ × ℝ))
    (hl : (a :: st).IsChain (LevelsApart c a.2)) (hd : ∀ b ∈ st.head?, a.2 ≤ b.2)
    (hn : ∀ b ∈ st, ¬ OnLevel a.2 c.step b.2) :
    ∃ (out : List Nd) (K : ℕ), Resampled a.2 c.step c.mdAt a st out ∧
      ∀ fuel, K ≤ fuel → nodes c fuel none (a :: st) = some (⟨a.1, a.2, false⟩ :: out) := by
  obtain ⟨out, K, e1, e2⟩ := sweep_all hs st a [] a.2 ⟨0, by simp⟩ le_rfl (by linarith) hl
    (.inr ⟨hn, .inr hd⟩)
  refine ⟨out, K, e1, fun fuel hf => ?_⟩
  obtain ⟨k, rfl⟩ := Nat.exists_eq_add_of_le hf
  simp only [nodes, Option.getD_none, e2 k]
  simp

/-- A well that goes down to 25, up to 14 and down again: no station at a level, first interval down. -/
example : (∀ b ∈ ([((25 : ℝ), (25 : ℝ)), (60, 14), (90, 35)] : List _).head?, (0 : ℝ) ≤ b.2) ∧
    ∀ b ∈ [((25 : ℝ), (25 : ℝ)), (60, 14), (90, 35)], ¬ OnLevel 0 10 b.2 := by
  have key : ∀ m : ℤ, m % 10 ≠ 0 → ¬ OnLevel 0 10 (m : ℝ) := by
    rintro m hm ⟨k, hk⟩
    apply hm
    have : m = k * 10 := by
      have : (m : ℝ) = k * 10 := by linarith
      exact_mod_cast this
    omega
  refine ⟨by simp, ?_⟩
  simp only [List.mem_cons, List.not_mem_nil, or_false]
  rintro b (rfl | rfl | rfl)
  · exact_mod_cast key 25 (by norm_num)
  · exact_mod_cast key 14 (by norm_num)
  · exact_mod_cast key 35 (by norm_num)

/-- C192 is false of the code: a well reaches a level with a station, 20, and climbs to 5.  The level 10
is passed on the way up, but there is no station for it. -/
theorem C192_level_lost (fuel : ℕ) (hf : 4 ≤ fuel) :
    nodes every10 fuel none [(0, 0), (20, 20), (60, 5)]
      = some [⟨0, 0, false⟩, ⟨10, 10, true⟩, ⟨20, 20, false⟩, ⟨60, 5, false⟩] ∧
    min 20 5 < (10 : ℝ) ∧ (10 : ℝ) < max 20 5 ∧ OnLevel 0 10 10 := by
  refine ⟨?_, by norm_num, by norm_num, ⟨1, by norm_num⟩⟩
  obtain ⟨k, rfl⟩ := Nat.exists_eq_add_of_le' hf
  have n1 : ¬ isclose 0 20 := by unfold isclose; norm_num [abs_of_nonpos]
  have n2 : ¬ isclose 10 20 := by unfold isclose; norm_num [abs_of_nonpos]
  have n3 : isclose 20 20 := by unfold isclose; norm_num
  have n4 : ¬ isclose 20 60 := by unfold isclose; norm_num [abs_of_nonpos]
  norm_num [nodes, sweep, interval, every10, n1, n2, n3, n4]

/-- C192 is false of the code: a well that climbs from its first station passes levels without any being
reported. -/
theorem C192_first_climb (fuel : ℕ) (hf : 4 ≤ fuel) :
    nodes every10 fuel none [(0, 100), (60, 55)] = some [⟨0, 100, false⟩, ⟨60, 55, false⟩] ∧
    min 100 55 < (90 : ℝ) ∧ (90 : ℝ) < max 100 55 ∧ OnLevel 100 10 90 := by
  refine ⟨?_, by norm_num, by norm_num, ⟨-1, by norm_num⟩⟩
  obtain ⟨k, rfl⟩ := Nat.exists_eq_add_of_le' hf
  have n1 : ¬ isclose 0 60 := by unfold isclose; norm_num [abs_of_nonpos]
  norm_num [nodes, sweep, interval, every10, n1]

/-! ### C193: the stations are kept -/

theorem interval_keeps {c : Cfg} {b : ℝ × ℝ} (hm : c.mdAt b.1 b.2 = b.1)
    (hx : ∀ x, c.near (c.mdAt b.1 x) b.1 → x = b.2) {base : List Nd} (fuel : ℕ) :
    ∀ (n1 : Nd) (rest : List Nd) (t : ℝ) (r : List Nd × ℝ),
      ((¬ c.near n1.md b.1 ∧ base.Sublist (n1 :: rest)) ∨
        ∃ x, n1 = ⟨c.mdAt b.1 x, x, true⟩ ∧ base.Sublist rest) →
      interval c b fuel (n1 :: rest) t = some r →
      ∃ mid, r.1 = ⟨b.1, b.2, false⟩ :: mid ∧ base.Sublist mid := by
  induction fuel with
  | zero => intro n1 rest t r _ h; simp [interval] at h
  | succ fuel ih =>
    intro n1 rest t r hb h
    have hsub : base.Sublist (n1 :: rest) := by
      rcases hb with ⟨-, h⟩ | ⟨x, -, h⟩
      · exact h
      · exact h.cons _
    rw [interval] at h
    by_cases hn : c.near n1.md b.1
    · rw [if_pos hn, Option.some.injEq] at h
      obtain ⟨x, rfl, hs⟩ := hb.resolve_left fun h => h.1 hn
      have := hx x hn
      subst this
      exact ⟨rest, by rw [← h, hm], hs⟩
    · rw [if_neg hn] at h
      split_ifs at h
      · exact ih _ _ _ _ (.inr ⟨_, rfl, hsub⟩) h
      · exact ih _ _ _ _ (.inr ⟨_, rfl, hsub⟩) h
      · rw [Option.some.injEq] at h
        exact ⟨n1 :: rest, by rw [← h], hsub⟩

/-- C193, proved part: if no level is found within tolerance of a station other than at the station, and
no two neighbouring stations are within tolerance, every station is in the result, unchanged, in order and
flagged as original, whatever `start` and `step`. -/
theorem C193_stations_kept_partial {c : Cfg} {fuel : ℕ} {start : Option ℝ} {st : List (ℝ × ℝ)}
    {out : List Nd} (h : nodes c fuel start st = some out)
    (hn : st.IsChain fun a b => ¬ c.near a.1 b.1)
    (hx : ∀ b ∈ st, c.mdAt b.1 b.2 = b.1 ∧ ∀ x, c.near (c.mdAt b.1 x) b.1 → x = b.2) :
    (st.map fun s => (⟨s.1, s.2, false⟩ : Nd)).Sublist out := by
  have key : ∀ (rest : List (ℝ × ℝ)) (a : ℝ × ℝ) (tl done : List Nd) (t : ℝ) (res : List Nd),
      (a :: rest).IsChain (fun a b => ¬ c.near a.1 b.1) →
      (∀ b ∈ rest, c.mdAt b.1 b.2 = b.1 ∧ ∀ x, c.near (c.mdAt b.1 x) b.1 → x = b.2) →
      done.Sublist (⟨a.1, a.2, false⟩ :: tl) →
      sweep c fuel rest (⟨a.1, a.2, false⟩ :: tl) t = some res →
      ((rest.map fun s => (⟨s.1, s.2, false⟩ : Nd)).reverse ++ done).Sublist res := by
    intro rest
    induction rest with
    | nil =>
      intro a tl done t res _ _ hd hs
      simp only [sweep, Option.some.injEq] at hs
      rw [← hs]; simpa using hd
    | cons b rest ih =>
      intro a tl done t res hch hb hd hs
      rw [List.isChain_cons_cons] at hch
      obtain ⟨b1, b2⟩ := hb b (List.mem_cons_self ..)
      simp only [sweep] at hs
      cases hi : interval c b fuel (⟨a.1, a.2, false⟩ :: tl) t with
      | none => rw [hi] at hs; simp at hs
      | some r =>
        rw [hi] at hs
        obtain ⟨mid, e1, e2⟩ := interval_keeps b1 b2 fuel _ _ _ _ (.inl ⟨hch.1, hd⟩) hi
        obtain ⟨r1, r2⟩ := r
        simp only at hs e1
        subst e1
        have := ih b mid (⟨b.1, b.2, false⟩ :: done) r2 res hch.2
          (fun x hx => hb x (List.mem_cons_of_mem _ hx)) (e2.cons_cons _) hs
        simpa using this
  match st, h, hn, hx with
  | s :: rest, h, hn, hx =>
    simp only [nodes, Option.map_eq_some_iff] at h
    obtain ⟨res, h1, rfl⟩ := h
    have := key rest s [] [⟨s.1, s.2, false⟩] _ res hn
      (fun b hb => hx b (List.mem_cons_of_mem _ hb)) (List.Sublist.refl _) h1
    have := this.reverse
    simpa using this

/-- Two stations of a vertical well with exact comparison meet the hypotheses. -/
example : (∀ b ∈ [((0 : ℝ), (0 : ℝ)), (25, 25)], (⟨10, Eq, fun _ x => x⟩ : Cfg).mdAt b.1 b.2 = b.1 ∧
    ∀ x, (⟨10, Eq, fun _ x => x⟩ : Cfg).near ((⟨10, Eq, fun _ x => x⟩ : Cfg).mdAt b.1 x) b.1 →
      x = b.2) := by
  simp

/-- C193 is false of the code: a vertical well ends at 3000.02; the level 3000 is within the tolerance of
`np.isclose`, so the last station is missing and the level, flagged as original, takes its place. -/
theorem C193_station_lost (fuel : ℕ) (hf : 4 ≤ fuel) :
    nodes ⟨1000, isclose, fun _ x => x⟩ fuel none [(0, 0), (3000.02, 3000.02)]
      = some [⟨0, 0, false⟩, ⟨1000, 1000, true⟩, ⟨2000, 2000, true⟩, ⟨3000, 3000, false⟩] := by
  obtain ⟨k, rfl⟩ := Nat.exists_eq_add_of_le' hf
  have n1 : ¬ isclose 0 (150001 / 50) := by unfold isclose; norm_num [abs_of_nonpos]
  have n2 : ¬ isclose 1000 (150001 / 50) := by unfold isclose; norm_num [abs_of_nonpos]
  have n3 : ¬ isclose 2000 (150001 / 50) := by unfold isclose; norm_num [abs_of_nonpos]
  have n4 : isclose 3000 (150001 / 50) := by unfold isclose; norm_num [abs_of_nonpos]
  norm_num [nodes, sweep, interval, n1, n2, n3, n4]

/-! ### C194: the starting level -/

/-- C194, proved part: a `start` at the first station or less than one step above it moves the levels to
`start + k * step`, for a survey that never climbs. -/
theorem C194_start_partial {c : Cfg} (hs : 0 < c.step) {x : ℝ} (a : ℝ × ℝ) (st : List (ℝ × ℝ))
    (h1 : x ≤ a.2) (h2 : a.2 < x + c.step) (hl : (a :: st).IsChain (LevelsApart c x))
    (hd : (a :: st).IsChain fun p q => p.2 ≤ q.2) :
    ∃ (out : List Nd) (K : ℕ), Resampled x c.step c.mdAt a st out ∧
      ∀ fuel, K ≤ fuel → nodes c fuel (some x) (a :: st) = some (⟨a.1, a.2, false⟩ :: out) :=
  nodes_down hs (some x) a st (by intro y hy; obtain rfl : x = y := by simpa using hy
                                  exact ⟨h1, h2⟩) hl hd

/-- C194 is false of the code: starting at 10 in a vertical well from 0 to 35, the level 10 itself is not
reported. -/
theorem C194_start_missing (fuel : ℕ) (hf : 3 ≤ fuel) :
    nodes every10 fuel (some 10) [(0, 0), (35, 35)]
      = some [⟨0, 0, false⟩, ⟨20, 20, true⟩, ⟨30, 30, true⟩, ⟨35, 35, false⟩] := by
  obtain ⟨k, rfl⟩ := Nat.exists_eq_add_of_le' hf
  have n1 : ¬ isclose 0 35 := by unfold isclose; norm_num [abs_of_nonpos]
  have n2 : ¬ isclose 20 35 := by unfold isclose; norm_num [abs_of_nonpos]
  have n3 : ¬ isclose 30 35 := by unfold isclose; norm_num [abs_of_nonpos]
  norm_num [nodes, sweep, interval, every10, n1, n2, n3]

/-- C194 is false of the code: starting a step or more above the first station, no level is reported at
all, in any survey that never climbs. -/
theorem C194_start_above {c : Cfg} {x : ℝ} (a : ℝ × ℝ) (st : List (ℝ × ℝ)) (hx : x + c.step ≤ a.2)
    (hs : 0 < c.step) (hn : (a :: st).IsChain fun p q => ¬ c.near p.1 q.1)
    (hd : (a :: st).IsChain fun p q => p.2 ≤ q.2) (fuel : ℕ) (hf : 1 ≤ fuel) :
    nodes c fuel (some x) (a :: st) = some ((a :: st).map fun s => ⟨s.1, s.2, false⟩) := by
  have key : ∀ (st : List (ℝ × ℝ)) (a : ℝ × ℝ) (tl : List Nd), x + c.step ≤ a.2 →
      (a :: st).IsChain (fun p q => ¬ c.near p.1 q.1) → (a :: st).IsChain (fun p q => p.2 ≤ q.2) →
      sweep c fuel st (⟨a.1, a.2, false⟩ :: tl) x
        = some ((st.map fun s => (⟨s.1, s.2, false⟩ : Nd)).reverse ++ ⟨a.1, a.2, false⟩ :: tl) := by
    intro st
    induction st with
    | nil => intro a tl _ _ _; rfl
    | cons b st ih =>
      intro a tl ha hn hd
      rw [List.isChain_cons_cons] at hn hd
      obtain ⟨k, rfl⟩ := Nat.exists_eq_add_of_le' hf
      simp only [sweep]
      rw [interval, if_neg hn.1, if_neg (by rintro ⟨-, h⟩; linarith [hd.1]),
        if_neg (by rintro ⟨h, -⟩; simp only at h; linarith)]
      simp only
      rw [ih b _ (by linarith [hd.1]) hn.2 hd.2]
      simp
  simp only [nodes, Option.getD_some, key st a [] hx hn hd]
  simp

example : ((-20 : ℝ)) + every10.step ≤ ((0 : ℝ), (0 : ℝ)).2 := by norm_num [every10]

/-! ### C195: positions -/

/-- C195, proved part: in metres, if the nodes lie on the path of the well with the directions the path
has there, the rebuilt survey has the displacements of the path from its first station: positions are right
for a well that starts at the origin. -/
theorem C195_displacement_partial {γ τ : ℝ → V3} {st : List Station} {pos : List V3}
    (hd : ∀ r ∈ st, τ r.md = tangent r.inc r.azi)
    (hc : st.IsChain fun p q => p.md ≤ q.md ∧ ∃ a b, OneArc a b γ τ ∧ a ≤ p.md ∧ q.md ≤ b)
    (h : rebuilt .meters st = .ok pos) {first : Station} (hf : st.head? = some first) :
    pos = st.map fun r => γ r.md - γ first.md := by
  unfold rebuilt at h
  rw [if_pos rfl] at h
  cases hm : minCurve st 0 .meters with
  | error e => rw [hm] at h; simp at h
  | ok out =>
    rw [hm] at h
    simp only [Except.ok.injEq] at h
    rw [← h, minCurve_poss hm]
    have harc : ∀ a b, OneArc a b γ τ → OneArc a b (fun s => γ s - γ first.md) τ := by
      rintro a b ⟨g, t, ν, κ, h1, h2, h3, h4⟩
      refine ⟨fun s => -γ first.md + g s, t, ν, κ, Welleng.Con.CircularCurve.move h1 _, h2, h3, fun s s1 s2 =>
        ⟨by simp only; rw [(h4 s s1 s2).1]; abel, (h4 s s1 s2).2⟩⟩
    have := positions_on_path (γ := fun s => γ s - γ first.md) (τ := τ) st hd
      (hc.imp fun p q hpq => ⟨hpq.1, by
        obtain ⟨a, b, h1, h2, h3⟩ := hpq.2
        exact ⟨a, b, harc a b h1, h2, h3⟩⟩) 0 (by
          intro r hr
          obtain rfl : r = first := by rw [hf] at hr; simpa using hr.symm
          rw [sub_self]; rfl)
    rw [this, List.map_map]
    refine List.map_congr_left fun r _ => ?_
    ext <;> simp [Sv.nevAttr, getNev, swap]

/-- C195 is false of the code: whatever the well, the first position of the rebuilt survey is the origin,
also if the survey starts elsewhere. -/
theorem C195_start_lost {st : List Station} {pos : List V3} (h : rebuilt .meters st = .ok pos)
    (p : V3) (hp : p ≠ 0) : pos.head? ≠ some p := by
  unfold rebuilt at h
  rw [if_pos rfl] at h
  cases hm : minCurve st 0 .meters with
  | error e => rw [hm] at h; simp at h
  | ok out =>
    rw [hm] at h
    simp only [Except.ok.injEq] at h
    rw [← h, minCurve_poss hm]
    cases st with
    | nil => simp [positions]
    | cons a t =>
      intro he
      simp only [positions, List.map_cons, List.head?_cons, Option.some.injEq] at he
      exact hp (by rw [← he]; ext <;> simp [Sv.nevAttr, getNev])

/-- Surveys can be rebuilt: two stations. -/
example : ∃ pos, rebuilt .meters [⟨0, 0, 0⟩, ⟨30, 0.1, 0⟩] = .ok pos := ⟨_, rfl⟩

/-- C195 is false of the code: no survey in feet can be resampled. -/
theorem C195_feet_fail (st : List Station) : rebuilt .feet st = .error .assertionError := by
  simp [rebuilt]

end Welleng.Props
