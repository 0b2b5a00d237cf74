import Verif.Props.ConnectorSearch
import Verif.Props.ConnectorFixed
import Mathlib.Tactic.Linarith
import Mathlib.Tactic.NormNum
import Mathlib.Tactic.FieldSimp

namespace Welleng.Props

open Real Welleng.Con Welleng.Spec

/-! ### The severity reported by the search -/

theorem radians_dls {r : ℝ} (hr : r ≠ 0) : radians (Con.dlsFromRadius r) = 30 / r := by
  unfold radians Con.dlsFromRadius
  have := pi_ne_zero
  field_simp
  ring

/-- The running minimum does not miss a critical radius by more than the tolerance. -/
def Noted (rc : Ext) (r e new : ℝ) : Prop :=
  r * (1 - e * 100) ≤ new ∨ ∃ c, rc = .val c ∧ c ≤ new

theorem lower_noted (rc : Ext) (r e new : ℝ) : Noted (lower rc r e new) r e new := by
  unfold lower Noted
  cases rc with
  | inf =>
    simp only
    split_ifs with h
    · exact .inr ⟨_, rfl, le_rfl⟩
    · exact .inl (not_lt.mp h)
  | val c =>
    simp only
    split_ifs with h
    · exact .inr ⟨_, rfl, le_rfl⟩
    · rcases min_le_iff.mp (not_lt.mp h) with h | h
      · exact .inr ⟨_, rfl, h⟩
      · exact .inl h

theorem lower_not_negative {rc : Ext} {r e new : ℝ} (h : ¬ Ext.negative rc) (hn : 0 ≤ new) :
    ¬ Ext.negative (lower rc r e new) := by
  unfold lower
  cases rc with
  | inf =>
    simp only
    split_ifs
    · exact not_lt.mpr hn
    · exact h
  | val c =>
    simp only
    split_ifs
    · exact not_lt.mpr hn
    · exact h

/-- What is known of one half of the search after a step at the design radius `r`. -/
structure Half (e r : ℝ) (rc dls : Ext) (l : Leg) : Prop where
  crit : getRadiusCritical l.dist e = some l.rc
  nonneg : 0 ≤ l.rc
  radius : l.radius = min r l.rc
  turn : 0 ≤ l.dogleg
  length : l.distCurve = l.radius * l.dogleg
  noted : Noted rc r e l.rc
  report : dls = Ext.max (Con.dlsOf (.val r)) (Con.dlsOf rc)
  notNeg : ¬ Ext.negative rc

/-- What is known after a step at the design radii. -/
def Told (j : Job) (s : St) : Prop :=
  j.md1 ≤ s.mdT ∧ ∃ l1 l2, s.leg1 = some l1 ∧ s.leg2 = some l2 ∧
    Half j.minError j.r1 s.rc s.dls l1 ∧ Half j.minError j.r2 s.rc2 s.dls2 l2

theorem stepped_told {j : Job} {s s' : St} {old : V3} {b : Bool} (h1 : ¬ Ext.negative s.rc)
    (h2 : ¬ Ext.negative s.rc2) (hr1 : 0 ≤ j.r1) (hr2 : 0 ≤ j.r2)
    (h : Stepped j j.r1 j.r2 s s' old b) : Told j s' := by
  obtain ⟨l1, l2, e1, e2, k1, k2, -, -, hm, hc1, hc2⟩ := h.legs
  refine ⟨?_, l1, l2, e1, e2, ?_, ?_⟩
  · have a1 := k1.distCurve_nonneg hr1
    have a2 := k2.distCurve_nonneg hr2
    have a3 := k2.hold_nonneg
    linarith
  · exact ⟨k1.dist ▸ k1.crit, k1.rc_nonneg, k1.radius, k1.dogleg_nonneg, k1.distCurve,
      hc1 ▸ lower_noted _ _ _ _, h.dls, hc1 ▸ lower_not_negative h1 k1.rc_nonneg⟩
  · exact ⟨k2.dist ▸ k2.crit, k2.rc_nonneg, k2.radius, k2.dogleg_nonneg, k2.distCurve,
      hc2 ▸ lower_noted _ _ _ _, h.dls2, hc2 ▸ lower_not_negative h2 k2.rc_nonneg⟩

theorem told_notNeg {j : Job} {s : St} (h : Told j s) :
    ¬ Ext.negative s.rc ∧ ¬ Ext.negative s.rc2 := by
  obtain ⟨-, l1, l2, -, -, h1, h2⟩ := h
  exact ⟨h1.notNeg, h2.notNeg⟩

theorem iterate_told {j : Job} {n : ℕ} {s s' : St} {old : V3} (he0 : 0 ≤ j.minError)
    (he : j.minError < 1) (hr1 : 0 ≤ j.r1) (hr2 : 0 ≤ j.r2) (hn : 0 < n)
    (h1 : ¬ Ext.negative s.rc) (h2 : ¬ Ext.negative s.rc2)
    (h : iterate j j.r1 j.r2 n s old = .ok s') : Told j s' := by
  obtain ⟨t, m, e, ⟨-, -, hp⟩, -, -, hm⟩ := iterate_ok (r1 := j.r1) (r2 := j.r2) he0 he
    (fun k t => ¬ Ext.negative t.rc ∧ ¬ Ext.negative t.rc2 ∧ (0 < k → Told j t))
    (fun k a b old c hp hs => by
      have ht := stepped_told hp.1 hp.2.1 hr1 hr2 hs
      exact ⟨(told_notNeg ht).1, (told_notNeg ht).2, fun _ => ht⟩)
    (fun k a hp => hp) n 0 s old ⟨h1, h2, fun h => absurd h (lt_irrefl _)⟩
  rw [h] at e
  injection e with e
  subst e
  exact hp (hm hn)

theorem balanced_notNeg {j : Job} {s : St} {l1 l2 : Leg} {r : Ext} (hm : j.md1 ≤ s.mdT)
    (h : balanced j s l1 l2 = some r) : ¬ Ext.negative r := by
  unfold balanced at h
  simp only at h
  split_ifs at h
  · injection h with h
    subst h
    exact fun h => h
  · injection h with h
    subst h
    refine not_lt.mpr (div_nonneg (by linarith) ?_)
    positivity

theorem balance_told {j : Job} (he0 : 0 ≤ j.minError) (he : j.minError < 1) (hr1 : 0 ≤ j.r1)
    (hr2 : 0 ≤ j.r2) (hi : 0 < j.maxIter) :
    ∀ (n : ℕ) {s s' : St}, Told j s → balance j n s = .ok s' → Told j s'
  | 0, s, s', ht, h => by
    injection h with h
    subst h
    exact ht
  | n + 1, s, s', ht, h => by
    unfold balance at h
    split at h
    · split at h
      · cases h
      · rename_i r hb
        have hneg := balanced_notNeg ht.1 hb
        rw [if_neg hneg] at h
        split at h
        · cases h
        · rename_i t hts
          have ht' : Told j t := iterate_told he0 he hr1 hr2 hi
            (s := { s with rc := r, rc2 := r, pos3 := s.pos3 }) hneg hneg hts
          split_ifs at h
          · injection h with h
            subst h
            exact ht'
          · exact balance_told he0 he hr1 hr2 hi n ht' h
    · cases h

theorem solveFresh_told {j : Job} {s s' : St} (he0 : 0 ≤ j.minError)
    (he : j.minError < 1) (hr1 : 0 ≤ j.r1) (hr2 : 0 ≤ j.r2) (hi : 0 < j.maxIter)
    (h1 : ¬ Ext.negative s.rc) (h2 : ¬ Ext.negative s.rc2)
    (h : solveFresh j j.r1 j.r2 s = .ok s') : Told j s' := by
  unfold solveFresh at h
  split at h
  · cases h
  · rename_i t ht
    obtain ⟨-, -, h3⟩ := start_spec ht
    refine iterate_told he0 he hr1 hr2 hi ?_ ?_ h
    · rw [h3]; exact h1
    · rw [h3]; exact h2

theorem reseed_told {j : Job} {s s' : St} (he0 : 0 ≤ j.minError)
    (he : j.minError < 1) (hr1 : 0 ≤ j.r1) (hr2 : 0 ≤ j.r2) (hi : 0 < j.maxIter)
    (ht : Told j s) (h : reseed j s = .ok s') : Told j s' := by
  unfold reseed at h
  simp only at h
  split_ifs at h
  · split at h
    · cases h
    · rename_i t _
      exact iterate_told he0 he hr1 hr2 hi
        (s := { t with rc := .inf, rc2 := .inf, pos3 := t.pos3 }) (fun h => h) (fun h => h) h
  · injection h with h
    exact h ▸ ht

theorem search_told {j : Job} {pos1 posT : V3} {s : St} (he0 : 0 ≤ j.minError)
    (he : j.minError < 1) (hr1 : 0 ≤ j.r1) (hr2 : 0 ≤ j.r2) (hi : 0 < j.maxIter)
    (h : search j pos1 posT = .ok s) : Told j s := by
  unfold search at h
  split at h
  · cases h
  · rename_i t ht
    have h1 := solveFresh_told (s := begin pos1 posT) he0 he hr1 hr2 hi (fun h => h) (fun h => h) ht
    split_ifs at h
    · split at h
      · cases h
      · rename_i u hu
        have h2 := reseed_told he0 he hr1 hr2 hi h1 hu
        split_ifs at h
        · exact balance_told he0 he hr1 hr2 hi _ h2 h
        · injection h with h
          exact h ▸ h2
    · injection h with h
      exact h ▸ h1

/-- The value reported, spelled out. -/
theorem half_value {e r : ℝ} {rc dls : Ext} {l : Leg} (hr : 0 < r) (h : Half e r rc dls l) :
    (rc = .val 0 ∧ dls = .inf) ∨ (rc = .inf ∧ dls = .val (30 / r)) ∨
      ∃ c, 0 < c ∧ rc = .val c ∧ dls = .val (max (30 / r) (30 / c)) := by
  have h1 := h.report
  have h2 := h.notNeg
  have e1 : Con.dlsOf (.val r) = .val (30 / r) := by
    simp only [Con.dlsOf]
    rw [if_neg hr.ne', radians_dls hr.ne']
  rw [e1] at h1
  cases rc with
  | inf =>
    refine .inr (.inl ⟨rfl, ?_⟩)
    rw [h1]
    show Ext.val (max (30 / r) 0) = _
    rw [max_eq_left (by positivity)]
  | val c =>
    rcases eq_or_ne c 0 with h0 | h0
    · subst h0
      refine .inl ⟨rfl, ?_⟩
      rw [h1]
      simp only [Con.dlsOf, if_true]
      rfl
    · have hc : 0 < c := lt_of_le_of_ne (not_lt.mp h2) (Ne.symm h0)
      refine .inr (.inr ⟨c, hc, rfl, ?_⟩)
      rw [h1]
      simp only [Con.dlsOf]
      rw [if_neg h0, radians_dls h0]
      rfl

theorem half_covers {e r d : ℝ} {rc dls : Ext} {l : Leg} (he0 : 0 ≤ e) (hr : 0 < r)
    (h : Half e r rc dls l) (hd : dls = .val d) : (1 - 100 * e) * 30 ≤ d * min l.rc r := by
  have hnn := h.nonneg
  have hdes : 30 ≤ d * r := by
    rcases half_value hr h with ⟨-, h2⟩ | ⟨-, h2⟩ | ⟨c, -, -, h2⟩
    · rw [hd] at h2; cases h2
    · rw [hd] at h2; injection h2 with h2
      rw [h2, div_mul_cancel₀ _ hr.ne']
    · rw [hd] at h2; injection h2 with h2
      have := mul_le_mul_of_nonneg_right (le_max_left (30 / r) (30 / c)) hr.le
      rwa [← h2, div_mul_cancel₀ _ hr.ne'] at this
  have hd0 : 0 < d := by
    by_contra hh
    have := mul_nonneg (neg_nonneg.mpr (not_lt.mp hh)) hr.le
    linarith
  rcases min_cases l.rc r with ⟨hm, hle⟩ | ⟨hm, -⟩
  · rw [hm]
    rcases h.noted with hn | ⟨c, hc, hcl⟩
    · have h1 : d * (r * (1 - e * 100)) ≤ d * l.rc := mul_le_mul_of_nonneg_left hn hd0.le
      by_cases h2 : 0 ≤ 1 - 100 * e
      · have h3 := mul_le_mul_of_nonneg_left hdes h2
        nlinarith
      · have := mul_nonneg hd0.le hnn
        linarith
    · rcases half_value hr h with ⟨h1, h2⟩ | ⟨h1, h2⟩ | ⟨c', hc', h1, h2⟩
      · rw [hd] at h2; cases h2
      · rw [hc] at h1; cases h1
      · rw [hc] at h1; injection h1 with h1
        subst h1
        rw [hd] at h2; injection h2 with h2
        have h3 : 30 / c * c ≤ d * c :=
          mul_le_mul_of_nonneg_right (h2 ▸ le_max_right _ _) hc'.le
        rw [div_mul_cancel₀ _ hc'.ne'] at h3
        have h4 := mul_le_mul_of_nonneg_left hcl hd0.le
        linarith
  · rw [hm]
    linarith

theorem happyFinish_dogleg_nonneg {p : Plan} {q : Solved} {g : Geo} (h : happyFinish p q = .ok g)
    (h0 : 0 ≤ q.dogleg) : 0 ≤ g.dogleg := by
  unfold happyFinish at h
  split at h
  · cases h
  · split at h
    · cases h
    · rename_i dl v3 pos2 hf
      split at h
      · cases h
      · injection h with h
        subst h
        show 0 ≤ dl
        unfold firstCurve at hf
        split_ifs at hf
        injection hf with hf
        rw [← (Prod.mk.inj hf).1]
        split_ifs
        · exact arccos_nonneg _
        · exact h0

/-- **C325.** After every search the severity reported for either curve is, up to the share
`100 * min_error`, at least that of the curve the search ended with, and for the first curve that
of the curve delivered.  It is the design severity or that of the smallest radius noted, whichever
is more, and infinite only if that radius is zero. -/
theorem C325_reported_severity {j : Job} {pos1 posT : V3} {s : St} (he0 : 0 ≤ j.minError)
    (he : j.minError < 1) (hr1 : 0 < j.r1) (hr2 : 0 < j.r2) (hi : 0 < j.maxIter)
    (h : search j pos1 posT = .ok s) :
    (∃ l1 l2, s.leg1 = some l1 ∧ s.leg2 = some l2 ∧
      (∀ d, s.dls = .val d → CoversTurn (100 * j.minError) d l1.distCurve l1.dogleg) ∧
      (∀ d, s.dls2 = .val d → CoversTurn (100 * j.minError) d l2.distCurve l2.dogleg)) ∧
    (∃ q, s.solved = some q ∧ ∀ g d, happyFinish (s.plan j) q = .ok g → s.dls = .val d →
      CoversTurn (100 * j.minError) d g.distCurve g.dogleg) ∧
    ((s.rc = .val 0 ∧ s.dls = .inf) ∨ (s.rc = .inf ∧ s.dls = .val (30 / j.r1)) ∨
      ∃ c, 0 < c ∧ s.rc = .val c ∧ s.dls = .val (max (30 / j.r1) (30 / c))) ∧
    ((s.rc2 = .val 0 ∧ s.dls2 = .inf) ∨ (s.rc2 = .inf ∧ s.dls2 = .val (30 / j.r2)) ∨
      ∃ c, 0 < c ∧ s.rc2 = .val c ∧ s.dls2 = .val (max (30 / j.r2) (30 / c))) := by
  obtain ⟨-, l1, l2, e1, e2, k1, k2⟩ := search_told he0 he hr1.le hr2.le hi h
  refine ⟨⟨l1, l2, e1, e2, fun d hd => ?_, fun d hd => ?_⟩, ?_, half_value hr1 k1, half_value hr2 k2⟩
  · unfold CoversTurn
    have := mul_le_mul_of_nonneg_right (half_covers he0 hr1 k1 hd) k1.turn
    rw [k1.length, k1.radius, min_comm]
    linarith
  · unfold CoversTurn
    have := mul_le_mul_of_nonneg_right (half_covers he0 hr2 k2 hd) k2.turn
    rw [k2.length, k2.radius, min_comm]
    linarith
  · refine ⟨⟨s.pos3, l1.dogleg, l1.tangent, some l1.dist, some l2.dist, s.rc, s.rc2⟩, ?_, ?_⟩
    · unfold St.solved
      rw [e1, e2]
      rfl
    · intro g d hg hd
      unfold CoversTurn
      have h0 := happyFinish_dogleg_nonneg hg k1.turn
      rw [C169_retry_radius_ignored (R := j.r1) rfl rfl k1.crit hg]
      have := mul_le_mul_of_nonneg_right (half_covers he0 hr1 k1 hd) h0
      linarith

/-- C325: a search that succeeds. -/
example : ∃ s, search (jobOf ⟨3 / 5, 0, 4 / 5⟩ ⟨0, 0, 1⟩) 0 ⟨100, 0, 1000⟩ = .ok s := by
  have h1 : ¬ StraightAhead 0 (⟨3 / 5, 0, 4 / 5⟩ : V3) ⟨100, 0, 1000⟩ := by
    rintro ⟨t, ht, h⟩
    have h1 := congrArg V3.x h
    have h2 := congrArg V3.z h
    simp at h1 h2
    linarith
  have h2 : ¬ StraightAhead (⟨100, 0, 1000⟩ : V3) ((-1 : ℝ) • ⟨0, 0, 1⟩) 0 := by
    rintro ⟨t, ht, h⟩
    have h1 := congrArg V3.x h
    simp at h1
  refine search_ok _ (by simp only [jobOf]; norm_num) (by simp only [jobOf]; norm_num)
    (by simp [jobOf]) (by simp [jobOf]) (by simp [jobOf]) (by simp [jobOf]) ?_
  intro a b e1 e2
  have e1 : b = _ := e1.trans (modTarget_idle h1)
  subst e1
  have e2 : a = _ := e2.trans (modTarget_idle h2)
  subst e2
  rw [show min (jobOf ⟨3 / 5, 0, 4 / 5⟩ ⟨0, 0, 1⟩).r1 (jobOf ⟨3 / 5, 0, 4 / 5⟩ ⟨0, 0, 1⟩).r2 = 10
    from min_self _]
  exact far_of_z (by simp; norm_num)

end Welleng.Props
