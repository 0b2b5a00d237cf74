import Verif.Lemmas.ConnectorLoop
import Verif.Spec.Search
import Mathlib.Tactic.Linarith
import Mathlib.Tactic.NormNum

namespace Welleng.Props

open Real Welleng.Con Welleng.Spec

/-! ### The two ends of the connection -/

theorem modTarget_idle {z pos vec q : V3} (h : ¬ StraightAhead pos vec q) :
    modTarget z pos vec q = q := by
  unfold modTarget
  rw [if_neg]
  rintro ⟨hne, hv⟩
  have hd : V3.norm (q - pos) ≠ 0 := by
    intro h0
    have h1 : V3.dot (q - pos) (q - pos) = 0 := by rw [← V3.norm_sq, h0]; ring
    exact hne (sub_eq_zero.mp (V3.dot_self_eq_zero.mp h1))
  refine h ⟨V3.norm (q - pos), lt_of_le_of_ne (V3.norm_nonneg _) (Ne.symm hd), ?_⟩
  rw [hv, normalize, smul_smul, mul_one_div_cancel hd, one_smul]
  abel

theorem modTarget_ahead {z pos vec q : V3} (hv : vec.IsUnit) (h : StraightAhead pos vec q) :
    modTarget z pos vec q = q + z := by
  obtain ⟨t, ht, rfl⟩ := h
  unfold modTarget
  have hn : V3.norm vec = 1 := by
    unfold V3.norm
    rw [show V3.dot vec vec = 1 from hv, sqrt_one]
  rw [if_pos]
  constructor
  · intro hc
    have h2 : t • vec = 0 := by simpa using hc
    have h3 := congrArg V3.norm h2
    rw [V3.norm_smul, hn, abs_of_pos ht, V3.norm_zero] at h3
    linarith
  · rw [add_sub_cancel_left, normalize, V3.norm_smul, abs_of_pos ht, hn, mul_one, smul_smul,
      one_div, inv_mul_cancel₀ ht.ne', one_smul]

theorem modTarget_cases (z pos vec q : V3) :
    modTarget z pos vec q = q ∨ modTarget z pos vec q = q + z := by
  unfold modTarget
  split_ifs
  · exact .inr rfl
  · exact .inl rfl

/-- The iteration leaves the two ends where they are. -/
theorem iterate_ends {j : Job} {r1 r2 : ℝ} {n : ℕ} {s s' : St} {old : V3} (he0 : 0 ≤ j.minError)
    (he : j.minError < 1) (h : iterate j r1 r2 n s old = .ok s') :
    s'.pos1 = s.pos1 ∧ s'.posT = s.posT ∧ s'.errors.length ≤ s.errors.length + n := by
  obtain ⟨t, m, h1, ⟨h2, h3, h4⟩, -, h5, -⟩ := iterate_ok (r1 := r1) (r2 := r2) he0 he
    (fun k t => t.pos1 = s.pos1 ∧ t.posT = s.posT ∧ t.errors.length = s.errors.length + k)
    (fun k a b old c hp hs => ⟨hs.pos1.trans hp.1, hs.posT.trans hp.2.1, by
      rw [hs.errors, List.length_cons, hp.2.2]; omega⟩)
    (fun k a hp => hp) n 0 s old ⟨rfl, rfl, rfl⟩
  rw [h] at h1
  injection h1 with h1
  subst h1
  exact ⟨h2, h3, by omega⟩

theorem balance_ends {j : Job} (he0 : 0 ≤ j.minError) (he : j.minError < 1) :
    ∀ (n : ℕ) {s s' : St}, balance j n s = .ok s' →
      s'.pos1 = s.pos1 ∧ s'.posT = s.posT ∧
        s'.errors.length ≤ s.errors.length + n * j.maxIter
  | 0, s, s', h => by
    injection h with h
    subst h
    exact ⟨rfl, rfl, by omega⟩
  | n + 1, s, s', h => by
    unfold balance at h
    split at h
    · split at h
      · cases h
      · rename_i r _
        split_ifs at h
        · injection h with h
          subst h
          exact ⟨rfl, rfl, by simp⟩
        · split at h
          · cases h
          · rename_i t ht
            obtain ⟨h1, h2, h3⟩ := iterate_ends he0 he ht
            have h3 : t.errors.length ≤ s.errors.length + j.maxIter := h3
            have hn : (n + 1) * j.maxIter = n * j.maxIter + j.maxIter := by ring
            split_ifs at h
            · injection h with h
              subst h
              exact ⟨h1, h2, by omega⟩
            · obtain ⟨k1, k2, k3⟩ := balance_ends he0 he n h
              exact ⟨k1.trans h1, k2.trans h2, by omega⟩
    · cases h

/-- A search from scratch moves the ends only while it looks for its starting point. -/
theorem solveFresh_ends {j : Job} {r1 r2 : ℝ} {s s' : St} (he0 : 0 ≤ j.minError)
    (he : j.minError < 1) (h : solveFresh j r1 r2 s = .ok s') :
    s'.posT = modTarget (j.noise s.drawn) s.pos1 j.vec1 s.posT ∧
    s'.pos1 = modTarget (j.noise (s.drawn + 1)) s'.posT ((-1 : ℝ) • j.vecT) s.pos1 ∧
    s'.errors.length ≤ s.errors.length + j.maxIter := by
  unfold solveFresh at h
  split at h
  · cases h
  · rename_i t ht
    obtain ⟨h1, h2, h3⟩ := start_spec ht
    obtain ⟨k1, k2, k3⟩ := iterate_ends he0 he h
    have h4 : t.errors = s.errors := by rw [h3]
    rw [h4] at k3
    exact ⟨k2.trans h1, by rw [k1, k2]; exact h2, k3⟩

theorem reseed_ends {j : Job} {s s' : St} (he0 : 0 ≤ j.minError) (he : j.minError < 1)
    (h : reseed j s = .ok s') :
    ((s'.posT = s.posT ∧ s'.pos1 = s.pos1) ∨
      s'.posT = modTarget (j.noise s.drawn) s.pos1 j.vec1 s.posT ∧
      s'.pos1 = modTarget (j.noise (s.drawn + 1)) s'.posT ((-1 : ℝ) • j.vecT) s.pos1) ∧
    s'.errors.length ≤ s.errors.length + 2 * j.maxIter := by
  unfold reseed at h
  simp only at h
  split_ifs at h
  · split at h
    · cases h
    · rename_i t ht
      obtain ⟨h1, h2, h3⟩ := solveFresh_ends he0 he ht
      obtain ⟨k1, k2, k3⟩ := iterate_ends he0 he h
      have k3 : s'.errors.length ≤ t.errors.length + j.maxIter := k3
      exact ⟨.inr ⟨k2.trans h1, by rw [k1, k2]; exact h2⟩, by omega⟩
  · injection h with h
    subst h
    exact ⟨.inl ⟨rfl, rfl⟩, by omega⟩

/-- The whole search: at most two searches from scratch. -/
theorem search_ends {j : Job} {pos1 posT : V3} {s : St} (he0 : 0 ≤ j.minError)
    (he : j.minError < 1) (h : search j pos1 posT = .ok s) :
    ∃ (a b : V3) (k : ℕ), b = modTarget (j.noise 0) pos1 j.vec1 posT ∧
      a = modTarget (j.noise 1) b ((-1 : ℝ) • j.vecT) pos1 ∧
      (s.posT = b ∧ s.pos1 = a ∨ s.posT = modTarget (j.noise k) a j.vec1 b ∧
        s.pos1 = modTarget (j.noise (k + 1)) s.posT ((-1 : ℝ) • j.vecT) a ∧
        V3.norm (b - a) / 4 < min j.r1 j.r2) ∧
      s.errors.length ≤ j.maxIter * (j.maxIter + 3) := by
  have hm : j.maxIter * (j.maxIter + 3) = j.maxIter * j.maxIter + 3 * j.maxIter := by ring
  unfold search at h
  split at h
  · cases h
  · rename_i t ht
    obtain ⟨h1, h2, h3⟩ := solveFresh_ends he0 he ht
    have h3 : t.errors.length ≤ 0 + j.maxIter := h3
    refine ⟨t.pos1, t.posT, t.drawn, h1, h2, ?_⟩
    split_ifs at h
    · split at h
      · cases h
      · rename_i u hu
        obtain ⟨k1, k2⟩ := reseed_ends he0 he hu
        have k3 : (u.posT = t.posT ∧ u.pos1 = t.pos1) ∨
            u.posT = modTarget (j.noise t.drawn) t.pos1 j.vec1 t.posT ∧
            u.pos1 = modTarget (j.noise (t.drawn + 1)) u.posT ((-1 : ℝ) • j.vecT) t.pos1 ∧
            V3.norm (t.posT - t.pos1) / 4 < min j.r1 j.r2 := by
          by_cases hs : 0 < V3.norm (t.posT - t.pos1) / 4 ∧ V3.norm (t.posT - t.pos1) / 4 < min j.r1 j.r2
          · rcases k1 with k | k
            · exact .inl k
            · exact .inr ⟨k.1, k.2, hs.2⟩
          · unfold reseed at hu
            simp only [if_neg hs] at hu
            injection hu with hu
            exact .inl ⟨by rw [hu], by rw [hu]⟩
        split_ifs at h
        · obtain ⟨l1, l2, l3⟩ := balance_ends he0 he _ h
          rw [l1, l2]
          exact ⟨k3, by omega⟩
        · injection h with h
          subst h
          exact ⟨k3, by omega⟩
    · injection h with h
      subst h
      exact ⟨.inl ⟨rfl, rfl⟩, by omega⟩

/-- C320, partial: unless the target lies straight ahead of the start, or the start straight
behind the target, the connection found keeps the given start and the given target. -/
theorem C320_ends_kept_partial {j : Job} {pos1 posT : V3} {s : St} (he0 : 0 ≤ j.minError)
    (he : j.minError < 1) (h1 : ¬ StraightAhead pos1 j.vec1 posT)
    (h2 : ¬ StraightAhead posT ((-1 : ℝ) • j.vecT) pos1) (h : search j pos1 posT = .ok s) :
    (s.plan j).pos1 = pos1 ∧ (s.plan j).posT = posT := by
  obtain ⟨a, b, k, hb, ha, h3, -⟩ := search_ends he0 he h
  rw [modTarget_idle h1] at hb
  subst hb
  rw [modTarget_idle h2] at ha
  subst ha
  rcases h3 with ⟨h3, h4⟩ | ⟨h3, h4, -⟩
  · exact ⟨h4, h3⟩
  · rw [modTarget_idle h1] at h3
    rw [h3, modTarget_idle h2] at h4
    exact ⟨h4, h3⟩

theorem movedBelow_refl (c : ℝ) (hc : 0 < c) (a : V3) : MovedBelow c a a := by
  simp [MovedBelow, hc]

theorem movedBelow_mod {z pos vec q : V3} (hz : UnitOffset z) :
    MovedBelow 1 q (modTarget z pos vec q) := by
  rcases modTarget_cases z pos vec q with h | h <;> rw [h]
  · exact movedBelow_refl _ one_pos _
  · obtain ⟨a, b, c, d, e, f⟩ := hz
    simp [MovedBelow, a, b, c, d, e, f]

theorem movedBelow_trans {c d : ℝ} {p q r : V3} (h : MovedBelow c p q) (k : MovedBelow d q r) :
    MovedBelow (c + d) p r := by
  unfold MovedBelow at *
  refine ⟨?_, ?_, ?_, ?_, ?_, ?_⟩ <;> linarith [h.1, h.2.1, h.2.2.1, h.2.2.2.1, h.2.2.2.2.1,
    h.2.2.2.2.2, k.1, k.2.1, k.2.2.1, k.2.2.2.1, k.2.2.2.2.1, k.2.2.2.2.2]

theorem movedBelow_mono {c d : ℝ} {p q : V3} (h : MovedBelow c p q) (hd : c ≤ d) :
    MovedBelow d p q := by
  unfold MovedBelow at *
  refine ⟨h.1, by linarith [h.2.1], h.2.2.1, by linarith [h.2.2.2.1], h.2.2.2.2.1,
    by linarith [h.2.2.2.2.2]⟩

/-- C320, partial: in no case are the two ends moved by two metres or more along an axis. -/
theorem C320_moved_little_partial {j : Job} {pos1 posT : V3} {s : St} (he0 : 0 ≤ j.minError)
    (he : j.minError < 1) (hz : ∀ k, UnitOffset (j.noise k)) (h : search j pos1 posT = .ok s) :
    MovedBelow 2 pos1 (s.plan j).pos1 ∧ MovedBelow 2 posT (s.plan j).posT := by
  obtain ⟨a, b, k, rfl, rfl, h3, -⟩ := search_ends he0 he h
  have e : (2 : ℝ) = 1 + 1 := by norm_num
  show MovedBelow 2 pos1 s.pos1 ∧ MovedBelow 2 posT s.posT
  rcases h3 with ⟨h3, h4⟩ | ⟨h3, h4, -⟩
  · rw [h3, h4]
    exact ⟨movedBelow_mono (movedBelow_mod (hz _)) (by norm_num),
      movedBelow_mono (movedBelow_mod (hz _)) (by norm_num)⟩
  · rw [h4, h3, e]
    exact ⟨movedBelow_trans (movedBelow_mod (hz _)) (movedBelow_mod (hz _)),
      movedBelow_trans (movedBelow_mod (hz _)) (movedBelow_mod (hz _))⟩

/-! ### The search does not fail -/

/-- What a state has after a step of a search with positive radii and a positive shortest hold. -/
def Made (j : Job) (s : St) : Prop :=
  (∃ l, s.leg1 = some l) ∧ (∃ l, s.leg2 = some l) ∧ j.md1 < s.mdT

theorem stepped_made {j : Job} {r1 r2 : ℝ} {s s' : St} {old : V3} {b : Bool}
    (h : Stepped j r1 r2 s s' old b) (hr1 : 0 ≤ r1) (hr2 : 0 ≤ r2) (hm : 0 < j.minTangent) :
    Made j s' := by
  obtain ⟨l1, l2, h1, h2, k1, k2, -, -, h3, -⟩ := h.legs
  refine ⟨⟨l1, h1⟩, ⟨l2, h2⟩, ?_⟩
  have a1 := k1.distCurve_nonneg hr1
  have a2 := k2.distCurve_nonneg hr2
  have a3 : j.minTangent ≤ l2.hold := by rw [k2.hold]; exact le_max_right _ _
  rw [h3]
  linarith

theorem iterate_made {j : Job} {r1 r2 : ℝ} (he0 : 0 ≤ j.minError) (he : j.minError < 1)
    (hr1 : 0 ≤ r1) (hr2 : 0 ≤ r2) (hm : 0 < j.minTangent) {n : ℕ} (hn : 0 < n) (s : St) (old : V3) :
    ∃ s', iterate j r1 r2 n s old = .ok s' ∧ Made j s' := by
  obtain ⟨t, m, h1, h2, -, -, h3⟩ := iterate_ok (r1 := r1) (r2 := r2) he0 he
    (fun k t => 0 < k → Made j t)
    (fun k a b old c hp hs _ => stepped_made hs hr1 hr2 hm)
    (fun k a hp => hp) n 0 s old (fun h => absurd h (lt_irrefl 0))
  exact ⟨t, h1, h2 (h3 hn)⟩

theorem balance_ok {j : Job} (he0 : 0 ≤ j.minError) (he : j.minError < 1) (hr1 : 0 < j.r1)
    (hr2 : 0 < j.r2) (hm : 0 < j.minTangent) (hi : 0 < j.maxIter) :
    ∀ (n : ℕ) (s : St), Made j s → ∃ s', balance j n s = .ok s'
  | 0, s, _ => ⟨s, rfl⟩
  | n + 1, s, ⟨⟨l1, h1⟩, ⟨l2, h2⟩, h3⟩ => by
    unfold balance
    simp only [h1, h2]
    have hb : ∃ r, balanced j s l1 l2 = some r := by
      unfold balanced
      simp only
      split_ifs
      · exact ⟨_, rfl⟩
      · exact absurd (sub_pos.mpr h3) (by assumption)
      · exact ⟨_, rfl⟩
    obtain ⟨r, hr⟩ := hb
    simp only [hr]
    split_ifs
    · exact ⟨_, rfl⟩
    · obtain ⟨t, ht, hmade⟩ := iterate_made he0 he hr1.le hr2.le hm hi
        { s with rc := r, rc2 := r, pos3 := s.pos3 } s.dir23
      unfold solveFrom
      simp only at ht ⊢
      rw [h1, h2] at ht
      simp only [ht]
      split_ifs
      · exact ⟨_, rfl⟩
      · exact balance_ok he0 he hr1 hr2 hm hi n t hmade

/-- The first search never fails. -/
theorem solveFresh_ok (j : Job) {r1 r2 : ℝ} {s : St} (hrc : Ext.pos s.rc) (he0 : 0 ≤ j.minError)
    (he : j.minError < 1) (hr1 : 0 ≤ r1) (hr2 : 0 ≤ r2) (hm : 0 < j.minTangent)
    (hi : 0 < j.maxIter) : ∃ s', solveFresh j r1 r2 s = .ok s' ∧ Made j s' := by
  obtain ⟨t, ht⟩ := start_ok j r1 r2 s hrc he0 he
  unfold solveFresh
  simp only [ht]
  exact iterate_made he0 he hr1 hr2 hm hi t 0

/-- The search succeeds if a shortest hold is asked for and the two ends are at least four of the
smaller design radius apart. -/
theorem search_ok (j : Job) {pos1 posT : V3} (he0 : 0 ≤ j.minError) (he : j.minError < 1)
    (hr1 : 0 < j.r1) (hr2 : 0 < j.r2) (hm : 0 < j.minTangent) (hi : 0 < j.maxIter)
    (hfar : ∀ a b, b = modTarget (j.noise 0) pos1 j.vec1 posT →
      a = modTarget (j.noise 1) b ((-1 : ℝ) • j.vecT) pos1 → min j.r1 j.r2 ≤ V3.norm (b - a) / 4) :
    ∃ s, search j pos1 posT = .ok s := by
  obtain ⟨t, ht, hmade⟩ := solveFresh_ok j (r1 := j.r1) (r2 := j.r2) (s := begin pos1 posT) trivial
    he0 he hr1.le hr2.le hm hi
  obtain ⟨h1, h2, -⟩ := solveFresh_ends he0 he ht
  have hf := hfar _ _ h1 h2
  unfold search
  simp only [ht]
  split_ifs
  · have hs : reseed j t = .ok t := by
      unfold reseed
      simp only
      rw [if_neg]
      rintro ⟨-, h⟩
      linarith
    simp only [hs]
    split_ifs
    exact balance_ok he0 he hr1 hr2 hm hi _ t hmade
  · exact ⟨t, rfl⟩

/-- A job: design radii of 10 m, the default tolerances, a shortest hold of 1 m and an offset of
half a metre along each axis. -/
noncomputable def half : V3 := ⟨1 / 2, 1 / 2, 1 / 2⟩

/-- See `half`. -/
noncomputable def jobOf (vec1 vecT : V3) : Job :=
  ⟨vec1, vecT, 0, 10, 10, 1, 1, 1e-5, 1, 0.1, 1000, fun _ => half⟩

theorem unitOffset_half : UnitOffset half := by
  refine ⟨?_, ?_, ?_, ?_, ?_, ?_⟩ <;> (simp only [half]; norm_num)

theorem far_of_z {a b : V3} (h : 40 ≤ b.z - a.z) : (10 : ℝ) ≤ V3.norm (b - a) / 4 := by
  have h1 : (40 : ℝ) ≤ V3.norm (b - a) := by
    unfold V3.norm
    refine le_sqrt_of_sq_le ?_
    simp only [V3.dot, V3.sub_x, V3.sub_y, V3.sub_z]
    nlinarith [mul_self_nonneg (b.x - a.x), mul_self_nonneg (b.y - a.y)]
  linarith

/-- C320 is false: a well inclined towards the north, a target 1000 m straight below to be
reached vertically.  The search succeeds, and whatever it finds does not start at the given
position. -/
theorem C320_start_moved : ∃ (j : Job) (pos1 posT : V3), j.vec1.IsUnit ∧ j.vecT.IsUnit ∧
    (∀ k, UnitOffset (j.noise k)) ∧ (∃ s, search j pos1 posT = .ok s) ∧
    ∀ s, search j pos1 posT = .ok s → (s.plan j).pos1 ≠ pos1 := by
  have hj : ∀ v w, (jobOf v w).minError = 1e-5 := fun _ _ => rfl
  have h1 : ¬ StraightAhead 0 (⟨3 / 5, 0, 4 / 5⟩ : V3) ⟨0, 0, 1000⟩ := by
    rintro ⟨t, ht, h⟩
    have := congrArg V3.x h
    simp at this
    linarith
  have hb : modTarget half 0 ⟨3 / 5, 0, 4 / 5⟩ (⟨0, 0, 1000⟩ : V3) = ⟨0, 0, 1000⟩ := modTarget_idle h1
  have ha : modTarget half (⟨0, 0, 1000⟩ : V3) ((-1 : ℝ) • ⟨0, 0, 1⟩) 0 = half := by
    rw [modTarget_ahead]
    · simp
    · simp [V3.IsUnit, V3.dot]
    · exact ⟨1000, by norm_num, by ext <;> simp⟩
  have hfar : (10 : ℝ) ≤ V3.norm ((⟨0, 0, 1000⟩ : V3) - half) / 4 :=
    far_of_z (by simp only [half]; norm_num)
  refine ⟨jobOf ⟨3 / 5, 0, 4 / 5⟩ ⟨0, 0, 1⟩, 0, ⟨0, 0, 1000⟩, ?_, ?_, fun _ => unitOffset_half, ?_, ?_⟩
  · simp [jobOf, V3.IsUnit, V3.dot]; norm_num
  · simp [jobOf, V3.IsUnit, V3.dot]
  · refine search_ok _ (by rw [hj]; norm_num) (by rw [hj]; norm_num) (by simp [jobOf])
      (by simp [jobOf]) (by simp [jobOf]) (by simp [jobOf]) ?_
    intro a b e1 e2
    have e1 : b = ⟨0, 0, 1000⟩ := e1.trans hb
    subst e1
    have e2 : a = half := e2.trans ha
    rw [e2]
    exact le_trans (min_le_left _ _) hfar
  · intro s hs
    obtain ⟨a, b, k, e1, e2, h3, -⟩ := search_ends (by rw [hj]; norm_num) (by rw [hj]; norm_num) hs
    have e1 : b = ⟨0, 0, 1000⟩ := e1.trans hb
    subst e1
    have e2 : a = half := e2.trans ha
    subst e2
    rcases h3 with ⟨-, h4⟩ | ⟨-, -, h4⟩
    · show s.pos1 ≠ 0
      rw [h4]
      intro h0
      have := congrArg V3.x h0
      simp [half] at this
    · have : min (jobOf ⟨3 / 5, 0, 4 / 5⟩ ⟨0, 0, 1⟩).r1 (jobOf ⟨3 / 5, 0, 4 / 5⟩ ⟨0, 0, 1⟩).r2 = 10 :=
        min_self _
      rw [this] at h4
      linarith

/-- C320 is false for the target as well: a vertical well and a target straight below that is to
be reached at an inclination. -/
theorem C320_target_moved : ∃ (j : Job) (pos1 posT : V3), j.vec1.IsUnit ∧ j.vecT.IsUnit ∧
    (∀ k, UnitOffset (j.noise k)) ∧ (∃ s, search j pos1 posT = .ok s) ∧
    ∀ s, search j pos1 posT = .ok s → (s.plan j).posT ≠ posT := by
  have hj : ∀ v w, (jobOf v w).minError = 1e-5 := fun _ _ => rfl
  have hb : modTarget half 0 ⟨0, 0, 1⟩ (⟨0, 0, 1000⟩ : V3) = ⟨1 / 2, 1 / 2, 1000 + 1 / 2⟩ := by
    rw [modTarget_ahead]
    · ext <;> simp [half]
    · simp [V3.IsUnit, V3.dot]
    · exact ⟨1000, by norm_num, by ext <;> simp⟩
  have ha : modTarget half (⟨1 / 2, 1 / 2, 1000 + 1 / 2⟩ : V3) ((-1 : ℝ) • ⟨3 / 5, 0, 4 / 5⟩) 0 = 0 := by
    refine modTarget_idle ?_
    rintro ⟨t, ht, h⟩
    have := congrArg V3.y h
    simp at this
  have hfar : (10 : ℝ) ≤ V3.norm ((⟨1 / 2, 1 / 2, 1000 + 1 / 2⟩ : V3) - 0) / 4 :=
    far_of_z (by simp; norm_num)
  refine ⟨jobOf ⟨0, 0, 1⟩ ⟨3 / 5, 0, 4 / 5⟩, 0, ⟨0, 0, 1000⟩, ?_, ?_, fun _ => unitOffset_half, ?_, ?_⟩
  · simp [jobOf, V3.IsUnit, V3.dot]
  · simp [jobOf, V3.IsUnit, V3.dot]; norm_num
  · refine search_ok _ (by rw [hj]; norm_num) (by rw [hj]; norm_num) (by simp [jobOf])
      (by simp [jobOf]) (by simp [jobOf]) (by simp [jobOf]) ?_
    intro a b e1 e2
    have e1 : b = _ := e1.trans hb
    subst e1
    have e2 : a = 0 := e2.trans ha
    rw [e2]
    exact le_trans (min_le_left _ _) hfar
  · intro s hs
    obtain ⟨a, b, k, e1, e2, h3, -⟩ := search_ends (by rw [hj]; norm_num) (by rw [hj]; norm_num) hs
    have e1 : b = _ := e1.trans hb
    subst e1
    have e2 : a = 0 := e2.trans ha
    subst e2
    rcases h3 with ⟨h4, -⟩ | ⟨-, -, h4⟩
    · show s.posT ≠ _
      rw [h4]
      intro h0
      have := congrArg V3.x h0
      simp at this
    · have : min (jobOf ⟨0, 0, 1⟩ ⟨3 / 5, 0, 4 / 5⟩).r1 (jobOf ⟨0, 0, 1⟩ ⟨3 / 5, 0, 4 / 5⟩).r2 = 10 :=
        min_self _
      rw [this] at h4
      linarith

/-- A search to which the partial theorems of C320 apply: the target is to the side. -/
theorem sample_search : ∃ s, search (jobOf ⟨0, 0, 1⟩ ⟨3 / 5, 0, 4 / 5⟩) 0 ⟨500, 200, 1000⟩ = .ok s ∧
    ¬ StraightAhead 0 (jobOf ⟨0, 0, 1⟩ ⟨3 / 5, 0, 4 / 5⟩).vec1 ⟨500, 200, 1000⟩ ∧
    ¬ StraightAhead ⟨500, 200, 1000⟩ ((-1 : ℝ) • (jobOf ⟨0, 0, 1⟩ ⟨3 / 5, 0, 4 / 5⟩).vecT) 0 := by
  have hj : ∀ v w, (jobOf v w).minError = 1e-5 := fun _ _ => rfl
  have h1 : ¬ StraightAhead 0 (jobOf ⟨0, 0, 1⟩ ⟨3 / 5, 0, 4 / 5⟩).vec1 ⟨500, 200, 1000⟩ := by
    rintro ⟨t, ht, h⟩
    have := congrArg V3.x h
    simp [jobOf] at this
  have h2 : ¬ StraightAhead ⟨500, 200, 1000⟩ ((-1 : ℝ) • (jobOf ⟨0, 0, 1⟩ ⟨3 / 5, 0, 4 / 5⟩).vecT) 0 := by
    rintro ⟨t, ht, h⟩
    have := congrArg V3.y h
    simp [jobOf] at this
  obtain ⟨s, hs⟩ := search_ok (jobOf ⟨0, 0, 1⟩ ⟨3 / 5, 0, 4 / 5⟩) (pos1 := 0) (posT := ⟨500, 200, 1000⟩)
    (by rw [hj]; norm_num) (by rw [hj]; norm_num) (by simp [jobOf])
    (by simp [jobOf]) (by simp [jobOf]) (by simp [jobOf]) (by
      intro a b e1 e2
      rw [modTarget_idle h1] at e1
      subst e1
      rw [modTarget_idle h2] at e2
      subst e2
      exact le_trans (min_le_left _ _) (far_of_z (by simp; norm_num)))
  exact ⟨s, hs, h1, h2⟩

example : ∃ (j : Job) (s : St) (pos1 posT : V3), search j pos1 posT = .ok s ∧
    (s.plan j).pos1 = pos1 ∧ (s.plan j).posT = posT ∧ pos1 ≠ posT := by
  obtain ⟨s, hs, h1, h2⟩ := sample_search
  have hj : ∀ v w, (jobOf v w).minError = 1e-5 := fun _ _ => rfl
  obtain ⟨a, b⟩ := C320_ends_kept_partial (by rw [hj]; norm_num) (by rw [hj]; norm_num) h1 h2 hs
  refine ⟨_, s, _, _, hs, a, b, ?_⟩
  intro h
  have := congrArg V3.x h
  simp at this

/-! ### The search ends -/

/-- C321: the search makes at most `max_iterations * (max_iterations + 3)` steps. -/
theorem C321_steps {j : Job} {pos1 posT : V3} {s : St} (he0 : 0 ≤ j.minError)
    (he : j.minError < 1) (h : search j pos1 posT = .ok s) :
    s.errors.length ≤ j.maxIter * (j.maxIter + 3) := by
  obtain ⟨_, _, _, -, -, -, h⟩ := search_ends he0 he h
  exact h

/-- C321: a step never fails, and each of its two halves has a radius no larger than the one
asked for and no larger than the largest that still reaches the point aimed at (less the
tolerance), and lengths and angle that are not negative. -/
theorem C321_step (j : Job) {r1 r2 : ℝ} (s : St) (old : V3) (he0 : 0 ≤ j.minError)
    (he : j.minError < 1) (hr1 : 0 ≤ r1) (hr2 : 0 ≤ r2) :
    ∃ (s' : St) (b : Bool) (l1 l2 : Leg), stepOnce j r1 r2 s old = .ok (s', b) ∧
      s'.leg1 = some l1 ∧ s'.leg2 = some l2 ∧ l1.radius ≤ r1 ∧ l2.radius ≤ r2 ∧
      2 * l1.radius * l1.dist.n ≤ l1.dist.d ^ 2 ∧ 2 * l2.radius * l2.dist.n ≤ l2.dist.d ^ 2 ∧
      0 ≤ l1.distCurve ∧ 0 ≤ l1.tangent ∧ 0 ≤ l2.distCurve ∧ 0 ≤ l2.tangent ∧
      0 ≤ l1.dogleg ∧ l1.dogleg ≤ 2 * π ∧ 0 ≤ l2.dogleg ∧ l2.dogleg ≤ 2 * π ∧ j.md1 ≤ s'.mdT := by
  obtain ⟨s', b, h, hs⟩ := stepOnce_ok j r1 r2 s old he0 he
  obtain ⟨l1, l2, h1, h2, k1, k2, -, -, h3, -⟩ := hs.legs
  have a1 := k1.distCurve_nonneg hr1
  have a2 := k2.distCurve_nonneg hr2
  have a3 := k2.hold_nonneg
  refine ⟨s', b, l1, l2, h, h1, h2, ?_, ?_, ?_, ?_, a1, k1.tangent, a2, k2.tangent,
    k1.dogleg_nonneg, k1.dogleg_le, k2.dogleg_nonneg, k2.dogleg_le, by rw [h3]; linarith⟩
  · rw [k1.radius]; exact min_le_left _ _
  · rw [k2.radius]; exact min_le_left _ _
  · have := k1.tangent_sq; nlinarith [sq_nonneg l1.tangent]
  · have := k2.tangent_sq; nlinarith [sq_nonneg l2.tangent]

/-- C321: the search succeeds whenever a shortest hold is asked for and the ends are at least four
times the smaller design radius apart (neither being straight ahead of the other). -/
theorem C321_succeeds (j : Job) {pos1 posT : V3} (he0 : 0 ≤ j.minError) (he : j.minError < 1)
    (hr1 : 0 < j.r1) (hr2 : 0 < j.r2) (hm : 0 < j.minTangent) (hi : 0 < j.maxIter)
    (h1 : ¬ StraightAhead pos1 j.vec1 posT) (h2 : ¬ StraightAhead posT ((-1 : ℝ) • j.vecT) pos1)
    (hfar : 4 * min j.r1 j.r2 ≤ V3.norm (posT - pos1)) : ∃ s, search j pos1 posT = .ok s := by
  refine search_ok j he0 he hr1 hr2 hm hi ?_
  intro a b e1 e2
  rw [modTarget_idle h1] at e1
  subst e1
  rw [modTarget_idle h2] at e2
  subst e2
  linarith

example : ∃ (j : Job) (s : St), search j 0 ⟨500, 200, 1000⟩ = .ok s ∧
    s.errors.length ≤ j.maxIter * (j.maxIter + 3) := by
  obtain ⟨s, hs, -, -⟩ := sample_search
  have hj : ∀ v w, (jobOf v w).minError = 1e-5 := fun _ _ => rfl
  exact ⟨_, s, hs, C321_steps (by rw [hj]; norm_num) (by rw [hj]; norm_num) hs⟩

end Welleng.Props
