import Verif.Props.ConnectPoints

/-! C387: connecting points in stages. -/

namespace Welleng.Props

open Real Welleng Spec Con Tf Proj Xt

theorem connectFrom_append (noise : V3) (l m : List (V3 × ℝ)) (s : At) {legs : List Leg} {x : Leg}
    (h : connectFrom noise s l = some (legs ++ [x])) :
    connectFrom noise s (l ++ m) = (connectFrom noise x.stop m).map ((legs ++ [x]) ++ ·) := by
  induction l generalizing s legs with
  | nil => simp [connectFrom] at h
  | cons a l ih =>
    obtain ⟨p, d⟩ := a
    rw [List.cons_append, connectFrom]
    rw [connectFrom] at h
    cases hc : connPoint noise s p d with
    | none => simp [hc] at h
    | some e =>
      simp only [hc] at h ⊢
      split_ifs at h ⊢ with ha
      obtain ⟨rest, hr, he⟩ := Option.map_eq_some_iff.1 h
      cases legs with
      | nil =>
        simp only [List.nil_append, List.cons.injEq] at he
        obtain ⟨rfl, rfl⟩ := he
        have hl : l = [] := by
          cases l with
          | nil => rfl
          | cons b l =>
            exfalso
            obtain ⟨q, c⟩ := b
            rw [connectFrom] at hr
            cases hb : connPoint noise e q c with
            | none => simp [hb] at hr
            | some g =>
              simp only [hb] at hr
              split_ifs at hr with hg
              obtain ⟨_, -, hx⟩ := Option.map_eq_some_iff.1 hr
              simp at hx
        subst hl
        simp
      | cons y legs =>
        simp only [List.cons_append, List.cons.injEq] at he
        obtain ⟨rfl, rfl⟩ := he
        rw [ih e hr, Option.map_map]
        congr 1

/-- **C387** Points in floating point, a unit start direction and a positive severity for every point:
connecting the points `p, pts`, and then the last of them with the points `qs` from the direction and
depth at which the first call ended, gives together the connections of a single call.  In particular
further points do not change the connections between the earlier ones. -/
theorem C387_stages (noise p : V3) (pts qs : List V3) {v : V3} (hv : v.IsUnit) (d f : ℝ) (ds es : List ℝ)
    (hlen : ds.length = pts.length) (hpts : pts ≠ []) (hds : ∀ x ∈ ds, 0 < x) (md : ℝ) :
    ∃ legs last, connectPoints noise false (p :: pts) v (.array (d :: ds)) md = some (legs ++ [last]) ∧
      last.stop.pos = pts.getLast hpts ∧
      (last.stop.vec.IsUnit →
        connectPoints noise false (p :: (pts ++ qs)) v (.array (d :: (ds ++ es))) md
          = (connectPoints noise false (pts.getLast hpts :: qs) last.stop.vec (.array (f :: es))
              last.stop.md).map ((legs ++ [last]) ++ ·)) := by
  obtain ⟨all, h1, h2, -, -⟩ := C205_through_points noise p pts hv d ds hlen hds md
  have hne : all ≠ [] := by
    rintro rfl
    exact hpts h2.symm
  have hsplit := List.dropLast_append_getLast hne
  have hpos : (all.getLast hne).stop.pos = pts.getLast hpts := by
    subst h2
    rw [List.getLast_map]
  refine ⟨all.dropLast, all.getLast hne, by rw [hsplit]; exact h1, hpos, fun hu => ?_⟩
  rw [connectPoints_eq noise p pts hv] at h1
  rw [connectPoints_eq noise p _ hv, connectPoints_eq noise _ qs hu, List.zip_append hlen.symm,
    ← hpos]
  exact connectFrom_append noise _ _ _ (by rw [hsplit]; exact h1)

/-- Non-vacuity: straight down to 500, and then on to 1000. -/
example : (⟨0, 0, 1⟩ : V3).IsUnit ∧ [(3 : ℝ)].length = [(⟨0, 0, 500⟩ : V3)].length ∧
    (∀ x ∈ [(3 : ℝ)], 0 < x) ∧
    ∃ leg, connectPoints 0 false [0, ⟨0, 0, 500⟩] ⟨0, 0, 1⟩ (.array [3, 3]) 0 = some [leg] ∧
      leg.stop.vec.IsUnit := by
  have hv : (⟨0, 0, 1⟩ : V3).IsUnit := by norm_num [V3.IsUnit, V3.dot]
  refine ⟨hv, rfl, by simp, ?_⟩
  have hn : normalize ((⟨0, 0, 500⟩ : V3) - 0) = ⟨0, 0, 1⟩ := by
    have : V3.norm ((⟨0, 0, 500⟩ : V3) - 0) = 500 := by
      rw [V3.norm, show V3.dot ((⟨0, 0, 500⟩ : V3) - 0) ((⟨0, 0, 500⟩ : V3) - 0) = 500 ^ 2 by
        norm_num [V3.dot], sqrt_sq (by norm_num)]
    rw [normalize, this]
    ext <;> simp
  have hc : connPoint 0 ⟨0, ⟨0, 0, 1⟩, 0⟩ ⟨0, 0, 500⟩ 3 = some ⟨⟨0, 0, 500⟩, ⟨0, 0, 1⟩,
      0 + V3.norm ((⟨0, 0, 500⟩ : V3) - 0)⟩ := by
    unfold connPoint
    simp only
    rw [hn, if_pos ⟨by simp [V3.ext_iff], allClose_refl _⟩]
    simp [holdGeo, normalize_of_unit hv]
  rw [connectPoints_eq 0 0 _ hv]
  refine ⟨⟨⟨0, ⟨0, 0, 1⟩, 0⟩,
    ⟨⟨0, 0, 500⟩, ⟨0, 0, 1⟩, 0 + V3.norm ((⟨0, 0, 500⟩ : V3) - 0)⟩⟩, ?_, hv⟩
  rw [show ([(⟨0, 0, 500⟩ : V3)].zip [(3 : ℝ)]) = [(⟨0, 0, 500⟩, 3)] from rfl, connectFrom, hc]
  simp only
  rw [if_pos (allClose_refl _)]
  rfl

end Welleng.Props
