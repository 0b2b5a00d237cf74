import Verif.Props.Datum
import Verif.Props.MirroredWell

/-!
C367: tortuosity, difficulty and the origin of depths and coordinates.
-/

namespace Welleng.Props

open Real Ti Sec

/-- `r'` is the station `r` with depths counted from another datum and coordinates from another origin. -/
structure IsMoved (δ : ℝ) (v : V3) (r r' : Row) : Prop where
  md : r'.st.md = r.st.md + δ
  inc : r'.st.inc = r.st.inc
  azi : r'.st.azi = r.st.azi
  pos : r'.pos = r.pos + v
  dls : r'.dls = r.dls

section
variable {δ : ℝ} {v : V3} {sv sv' : ℕ → Row} (h : ∀ k, IsMoved δ v (sv k) (sv' k))
include h

theorem tiContinuous_moved (rtol : ℝ) (t : Option ℝ) (n : ℕ) :
    tiContinuous rtol t sv' n = tiContinuous rtol t sv n := by
  unfold tiContinuous
  refine List.map_congr_left fun k _ => ?_
  have hn : ∀ i j, normal (sv' i).st (sv' j).st = normal (sv i).st (sv j).st := by
    intro i j
    unfold normal Tf.intervalNormal
    rw [(h i).inc, (h i).azi, (h j).inc, (h j).azi]
  rw [hn, hn, (h k).dls, (h (k + 1)).dls]

theorem sectionNo_moved (sts : List ℕ) (j : ℕ) :
    sectionNo (fun k => (sv' k).st.md) sts j = sectionNo (fun k => (sv k).st.md) sts j := by
  unfold sectionNo
  simp only [(h _).md]
  rw [← searchsorted_lowered δ (sts.map fun k => (sv k).st.md), List.map_map]
  rfl

theorem index_moved {ex ex' : ℕ → ℕ → ℝ} (hex : ∀ s j, ex' s j = ex s j) (scale : ℝ → ℝ) (n : ℕ) (c : List Bool) :
    index ex' scale (fun k => (sv' k).st.md) n c = index ex scale (fun k => (sv k).st.md) n c := by
  unfold index
  have hs := sectionNo_moved h
  have hm : ∀ i j, (sv' i).st.md - (sv' j).st.md = (sv i).st.md - (sv j).st.md := by
    intro i j; rw [(h i).md, (h j).md]; ring
  simp only [sectionStart, hs, hex, hm]

/-- **C367** Neither the datum of the depths nor the origin of the coordinates changes the sections of a well
or its tortuosity indices. -/
theorem C367_tortuosity_partial (coeff kappa rtol : ℝ) (t : Option ℝ) (n : ℕ) :
    tiStarts rtol t sv' n = tiStarts rtol t sv n ∧
    tiOf coeff kappa rtol t sv' n = tiOf coeff kappa rtol t sv n ∧
    mtiOf coeff kappa rtol t sv' n = mtiOf coeff kappa rtol t sv n := by
  have hc := tiContinuous_moved h rtol t n
  have hm : ∀ i j, (sv' i).st.md - (sv' j).st.md = (sv i).st.md - (sv j).st.md := by
    intro i j; rw [(h i).md, (h j).md]; ring
  have hp : ∀ i j, (sv' i).pos - (sv' j).pos = (sv i).pos - (sv j).pos := by
    intro i j
    rw [(h i).pos, (h j).pos]
    ext <;> simp
  refine ⟨by unfold tiStarts; rw [hc], ?_, ?_⟩
  · unfold tiOf tortuosityIndex
    rw [hc]
    exact index_moved h (fun s j => by simp only [excessTi, hm, hp]) _ n _
  · unfold mtiOf modifiedTortuosityIndex
    rw [hc]
    exact index_moved h (fun s j => by simp only [excessMti, hm, hp]) _ n _

end

/-- **C367** The difficulty index keeps its value when the well is moved so that its horizontal distance from
the origin stays the same, depths included. -/
theorem C367_difficulty_partial (md n e n' e' tvd turned : ℝ) (hd : n' ^ 2 + e' ^ 2 = n ^ 2 + e ^ 2) :
    ddi md n' e' tvd turned = ddi md n e tvd turned := by
  unfold ddi
  rw [hd]

/-- C367 is false of the difficulty index: a station 300 m north of the wellhead, at 1000 m of depth and 900 m
of vertical depth, with one radian of turn, becomes more difficult when the coordinates are counted from a
point 300 m south of the wellhead, and when the depths are counted from a datum 100 m higher. -/
theorem C367_difficulty_moves :
    ddi 1000 300 0 900 1 < ddi 1000 (300 + 300) 0 900 1 ∧
    ddi 1000 300 0 900 1 ≠ ddi (1000 + 100) 300 0 (900 + 100) 1 := by
  have hpi := pi_pos
  have hs : ∀ x : ℝ, 0 ≤ x → √(x ^ 2 + 0 ^ 2) = x := fun x hx => by
    rw [show x ^ 2 + (0 : ℝ) ^ 2 = x ^ 2 by ring, sqrt_sq hx]
  have e : ∀ md n tvd : ℝ, 0 < md → 0 < n → 0 < tvd →
      0 < toFeet md * toFeet n * degrees 1 / toFeet tvd ∧
      ddi md n 0 tvd 1 = logb 10 (toFeet md * toFeet n * degrees 1 / toFeet tvd) := by
    intro md n tvd h1 h2 h3
    have hpos : 0 < toFeet md * toFeet n * degrees 1 / toFeet tvd := by
      unfold toFeet degrees; positivity
    refine ⟨hpos, ?_⟩
    unfold ddi
    rw [if_neg h3.ne']
    simp only [hs n h2.le]
    rw [if_neg (not_le.2 hpos)]
  obtain ⟨p1, e1⟩ := e 1000 300 900 (by norm_num) (by norm_num) (by norm_num)
  obtain ⟨p2, e2⟩ := e 1000 (300 + 300) 900 (by norm_num) (by norm_num) (by norm_num)
  obtain ⟨p3, e3⟩ := e (1000 + 100) 300 (900 + 100) (by norm_num) (by norm_num) (by norm_num)
  have hd : 0 < degrees 1 := by unfold degrees; positivity
  rw [e1, e2, e3]
  constructor
  · refine logb_lt_logb (by norm_num) p1 ?_
    unfold toFeet
    have : 1000 / 0.3048 * ((300 + 300) / 0.3048) * degrees 1 / (900 / 0.3048)
        = 2 * (1000 / 0.3048 * (300 / 0.3048) * degrees 1 / (900 / 0.3048)) := by ring
    rw [this]
    unfold toFeet at p1
    linarith
  · intro h
    have := logb_injOn_pos (by norm_num : (1 : ℝ) < 10) p1 p3 h
    unfold toFeet at this
    have h2 : degrees 1 * (1000 / 0.3048 * (300 / 0.3048) / (900 / 0.3048)
        - (1000 + 100) / 0.3048 * (300 / 0.3048) / ((900 + 100) / 0.3048)) = 0 := by
      linear_combination this
    rcases mul_eq_zero.1 h2 with h3 | h3
    · exact hd.ne' h3
    · norm_num at h3

/-- Not vacuous: every well can be counted from elsewhere. -/
example (δ : ℝ) (v : V3) (sv : ℕ → Row) : ∃ sv' : ℕ → Row, ∀ k, IsMoved δ v (sv k) (sv' k) :=
  ⟨fun k => ⟨⟨(sv k).st.md + δ, (sv k).st.inc, (sv k).st.azi⟩, (sv k).pos + v, (sv k).dls, (sv k).toolface⟩,
    fun _ => ⟨rfl, rfl, rfl, rfl, rfl⟩⟩

end Welleng.Props
