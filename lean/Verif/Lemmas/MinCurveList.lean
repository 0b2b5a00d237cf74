import Verif.Lemmas.Interpolate
import Mathlib.Analysis.SpecialFunctions.Trigonometric.Bounds

namespace Welleng

open Real Spec

theorem minCurve_ok {s0 s1 : Station} {rest : List Station} {start : V3} {u : LenUnit}
    {out : MinCurveOut} (h : minCurve (s0 :: s1 :: rest) start u = .ok out) :
    out.poss = start :: cumsumFrom start (pairwise deltaXyz (s0 :: s1 :: rest)) ∧
    out.dogleg = 0 :: pairwise dogleg2 (s0 :: s1 :: rest) := by
  unfold minCurve at h
  cases u <;> simp only [reduceCtorEq] at h
  all_goals
    injection h with h
    subst h
    simp [cumsumFrom]

theorem minCurve_ok_length {s : List Station} {start : V3} {u : LenUnit} {out : MinCurveOut}
    (h : minCurve s start u = .ok out) : ∃ s0 s1 rest, s = s0 :: s1 :: rest := by
  match s, h with
  | s0 :: s1 :: rest, _ => exact ⟨s0, s1, rest, rfl⟩
  | [], h => cases u <;> simp [minCurve] at h
  | [_], h => cases u <;> simp [minCurve] at h

theorem pairwise_length {α β : Type*} (f : α → α → β) (a : α) (l : List α) :
    (pairwise f (a :: l)).length = l.length := by
  induction l generalizing a with
  | nil => rfl
  | cons b t ih => simp [pairwise, ih]

theorem cumsumFrom_length (acc : V3) (l : List V3) : (cumsumFrom acc l).length = l.length := by
  induction l generalizing acc with
  | nil => rfl
  | cons d t ih => simp [cumsumFrom, ih]

/-- All positions of a survey, started at `p`. -/
noncomputable def positions (p : V3) : List Station → List V3
  | [] => []
  | s :: t => p :: cumsumFrom p (pairwise deltaXyz (s :: t))

theorem positions_cons2 (p : V3) (a b : Station) (t : List Station) :
    positions p (a :: b :: t) = p :: positions (p + deltaXyz a b) (b :: t) := by
  simp [positions, pairwise, cumsumFrom]

theorem positions_length (p : V3) (l : List Station) : (positions p l).length = l.length := by
  cases l with
  | nil => rfl
  | cons a t => simp [positions, cumsumFrom_length, pairwise_length]

theorem minCurve_poss {s : List Station} {start : V3} {u : LenUnit} {out : MinCurveOut}
    (h : minCurve s start u = .ok out) : out.poss = positions start s := by
  obtain ⟨s0, s1, rest, rfl⟩ := minCurve_ok_length h
  exact (minCurve_ok h).1

theorem positions_append (p : V3) (s t : List Station) : positions p s <+: positions p (s ++ t) := by
  induction s generalizing p with
  | nil => exact List.nil_prefix
  | cons a s ih =>
    cases s with
    | nil =>
      cases t with
      | nil => simp
      | cons b t =>
        rw [List.singleton_append, positions_cons2]
        simp [positions, pairwise, cumsumFrom]
    | cons b s =>
      rw [List.cons_append, List.cons_append, positions_cons2, positions_cons2]
      exact List.prefix_cons_inj p |>.mpr (ih (p + deltaXyz a b))

theorem positions_translate (p d : V3) (s : List Station) :
    positions (p + d) s = (positions p s).map (· + d) := by
  induction s generalizing p with
  | nil => rfl
  | cons a s ih =>
    cases s with
    | nil => simp [positions, pairwise, cumsumFrom]
    | cons b s =>
      rw [positions_cons2, positions_cons2, List.map_cons, ← ih, add_right_comm]

theorem norm_swap (v : V3) : V3.norm (swap v) = V3.norm v := by
  unfold V3.norm V3.dot swap; congr 1; ring

theorem step_norm_le {L i1 a1 i2 a2 : ℝ} (hL : 0 ≤ L) :
    V3.norm (minCurveStep L i1 a1 i2 a2) ≤ L := by
  set d := getDogleg i1 a1 i2 a2 with hd
  have hd0 : 0 ≤ d := getDogleg_nonneg ..
  have hd1 : d ≤ π := getDogleg_le_pi ..
  unfold minCurveStep
  rw [minCurveStepRf_eq, V3.norm_smul, ← hd,
    norm_add_unit (tangent_unit i1 a1) (tangent_unit i2 a2) hd0 hd1 (cos_getDogleg ..)]
  have hc : 0 ≤ cos (d / 2) := cos_nonneg_of_mem_Icc ⟨by linarith [pi_pos], by linarith⟩
  have hs : 0 ≤ sin (d / 2) := sin_nonneg_of_nonneg_of_le_pi (by linarith) (by linarith)
  by_cases h0 : d = 0
  · rw [h0]; simp only [getRf, if_true, mul_one, zero_div, cos_zero]
    rw [abs_of_nonneg (by linarith)]; linarith
  · have hdp : 0 < d := lt_of_le_of_ne hd0 (Ne.symm h0)
    unfold getRf
    rw [if_neg h0]
    have ht : 0 ≤ tan (d / 2) := by rw [tan_eq_sin_div_cos]; exact div_nonneg hs hc
    rw [abs_of_nonneg (by positivity)]
    by_cases hcz : cos (d / 2) = 0
    · rw [hcz]; simp [hL]
    · have : L * (2 / d * tan (d / 2)) / 2 * (2 * cos (d / 2)) = L * (sin (d / 2) / (d / 2)) := by
        rw [tan_eq_sin_div_cos]; field_simp
      rw [this]
      have h1 : sin (d / 2) / (d / 2) ≤ 1 := by
        rw [div_le_one (by linarith)]; exact Real.sin_le (by linarith)
      calc L * (sin (d / 2) / (d / 2)) ≤ L * 1 := mul_le_mul_of_nonneg_left h1 hL
        _ = L := mul_one L

theorem deltaXyz_norm_le {a b : Station} (h : a.md ≤ b.md) :
    V3.norm (deltaXyz a b) ≤ b.md - a.md := by
  rw [deltaXyz_eq, norm_swap]
  exact step_norm_le (by linarith)

theorem norm_neg (v : V3) : V3.norm (-v) = V3.norm v := by
  unfold V3.norm V3.dot; simp

theorem positions_dist (p : V3) (s : List Station)
    (hs : s.Pairwise (fun a b => a.md ≤ b.md)) (i j : ℕ) (hij : i ≤ j) {a b : Station} {q r : V3}
    (ha : s[i]? = some a) (hb : s[j]? = some b)
    (hq : (positions p s)[i]? = some q) (hr : (positions p s)[j]? = some r) :
    V3.norm (r - q) ≤ b.md - a.md := by
  induction s generalizing p i j q a with
  | nil => simp at ha
  | cons c t ih =>
    cases t with
    | nil =>
      obtain ⟨rfl, rfl⟩ : i = 0 ∧ j = 0 := by
        constructor
        · by_contra h
          obtain ⟨k, rfl⟩ := Nat.exists_eq_succ_of_ne_zero h
          simp at ha
        · by_contra h
          obtain ⟨k, rfl⟩ := Nat.exists_eq_succ_of_ne_zero h
          simp at hb
      simp only [List.getElem?_cons_zero, Option.some.injEq] at ha hb
      subst ha; subst hb
      rw [hq] at hr
      injection hr with hr
      rw [hr, sub_self, V3.norm_zero, sub_self]
    | cons d t =>
      rw [positions_cons2] at hq hr
      have hcd : c.md ≤ d.md := (List.pairwise_cons.mp hs).1 d (by simp)
      have hst := (List.pairwise_cons.mp hs).2
      match i, j, hij with
      | 0, 0, _ =>
        simp only [List.getElem?_cons_zero, Option.some.injEq] at ha hb hq hr
        rw [← ha, ← hb, ← hq, ← hr, sub_self, V3.norm_zero, sub_self]
      | 0, j + 1, _ =>
        simp only [List.getElem?_cons_zero, List.getElem?_cons_succ, Option.some.injEq] at ha hb hq hr
        subst ha; subst hq
        have h1 := ih (p + deltaXyz c d) hst 0 j (Nat.zero_le _) (a := d) (q := p + deltaXyz c d)
          (by simp) hb (by simp [positions]) hr
        have h2 := deltaXyz_norm_le hcd
        have h3 := V3.norm_add_le (r - (p + deltaXyz c d)) (deltaXyz c d)
        have h4 : r - (p + deltaXyz c d) + deltaXyz c d = r - p := by abel
        rw [h4] at h3
        linarith
      | i + 1, j + 1, hij =>
        simp only [List.getElem?_cons_succ] at ha hb hq hr
        exact ih (p + deltaXyz c d) hst i j (by omega) ha hb hq hr

theorem tangent_rot (i a θ : ℝ) : tangent i (a + θ) = rotZ θ (tangent i a) := by
  ext <;> simp only [tangent, rotZ, cos_add, sin_add] <;> ring

theorem dogleg2_rot (a b : Station) (θ : ℝ) :
    dogleg2 ⟨a.md, a.inc, a.azi + θ⟩ ⟨b.md, b.inc, b.azi + θ⟩ = dogleg2 a b := by
  unfold dogleg2 getDogleg
  simp only [add_sub_add_right_eq_sub]

theorem rotZ_add (θ : ℝ) (p q : V3) : rotZ θ (p + q) = rotZ θ p + rotZ θ q := by
  ext <;> simp [rotZ] <;> ring

theorem rotZ_smul (θ c : ℝ) (p : V3) : rotZ θ (c • p) = c • rotZ θ p := by
  ext <;> simp [rotZ] <;> ring

theorem deltaXyz_rot (a b : Station) (θ : ℝ) :
    swap (deltaXyz ⟨a.md, a.inc, a.azi + θ⟩ ⟨b.md, b.inc, b.azi + θ⟩)
      = rotZ θ (swap (deltaXyz a b)) := by
  have h := dogleg2_rot a b θ
  unfold dogleg2 at h
  rw [deltaXyz_eq, deltaXyz_eq, swap_swap, swap_swap]
  unfold minCurveStep
  simp only at h ⊢
  rw [h, minCurveStepRf_eq, minCurveStepRf_eq, rotZ_smul, rotZ_add, tangent_rot, tangent_rot]

theorem positions_rot (θ : ℝ) (p : V3) (s : List Station) :
    (positions (swap (rotZ θ (swap p))) (s.map fun t => ⟨t.md, t.inc, t.azi + θ⟩)).map swap
      = (positions p s).map (fun q => rotZ θ (swap q)) := by
  induction s generalizing p with
  | nil => rfl
  | cons a s ih =>
    cases s with
    | nil => simp [positions, pairwise, cumsumFrom, swap_swap]
    | cons b s =>
      rw [List.map_cons, List.map_cons, positions_cons2, positions_cons2, List.map_cons,
        List.map_cons, swap_swap]
      have := ih (p + deltaXyz a b)
      rw [swap_add, rotZ_add, swap_add, ← deltaXyz_rot, swap_swap] at this
      rw [List.map_cons] at this
      rw [this]

theorem positions_insert (p : V3) (pre post : List Station) (s1 s2 m : Station)
    (h : deltaXyz s1 m + deltaXyz m s2 = deltaXyz s1 s2) :
    ∃ A B q, A.length = pre.length + 1 ∧ positions p (pre ++ s1 :: s2 :: post) = A ++ B ∧
      positions p (pre ++ s1 :: m :: s2 :: post) = A ++ q :: B := by
  induction pre generalizing p with
  | nil =>
    refine ⟨[p], positions (p + deltaXyz s1 s2) (s2 :: post), p + deltaXyz s1 m, rfl, ?_, ?_⟩
    · simp [positions_cons2]
    · simp [positions_cons2, ← h, add_assoc]
  | cons a pre ih =>
    cases pre with
    | nil =>
      obtain ⟨A, B, q, hA, h1, h2⟩ := ih (p + deltaXyz a s1)
      refine ⟨p :: A, B, q, by simp [hA], ?_, ?_⟩
      · simp only [List.nil_append, List.cons_append] at h1 ⊢
        rw [positions_cons2, h1]
      · simp only [List.nil_append, List.cons_append] at h2 ⊢
        rw [positions_cons2, h2]
    | cons b pre =>
      obtain ⟨A, B, q, hA, h1, h2⟩ := ih (p + deltaXyz a b)
      refine ⟨p :: A, B, q, by simp [hA], ?_, ?_⟩
      · simp only [List.cons_append] at h1 ⊢
        rw [positions_cons2, h1]
      · simp only [List.cons_append] at h2 ⊢
        rw [positions_cons2, h2]

end Welleng
