import Verif.Model.DensityProfile
import Mathlib.Tactic.FieldSimp
import Mathlib.Order.ConditionallyCompleteLattice.Basic
import Mathlib.Tactic.Linarith
import Mathlib.Tactic.NormNum

/-!
C252, C253: the density profile of a fluid.
-/

namespace Welleng.Props

open Welleng Welleng.Fluid

theorem solveAll_ok {solve : ℝ → ℝ → Except Err ℝ} : ∀ {ps : List (ℝ × ℝ)} {out : List ℝ},
    solveAll solve ps = .ok out →
    List.Forall₂ (fun p r => solve p.1 p.2 = .ok r) ps out
  | [], out, h => by
    simp only [solveAll, Except.ok.injEq] at h
    subst h; exact .nil
  | p :: t, out, h => by
    unfold solveAll at h
    cases hp : solve p.1 p.2 with
    | error e => simp [hp] at h
    | ok r =>
      cases ht : solveAll solve t with
      | error e => simp [hp, ht] at h
      | ok rs =>
        simp only [hp, ht, Except.ok.injEq] at h
        subst h
        exact .cons hp (solveAll_ok ht)

theorem gradientOf_reaches {big tref t d : ℝ} (hd : d ≠ 0) :
    tref + gradientOf big tref t d * d = t := by
  unfold gradientOf
  rw [if_neg hd]
  field_simp
  ring

/-- The temperature that belongs to entry `i` of the depths: the number, or entry `i` of the
array. -/
def tempAt : TempArg → ℕ → Option ℝ
  | .number t, _ => some t
  | .array ts, i => ts[i]?
  | .list ts, i => ts[i]?

/-- C252, what holds: for a number, or an array with a temperature for every depth, a profile that
is returned has one density for every depth, in order, and each is the answer of the solver for
that depth and for the gradient which reaches the given temperature there. -/
theorem C252_one_per_depth_partial {solve : ℝ → ℝ → Except Err ℝ} {big tref : ℝ}
    {depth : List ℝ} {temp : TempArg} {out : List ℝ}
    (ht : (∃ t, temp = .number t) ∨ ∃ ts, temp = .array ts ∧ ts.length = depth.length)
    (h : densityProfile solve big tref depth temp = .ok out) :
    out.length = depth.length ∧ ∀ i d r, depth[i]? = some d → out[i]? = some r →
      ∃ t g, tempAt temp i = some t ∧ solve d g = .ok r ∧ (d ≠ 0 → tref + g * d = t) ∧
        (d = 0 → t = tref → g = 0) := by
  obtain ⟨gs, hg, hl, hgi⟩ : ∃ gs, gradients big tref depth temp = .ok gs ∧
      gs.length = depth.length ∧ ∀ (i : ℕ) (d : ℝ), depth[i]? = some d →
        ∃ t, tempAt temp i = some t ∧ gs[i]? = some (gradientOf big tref t d) := by
    rcases ht with ⟨t, rfl⟩ | ⟨ts, rfl, hts⟩
    · refine ⟨_, rfl, by simp, fun i d hd => ⟨t, rfl, by simp [hd]⟩⟩
    · refine ⟨List.zipWith (gradientOf big tref) ts depth, by simp [gradients, hts],
        by simp [hts], fun i d hd => ?_⟩
      have hi : i < ts.length := by
        rw [hts]; exact (List.getElem?_eq_some_iff.mp hd).1
      refine ⟨ts[i], by simp [tempAt, hi], ?_⟩
      rw [List.getElem?_zipWith, hd, List.getElem?_eq_getElem hi]
  unfold densityProfile at h
  rw [hg] at h
  dsimp only at h
  have hs : solveAll solve (depth.zip gs) = .ok out := by
    cases hs : solveAll solve (depth.zip gs) with
    | error e => simp [hs] at h
    | ok o => cases o with
      | nil => simp [hs] at h
      | cons a t => simpa [hs] using h
  have hf := solveAll_ok hs
  refine ⟨by rw [← hf.length_eq, List.length_zip, hl, min_self], fun i d r hd hr => ?_⟩
  obtain ⟨t, hti, hgi⟩ := hgi i d hd
  have hz : (depth.zip gs)[i]? = some (d, gradientOf big tref t d) := by
    rw [List.getElem?_zip_eq_some]; exact ⟨hd, hgi⟩
  obtain ⟨hi1, hz1⟩ := List.getElem?_eq_some_iff.mp hz
  obtain ⟨hi2, hr1⟩ := List.getElem?_eq_some_iff.mp hr
  have := hf.get hi1 hi2
  simp only [List.get_eq_getElem, hz1, hr1] at this
  refine ⟨t, _, hti, this, gradientOf_reaches, fun hd0 htr => ?_⟩
  simp [gradientOf, hd0, htr]

/-- C252 is false for a list of temperatures, which the documentation allows: every call fails. -/
theorem C252_list_fails (solve : ℝ → ℝ → Except Err ℝ) (big tref : ℝ) (depth ts : List ℝ) :
    densityProfile solve big tref depth (.list ts) = .error .type := rfl

/-- Several temperatures for one depth: only the first is used, without an error. -/
theorem C252_one_depth_cut {solve : ℝ → ℝ → Except Err ℝ} {big tref d r : ℝ} {t : ℝ} {ts : List ℝ}
    (hts : ts ≠ []) (h : solve d (gradientOf big tref t d) = .ok r) :
    densityProfile solve big tref [d] (.array (t :: ts)) = .ok [r] := by
  obtain ⟨t', ts', rfl⟩ := List.exists_cons_of_ne_nil hts
  simp [densityProfile, gradients, solveAll, h]

/-- Neither one temperature nor one per depth: an error. -/
theorem C252_shapes (solve : ℝ → ℝ → Except Err ℝ) (big tref : ℝ) {depth ts : List ℝ}
    (h : ts.length ≠ depth.length) (h1 : ts.length ≠ 1) (h2 : depth.length ≠ 1) :
    densityProfile solve big tref depth (.array ts) = .error .value := by
  have : gradients big tref depth (.array ts) = .error .value := by
    rw [gradients, if_neg h]
    · rintro t rfl; simp at h1
    · rintro d rfl; simp at h2
  simp [densityProfile, this]

/-- Two depths with a temperature each. -/
example : densityProfile (fun d g => .ok (d + g)) 1 32 [10, 20] (.array [42, 52])
    = .ok [11, 21] := by
  norm_num [densityProfile, gradients, solveAll, gradientOf]

/-! ### C253 -/

/-- A solver that stays within the bounds and comes within `ε` of the smallest value of every
objective that is not negative and can be evaluated. -/
def SolvesWithin (ε lo hi : ℝ) (minimise : (ℝ → Except Err ℝ) → Except Err ℝ) : Prop :=
  ∀ f : ℝ → Except Err ℝ, ∀ F : ℝ → ℝ, (∀ y, f y = .ok (F y)) → (∀ y, 0 ≤ F y) →
    ∃ x, minimise f = .ok x ∧ lo ≤ x ∧ x ≤ hi ∧ ∀ y, lo ≤ y → y ≤ hi → F x ≤ F y + ε

/-- C253: at the surface the profile gives the reference density, up to the tolerance of the
solver, whatever temperature and pressure are given, if that density is within the bounds. -/
theorem C253_surface {ε lo hi : ℝ} {minimise : (ℝ → Except Err ℝ) → Except Err ℝ}
    (hmin : SolvesWithin ε lo hi minimise) (rho tref vw vo pressure big : ℝ)
    (hlo : lo ≤ rho) (hhi : rho ≤ hi) (depth : List ℝ) (temp : TempArg) (out : List ℝ)
    (ht : (∃ t, temp = .number t) ∨ ∃ ts, temp = .array ts ∧ ts.length = depth.length)
    (h : densityProfile (fun d g => minimise fun x => getDensity x rho tref vw vo pressure d g)
      big tref depth temp = .ok out) (i : ℕ) (hi0 : depth[i]? = some 0) :
    ∃ r, out[i]? = some r ∧ |r - rho| ≤ ε := by
  obtain ⟨hlen, hall⟩ := C252_one_per_depth_partial ht h
  have hi' : i < out.length := by
    rw [hlen]; exact (List.getElem?_eq_some_iff.mp hi0).1
  refine ⟨out[i], by simp [hi'], ?_⟩
  obtain ⟨t, g, -, hs, -, -⟩ := hall i 0 out[i] hi0 (by simp [hi'])
  obtain ⟨x, hx, -, -, hbest⟩ := hmin _ (fun x => |x - rho|) (fun y => by
    simp [getDensity, raises, objective, func] : ∀ y, getDensity y rho tref vw vo pressure 0 g = _)
    fun y => abs_nonneg _
  rw [hx, Except.ok.injEq] at hs
  subst hs
  simpa using hbest rho hlo hhi

/-- Such solvers exist. -/
theorem solvesWithin_exists {ε lo hi : ℝ} (hε : 0 < ε) (hl : lo ≤ hi) :
    ∃ minimise, SolvesWithin ε lo hi minimise := by
  have hkey : ∀ f : ℝ → Except Err ℝ, ∃ r : Except Err ℝ, ∀ F : ℝ → ℝ, (∀ y, f y = .ok (F y)) →
      (∀ y, 0 ≤ F y) → ∃ x, r = .ok x ∧ lo ≤ x ∧ x ≤ hi ∧ ∀ y, lo ≤ y → y ≤ hi → F x ≤ F y + ε := by
    intro f
    by_cases hF : ∃ F : ℝ → ℝ, (∀ y, f y = .ok (F y)) ∧ ∀ y, 0 ≤ F y
    · obtain ⟨F, hf, h0⟩ := hF
      have hne : (F '' Set.Icc lo hi).Nonempty := ⟨F lo, lo, ⟨le_rfl, hl⟩, rfl⟩
      have hbd : BddBelow (F '' Set.Icc lo hi) := ⟨0, by rintro _ ⟨y, -, rfl⟩; exact h0 y⟩
      obtain ⟨_, ⟨x, hx, rfl⟩, hlt⟩ := exists_lt_of_csInf_lt hne
        (show sInf (F '' Set.Icc lo hi) < sInf (F '' Set.Icc lo hi) + ε by linarith)
      refine ⟨.ok x, fun F' hf' _ => ⟨x, rfl, hx.1, hx.2, fun y h1 h2 => ?_⟩⟩
      have hFF : F' = F := funext fun z => by
        have := (hf' z).symm.trans (hf z)
        simpa using this
      subst hFF
      have := csInf_le hbd ⟨y, ⟨h1, h2⟩, rfl⟩
      linarith
    · exact ⟨.error .assertion, fun F hf h0 => absurd ⟨F, hf, h0⟩ hF⟩
  choose m hm using hkey
  exact ⟨m, hm⟩

end Welleng.Props
