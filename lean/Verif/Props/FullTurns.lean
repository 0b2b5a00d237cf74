import Verif.Props.Weights
import Verif.Props.SectionAzimuths
import Verif.Lemmas.Angles

/-!
C372: an azimuth that is given with full turns added to it.
-/

namespace Welleng.Props

open Real Finset Spec Err Sv

/-- Two stations of the same depth and inclination whose azimuths differ by full turns. -/
def SameHeading (a b : Station) : Prop :=
  b.md = a.md ∧ b.inc = a.inc ∧ ∃ n : ℤ, b.azi = a.azi + n * (2 * π)

/-- The survey with full turns added to its true, magnetic and grid azimuths, at each station as many as
the three functions say. -/
noncomputable def wound (t m g : ℕ → ℤ) (c : Ctx) : Ctx := { c with
  s := { c.s with azi := fun k => c.s.azi k + t k * (2 * π) }
  aziMag := fun k => c.aziMag k + m k * (2 * π)
  aziGrid := fun k => c.aziGrid k + g k * (2 * π) }

theorem sin_half_turn_sq (x : ℝ) (n : ℤ) : sin (x + n * π) ^ 2 = sin x ^ 2 := by
  rw [sin_add, sin_int_mul_pi, mul_zero, add_zero, mul_pow]
  have h := cos_sq_add_sin_sq (n * π)
  rw [sin_int_mul_pi] at h
  rw [show cos (n * π) ^ 2 = 1 by linarith, mul_one]

theorem dogleg2_heading {a b a' b' : Station} (ha : SameHeading a a') (hb : SameHeading b b') :
    dogleg2 a' b' = dogleg2 a b := by
  obtain ⟨_, ia, n, na⟩ := ha
  obtain ⟨_, ib, m, mb⟩ := hb
  simp only [dogleg2, getDogleg, ia, ib, na, mb]
  have e : (b.azi + m * (2 * π) - (a.azi + n * (2 * π))) / 2 = (b.azi - a.azi) / 2 + ((m - n : ℤ) : ℝ) * π := by
    push_cast; ring
  rw [e, sin_half_turn_sq]

theorem deltaXyz_heading {a b a' b' : Station} (ha : SameHeading a a') (hb : SameHeading b b') :
    deltaXyz a' b' = deltaXyz a b := by
  have hd := dogleg2_heading ha hb
  obtain ⟨da, ia, n, na⟩ := ha
  obtain ⟨db, ib, m, mb⟩ := hb
  simp only [deltaXyz, hd, minCurveStepRf, da, db, ia, ib, na, mb, sin_add_int_mul_two_pi,
    cos_add_int_mul_two_pi]

theorem pairwise_heading {β : Type*} {f : Station → Station → β}
    (hf : ∀ a b a' b', SameHeading a a' → SameHeading b b' → f a' b' = f a b) {l l' : List Station}
    (h : List.Forall₂ SameHeading l l') : pairwise f l' = pairwise f l := by
  induction h with
  | nil => rfl
  | cons ha h ih =>
    cases h with
    | nil => rfl
    | cons hb h => simp only [pairwise] at ih ⊢; rw [hf _ _ _ _ ha hb, ih]

/-- **C372**, the path: full turns added to the azimuths change neither the positions nor the doglegs and
severities, nor whether the survey is refused. -/
theorem C372_path_partial {l l' : List Station} (h : List.Forall₂ SameHeading l l') (start : V3)
    (unit : LenUnit) : minCurve l' start unit = minCurve l start unit := by
  have h1 := pairwise_heading (fun _ _ _ _ => deltaXyz_heading) h
  have h2 := pairwise_heading (fun _ _ _ _ => dogleg2_heading) h
  have h3 := pairwise_heading (f := fun a b => b.md - a.md)
    (fun a b a' b' ha hb => by simp only [ha.1, hb.1]) h
  have h4 := pairwise_heading (f := fun a b => getRf (dogleg2 a b))
    (fun a b a' b' ha hb => by simp only [dogleg2_heading ha hb]) h
  have h5 := fun co => pairwise_heading (f := fun a b => dlsOf co (dogleg2 a b) (b.md - a.md))
    (fun a b a' b' ha hb => by simp only [dogleg2_heading ha hb, ha.1, hb.1]) h
  cases h with
  | nil => rfl
  | cons ha h =>
    cases h with
    | nil => rfl
    | cons hb h =>
      cases unit <;> simp only [minCurve, h1, h2, h3, h4, h5, ha.1]

section
variable (t m g : ℕ → ℤ) (c : Ctx)

theorem drdp_wound (k : ℕ) : drdp (wound t m g c).s k = drdp c.s k := by
  simp only [drdp, wound, sin_add_int_mul_two_pi, cos_add_int_mul_two_pi]
  rfl

theorem eNEV_wound (e : ℕ → V) : eNEV (wound t m g c).s e = eNEV c.s e := by
  funext k
  simp only [eNEV, drdp_wound]

theorem eNEVStar_wound (e : ℕ → V) : eNEVStar (wound t m g c).s e = eNEVStar c.s e := by
  funext k
  simp only [eNEVStar, drdp_wound]

theorem generateError_wound (e : ℕ → V) (p : Prop') (nev : Option ((ℕ → V) × (ℕ → V))) :
    generateError (wound t m g c).s e p nev = generateError c.s e p nev := by
  simp only [generateError, eNEV_wound, eNEVStar_wound]

theorem sm_wound (k : ℕ) : (wound t m g c).sm k = c.sm k := sin_add_int_mul_two_pi _ _
theorem cm_wound (k : ℕ) : (wound t m g c).cm k = c.cm k := cos_add_int_mul_two_pi _ _
theorem st_wound (k : ℕ) : (wound t m g c).st k = c.st k := sin_add_int_mul_two_pi _ _
theorem ct_wound (k : ℕ) : (wound t m g c).ct k = c.ct k := cos_add_int_mul_two_pi _ _
theorem mix_wound (k : ℕ) : (wound t m g c).mix k = c.mix k := by
  simp only [Ctx.mix, wound, cos_add_int_mul_two_pi]
theorem funky_wound (k : ℕ) : (wound t m g c).funky k = c.funky k := by
  simp only [Ctx.funky, wound, sin_add_int_mul_two_pi]
theorem si_wound (k : ℕ) : (wound t m g c).si k = c.si k := rfl
theorem ci_wound (k : ℕ) : (wound t m g c).ci k = c.ci k := rfl
theorem dmd_wound (k : ℕ) : (wound t m g c).dmd k = c.dmd k := rfl
theorem dmd2_wound (k : ℕ) : (wound t m g c).dmd2 k = c.dmd2 k := rfl
theorem coeff_wound (k : ℕ) : coeff (wound t m g c) k = coeff c k := rfl

theorem xclaDelta_wound (k : ℕ) : xclaDelta (wound t m g c) k = xclaDelta c k := by
  have e : c.s.azi k + t k * (2 * π) - (c.s.azi (k - 1) + t (k - 1) * (2 * π)) + π
      = c.s.azi k - c.s.azi (k - 1) + π + ((t k - t (k - 1) : ℤ) : ℝ) * (2 * π) := by
    push_cast; ring
  simp only [xclaDelta, wound, e, pmod_add_int_mul _ two_pi_pos]

theorem dpde_wound (f : Func) (tort : ℝ) (k : ℕ) : dpde f (wound t m g c) tort k = dpde f c tort k := by
  have a1 : (wound t m g c).s.md = c.s.md := rfl
  have a2 : (wound t m g c).s.inc = c.s.inc := rfl
  have a3 : (wound t m g c).tvd = c.tvd := rfl
  have a4 : (wound t m g c).G = c.G := rfl
  have a5 : (wound t m g c).dip = c.dip := rfl
  have a6 : (wound t m g c).bTotal = c.bTotal := rfl
  have a7 : (wound t m g c).vlim = c.vlim := rfl
  cases f <;> simp only [dpde, sm_wound, cm_wound, st_wound, ct_wound, mix_wound, funky_wound, si_wound,
    ci_wound, dmd_wound, dmd2_wound, coeff_wound, xclaDelta_wound, a1, a2, a3, a4, a5, a6, a7, zero_mul] <;>
    rfl

theorem eDIA_wound (f : Func) (tort mag : ℝ) : eDIA f (wound t m g c) tort mag = eDIA f c tort mag := by
  funext k i
  simp only [eDIA, dpde_wound]

theorem inner_wound (row : ℕ → V) : Err.inner (wound t m g c) row = Err.inner c row := rfl

theorem singABXY_wound (mag : ℝ) (p : Bool) : singABXY (wound t m g c) mag p = singABXY c mag p := by
  have a1 : (wound t m g c).s.md = c.s.md := rfl
  have a2 : (wound t m g c).s.n = c.s.n := rfl
  have a4 : (wound t m g c).G = c.G := rfl
  have a5 : cos ((wound t m g c).s.azi 1) = cos (c.s.azi 1) := cos_add_int_mul_two_pi _ _
  simp only [singABXY, inner_wound, st_wound, ct_wound, dmd_wound, dmd2_wound, a1, a2, a4, a5]

theorem singRows_wound (f : Func) (tort mag : ℝ) :
    singRows f (wound t m g c) tort mag = singRows f c tort mag := by
  cases f
  case CNA =>
    cases hr : c.ref <;>
      simp only [singRows, cnaAzi, show (wound t m g c).ref = c.ref from rfl, hr, inner_wound, dmd_wound,
        dmd2_wound] <;>
      simp only [wound, sin_add_int_mul_two_pi, cos_add_int_mul_two_pi]
  all_goals first
    | rfl
    | simp only [singRows, eNEV_wound, eNEVStar_wound, eDIA_wound]; done
    | simp only [singRows, singABXY_wound, show (wound t m g c).s.rev4 = c.s.rev4 from rfl]

theorem callFunc_wound (f : Func) (mag : ℝ) (p : Prop') :
    callFunc f (wound t m g c) mag p = callFunc f c mag p := by
  have a1 : (wound t m g c).tortuosity = c.tortuosity := rfl
  have a2 : (wound t m g c).s.n = c.s.n := rfl
  have a3 : (wound t m g c).s.inc = c.s.inc := rfl
  have a4 : (wound t m g c).vlim = c.vlim := rfl
  have a5 : ∀ x y, replaceSing (wound t m g c) x y = replaceSing c x y := fun _ _ => rfl
  simp only [callFunc, eDIA_wound, singRows_wound, generateError_wound, eNEV_wound, eNEVStar_wound, a1, a2,
    a3, a4, a5]

/-- **C372**, the uncertainty: full turns added to the azimuths change neither the covariances a tool model
gives, nor those in the frame of the hole, nor whether it fails. -/
theorem C372_uncertainty_partial (codes : List Entry) :
    toolError (wound t m g c) codes = toolError c codes ∧
    ∀ cov k, covHLAs (wound t m g c).s cov k = covHLAs c.s cov k := by
  constructor
  · have h : callAll (wound t m g c) codes = callAll c codes := by
      induction codes with
      | nil => rfl
      | cons e es ih => simp only [callAll, callFunc_wound, ih]
    simp only [toolError, h]
  · intro cov k
    have h : ∀ i a (n : ℤ), getTransform i (a + n * (2 * π)) = getTransform i a := fun i a n => by
      simp only [getTransform, sin_add_int_mul_two_pi, cos_add_int_mul_two_pi]
    simp only [covHLAs, nevToHlaCov, wound, h]
end

/-- C372 is false of the vertical section: with one full turn added to the azimuth of a single station a
leg to the north counts as one to the south. -/
theorem C372_section_turns (ref : AziRef) {L i : ℝ} (hL : 0 < L) (hi : i ≠ 0) (z w w' : Azis)
    (hz : z.get ref false = 0) (hw : w.get ref false = 0) (hw' : w'.get ref false = 2 * π) :
    (getVerticalSection ref 0 [⟨i, z, 0, 0⟩, ⟨i, w, L, 0⟩]).2 = [0, L] ∧
    (getVerticalSection ref 0 [⟨i, z, 0, 0⟩, ⟨i, w', L, 0⟩]).2 = [0, -L] := by
  constructor
  · rw [section_eq]
    simp [pairwise, legSection, seen, hi, hz, hw, cumsumR, sqrt_sq hL.le]
  · rw [section_eq]
    simp [pairwise, legSection, seen, hi, hz, hw', cumsumR, sqrt_sq hL.le]

/-- Not vacuous. -/
example : List.Forall₂ SameHeading [⟨0, 0, 0⟩, ⟨30, 1, 1⟩] [⟨0, 0, 2 * π⟩, ⟨30, 1, 1 - 2 * π⟩] :=
  .cons ⟨rfl, rfl, 1, by simp⟩ (.cons ⟨rfl, rfl, -1, by push_cast; ring⟩ .nil)

example : ∃ z w : Azis, z.get .grid false = 0 ∧ w.get .grid false = 2 * π :=
  ⟨⟨0, 0, 0, 0, 0, 0⟩, ⟨2 * π, 2 * π, 2 * π, 2 * π, 2 * π, 2 * π⟩, rfl, rfl⟩

end Welleng.Props
