import Verif.Model.Weights
import Mathlib.Tactic.Ring
import Mathlib.Tactic.NormNum

/-!
C361: the uncertainty and the datum from which depths are counted.
-/

namespace Welleng.Props

open Real Err

/-- The same well with measured depths counted from a datum `a` higher, and vertical depths from any
other. -/
def fromDatum (c : Ctx) (a : ℝ) (tvd : ℕ → ℝ) : Ctx :=
  { c with s := { c.s with md := fun k => c.s.md k + a }, tvd := tvd }

theorem drdp_fromDatum (c : Ctx) (a : ℝ) (tvd : ℕ → ℝ) (k : ℕ) :
    drdp (fromDatum c a tvd).s k = drdp c.s k := by
  have h : ∀ i j, (fromDatum c a tvd).s.md i - (fromDatum c a tvd).s.md j = c.s.md i - c.s.md j := fun i j =>
    add_sub_add_right_eq_sub _ _ _
  unfold drdp
  simp only [h]
  rfl

theorem eNEV_fromDatum (c : Ctx) (a : ℝ) (tvd : ℕ → ℝ) (e : ℕ → V) :
    eNEV (fromDatum c a tvd).s e = eNEV c.s e ∧ eNEVStar (fromDatum c a tvd).s e = eNEVStar c.s e := by
  constructor <;> funext k <;> simp only [eNEV, eNEVStar, drdp_fromDatum]

theorem generateError_fromDatum (c : Ctx) (a : ℝ) (tvd : ℕ → ℝ) (e : ℕ → V) (p : Prop')
    (nev : Option ((ℕ → V) × (ℕ → V))) :
    generateError (fromDatum c a tvd).s e p nev = generateError c.s e p nev := by
  unfold generateError
  rw [(eNEV_fromDatum c a tvd e).1, (eNEV_fromDatum c a tvd e).2]

theorem dmd_fromDatum (c : Ctx) (a : ℝ) (tvd : ℕ → ℝ) (k : ℕ) :
    (fromDatum c a tvd).dmd k = c.dmd k ∧ (fromDatum c a tvd).dmd2 k = c.dmd2 k :=
  ⟨add_sub_add_right_eq_sub _ _ _, add_sub_add_right_eq_sub _ _ _⟩

theorem coeff_fromDatum (c : Ctx) (a : ℝ) (tvd : ℕ → ℝ) (k : ℕ) :
    coeff (fromDatum c a tvd) k = coeff c k := by
  unfold coeff
  rw [(dmd_fromDatum c a tvd k).1]

theorem dpde_fromDatum {f : Func} (hf : f ≠ .DSF ∧ f ≠ .DST) (c : Ctx) (a : ℝ) (tvd : ℕ → ℝ) (tort : ℝ) (k : ℕ) :
    dpde f (fromDatum c a tvd) tort k = dpde f c tort k := by
  cases f <;> first
    | exact absurd rfl hf.1
    | exact absurd rfl hf.2
    | rfl
    | (simp only [dpde, coeff_fromDatum, (dmd_fromDatum c a tvd _).1]; rfl)

theorem eDIA_fromDatum {f : Func} (hf : f ≠ .DSF ∧ f ≠ .DST) (c : Ctx) (a : ℝ) (tvd : ℕ → ℝ) (tort mag : ℝ) :
    eDIA f (fromDatum c a tvd) tort mag = eDIA f c tort mag := by
  funext k i
  unfold eDIA
  rw [dpde_fromDatum hf]

theorem singABXY_fromDatum (c : Ctx) (a : ℝ) (tvd : ℕ → ℝ) (mag : ℝ) (patch : Bool) :
    singABXY (fromDatum c a tvd) mag patch = singABXY c mag patch := by
  have h1 : (fromDatum c a tvd).s.md 2 + (fromDatum c a tvd).s.md 1 - 2 * (fromDatum c a tvd).s.md 0
      = c.s.md 2 + c.s.md 1 - 2 * c.s.md 0 := by
    simp only [fromDatum]; ring
  have h2 : (fromDatum c a tvd).s.md 1 - (fromDatum c a tvd).s.md 0 = c.s.md 1 - c.s.md 0 :=
    add_sub_add_right_eq_sub _ _ _
  unfold singABXY
  simp only [h1, h2, (dmd_fromDatum c a tvd _).1, (dmd_fromDatum c a tvd _).2]
  rfl

theorem singL_fromDatum (c : Ctx) (a : ℝ) (tvd : ℕ → ℝ) (mag : ℝ) (i : Fin 3) (co : ℝ) :
    singL (fromDatum c a tvd) mag i co = singL c mag i co := by
  have h1 : (fromDatum c a tvd).s.md 2 + (fromDatum c a tvd).s.md 1 - 2 * (fromDatum c a tvd).s.md 0
      = c.s.md 2 + c.s.md 1 - 2 * c.s.md 0 := by
    simp only [fromDatum]; ring
  have h2 : (fromDatum c a tvd).s.md 1 - (fromDatum c a tvd).s.md 0 = c.s.md 1 - c.s.md 0 :=
    add_sub_add_right_eq_sub _ _ _
  unfold singL
  simp only [h1, h2, coeff_fromDatum, (dmd_fromDatum c a tvd _).1, (dmd_fromDatum c a tvd _).2]
  rfl

theorem singRows_fromDatum (f : Func) (c : Ctx) (a : ℝ) (tvd : ℕ → ℝ) (tort mag : ℝ) :
    singRows f (fromDatum c a tvd) tort mag = singRows f c tort mag := by
  have hx : (.XYM3E : Func) ≠ .DSF ∧ (.XYM3E : Func) ≠ .DST := ⟨by decide, by decide⟩
  have hi : ∀ g, Err.inner (fromDatum c a tvd) g = Err.inner c g := fun _ => rfl
  have hz : cnaAzi (fromDatum c a tvd) = cnaAzi c := rfl
  have hr : (fromDatum c a tvd).s.rev4 = c.s.rev4 := rfl
  cases f <;> simp only [singRows, singABXY_fromDatum, singL_fromDatum, coeff_fromDatum,
    (dmd_fromDatum c a tvd _).1, (dmd_fromDatum c a tvd _).2, eDIA_fromDatum hx, (eNEV_fromDatum c a tvd _).1,
    (eNEV_fromDatum c a tvd _).2, hi, hz, hr]

theorem callFunc_fromDatum {f : Func} (hf : f ≠ .DSF ∧ f ≠ .DST) (c : Ctx) (a : ℝ) (tvd : ℕ → ℝ) (mag : ℝ)
    (p : Prop') : callFunc f (fromDatum c a tvd) mag p = callFunc f c mag p := by
  unfold callFunc
  simp only [generateError_fromDatum, eDIA_fromDatum hf, singRows_fromDatum, (eNEV_fromDatum c a tvd _).1,
    (eNEV_fromDatum c a tvd _).2]
  rfl

/-- **C361** A tool model without depth scale and stretch sources gives the same covariances, or fails in
the same way, whatever the datum of the depths. -/
theorem C361_datum (c : Ctx) (a : ℝ) (tvd : ℕ → ℝ) (codes : List Entry)
    (h : ∀ e ∈ codes, e.f ≠ .DSF ∧ e.f ≠ .DST) :
    toolError (fromDatum c a tvd) codes = toolError c codes := by
  have hc : callAll (fromDatum c a tvd) codes = callAll c codes := by
    induction codes with
    | nil => rfl
    | cons e es ih =>
      rw [callAll, callAll, callFunc_fromDatum (h e (by simp)), ih fun x hx => h x (by simp [hx])]
  unfold toolError
  rw [hc]

/-- A vertical well of two stations with a depth scale source of one in a thousand. -/
noncomputable def scaleWell : Ctx :=
  ⟨⟨2, fun k => if k = 0 then 0 else 100, fun _ => 0, fun _ => 0, false⟩, fun _ => 0, fun _ => 0, fun _ => 0,
    9.8, 1, 50000, 0, .grid, none⟩

theorem colTwo (x y z : ℝ) : (![x, y, z] : Fin 3 → ℝ) 2 = z := rfl

/-- **C361** The depth scale source is one that does depend on it: counted from a datum 100 m higher, its
error at the second station is twice as large. -/
theorem C361_scale_depends : ∃ t t', callFunc .DSF scaleWell 0.001 .systematic = .ok (some t) ∧
    callFunc .DSF (fromDatum scaleWell 100 fun _ => 0) 0.001 .systematic = .ok (some t') ∧
    t.cov 1 2 2 = 0.01 ∧ t'.cov 1 2 2 = 0.04 := by
  refine ⟨_, _, by simp [callFunc, Func.usesTortuosity, singRows, forcedProp, generateError, propagate]; rfl,
    by simp [callFunc, Func.usesTortuosity, singRows, forcedProp, generateError, propagate]; rfl, ?_, ?_⟩
  · norm_num [covFromVec, sigmaSystematic, eNEV, eNEVStar, drdp, eDIA, dpde, scaleWell, show ![(0 : ℝ), 0, 1, 100, 0, 0, 0, 0, 0, 0, 0, 0, 0, 0, 0, 0, 0, 0] 2 = 1 from rfl,
      show ![(0 : ℝ), 0, 1, 100, 0, 0, 0, 0, 0, 0, 0, 0, 0, 0, 0, 0, 0, 0] 8 = 0 from rfl, colTwo]
  · norm_num [covFromVec, sigmaSystematic, eNEV, eNEVStar, drdp, eDIA, dpde, scaleWell, fromDatum, show ![(0 : ℝ), 0, 1, 100, 0, 0, 0, 0, 0, 0, 0, 0, 0, 0, 0, 0, 0, 0] 2 = 1 from rfl,
      show ![(0 : ℝ), 0, 1, 100, 0, 0, 0, 0, 0, 0, 0, 0, 0, 0, 0, 0, 0, 0] 8 = 0 from rfl, colTwo]

example : ∀ e ∈ [(⟨.SAG, 0.002, .systematic⟩ : Entry), ⟨.AZ, 0.005, .global⟩, ⟨.DREF, 0.35, .random⟩],
    e.f ≠ .DSF ∧ e.f ≠ .DST := by
  simp

end Welleng.Props
