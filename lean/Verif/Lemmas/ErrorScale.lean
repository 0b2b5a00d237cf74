import Verif.Lemmas.ErrorModel

/-! Every weighting function is linear in its magnitude. -/

namespace Welleng.Err

open Real Finset Spec

/-- Scale a pair of arrays. -/
def scalePair (a : ℝ) (x : (ℕ → V) × (ℕ → V)) : (ℕ → V) × (ℕ → V) := (a • x.1, a • x.2)

theorem inner_smul (c : Ctx) (a : ℝ) (r r' : ℕ → V) (h : ∀ k, r' k = a • r k) :
    inner c r' = a • inner c r := by
  funext k; simp only [inner, Pi.smul_apply]; split
  · simp
  · exact h k

theorem setRow1_smul (a : ℝ) (r : ℕ → V) (i : Fin 3) (x x' : ℝ) (h : x' = a * x) :
    setRow1 (a • r) i x' = a • setRow1 r i x := by
  funext k j; simp only [setRow1, Pi.smul_apply]; split
  · by_cases hj : j = i
    · subst hj; simp [h]
    · simp [Function.update_of_ne hj]
  · rfl

theorem replaceSing_smul (c : Ctx) (a : ℝ) (r r' : ℕ → V) :
    replaceSing c (a • r) (a • r') = a • replaceSing c r r' := by
  funext k; simp only [replaceSing, Pi.smul_apply]; split <;> rfl

theorem onlyComp_smul (a : ℝ) (i j : Fin 3) (r : ℕ → V) :
    onlyComp i (a • r) j = a • onlyComp i r j := by
  funext k l; simp only [onlyComp, Pi.smul_apply]
  by_cases h : l = i
  · subst h; simp
  · simp [Pi.single_eq_of_ne h]

theorem singABXY_smul (c : Ctx) (a mag : ℝ) (b : Bool) :
    singABXY c (a * mag) b = (singABXY c mag b).map (scalePair a) := by
  simp only [singABXY]
  have h1 : (inner c fun k =>
      ![0.5 * c.dmd2 k * -c.st k * (a * mag) / c.G, 0.5 * c.dmd2 k * c.ct k * (a * mag) / c.G, 0])
      = a • inner c fun k =>
      ![0.5 * c.dmd2 k * -c.st k * mag / c.G, 0.5 * c.dmd2 k * c.ct k * mag / c.G, 0] := by
    apply inner_smul; intro k; funext i; fin_cases i <;> simp <;> ring
  have h2 : (inner c fun k =>
      ![0.5 * c.dmd k * -c.st k * (a * mag) / c.G, 0.5 * c.dmd k * c.ct k * (a * mag) / c.G, 0])
      = a • inner c fun k =>
      ![0.5 * c.dmd k * -c.st k * mag / c.G, 0.5 * c.dmd k * c.ct k * mag / c.G, 0] := by
    apply inner_smul; intro k; funext i; fin_cases i <;> simp <;> ring
  rw [h1, h2]
  split
  · split
    · rfl
    · simp only [Except.map, scalePair]
      congr 2 <;> (apply setRow1_smul; ring)
  · rfl

theorem singL_smul (c : Ctx) (a mag : ℝ) (i : Fin 3) (co : ℝ) :
    singL c (a * mag) i co = (singL c mag i co).map (scalePair a) := by
  simp only [singL]
  split
  · rfl
  · simp only [Except.map, scalePair]
    have h : ∀ x : ℝ, (Pi.single i (a * x) : V) = a • Pi.single i x := by
      intro x; funext j
      by_cases h : j = i
      · subst h; simp
      · simp [Pi.single_eq_of_ne h]
    congr 2
    · rw [← setRow1_smul (a := a) (h := rfl)]
      congr 1
      · funext k
        simp only [Pi.smul_apply]
        split
        · simp
        · split <;> rw [← h] <;> congr 1 <;> ring
      · ring
    · rw [← setRow1_smul (a := a) (h := rfl)]
      congr 1
      · funext k
        simp only [Pi.smul_apply]
        split
        · simp
        · rw [← h]; congr 1; ring
      · ring

theorem singRows_smul (f : Func) (c : Ctx) (tort a mag : ℝ) :
    singRows f c tort (a * mag)
      = (singRows f c tort mag).map fun r => r.map (scalePair a) := by
  cases f <;> simp only [singRows, Option.map_none, Option.map_some, singABXY_smul, singL_smul,
    eDIA_smul, eNEV_smul, eNEVStar_smul, onlyComp_smul, Except.map]
  case CNA =>
    split
    · rfl
    · simp only [scalePair]
      congr 3 <;> (apply inner_smul; intro k; funext i; fin_cases i <;> simp <;> ring)
  case XYM3 | XYM4 =>
    simp only [scalePair]
    congr 3 <;> (apply inner_smul; intro k; funext i; fin_cases i <;> simp <;> ring)
  all_goals rfl

theorem callFunc_smul (f : Func) (c : Ctx) (a mag : ℝ) (p : Prop') :
    callFunc f c (a * mag) p
      = (callFunc f c mag p).map fun t => t.map (Term.scale a) := by
  have g0 := fun s e p => generateError_smul s a e p none
  have g1 := fun s e p x y => generateError_smul s a e p (some (x, y))
  simp only [Option.map_none, Option.map_some] at g0 g1
  simp only [callFunc, eDIA_smul, singRows_smul]
  split
  · rfl
  · split
    · simp [g1, Except.map]
    · cases hr : singRows f c (c.tortuosity.getD 0) mag with
      | none => simp [g0, Except.map]
      | some r =>
        simp only [Option.map_some]
        split
        · split
          · rfl
          · cases r with
            | error x => rfl
            | ok x =>
              simp only [Except.map, scalePair]
              rw [eNEV_smul, eNEVStar_smul, replaceSing_smul, replaceSing_smul, g1]
        · simp [g0, Except.map]

end Welleng.Err
