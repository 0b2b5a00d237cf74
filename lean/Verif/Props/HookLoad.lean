import Verif.Model.HookLoad
import Verif.Props.TorqueDragMore

/-!
C290: the table of hook loads.
-/

namespace Welleng.Props

open Td

theorem eachOk_ok {A B : Type} {f : A → Except Exc B} {as : List A} {bs : List B} :
    eachOk f as = .ok bs ↔ List.Forall₂ (fun a b => f a = .ok b) as bs := by
  induction as generalizing bs with
  | nil => simp [eachOk, eq_comm]
  | cons a as ih =>
    rw [eachOk, List.forall₂_cons_left_iff]
    cases h : f a with
    | error e => simp
    | ok b =>
      cases h2 : eachOk f as with
      | error e =>
        simp only [reduceCtorEq, false_iff, not_exists, not_and]
        intro b' bs' _ hf
        rw [← ih, h2] at hf
        cases hf
      | ok bs2 =>
        simp only [Except.ok.injEq]
        constructor
        · rintro rfl
          exact ⟨b, bs2, rfl, ih.1 h2, rfl⟩
        · rintro ⟨b', bs', rfl, hf, rfl⟩
          rw [← ih, h2, Except.ok.injEq] at hf
          rw [hf]

theorem runDepths_ok {td : Tubular → Tubular → Except Exc Tension}
    {lower : ℝ → Except Exc Tubular} {w : Tubular} {mds : List ℝ} {ds : List Tension}
    (h : runDepths td lower w mds = .ok ds) :
    List.Forall₂ (fun md d => ∃ b, lower md = .ok b ∧ td w b = .ok d) mds ds := by
  induction mds generalizing ds with
  | nil =>
    simp only [runDepths, Except.ok.injEq] at h
    subst h
    exact .nil
  | cons md mds ih =>
    rw [runDepths] at h
    split at h
    · cases h
    · rename_i b hb
      split at h
      · cases h
      · rename_i d hd
        split at h
        · cases h
        · rename_i ds' hds
          cases h
          exact .cons ⟨b, hb, hd⟩ (ih hds)

/-- C290 is false: no table of hook loads is ever made, whatever the survey, the wellbore, the
string, the depths and the friction factors. -/
theorem C290_never_made (interp : ℝ → Except Exc TStn) (survey : List TStn)
    (rest : List TStn × ℕ × List ℝ → Except Exc Tension) (lower : ℝ → Except Exc Tubular)
    (w : Tubular) (top bottom step start stop ffStep : ℝ) :
    ∃ e, hookLoad (tdTension interp survey rest) lower w top bottom step start stop ffStep
      = .error e := by
  have htd : ∀ w b, ∃ e, tdTension interp survey rest w b = .error e := by
    intro w b
    obtain ⟨e, he⟩ := C42_never_constructed interp survey w b
    exact ⟨e, by rw [tdTension, he]⟩
  cases h : hookLoad (tdTension interp survey rest) lower w top bottom step start stop ffStep with
  | error e => exact ⟨e, rfl⟩
  | ok data =>
    exfalso
    unfold hookLoad hookData at h
    rw [eachOk_ok] at h
    have hne : ffRange start stop ffStep ≠ [] := by simp [ffRange]
    cases hf : ffRange start stop ffStep with
    | nil => exact hne hf
    | cons ff ffs =>
      rw [hf] at h
      cases h with
      | cons h1 _ =>
        split at h1
        · cases h1
        · rename_i r hr
          unfold hookRow at hr
          split at hr
          · cases hr
          · cases hr
          · rename_i d ds hds
            have := runDepths_ok hds
            generalize mdRange top bottom step = mds at this
            cases this with
            | cons h2 _ =>
              obtain ⟨b, -, hb⟩ := h2
              obtain ⟨e, he⟩ := htd (withFriction ff w) b
              rw [he] at hb
              cases hb

/-- C290 (partial): for any calculation `td` of the tensions, a table that is made has one entry for
each friction factor, in order. -/
theorem C290_factors_partial {td : Tubular → Tubular → Except Exc Tension}
    {lower : ℝ → Except Exc Tubular} {w : Tubular} {mds ffs : List ℝ}
    {data : List (ℝ × List (String × List ℝ))} (h : hookData td lower w mds ffs = .ok data) :
    data.map (·.1) = ffs := by
  unfold hookData at h
  rw [eachOk_ok] at h
  induction h with
  | nil => rfl
  | cons h1 _ ih =>
    rw [List.map_cons, ih]
    split at h1
    · cases h1
    · cases h1
      rfl

/-- C290 (partial): in the entry of a friction factor, every load case has one value for each depth:
the tension at the top of the string lowered to that depth, calculated in the wellbore with that
friction factor in every section. -/
theorem C290_values_partial {td : Tubular → Tubular → Except Exc Tension}
    {lower : ℝ → Except Exc Tubular} {w : Tubular} {mds ffs : List ℝ}
    {data : List (ℝ × List (String × List ℝ))} (h : hookData td lower w mds ffs = .ok data)
    {ff : ℝ} {row : List (String × List ℝ)} (hr : (ff, row) ∈ data) {t : String} {l : List ℝ}
    (hl : (t, l) ∈ row) :
    List.Forall₂ (fun md x => ∃ b d rest, lower md = .ok b ∧
      td { w with sections := w.sections.map fun kv => (kv.1, { kv.2 with mu := ff }) } b = .ok d ∧
      d.lookup t = some (x :: rest)) mds l := by
  unfold hookData at h
  rw [eachOk_ok] at h
  have hrow : hookRow td lower w mds ff = .ok row := by
    induction h with
    | nil => simp at hr
    | cons h1 _ ih =>
      rw [List.mem_cons] at hr
      rcases hr with rfl | hr
      · split at h1
        · cases h1
        · rename_i r hr
          cases h1
          exact hr
      · exact ih hr
  unfold hookRow at hrow
  split at hrow
  · cases hrow
  · cases hrow
  · rename_i d ds hds
    rw [eachOk_ok] at hrow
    have hcol : eachOk (hookOf t) (d :: ds) = .ok l := by
      clear hds hr h
      generalize d.map (·.1) = keys at hrow
      induction hrow with
      | nil => simp at hl
      | cons h1 _ ih =>
        rw [List.mem_cons] at hl
        rcases hl with rfl | hl
        · split at h1
          · cases h1
          · rename_i l' hl'
            cases h1
            exact hl'
        · exact ih hl
    rw [eachOk_ok] at hcol
    have hrun := runDepths_ok hds
    clear hds hrow hl hr h
    generalize d :: ds = D at hcol hrun
    induction hrun generalizing l with
    | nil => cases hcol; exact .nil
    | cons h1 _ ih =>
      cases hcol with
      | cons h2 h3 =>
        obtain ⟨b, hb, hd⟩ := h1
        refine .cons ?_ (ih h3)
        unfold hookOf at h2
        split at h2
        · cases h2
        · cases h2
        · rename_i x rest hx
          cases h2
          exact ⟨b, _, rest, hb, hd, hx⟩

/-- C290 (partial): the load cases of an entry are those of the first depth. -/
theorem C290_cases_partial {td : Tubular → Tubular → Except Exc Tension}
    {lower : ℝ → Except Exc Tubular} {w : Tubular} {md : ℝ} {mds : List ℝ} {ff : ℝ}
    {row : List (String × List ℝ)} (h : hookRow td lower w (md :: mds) ff = .ok row) :
    ∃ b d, lower md = .ok b ∧ td (withFriction ff w) b = .ok d ∧
      row.map (·.1) = d.map (·.1) := by
  unfold hookRow at h
  split at h
  · cases h
  · cases h
  · rename_i d ds hds
    have hrun := runDepths_ok hds
    cases hrun with
    | cons h1 _ =>
      obtain ⟨b, hb, hd⟩ := h1
      refine ⟨b, d, hb, hd, ?_⟩
      rw [eachOk_ok] at h
      clear hd
      generalize d.map (·.1) = keys at h
      induction h with
      | nil => rfl
      | cons h1 _ ih =>
        rw [List.map_cons, ih]
        split at h1
        · cases h1
        · cases h1
          rfl

/-- C290, a case: a weightless calculation, two depths, two friction factors. -/
example : hookData (fun w b => .ok [("pickup", [b.bottom, w.bottom])])
    (fun md => .ok ⟨true, md, []⟩) ⟨true, 9, []⟩ [1, 2] [3, 4]
    = .ok [(3, [("pickup", [1, 2])]), (4, [("pickup", [1, 2])])] := rfl

end Welleng.Props
