import Verif.Spec.SurveyCov
import Verif.Props.Angles
import Verif.Props.ErrorModel

/-!
C233-C239: the covariances of a survey (`/repo/welleng/survey.py` 747-761, 912-974).
-/

namespace Welleng.Props

open Welleng.Spec Cov

/-! ### Heaps -/

theorem alloc_new (h : Heap) (o : Obj) : (h.alloc o).get h.next = o := by
  simp [Heap.alloc]

theorem alloc_old {h : Heap} {o : Obj} {r : ℕ} (hr : r ≠ h.next) :
    (h.alloc o).get r = h.get r := by
  simp [Heap.alloc, Function.update_of_ne hr]

theorem alloc_untouched {h : Heap} {o : Obj} {r : ℕ} (hr : r < h.next) :
    (h.alloc o).get r = h.get r := alloc_old (Nat.ne_of_lt hr)

theorem nevToHla_seenAlong (inc azi : ℝ) (c : M3) :
    nevToHlaCov inc azi c = seenAlong inc azi c := by
  have e : getTransform inc azi = boreholeAxes inc azi := rfl
  ext i j
  simp only [nevToHlaCov, seenAlong, e, Matrix.mul_apply, Matrix.transpose_apply, Finset.sum_mul]
  exact Finset.sum_comm

theorem agree_zip {angles : List Angles} {l : List M3} (hn : l.length = angles.length) :
    Agree angles l (List.zipWith (fun a c => nevToHlaCov a.inc a.grid c) angles l) := by
  refine ⟨hn, by simp [hn], fun k a c d ha hc hd => ?_⟩
  rw [List.getElem?_zipWith, ha, hc] at hd
  simp only [Option.some.injEq] at hd
  rw [← hd, nevToHla_seenAlong]

theorem agree_back {angles : List Angles} {l : List M3} (hn : l.length = angles.length) :
    Agree angles (List.zipWith (fun a c => hlaToNevCov a.inc a.grid c) angles l) l := by
  refine ⟨by simp [hn], hn, fun k a c d ha hc hd => ?_⟩
  rw [List.getElem?_zipWith, ha, hd] at hc
  simp only [Option.some.injEq] at hc
  rw [← hc, ← nevToHla_seenAlong, (C13_round_trip a.inc a.grid d 0).2.1]

theorem toHla_ok {angles : List Angles} {o : Obj} {l : List M3} (hl : matrices o = some l)
    (hn : l.length = angles.length) : toHla angles o =
      .ok (List.zipWith (fun a c => nevToHlaCov a.inc a.grid c) angles l) := by
  cases o <;> simp only [matrices, Option.some.injEq, reduceCtorEq] at hl <;> subst hl <;>
    simp [toHla, batch, hn]

theorem toNev_ok {angles : List Angles} {o : Obj} {l : List M3} (hl : matrices o = some l)
    (hn : l.length = angles.length) : toNev angles o =
      .ok (List.zipWith (fun a c => hlaToNevCov a.inc a.grid c) angles l) := by
  cases o <;> simp only [matrices, Option.some.injEq, reduceCtorEq] at hl <;> subst hl <;>
    simp [toNev, batch, hn]

/-! ### Results -/

section
variable {models : List String} {em : String → Except Err.Exc Err.Totals}

theorem construct_ok {h h' : Heap} {s : Survey} {angles : List Angles} {start : Option M3}
    {model : Option String} {nev hla : Option ℕ} (hm : ∀ m, model = some m → m ∈ models)
    (e : getErrors em h ⟨angles, start, model, nev, hla, none, none, none, none⟩ = (h', s, none)) :
    construct models em h angles start model nev hla = (h', .ok s) := by
  simp only [construct, if_pos hm, e]

/-- The covariances that an error model gives. -/
noncomputable def modelCovs (angles : List Angles) (start : Option M3) (t : Err.Totals) : Seen :=
  let n := angles.length
  let parts (f : ℕ → M3) := some ((List.range n).map f)
  match start with
  | none =>
    ⟨parts t.total, some (List.zipWith (fun a c => nevToHlaCov a.inc a.true' c) angles
      ((List.range n).map t.total)), parts t.random, parts t.systematic, parts t.global,
      parts t.withinPad⟩
  | some S =>
    ⟨parts fun k => t.total k + S, some (List.zipWith (fun a c => nevToHlaCov a.inc a.grid c) angles
      ((List.range n).map fun k => t.total k + S)), parts t.random, parts t.systematic,
      parts t.global, parts t.withinPad⟩

/-- The objects after an error model was evaluated. -/
noncomputable def modelHeap (h : Heap) (angles : List Angles) (t : Err.Totals) : Heap :=
  let n := angles.length
  (((((h.alloc (hlaOf angles t.total)).alloc (rows n t.total)).alloc (rows n t.random)).alloc
    (rows n t.systematic)).alloc (rows n t.global)).alloc (rows n t.withinPad)

theorem modelHeap_get (h : Heap) (angles : List Angles) (t : Err.Totals) :
    (modelHeap h angles t).next = h.next + 6 ∧
    (modelHeap h angles t).get h.next = hlaOf angles t.total ∧
    (modelHeap h angles t).get (h.next + 1) = rows angles.length t.total ∧
    (modelHeap h angles t).get (h.next + 2) = rows angles.length t.random ∧
    (modelHeap h angles t).get (h.next + 3) = rows angles.length t.systematic ∧
    (modelHeap h angles t).get (h.next + 4) = rows angles.length t.global ∧
    (modelHeap h angles t).get (h.next + 5) = rows angles.length t.withinPad ∧
    ∀ r < h.next, (modelHeap h angles t).get r = h.get r := by
  have hold : ∀ r < h.next, (modelHeap h angles t).get r = h.get r := fun r hr => by
    simp [modelHeap, Heap.alloc, Function.update_apply, show r ≠ h.next by omega,
      show r ≠ h.next + 1 by omega, show r ≠ h.next + 1 + 1 by omega,
      show r ≠ h.next + 1 + 1 + 1 by omega, show r ≠ h.next + 1 + 1 + 1 + 1 by omega,
      show r ≠ h.next + 1 + 1 + 1 + 1 + 1 by omega]
  refine ⟨rfl, ?_, ?_, ?_, ?_, ?_, ?_, hold⟩ <;>
    simp [modelHeap, Heap.alloc, Function.update_apply]
  rw [if_neg (by omega), if_neg (by omega), if_neg (by omega), if_neg (by omega)]

theorem getErrors_model {h : Heap} {s : Survey} {m : String} {t : Err.Totals}
    (hm : s.model = some m) (ht : em m = .ok t) :
    ∃ h' s', getErrors em h s = (h', s', none) ∧ covs h' s' = modelCovs s.angles s.start t ∧
      s'.angles = s.angles ∧ s'.start = s.start ∧ s'.model = some m ∧ Untouched h h' ∧
      h.next ≤ h'.next := by
  obtain ⟨angles, start, model, nev, hla, r1, r2, r3, r4⟩ := s
  simp only at hm
  subst hm
  obtain ⟨g, g0, g1, g2, g3, g4, g5, gr⟩ := modelHeap_get h angles t
  have hb : base em h ⟨angles, start, some m, nev, hla, r1, r2, r3, r4⟩ = (modelHeap h angles t,
      ⟨angles, start, some m, some (h.next + 1), some h.next, some (h.next + 2), some (h.next + 3),
        some (h.next + 4), some (h.next + 5)⟩, none) := by
    simp only [base, ht]; rfl
  generalize modelHeap h angles t = H at *
  cases start with
  | none =>
    refine ⟨H, ⟨angles, none, some m, some (h.next + 1), some h.next, some (h.next + 2),
      some (h.next + 3), some (h.next + 4), some (h.next + 5)⟩, by simp only [getErrors, hb], ?_,
      rfl, rfl, rfl, gr, by omega⟩
    simp only [covs, valueOf, Option.bind_some, g0, g1, g2, g3, g4, g5, matrices, rows, hlaOf,
      modelCovs]
  | some S =>
    have hg : (H.set (h.next + 1) (addStart S (H.get (h.next + 1)))).get (h.next + 1) =
        .array (((List.range angles.length).map t.total).map (· + S)) := by
      simp [Heap.set, g1, rows, addStart]
    have hh := toHla_ok (angles := angles) (o := .array (((List.range angles.length).map
      t.total).map (· + S))) rfl (by simp)
    refine ⟨(H.set (h.next + 1) (addStart S (H.get (h.next + 1)))).alloc (.array
        (List.zipWith (fun a c => nevToHlaCov a.inc a.grid c) angles
          (((List.range angles.length).map t.total).map (· + S)))),
      ⟨angles, some S, some m, some (h.next + 1), some H.next, some (h.next + 2),
      some (h.next + 3), some (h.next + 4), some (h.next + 5)⟩,
      by simp only [getErrors, hb, hg, hh]; rfl, ?_, rfl, rfl, rfl, ?_, ?_⟩
    · simp [covs, valueOf, modelCovs, Heap.alloc, Heap.set, Function.update_apply, matrices, rows, g,
        g1, g2, g3, g4, g5, addStart, Function.comp_def]
    · intro r hr
      simp [Heap.alloc, Heap.set, Function.update_apply, show r ≠ H.next by omega,
        show r ≠ h.next + 1 by omega, gr r hr]
    · simp only [Heap.alloc, Heap.set]; omega

theorem getErrors_model_error {h : Heap} {s : Survey} {m : String} {e : Err.Exc}
    (hm : s.model = some m) (ht : em m = .error e) :
    getErrors em h s = (h, s, some (.model e)) := by
  simp only [getErrors, base, hm, ht]

/-- The start covariance is added to an array, and the covariance along the borehole is computed
again. -/
theorem getErrors_start {h h₁ : Heap} {s s₁ : Survey} {S : M3} {r : ℕ} {l : List M3}
    (hb : base em h s = (h₁, s₁, none)) (hS : s₁.start = some S) (hr : s₁.nev = some r)
    (hlt : r < h₁.next) (hl : h₁.get r = .array l) (hn : l.length = s₁.angles.length) :
    ∃ h' s', getErrors em h s = (h', s', none) ∧ h'.get r = .array (l.map (· + S)) ∧
      (∀ q < h₁.next, q ≠ r → h'.get q = h₁.get q) ∧ s' = { s₁ with hla := some h₁.next } ∧
      h'.get h₁.next = .array (List.zipWith (fun a c => nevToHlaCov a.inc a.grid c) s₁.angles
        (l.map (· + S))) ∧ h'.next = h₁.next + 1 := by
  have hg : (h₁.set r (addStart S (h₁.get r))).get r = .array (l.map (· + S)) := by
    simp [Heap.set, hl, addStart]
  have hh := toHla_ok (angles := s₁.angles) (o := .array (l.map (· + S))) rfl (by simpa using hn)
  refine ⟨(h₁.set r (addStart S (h₁.get r))).alloc (.array (List.zipWith (fun a c =>
      nevToHlaCov a.inc a.grid c) s₁.angles (l.map (· + S)))), _,
    by simp only [getErrors, hb, hS, hr, hg, hh]; rfl, ?_, ?_, rfl, ?_, rfl⟩
  · rw [alloc_untouched (by exact hlt), hg]
  · intro q hq hne
    rw [alloc_untouched (by exact hq)]
    simp [Heap.set, Function.update_of_ne hne]
  · exact alloc_new _ _

/-- The covariances of a survey are existing objects. -/
def Owned (h : Heap) (s : Survey) : Prop :=
  (∀ r, s.nev = some r → r < h.next) ∧ ∀ r, s.hla = some r → r < h.next

/-- What the first part of the computation leaves. -/
theorem base_ok {h h₁ : Heap} {s s₁ : Survey} (ho : Owned h s)
    (hb : base em h s = (h₁, s₁, none)) :
    Owned h₁ s₁ ∧ s₁.angles = s.angles ∧ s₁.start = s.start ∧ Untouched h h₁ ∧ h.next ≤ h₁.next ∧
      ∀ S, base em h { s with start := S } = (h₁, { s₁ with start := S }, none) := by
  obtain ⟨angles, start, model, nev, hla, r1, r2, r3, r4⟩ := s
  cases model with
  | some m =>
    cases ht : em m with
    | error e => simp [base, ht] at hb
    | ok t =>
      obtain ⟨g, g0, g1, g2, g3, g4, g5, gr⟩ := modelHeap_get h angles t
      simp only [base, ht, Prod.mk.injEq, and_true] at hb
      change modelHeap h angles t = h₁ ∧ _ at hb
      obtain ⟨rfl, rfl⟩ := hb
      refine ⟨⟨?_, ?_⟩, rfl, rfl, gr, by omega, fun S => by simp only [base, ht]; rfl⟩
      · intro r hr; simp only [Option.some.injEq] at hr; omega
      · intro r hr; simp only [Option.some.injEq] at hr; omega
  | none =>
    cases nev with
    | none =>
      cases hla with
      | none =>
        simp only [base, Prod.mk.injEq, and_true] at hb
        obtain ⟨rfl, rfl⟩ := hb
        exact ⟨ho, rfl, rfl, fun _ _ => rfl, le_rfl, fun S => rfl⟩
      | some q =>
        cases ht : toNev angles (h.get q) with
        | error e => simp [base, ht] at hb
        | ok l =>
          simp only [base, ht, Prod.mk.injEq, and_true] at hb
          obtain ⟨rfl, rfl⟩ := hb
          refine ⟨⟨?_, ?_⟩, rfl, rfl, fun r hr => alloc_untouched hr, by simp [Heap.alloc],
            fun S => by simp only [base, ht]⟩
          · intro r hr
            simp only [Option.some.injEq] at hr
            simp only [Heap.alloc]; omega
          · intro r hr
            have := ho.2 r hr
            simp only [Heap.alloc]; omega
    | some p =>
      cases hla with
      | some q =>
        simp only [base, Prod.mk.injEq, and_true] at hb
        obtain ⟨rfl, rfl⟩ := hb
        exact ⟨ho, rfl, rfl, fun _ _ => rfl, le_rfl, fun S => rfl⟩
      | none =>
        cases ht : toHla angles (h.get p) with
        | error e => simp [base, ht] at hb
        | ok l =>
          simp only [base, ht, Prod.mk.injEq, and_true] at hb
          obtain ⟨rfl, rfl⟩ := hb
          refine ⟨⟨?_, ?_⟩, rfl, rfl, fun r hr => alloc_untouched hr, by simp [Heap.alloc],
            fun S => by simp only [base, ht]⟩
          · intro r hr
            have := ho.1 r hr
            simp only [Heap.alloc]; omega
          · intro r hr
            simp only [Option.some.injEq] at hr
            simp only [Heap.alloc]; omega

/-- The covariance is a Python list only if one was given. -/
theorem base_array {h h₁ : Heap} {s s₁ : Survey} (ho : Owned h s)
    (hb : base em h s = (h₁, s₁, none)) (ha : ∀ r l', s.nev = some r → h.get r ≠ .pylist l') :
    ∀ r l', s₁.nev = some r → h₁.get r ≠ .pylist l' := by
  obtain ⟨angles, start, model, nev, hla, r1, r2, r3, r4⟩ := s
  cases model with
  | some m =>
    cases ht : em m with
    | error e => simp [base, ht] at hb
    | ok t =>
      obtain ⟨g, g0, g1, g2, g3, g4, g5, gr⟩ := modelHeap_get h angles t
      simp only [base, ht, Prod.mk.injEq, and_true] at hb
      change modelHeap h angles t = h₁ ∧ _ at hb
      obtain ⟨rfl, rfl⟩ := hb
      intro r l' hr
      simp only [Option.some.injEq] at hr
      rw [← hr, g1]
      simp [rows]
  | none =>
    cases nev with
    | none =>
      cases hla with
      | none =>
        simp only [base, Prod.mk.injEq, and_true] at hb
        obtain ⟨rfl, rfl⟩ := hb
        exact ha
      | some q =>
        cases ht : toNev angles (h.get q) with
        | error e => simp [base, ht] at hb
        | ok l =>
          simp only [base, ht, Prod.mk.injEq, and_true] at hb
          obtain ⟨rfl, rfl⟩ := hb
          intro r l' hr
          simp only [Option.some.injEq] at hr
          rw [← hr, alloc_new]
          simp
    | some p =>
      cases hla with
      | some q =>
        simp only [base, Prod.mk.injEq, and_true] at hb
        obtain ⟨rfl, rfl⟩ := hb
        exact ha
      | none =>
        cases ht : toHla angles (h.get p) with
        | error e => simp [base, ht] at hb
        | ok l =>
          simp only [base, ht, Prod.mk.injEq, and_true] at hb
          obtain ⟨rfl, rfl⟩ := hb
          intro r l' hr
          rw [alloc_untouched (ho.1 r hr)]
          exact ha r l' hr

theorem construct_cases {h h' : Heap} {s : Survey} {angles : List Angles} {start : Option M3}
    {model : Option String} {nev hla : Option ℕ}
    (hc : construct models em h angles start model nev hla = (h', .ok s)) :
    (∀ m, model = some m → m ∈ models) ∧
    getErrors em h ⟨angles, start, model, nev, hla, none, none, none, none⟩ = (h', s, none) := by
  unfold construct at hc
  split at hc
  · rename_i hm
    refine ⟨hm, ?_⟩
    split at hc
    · rename_i h₂ s₂ he
      simp only [Prod.mk.injEq, Except.ok.injEq] at hc
      rw [he, hc.1, hc.2]
    · simp at hc
  · simp at hc

theorem getErrors_none {h h' : Heap} {s s' : Survey} (hs : s.start = none) (ho : Owned h s)
    (he : getErrors em h s = (h', s', none)) : base em h s = (h', s', none) := by
  unfold getErrors at he
  split at he
  · simp at he
  · rename_i h₁ s₁ hb
    have := (base_ok ho hb).2.2.1
    rw [hs] at this
    rw [this] at he
    simp only [Prod.mk.injEq, and_true] at he
    rw [hb, he.1, he.2]

end

section
variable (models : List String) (em : String → Except Err.Exc Err.Totals)

/-! ### C233 -/

/-- C233 (partial): a covariance in north, east and down only is completed by one that agrees
with it. -/
theorem C233_nev_given_partial {h : Heap} {angles : List Angles} {r : ℕ} {l : List M3}
    (hr : r < h.next) (hl : matrices (h.get r) = some l) (hn : l.length = angles.length) :
    ∃ h' s l', construct models em h angles none none (some r) none = (h', .ok s) ∧
      (covs h' s).nev = some l ∧ (covs h' s).hla = some l' ∧ Agree angles l l' := by
  refine ⟨h.alloc (.array (List.zipWith (fun a c => nevToHlaCov a.inc a.grid c) angles l)),
    ⟨angles, none, none, some r, some h.next, none, none, none, none⟩, _,
    construct_ok (by simp) (by simp only [getErrors, base, toHla_ok hl hn]), ?_, ?_, agree_zip hn⟩
  · simp only [covs, valueOf, Option.bind_some, alloc_untouched hr, hl]
  · simp only [covs, valueOf, Option.bind_some, alloc_new, matrices]

/-- C233 (partial): a covariance along the borehole only is completed by one that agrees with
it. -/
theorem C233_hla_given_partial {h : Heap} {angles : List Angles} {r : ℕ} {l : List M3}
    (hr : r < h.next) (hl : matrices (h.get r) = some l) (hn : l.length = angles.length) :
    ∃ h' s l', construct models em h angles none none none (some r) = (h', .ok s) ∧
      (covs h' s).nev = some l' ∧ (covs h' s).hla = some l ∧ Agree angles l' l := by
  refine ⟨h.alloc (.array (List.zipWith (fun a c => hlaToNevCov a.inc a.grid c) angles l)),
    ⟨angles, none, none, some h.next, some r, none, none, none, none⟩, _,
    construct_ok (by simp) (by simp only [getErrors, base, toNev_ok hl hn]), ?_, ?_, agree_back hn⟩
  · simp only [covs, valueOf, Option.bind_some, alloc_new, matrices]
  · simp only [covs, valueOf, Option.bind_some, alloc_untouched hr, hl]

/-- C233 (partial): with a start covariance the two agree, whatever was given. -/
theorem C233_start_partial {h h' : Heap} {s : Survey} {angles : List Angles} {S : M3}
    {model : Option String} {nev hla : Option ℕ} (hnev : ∀ r, nev = some r → r < h.next)
    (hhla : ∀ r, hla = some r → r < h.next)
    (hc : construct models em h angles (some S) model nev hla = (h', .ok s)) {l : List M3}
    (hl : (covs h' s).nev = some l) (hn : l.length = angles.length) :
    ∃ l', (covs h' s).hla = some l' ∧ Agree angles l l' := by
  obtain ⟨-, he⟩ := construct_cases hc
  unfold getErrors at he
  split at he
  · simp at he
  rename_i h₁ s₁ hb
  obtain ⟨⟨o1, o2⟩, ea, es, -, -, -⟩ := base_ok (s := ⟨_, _, _, _, _, _, _, _, _⟩) ⟨hnev, hhla⟩ hb
  simp only at ea es
  cases hr : s₁.nev with
  | none =>
    rw [es, hr] at he
    simp only [Prod.mk.injEq, and_true] at he
    obtain ⟨rfl, rfl⟩ := he
    simp [covs, valueOf, hr] at hl
  | some r =>
    rw [es, hr] at he
    simp only at he
    split at he
    · simp at he
    rename_i l₂ hh
    simp only [Prod.mk.injEq, and_true] at he
    obtain ⟨rfl, rfl⟩ := he
    simp only [covs, valueOf, hr, Option.bind_some] at hl
    rw [alloc_untouched (by exact o1 r hr)] at hl
    rw [ea, toHla_ok hl hn, Except.ok.injEq] at hh
    refine ⟨l₂, by simp only [covs, valueOf, Option.bind_some, alloc_new, matrices], ?_⟩
    rw [← hh]
    exact agree_zip hn

/-- C233 (partial): the covariances of an error model agree if grid north is true north. -/
theorem C233_model_partial {h : Heap} {angles : List Angles} {m : String} {t : Err.Totals}
    {nev hla : Option ℕ} (hm : m ∈ models) (ht : em m = .ok t)
    (hg : ∀ a ∈ angles, a.true' = a.grid) :
    ∃ h' s l l', construct models em h angles none (some m) nev hla = (h', .ok s) ∧
      (covs h' s).nev = some l ∧ (covs h' s).hla = some l' ∧ Agree angles l l' := by
  obtain ⟨h', s', he, hv, -⟩ := getErrors_model (em := em) (h := h)
    (s := ⟨angles, none, some m, nev, hla, none, none, none, none⟩) rfl ht
  have hlen : ((List.range angles.length).map t.total).length = angles.length := by simp
  refine ⟨h', s', _, _, construct_ok (by simpa using hm) he, by rw [hv]; rfl, by rw [hv]; rfl, ?_⟩
  have : List.zipWith (fun (a : Angles) c => nevToHlaCov a.inc a.true' c) angles
      ((List.range angles.length).map t.total) =
      List.zipWith (fun a c => nevToHlaCov a.inc a.grid c) angles
      ((List.range angles.length).map t.total) := by
    refine List.ext_getElem (by simp) fun k h1 h2 => ?_
    simp only [List.getElem_zipWith]
    rw [hg _ (List.getElem_mem _)]
  rw [this]
  exact agree_zip hlen

/-- C233 is false if both covariances are given: they are kept as they are. -/
theorem C233_both_given (h : Heap) (angles : List Angles) (p q : ℕ) :
    ∃ s, construct models em h angles none none (some p) (some q) = (h, .ok s) ∧
      (covs h s).nev = matrices (h.get p) ∧ (covs h s).hla = matrices (h.get q) :=
  ⟨⟨angles, none, none, some p, some q, none, none, none, none⟩, construct_ok (by simp) rfl,
    rfl, rfl⟩

/-! ### C234 -/

/-- C234 (partial): if a survey without a start covariance has a covariance for each station, then
with a start covariance it has that covariance plus the start covariance at each station, unless
the covariance was given as a Python list. -/
theorem C234_added_partial {h h₁ : Heap} {s₁ : Survey} {angles : List Angles}
    {model : Option String} {nev hla : Option ℕ} (hnev : ∀ r, nev = some r → r < h.next)
    (hhla : ∀ r, hla = some r → r < h.next)
    (hc : construct models em h angles none model nev hla = (h₁, .ok s₁)) {l : List M3}
    (hl : (covs h₁ s₁).nev = some l) (hn : l.length = angles.length)
    (ha : ∀ r l', nev = some r → h.get r ≠ .pylist l') (S : M3) :
    ∃ h₂ s₂, construct models em h angles (some S) model nev hla = (h₂, .ok s₂) ∧
      (covs h₂ s₂).nev = some (l.map fun c => c + S) := by
  obtain ⟨hm, he⟩ := construct_cases hc
  have ho : Owned h ⟨angles, none, model, nev, hla, none, none, none, none⟩ := ⟨hnev, hhla⟩
  have hb := getErrors_none rfl ho he
  obtain ⟨o, ea, -, -, -, eb⟩ := base_ok ho hb
  cases hr : s₁.nev with
  | none => simp [covs, valueOf, hr] at hl
  | some r =>
    have hna := base_array ho hb ha r l hr
    simp only [covs, valueOf, hr, Option.bind_some] at hl
    have hl' : h₁.get r = .array l := by
      cases hg : h₁.get r <;> rw [hg] at hl hna <;>
        simp only [matrices, Option.some.injEq, reduceCtorEq] at hl
      · rw [hl]
      · rw [hl] at hna; exact absurd rfl hna
    obtain ⟨h₂, s₂, e₂, g₂, -, es, -⟩ := getErrors_start (em := em) (eb (some S)) rfl hr (o.1 r hr)
      hl' (by rw [hn]; exact congrArg List.length ea.symm)
    refine ⟨h₂, s₂, construct_ok hm e₂, ?_⟩
    subst es
    simp only [covs, valueOf, hr, Option.bind_some, g₂, matrices]

/-- C234 is false without other covariance data: the start covariance is dropped. -/
theorem C234_dropped (h : Heap) (angles : List Angles) (S : M3) :
    ∃ s, construct models em h angles (some S) none none none = (h, .ok s) ∧
      (covs h s).nev = none ∧ (covs h s).hla = none :=
  ⟨⟨angles, some S, none, none, none, none, none, none, none⟩, construct_ok (by simp) rfl, rfl, rfl⟩

/-- C234 is false for a covariance given as a Python list: the constructor fails, and the list is
spoiled. -/
theorem C234_list {h : Heap} {angles : List Angles} {r : ℕ} {l : List M3} (hr : r < h.next)
    (hl : h.get r = .pylist l) (hn : l.length = angles.length) (S : M3) :
    ∃ h', construct models em h angles (some S) none (some r) none = (h', .error .value) ∧
      h'.get r = .ragged l := by
  have hh := toHla_ok (angles := angles) (o := h.get r) (l := l) (by rw [hl]; rfl) hn
  have hg : ((h.alloc (.array (List.zipWith (fun (a : Angles) c => nevToHlaCov a.inc a.grid c)
      angles l))).get r) = .pylist l := by rw [alloc_untouched hr, hl]
  have hb : base em h ⟨angles, some S, none, some r, none, none, none, none, none⟩ =
      (h.alloc (.array (List.zipWith (fun (a : Angles) c => nevToHlaCov a.inc a.grid c) angles l)),
        ⟨angles, some S, none, some r, some h.next, none, none, none, none⟩, none) := by
    simp only [base, hh]
  generalize h.alloc (.array (List.zipWith (fun (a : Angles) c => nevToHlaCov a.inc a.grid c)
    angles l)) = H at hb hg
  have hs : (H.set r (.ragged l)).get r = .ragged l := by simp [Heap.set]
  have he : getErrors em h ⟨angles, some S, none, some r, none, none, none, none, none⟩ =
      (H.set r (.ragged l), ⟨angles, some S, none, some r, some h.next, none, none, none, none⟩,
        some .value) := by
    simp only [getErrors, hb, hg, addStart, hs, toHla]
  exact ⟨H.set r (.ragged l), by simp [construct, he], hs⟩

/-! ### C235 -/

/-- The four parts of the covariance at a station. -/
def partsAt (v : Seen) (k : ℕ) : Option (M3 × M3 × M3 × M3 × M3) :=
  match v.nev.bind (·[k]?), v.random.bind (·[k]?), v.systematic.bind (·[k]?),
    v.global.bind (·[k]?), v.withinPad.bind (·[k]?) with
  | some c, some a, some b, some d, some e => some (c, a, b, d, e)
  | _, _, _, _, _ => none

/-- C235 (partial): without a start covariance, the random, systematic, global and within-pad
covariances of a survey with an error model add up to its covariance, at every station. -/
theorem C235_parts_partial {h : Heap} {angles : List Angles} {m : String} {c : Err.Ctx}
    {codes : List Err.Entry} {t : Err.Totals} {nev hla : Option ℕ} (hm : m ∈ models)
    (ht : em m = .ok t) (hc : Err.toolError c codes = .ok t) :
    ∃ h' s, construct models em h angles none (some m) nev hla = (h', .ok s) ∧
      ∀ k < angles.length, ∃ x a b d e, partsAt (covs h' s) k = some (x, a, b, d, e) ∧
        x = a + b + d + e := by
  obtain ⟨h', s', he, hv, -⟩ := getErrors_model (em := em) (h := h)
    (s := ⟨angles, none, some m, nev, hla, none, none, none, none⟩) rfl ht
  refine ⟨h', s', construct_ok (by simpa using hm) he, fun k hk => ?_⟩
  refine ⟨t.total k, t.random k, t.systematic k, t.global k, t.withinPad k, ?_,
    (C24_partition hc k).1⟩
  rw [hv]
  simp [modelCovs, partsAt, hk]

/-- C235 is false with a start covariance, which is in the total but in none of the parts. -/
theorem C235_start_in_no_part {h : Heap} {angles : List Angles} {m : String} {c : Err.Ctx}
    {codes : List Err.Entry} {t : Err.Totals} {nev hla : Option ℕ} (hm : m ∈ models)
    (ht : em m = .ok t) (hc : Err.toolError c codes = .ok t) {S : M3} (hS : S ≠ 0) :
    ∃ h' s, construct models em h angles (some S) (some m) nev hla = (h', .ok s) ∧
      ∀ k < angles.length, ∃ x a b d e, partsAt (covs h' s) k = some (x, a, b, d, e) ∧
        x = a + b + d + e + S ∧ x ≠ a + b + d + e := by
  obtain ⟨h', s', he, hv, -⟩ := getErrors_model (em := em) (h := h)
    (s := ⟨angles, some S, some m, nev, hla, none, none, none, none⟩) rfl ht
  refine ⟨h', s', construct_ok (by simpa using hm) he, fun k hk => ?_⟩
  have hp := (C24_partition hc k).1
  refine ⟨t.total k + S, t.random k, t.systematic k, t.global k, t.withinPad k, ?_, by rw [hp], ?_⟩
  · rw [hv]
    simp [modelCovs, partsAt, hk]
  · rw [← hp]
    simpa using hS

/-! ### C236 -/

omit models in
theorem base_untouched (h : Heap) (s : Survey) :
    Untouched h (base em h s).1 ∧ h.next ≤ (base em h s).1.next ∧
      ((s.model ≠ none ∨ s.nev = none) → ∀ r, (base em h s).2.2 = none →
        (base em h s).2.1.nev = some r → h.next ≤ r) := by
  obtain ⟨angles, start, model, nev, hla, r1, r2, r3, r4⟩ := s
  cases model with
  | some m =>
    cases ht : em m with
    | error e => simp only [base, ht]; exact ⟨fun _ _ => rfl, le_rfl, by simp⟩
    | ok t =>
      simp only [base, ht]
      refine ⟨(modelHeap_get h angles t).2.2.2.2.2.2.2, ?_, ?_⟩
      · simp only [Heap.alloc]; omega
      · intro _ r _ hr
        simp only [Option.some.injEq] at hr
        omega
  | none =>
    cases nev with
    | none =>
      cases hla with
      | none => simp only [base]; exact ⟨fun _ _ => rfl, le_rfl, by simp⟩
      | some q =>
        cases ht : toNev angles (h.get q) with
        | error e => simp only [base, ht]; exact ⟨fun _ _ => rfl, le_rfl, by simp⟩
        | ok l =>
          simp only [base, ht]
          refine ⟨fun r hr => alloc_untouched hr, by simp [Heap.alloc], fun _ r _ hr => ?_⟩
          simp only [Option.some.injEq] at hr
          omega
    | some p =>
      cases hla with
      | some q => simp only [base]; exact ⟨fun _ _ => rfl, le_rfl, by simp⟩
      | none =>
        cases ht : toHla angles (h.get p) with
        | error e => simp only [base, ht]; exact ⟨fun _ _ => rfl, le_rfl, by simp⟩
        | ok l =>
          simp only [base, ht]
          exact ⟨fun r hr => alloc_untouched hr, by simp [Heap.alloc], by simp⟩

omit models in
theorem getErrors_untouched {h : Heap} {s : Survey}
    (hq : s.start = none ∨ s.model ≠ none ∨ s.nev = none) :
    Untouched h (getErrors em h s).1 := by
  obtain ⟨u, hn, hnew⟩ := base_untouched em h s
  unfold getErrors
  cases hb : base em h s with
  | mk h₁ y =>
    obtain ⟨s₁, e⟩ := y
    rw [hb] at u hn hnew
    cases e with
    | some e => exact u
    | none =>
      simp only
      have hs : s₁.start = s.start := by
        have h1 : s₁ = (base em h s).2.1 := by rw [hb]
        rw [h1]
        unfold base
        split
        · split <;> rfl
        · split
          · split <;> rfl
          · split <;> rfl
          · rfl
      cases hS : s₁.start with
      | none => exact u
      | some S =>
        cases hr : s₁.nev with
        | none => exact u
        | some r =>
          have hge : h.next ≤ r := by
            refine hnew (hq.resolve_left ?_) r rfl hr
            rw [← hs, hS]; simp
          have key : ∀ o, Untouched h (h₁.set r o) := fun o q hq => by
            simp only [Heap.set, Function.update_of_ne (show q ≠ r by omega)]
            exact u q hq
          simp only
          split
          · exact key _
          · intro q hq
            rw [alloc_untouched (show q < (h₁.set r _).next from lt_of_lt_of_le hq hn)]
            exact key _ q hq

/-- C236 (partial): without a start covariance, or with an error model, or without a covariance in
north, east and down, the objects given are as they were, also if an exception is raised. -/
theorem C236_untouched_partial {h h' : Heap} {x : Except Exc Survey} {angles : List Angles}
    {start : Option M3} {model : Option String} {nev hla : Option ℕ}
    (hq : start = none ∨ model ≠ none ∨ nev = none)
    (hc : construct models em h angles start model nev hla = (h', x)) : Untouched h h' := by
  have u := getErrors_untouched em (h := h)
    (s := ⟨angles, start, model, nev, hla, none, none, none, none⟩) hq
  unfold construct at hc
  split at hc
  · split at hc <;> rename_i he <;> rw [he] at u <;> simp only [Prod.mk.injEq] at hc <;>
      rw [← hc.1] <;> exact u
  · simp only [Prod.mk.injEq] at hc
    rw [← hc.1]
    exact fun _ _ => rfl

/-- C236 is false for an array with a start covariance: the start covariance is added to the
caller's array. -/
theorem C236_changed {h : Heap} {angles : List Angles} {r : ℕ} {l : List M3} (hr : r < h.next)
    (hl : h.get r = .array l) (hn : l.length = angles.length) (S : M3) :
    ∃ h' s l', construct models em h angles (some S) none (some r) none = (h', .ok s) ∧
      s.nev = some r ∧ h.next ≤ h'.next ∧ h'.get r = .array (l.map fun c => c + S) ∧
      (covs h' s).nev = some (l.map fun c => c + S) ∧ (covs h' s).hla = some l' ∧
      Agree angles (l.map fun c => c + S) l' ∧ (∀ p < h.next, p ≠ r → h'.get p = h.get p) ∧
      ∃ q, s.hla = some q ∧ q < h'.next ∧ q ≠ r := by
  have hh := toHla_ok (angles := angles) (o := h.get r) (l := l) (by rw [hl]; rfl) hn
  have hb : base em h ⟨angles, some S, none, some r, none, none, none, none, none⟩ =
      (h.alloc (.array (List.zipWith (fun (a : Angles) c => nevToHlaCov a.inc a.grid c) angles l)),
        ⟨angles, some S, none, some r, some h.next, none, none, none, none⟩, none) := by
    simp only [base, hh]
  obtain ⟨h', s', he, g, fr, es, g', gn⟩ := getErrors_start (em := em) (l := l) hb rfl rfl
    (show r < h.next + 1 by omega) (by rw [alloc_untouched hr, hl]) hn
  have hne : (h.alloc (.array (List.zipWith (fun (a : Angles) c => nevToHlaCov a.inc a.grid c)
      angles l))).next = h.next + 1 := rfl
  rw [hne] at es g' gn
  refine ⟨h', s', _, construct_ok (by simp) he, by rw [es], by omega, g,
    by rw [es]; simp only [covs, valueOf, Option.bind_some, g, matrices],
    by rw [es]; simp only [covs, valueOf, Option.bind_some, g', matrices],
    agree_zip (by simpa using hn), fun p hp hne => ?_, h.next + 1, by rw [es], by omega, by omega⟩
  rw [fr p (show p < h.next + 1 by omega) hne, alloc_untouched hp]

/-- C236 is false: a second survey from the same array gets the start covariance twice, and changes
the covariance of the first, whose covariance along the borehole no longer agrees. -/
theorem C236_second_survey {h : Heap} {angles : List Angles} {r : ℕ} {l : List M3} (hr : r < h.next)
    (hl : h.get r = .array l) (hn : l.length = angles.length) (h0 : angles ≠ []) {S : M3}
    (hS : S ≠ 0) :
    ∃ h₁ s₁ h₂ s₂ l₁, construct models em h angles (some S) none (some r) none = (h₁, .ok s₁) ∧
      construct models em h₁ angles (some S) none (some r) none = (h₂, .ok s₂) ∧
      (covs h₁ s₁).nev = some (l.map fun c => c + S) ∧
      (covs h₂ s₂).nev = some (l.map fun c => c + S + S) ∧
      (covs h₂ s₁).nev = some (l.map fun c => c + S + S) ∧ (covs h₂ s₁).hla = some l₁ ∧
      ¬ Agree angles (l.map fun c => c + S + S) l₁ := by
  obtain ⟨h₁, s₁, l₁, e₁, n₁, hle, g₁, c₁, d₁, a₁, -, q, hq, hq', hqr⟩ :=
    C236_changed models em hr hl hn S
  obtain ⟨h₂, s₂, l₂, e₂, n₂, hle₂, g₂, c₂, d₂, a₂, fr, -⟩ := C236_changed models em
    (show r < h₁.next by omega) g₁ (by simpa using hn) S
  have hmm : (l.map fun c => c + S).map (fun c => c + S) = l.map fun c => c + S + S := by
    simp [Function.comp_def]
  rw [hmm] at c₂ g₂
  refine ⟨h₁, s₁, h₂, s₂, l₁, e₁, e₂, c₁, c₂, ?_, ?_, fun ha => hS ?_⟩
  · simp only [covs, valueOf, n₁, Option.bind_some, g₂, matrices]
  · rw [← d₁]
    simp only [covs, valueOf, hq, Option.bind_some, fr q hq' hqr]
  · obtain ⟨a, as, rfl⟩ := List.exists_cons_of_ne_nil h0
    obtain ⟨c, l', rfl⟩ := List.exists_cons_of_ne_nil (l := l) (by rintro rfl; simp at hn)
    obtain ⟨d, l₃, rfl⟩ := List.exists_cons_of_ne_nil (l := l₁)
      (by rintro rfl; simpa using a₁.2.1)
    have x := a₁.2.2 0 a (c + S) d rfl rfl rfl
    have y := ha.2.2 0 a (c + S + S) d rfl rfl rfl
    rw [x, ← nevToHla_seenAlong, ← nevToHla_seenAlong] at y
    have z := congrArg (hlaToNevCov a.inc a.grid) y
    rw [(C13_round_trip a.inc a.grid (c + S) 0).1, (C13_round_trip a.inc a.grid (c + S + S) 0).1] at z
    simpa using z

/-! ### C237 -/

omit models in
theorem getErrors_model_ok {h h' : Heap} {s s' : Survey} {m : String} (hm : s.model = some m)
    (he : getErrors em h s = (h', s', none)) : ∃ t, em m = .ok t := by
  cases ht : em m with
  | ok t => exact ⟨t, rfl⟩
  | error e => rw [getErrors_model_error hm ht] at he; simp at he

theorem getError_ok {h h' : Heap} {s s' : Survey} {m : String}
    (he : getError models em h s m = (h', s', none)) :
    m ∈ models ∧ ∃ t, em m = .ok t ∧ covs h' s' = modelCovs s.angles s.start t ∧
      s'.angles = s.angles ∧ s'.start = s.start ∧ s'.model = some m ∧ Untouched h h' ∧
      h.next ≤ h'.next := by
  unfold getError at he
  split at he
  · rename_i hm
    obtain ⟨t, ht⟩ := getErrors_model_ok em (s := { s with model := some m }) rfl he
    obtain ⟨h₂, s₂, e₂, r⟩ := getErrors_model (em := em) (h := h)
      (s := { s with model := some m }) rfl ht
    rw [e₂] at he
    simp only [Prod.mk.injEq, and_true] at he
    obtain ⟨rfl, rfl⟩ := he
    exact ⟨hm, t, ht, r⟩
  · simp at he

theorem getError_keeps {h h' : Heap} {s s' : Survey} {m : String} {e : Option Exc}
    (he : getError models em h s m = (h', s', e)) :
    s'.angles = s.angles ∧ s'.start = s.start ∧ Untouched h h' ∧ h.next ≤ h'.next := by
  cases e with
  | none =>
    obtain ⟨-, t, -, -, ha, hst, -, hu, hle⟩ := getError_ok models em he
    exact ⟨ha, hst, hu, hle⟩
  | some e =>
    unfold getError at he
    split at he
    · cases ht : em m with
      | ok t =>
        obtain ⟨h₂, s₂, e₂, -⟩ := getErrors_model (em := em) (h := h)
          (s := { s with model := some m }) rfl ht
        rw [e₂] at he
        simp at he
      | error x =>
        rw [getErrors_model_error (s := { s with model := some m }) rfl ht] at he
        simp only [Prod.mk.injEq] at he
        obtain ⟨rfl, rfl, -⟩ := he
        exact ⟨rfl, rfl, fun _ _ => rfl, le_rfl⟩
    · simp only [Prod.mk.injEq] at he
      obtain ⟨rfl, rfl, -⟩ := he
      exact ⟨rfl, rfl, fun _ _ => rfl, le_rfl⟩

/-- **C237** After any series of calls of `get_error`, of which the last succeeds, and whatever
covariances the survey had before, its covariances are those of a survey constructed with the last
error model, and no object that existed before has changed. -/
theorem C237_last_call {h h₁ h' h₀ : Heap} {s s₁ s' : Survey} {l : List String} {m : String}
    (nev hla : Option ℕ) (hc : Calls models em h s l h₁ s₁)
    (hl : getError models em h₁ s₁ m = (h', s', none)) :
    ∃ h₂ s₂, construct models em h₀ s.angles s.start (some m) nev hla = (h₂, .ok s₂) ∧
      covs h' s' = covs h₂ s₂ ∧ s'.model = some m ∧ s₂.model = some m ∧ Untouched h h' := by
  induction hc with
  | nil =>
    rename_i h s
    obtain ⟨hm, t, ht, hv, -, -, hmod, hu, -⟩ := getError_ok models em hl
    obtain ⟨h₂, s₂, e₂, v₂, -, -, m₂, -⟩ := getErrors_model (em := em) (h := h₀)
      (s := ⟨s.angles, s.start, some m, nev, hla, none, none, none, none⟩) rfl ht
    exact ⟨h₂, s₂, construct_ok (by simpa using hm) e₂, by rw [hv, v₂], hmod, m₂, hu⟩
  | cons he _ ih =>
    obtain ⟨ha, hst, hu, hle⟩ := getError_keeps models em he
    obtain ⟨h₂, s₂, e₂, v₂, m₁, m₂, u₂⟩ := ih hl
    rw [ha, hst] at e₂
    exact ⟨h₂, s₂, e₂, v₂, m₁, m₂, fun r hr => by rw [u₂ r (by omega), hu r hr]⟩

/-! ### C238 -/

/-- C238 (partial): a name that is not an error model changes nothing. -/
theorem C238_unknown_partial {h : Heap} {s : Survey} {m : String} (hm : m ∉ models) :
    getError models em h s m = (h, s, some .assertion) := by
  simp only [getError, if_neg hm]

/-- C238 is false if the error model cannot be evaluated: the survey names the new model and keeps
the covariances of the old one. -/
theorem C238_renamed {h : Heap} {s : Survey} {m : String} {e : Err.Exc} (hm : m ∈ models)
    (ht : em m = .error e) :
    ∃ s', getError models em h s m = (h, s', some (.model e)) ∧ s'.model = some m ∧
      covs h s' = covs h s :=
  ⟨{ s with model := some m }, by
    simp only [getError, if_pos hm]
    exact getErrors_model_error rfl ht, rfl, rfl⟩

/-! ### C239 -/

/-- C239 (partial): without an error model and a start covariance, the covariances given are
kept. -/
theorem C239_kept_partial {h h' : Heap} {s : Survey} {angles : List Angles} {nev hla : Option ℕ}
    (hnev : ∀ r, nev = some r → r < h.next) (hhla : ∀ r, hla = some r → r < h.next)
    (hc : construct models em h angles none none nev hla = (h', .ok s)) :
    (∀ r, nev = some r → (covs h' s).nev = matrices (h.get r)) ∧
    ∀ r, hla = some r → (covs h' s).hla = matrices (h.get r) := by
  have hu := C236_untouched_partial models em (Or.inl rfl) hc
  obtain ⟨-, he⟩ := construct_cases hc
  have hb := getErrors_none (s := ⟨_, _, _, _, _, _, _, _, _⟩) rfl ⟨hnev, hhla⟩ he
  have key : (∀ r, nev = some r → s.nev = some r) ∧ ∀ r, hla = some r → s.hla = some r := by
    cases nev with
    | none =>
      cases hla with
      | none => simp
      | some q =>
        cases ht : toNev angles (h.get q) with
        | error e => simp [base, ht] at hb
        | ok l =>
          simp only [base, ht, Prod.mk.injEq, and_true] at hb
          obtain ⟨-, rfl⟩ := hb
          simp
    | some p =>
      cases hla with
      | some q =>
        simp only [base, Prod.mk.injEq, and_true] at hb
        obtain ⟨-, rfl⟩ := hb
        simp
      | none =>
        cases ht : toHla angles (h.get p) with
        | error e => simp [base, ht] at hb
        | ok l =>
          simp only [base, ht, Prod.mk.injEq, and_true] at hb
          obtain ⟨-, rfl⟩ := hb
          simp
  refine ⟨fun r hr => ?_, fun r hr => ?_⟩
  · simp only [covs, valueOf, key.1 r hr, Option.bind_some, hu r (hnev r hr)]
  · simp only [covs, valueOf, key.2 r hr, Option.bind_some, hu r (hhla r hr)]

/-- C239 is false with an error model: the covariances given are replaced by those of the model. -/
theorem C239_replaced {h : Heap} {angles : List Angles} {start : Option M3} {m : String}
    {t : Err.Totals} (nev hla : Option ℕ) (hm : m ∈ models) (ht : em m = .ok t) :
    ∃ h₁ s₁ h₂ s₂, construct models em h angles start (some m) nev hla = (h₁, .ok s₁) ∧
      construct models em h angles start (some m) none none = (h₂, .ok s₂) ∧
      covs h₁ s₁ = covs h₂ s₂ := by
  obtain ⟨h₁, s₁, e₁, v₁, -⟩ := getErrors_model (em := em) (h := h)
    (s := ⟨angles, start, some m, nev, hla, none, none, none, none⟩) rfl ht
  obtain ⟨h₂, s₂, e₂, v₂, -⟩ := getErrors_model (em := em) (h := h)
    (s := ⟨angles, start, some m, none, none, none, none, none, none⟩) rfl ht
  exact ⟨h₁, s₁, h₂, s₂, construct_ok (by simpa using hm) e₁, construct_ok (by simpa using hm) e₂,
    by rw [v₁, v₂]⟩

end

/-! ### Witnesses -/

/-- Two arrays of one matrix: the unit matrix and its double. -/
def twoArrays : Heap := ⟨2, fun r => if r = 0 then .array [1] else .array [(2 : ℝ) • 1]⟩

/-- C233 is false: a survey of one station with two covariances that do not agree. -/
theorem C233_disagree : ∃ s, construct [] (fun _ => .error .nameError) twoArrays [⟨0, 0, 0⟩] none none
      (some 0) (some 1) = (twoArrays, .ok s) ∧ (covs twoArrays s).nev = some [1] ∧
      (covs twoArrays s).hla = some [(2 : ℝ) • 1] ∧
      ¬ Agree [⟨0, 0, 0⟩] [1] [(2 : ℝ) • 1] := by
  obtain ⟨s, h1, h2, h3⟩ := C233_both_given [] (fun _ => .error .nameError) twoArrays [⟨0, 0, 0⟩] 0 1
  refine ⟨s, h1, by rw [h2]; rfl, by rw [h3]; rfl, fun ha => ?_⟩
  have := congrFun (congrFun (ha.2.2 0 _ 1 ((2 : ℝ) • 1) rfl rfl rfl) 2) 2
  simp [seenAlong, boreholeAxes, Fin.sum_univ_three] at this

/-- Non-vacuous: one station, the unit matrix given in either form. -/
example : ∃ h' s l', construct [] (fun _ => .error .nameError) twoArrays [⟨1, 2, 3⟩] none none
    (some 0) none = (h', .ok s) ∧ (covs h' s).nev = some [1] ∧ (covs h' s).hla = some l' ∧
    Agree [⟨1, 2, 3⟩] [1] l' :=
  C233_nev_given_partial _ _ (by decide) rfl rfl

example : ∃ h' s l', construct [] (fun _ => .error .nameError) twoArrays [⟨1, 2, 3⟩] none none
    none (some 1) = (h', .ok s) ∧ (covs h' s).nev = some l' ∧
    (covs h' s).hla = some [(2 : ℝ) • 1] ∧ Agree [⟨1, 2, 3⟩] l' [(2 : ℝ) • 1] :=
  C233_hla_given_partial _ _ (by decide) rfl rfl

/-- Non-vacuous: with both given and a start covariance. -/
example : ∃ h' s l l', construct [] (fun _ => .error .nameError) twoArrays [⟨1, 2, 3⟩] (some 1) none
    (some 0) (some 1) = (h', .ok s) ∧ (covs h' s).nev = some l ∧ (covs h' s).hla = some l' ∧
    l = [1 + 1] ∧ Agree [⟨1, 2, 3⟩] l l' := by
  obtain ⟨s, hc, hv, -⟩ := C233_both_given [] (fun _ => .error .nameError) twoArrays [⟨1, 2, 3⟩] 0 1
  obtain ⟨h₂, s₂, hc₂, hv₂⟩ := C234_added_partial [] (fun _ => .error .nameError)
    (by simp [twoArrays]) (by simp [twoArrays]) hc (hv.trans rfl) rfl
    (fun r l' h e => by simp at h; subst h; simp [twoArrays] at e) 1
  obtain ⟨l', h1, h2⟩ := C233_start_partial [] (fun _ => .error .nameError)
    (by simp [twoArrays]) (by simp [twoArrays]) hc₂ hv₂ rfl
  exact ⟨h₂, s₂, _, l', hc₂, hv₂, h1, rfl, h2⟩

/-- Non-vacuous: the second survey from the unit matrix. -/
example : ∃ h₁ s₁ h₂ s₂ l₁, construct [] (fun _ => .error .nameError) twoArrays [⟨1, 2, 3⟩] (some 1)
      none (some 0) none = (h₁, .ok s₁) ∧
    construct [] (fun _ => .error .nameError) h₁ [⟨1, 2, 3⟩] (some 1) none (some 0) none =
      (h₂, .ok s₂) ∧ (covs h₁ s₁).nev = some [1 + 1] ∧ (covs h₂ s₂).nev = some [1 + 1 + 1] ∧
    (covs h₂ s₁).nev = some [1 + 1 + 1] ∧ (covs h₂ s₁).hla = some l₁ ∧
    ¬ Agree [⟨1, 2, 3⟩] [1 + 1 + 1] l₁ :=
  C236_second_survey (l := [1]) _ _ (by decide) rfl rfl (by simp) one_ne_zero

/-- Non-vacuous: a Python list. -/
example : ∃ h', construct [] (fun _ => .error .nameError) ⟨1, fun _ => .pylist [1]⟩ [⟨1, 2, 3⟩]
    (some 1) none (some 0) none = (h', .error .value) ∧ h'.get 0 = .ragged [1] :=
  C234_list _ _ (by decide) rfl rfl 1

/-- A level hole to grid north. -/
noncomputable def levelCtx : Err.Ctx :=
  { exCtx with s := { exSv with inc := fun _ => Real.pi / 2 } }

/-- The error of the depth reference in a level hole to the north is to the north. -/
theorem levelTotals : ∃ T, Err.toolError levelCtx [⟨.DREF, 0.35, .random⟩] = .ok T ∧
    T.total 1 0 0 = 0.35 ^ 2 ∧ T.total 1 0 1 = 0 ∧ T.total 1 1 0 = 0 ∧ T.total 1 1 1 = 0 := by
  have hf : Err.callFunc .DREF levelCtx 0.35 .random
      = .ok (Err.generateError levelCtx.s (Err.eDIA .DREF levelCtx 0.0005 0.35) .random none) := by
    simp [Err.callFunc, Err.singRows, Err.Func.usesTortuosity, levelCtx, exCtx, Err.forcedProp]
  simp only [Err.toolError, Err.callAll, hf, Err.generateError, Err.propagate, Option.map_some]
  refine ⟨_, rfl, ?_⟩
  simp [Err.Totals.step, covFromVec, Err.eNEVStar, Err.eNEV, Err.drdp, levelCtx, exSv, Err.eDIA,
    Err.dpde, exCtx]
  norm_num

/-- C233 is false with an error model where true and grid north differ: the covariance along the
borehole is computed with the azimuth from true north. -/
theorem C233_convergence {γ : ℝ} (hγ : Real.sin γ ≠ 0) (h : Heap) :
    ∃ T, Err.toolError levelCtx [⟨.DREF, 0.35, .random⟩] = .ok T ∧
      ∃ h' s l l', construct ["m"] (fun _ => .ok T) h
        [⟨Real.pi / 2, 0, γ⟩, ⟨Real.pi / 2, 0, γ⟩] none (some "m") none none = (h', .ok s) ∧
      (covs h' s).nev = some l ∧ (covs h' s).hla = some l' ∧
      ¬ Agree [⟨Real.pi / 2, 0, γ⟩, ⟨Real.pi / 2, 0, γ⟩] l l' := by
  obtain ⟨T, hT, t00, t01, t10, t11⟩ := levelTotals
  refine ⟨T, hT, ?_⟩
  obtain ⟨h', s, e, v, -⟩ := getErrors_model (em := fun _ => .ok T) (h := h)
    (s := ⟨[⟨Real.pi / 2, 0, γ⟩, ⟨Real.pi / 2, 0, γ⟩], none, some "m", none, none, none, none, none,
      none⟩) rfl rfl
  refine ⟨h', s, _, _, construct_ok (by simp) e, by rw [v]; rfl, by rw [v]; rfl, fun ha => ?_⟩
  have x := congrFun (congrFun (ha.2.2 1 _ _ _ rfl rfl rfl) 2) 2
  simp only [nevToHla_seenAlong] at x
  simp [seenAlong, boreholeAxes, Fin.sum_univ_three, t00, t01, t10, t11] at x
  have y := Real.sin_sq_add_cos_sq γ
  have z : Real.sin γ ^ 2 = 0 := by nlinarith
  exact hγ (by simpa using z)

/-- Non-vacuous: the parts of the covariance of the level hole, with and without a start
covariance. -/
example : ∃ T, (∃ h' s, construct ["m"] (fun _ => .ok T) twoArrays
      [⟨Real.pi / 2, 0, 0⟩, ⟨Real.pi / 2, 0, 0⟩] none (some "m") none none = (h', .ok s) ∧
      ∀ k < 2, ∃ x a b d e, partsAt (covs h' s) k = some (x, a, b, d, e) ∧ x = a + b + d + e) ∧
    ∃ h' s, construct ["m"] (fun _ => .ok T) twoArrays
      [⟨Real.pi / 2, 0, 0⟩, ⟨Real.pi / 2, 0, 0⟩] (some 1) (some "m") none none = (h', .ok s) ∧
      ∀ k < 2, ∃ x a b d e, partsAt (covs h' s) k = some (x, a, b, d, e) ∧
        x = a + b + d + e + 1 ∧ x ≠ a + b + d + e := by
  obtain ⟨T, hT, -⟩ := levelTotals
  exact ⟨T, C235_parts_partial _ _ (by simp) rfl hT,
    C235_start_in_no_part _ _ (by simp) rfl hT one_ne_zero⟩

/-- Non-vacuous: a call that fails, then one that succeeds, and replaces the matrices given. -/
example : ∃ T h₁ s₁ h₂ s₂ h' s', Err.toolError levelCtx [⟨.DREF, 0.35, .random⟩] = .ok T ∧
    Calls ["a", "m"] (fun m => if m = "m" then .ok T else .error .assertionError) twoArrays
      ⟨[⟨1, 0, 0⟩], none, none, some 0, some 1, none, none, none, none⟩ ["x", "a"] h₁ s₁ ∧
    s₁.model = some "a" ∧
    getError ["a", "m"] (fun m => if m = "m" then .ok T else .error .assertionError) h₁ s₁ "m" =
      (h', s', none) ∧
    construct ["a", "m"] (fun m => if m = "m" then .ok T else .error .assertionError) twoArrays
      [⟨1, 0, 0⟩] none (some "m") none none = (h₂, .ok s₂) ∧
    covs h' s' = covs h₂ s₂ ∧ (covs h₂ s₂).nev = some [T.total 0] := by
  obtain ⟨T, hT, -⟩ := levelTotals
  generalize hem : (fun m : String => if m = "m" then Except.ok T else
    Except.error Err.Exc.assertionError) = em
  have ea : em "a" = .error .assertionError := by rw [← hem]; rfl
  have e' : em "m" = .ok T := by rw [← hem]; rfl
  obtain ⟨s₁, he, hm, -⟩ := C238_renamed ["a", "m"] em (h := twoArrays)
    (s := ⟨[⟨1, 0, 0⟩], none, none, some 0, some 1, none, none, none, none⟩) (m := "a") (by simp) ea
  have hx := C238_unknown_partial ["a", "m"] em (h := twoArrays)
    (s := ⟨[⟨1, 0, 0⟩], none, none, some 0, some 1, none, none, none, none⟩) (m := "x") (by decide)
  have hcalls := Calls.cons hx (Calls.cons he Calls.nil)
  obtain ⟨h', s', hg, -⟩ := getErrors_model (em := em) (h := twoArrays)
    (s := { s₁ with model := some "m" }) rfl e'
  have hl : getError ["a", "m"] em twoArrays s₁ "m" = (h', s', none) := by
    simp only [getError, List.mem_cons, String.reduceEq, List.not_mem_nil, or_false, false_or,
      or_true, if_true, hg]
  obtain ⟨h₂, s₂, hc, hv, -⟩ := C237_last_call ["a", "m"] em (h₀ := twoArrays) none none hcalls hl
  obtain ⟨-, hq⟩ := construct_cases hc
  obtain ⟨h₃, s₃, e₃, v₃, -⟩ := getErrors_model (em := em) (h := twoArrays)
    (s := ⟨[⟨1, 0, 0⟩], none, some "m", none, none, none, none, none, none⟩) rfl e'
  subst hem
  refine ⟨T, _, _, h₂, s₂, h', s', hT, hcalls, hm, hl, hc, hv, ?_⟩
  rw [hq] at e₃
  simp only [Prod.mk.injEq, and_true] at e₃
  rw [e₃.1, e₃.2, v₃]
  rfl

/-- Non-vacuous: a given covariance is kept, and replaced if there is an error model too. -/
example : ∃ h' s, construct [] (fun _ => .error .nameError) twoArrays [⟨1, 2, 3⟩] none none
    (some 0) none = (h', .ok s) ∧ (covs h' s).nev = some [1] := by
  obtain ⟨h', s, l', hc, -⟩ := C233_nev_given_partial [] (fun _ => .error .nameError)
    (h := twoArrays) (angles := [⟨1, 2, 3⟩]) (r := 0) (by decide) rfl rfl
  exact ⟨h', s, hc, (C239_kept_partial _ _ (by simp [twoArrays]) (by simp) hc).1 0 rfl⟩

/-- C239 is false: the unit matrices given for the level hole are replaced by other matrices. -/
theorem C239_level_hole : ∃ T, Err.toolError levelCtx [⟨.DREF, 0.35, .random⟩] = .ok T ∧
    ∃ h' s l, construct ["m"] (fun _ => .ok T) ⟨1, fun _ => .array [1, 1]⟩
      [⟨Real.pi / 2, 0, 0⟩, ⟨Real.pi / 2, 0, 0⟩] none (some "m") (some 0) none = (h', .ok s) ∧
      (covs h' s).nev = some l ∧ l ≠ [1, 1] := by
  obtain ⟨T, hT, -, -, -, t11⟩ := levelTotals
  obtain ⟨h', s, e, v, -⟩ := getErrors_model (em := fun _ => .ok T)
    (h := ⟨1, fun _ => .array [1, 1]⟩) (s := ⟨[⟨Real.pi / 2, 0, 0⟩, ⟨Real.pi / 2, 0, 0⟩], none,
      some "m", some 0, none, none, none, none, none⟩) rfl rfl
  refine ⟨T, hT, h', s, [T.total 0, T.total 1], construct_ok (by simp) e, by rw [v]; rfl,
    fun hl => ?_⟩
  simp only [List.cons.injEq, and_true] at hl
  rw [hl.2] at t11
  simp at t11

end Welleng.Props
