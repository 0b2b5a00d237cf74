import Verif.Props.Edm
import Mathlib.Tactic.Linarith

/-!
C45, C85-C88: surveys tied to surveys, wellbore look-ups, collected data and tables.
-/

namespace Welleng.Props

open Edm

/-! ### C45 -/

/-- The headers a survey is tied to, nearest first; the last one is tied to nothing. -/
inductive TieChain (headers : List Hdr) : Hdr → List Hdr → Prop
  | root {h} : h.tie = none → TieChain headers h []
  | tied {h h' d l} : h.tie = some (h'.id, d) → h' ∈ headers → TieChain headers h' l →
      TieChain headers h (h' :: l)

/-- The tied ones, with the depths they are tied on at. -/
def tiedOf (l : List Hdr) : List (String × ℚ) := l.filterMap fun h => h.tie.map fun t => (h.id, t.2)

theorem foldlM_unique {hs : List Hdr} (hn : (hs.map (·.id)).Nodup) {h : Hdr} (hh : h ∈ hs)
    (step : List (String × ℚ) → Hdr → Option (List (String × ℚ)))
    (data : List (String × ℚ)) :
    hs.foldlM (fun d x => if x.id = h.id then step d x else some d) data = step data h := by
  have none_of : ∀ (t : List Hdr), (∀ x ∈ t, x.id ≠ h.id) → ∀ d,
      t.foldlM (fun d x => if x.id = h.id then step d x else some d) d = some d := by
    intro t
    induction t with
    | nil => intro _ d; rfl
    | cons x t ih =>
      intro hx d
      rw [List.foldlM_cons, if_neg (hx x List.mem_cons_self)]
      exact ih (fun y hy => hx y (List.mem_cons_of_mem _ hy)) d
  induction hs generalizing data with
  | nil => simp at hh
  | cons x t ih =>
    simp only [List.map_cons, List.nodup_cons] at hn
    rw [List.foldlM_cons]
    rcases List.mem_cons.mp hh with rfl | hh
    · rw [if_pos rfl]
      have : ∀ y ∈ t, y.id ≠ h.id := fun y hy he => hn.1 (List.mem_map.mpr ⟨y, hy, he⟩)
      cases hs : step data h with
      | none => rfl
      | some d => exact none_of t this d
    · rw [if_neg fun he => hn.1 (List.mem_map.mpr ⟨h, hh, he.symm⟩)]
      exact ih hn.2 hh data

theorem dictSet_new {A : Type} {d : List (String × A)} {k : String} (v : A)
    (h : k ∉ d.map (·.1)) : dictSet d k v = d ++ [(k, v)] := by
  induction d with
  | nil => rfl
  | cons a t ih =>
    simp only [List.map_cons, List.mem_cons, not_or] at h
    simp [dictSet, Ne.symm h.1, ih h.2]

theorem parentSurveys_step {hs : List Hdr} (hn : (hs.map (·.id)).Nodup) {h : Hdr} (hh : h ∈ hs)
    (f : ℕ) (data : List (String × ℚ)) :
    parentSurveys (f + 1) hs h.id data = match h.tie with
      | some (t, depth) => parentSurveys f hs t (dictSet data h.id depth)
      | none => some data := by
  rw [parentSurveys]
  exact foldlM_unique hn hh (fun d x => match x.tie with
    | some (t, depth) => parentSurveys f hs t (dictSet d h.id depth)
    | none => some d) data

theorem parentSurveys_eq {hs : List Hdr} (hn : (hs.map (·.id)).Nodup) {h : Hdr} {l : List Hdr}
    (hc : TieChain hs h l) : h ∈ hs → ∀ {f : ℕ} (data : List (String × ℚ)), l.length < f →
      ((h :: l).map (·.id)).Nodup → (∀ x ∈ h :: l, x.id ∉ data.map (·.1)) →
      parentSurveys f hs h.id data = some (data ++ tiedOf (h :: l)) := by
  induction hc with
  | root ht =>
    intro hh f data hf _ _
    obtain ⟨f, rfl⟩ : ∃ g, f = g + 1 := ⟨f - 1, by omega⟩
    rw [parentSurveys_step hn hh, ht]
    simp [tiedOf, ht]
  | @tied h h' d l ht hh' _ ih =>
    intro hh f data hf hnd hk
    obtain ⟨f, rfl⟩ : ∃ g, f = g + 1 := ⟨f - 1, by omega⟩
    rw [parentSurveys_step hn hh, ht]
    simp only
    rw [dictSet_new _ (hk h List.mem_cons_self)]
    rw [List.map_cons, List.nodup_cons] at hnd
    rw [ih hh' _ (by simpa using hf) hnd.2]
    · simp [tiedOf, ht]
    · intro x hx
      rw [List.map_append, List.mem_append]
      rintro (h1 | h1)
      · exact hk x (List.mem_cons_of_mem _ hx) h1
      · simp only [List.map_cons, List.map_nil, List.mem_singleton] at h1
        exact hnd.1 (h1 ▸ List.mem_map_of_mem hx)

/-- The stretches of depth taken from each tied survey: from its tie-on depth to the upper
bound, which is the tie-on depth of the survey tied to it. -/
def stretches (cur : ℚ) : List (String × ℚ) → List (String × ℚ × ℚ)
  | [] => []
  | (k, v) :: t => (k, v, cur) :: stretches v t

/-- The stations of a stretch. -/
def inStretch (stations : List St) (w : String × ℚ × ℚ) : List St :=
  stations.filter fun s => s.hdr = w.1 ∧ w.2.1 ≤ s.md ∧ s.md ≤ w.2.2

theorem gather_eq (stations : List St) : ∀ (l : List (String × ℚ)) (cur : ℚ),
    (cur :: l.map (·.2)).Pairwise (· > ·) →
    gather stations l cur = (stretches cur l).flatMap (inStretch stations)
  | [], _, _ => rfl
  | (k, v) :: t, cur, h => by
    simp only [List.map_cons, List.pairwise_cons] at h
    rw [gather, if_pos (h.1 v List.mem_cons_self), gather_eq stations t v
      (List.pairwise_cons.mpr h.2)]
    rfl

/-- C45, what holds: for a survey with a chain of ties at decreasing depths the result is, in
order of depth, exactly the stations of every *tied* survey of the chain from its own tie-on
depth down to the tie-on depth of its child (for the survey itself, to its end). -/
theorem C45_tied_survey_partial {hs : List Hdr} (hn : (hs.map (·.id)).Nodup) {h : Hdr}
    {l : List Hdr} (hh : h ∈ hs) (ht : h.tie ≠ none) (hc : TieChain hs h l)
    (hnd : ((h :: l).map (·.id)).Nodup) {limit : ℕ} (hf : l.length < limit) (stations : List St)
    (hd : (h.mdMax :: (tiedOf (h :: l)).map (·.2)).Pairwise (· > ·)) :
    ∃ out, survey limit hs stations h = some out ∧
      out.Perm ((stretches h.mdMax (tiedOf (h :: l))).flatMap (inStretch stations)) ∧
      (out.map (·.md)).Pairwise (· ≤ ·) := by
  have hp : parentSurveys limit hs h.id [(h.id, h.mdMax)] = some (tiedOf (h :: l)) := by
    obtain ⟨f, rfl⟩ : ∃ g, limit = g + 1 := ⟨limit - 1, by omega⟩
    rw [parentSurveys_step hn hh]
    cases hc with
    | root ht' => exact absurd ht' ht
    | @tied _ h' d l ht' hh' hc' =>
      rw [ht']
      simp only [dictSet, if_true]
      rw [List.map_cons, List.nodup_cons] at hnd
      rw [parentSurveys_eq hn hc' hh' _ (by simpa using hf) hnd.2]
      · simp [tiedOf, ht']
      · intro x hx h1
        simp only [List.map_cons, List.map_nil, List.mem_singleton] at h1
        exact hnd.1 (h1 ▸ List.mem_map_of_mem hx)
  refine ⟨_, by rw [survey, hp]; rfl, ?_, ?_⟩
  · simp only
    rw [gather_eq _ _ _ hd]
    exact List.perm_insertionSort _ _
  · rw [List.pairwise_map]
    have : IsTrans St fun a b => a.md ≤ b.md := ⟨fun _ _ _ h1 h2 => h1.trans h2⟩
    have : Std.Total (fun a b : St => a.md ≤ b.md) := ⟨fun a b => le_total a.md b.md⟩
    exact List.pairwise_insertionSort (fun a b : St => a.md ≤ b.md) _

/-- C45 is false: a survey that is not tied to another gets no stations at all. -/
theorem C45_untied_is_empty {hs : List Hdr} (hn : (hs.map (·.id)).Nodup) {h : Hdr} (hh : h ∈ hs)
    (ht : h.tie = none) (limit : ℕ) (stations : List St) :
    survey (limit + 1) hs stations h = some [] := by
  rw [survey, parentSurveys_step hn hh, ht]
  simp [gather]

/-- C45 is false: the survey at the root of the chain contributes nothing. -/
theorem C45_root_missing {hs : List Hdr} (hn : (hs.map (·.id)).Nodup) {h : Hdr}
    {l : List Hdr} (hh : h ∈ hs) (ht : h.tie ≠ none) (hc : TieChain hs h l)
    (hnd : ((h :: l).map (·.id)).Nodup) {limit : ℕ} (hf : l.length < limit) (stations : List St)
    (hd : (h.mdMax :: (tiedOf (h :: l)).map (·.2)).Pairwise (· > ·)) {out : List St}
    (ho : survey limit hs stations h = some out) {r : Hdr} (hr : r ∈ l) (hrt : r.tie = none) :
    ∀ s ∈ out, s.hdr ≠ r.id := by
  obtain ⟨out', ho', hp, -⟩ := C45_tied_survey_partial hn hh ht hc hnd hf stations hd
  obtain rfl : out = out' := by rw [ho] at ho'; exact Option.some.inj ho'
  intro s hs he
  have hs' := hp.mem_iff.mp hs
  obtain ⟨w, hw, hs'⟩ := List.mem_flatMap.mp hs'
  have hsw : s.hdr = w.1 := by
    have := (List.mem_filter.mp hs').2
    simp only [decide_eq_true_eq] at this
    exact this.1
  have key : ∀ (l : List (String × ℚ)) (cur : ℚ), ∀ w ∈ stretches cur l, w.1 ∈ l.map (·.1) := by
    intro l
    induction l with
    | nil => intro cur w hw; simp [stretches] at hw
    | cons a t ih =>
      intro cur w hw
      rcases List.mem_cons.mp hw with rfl | hw
      · simp
      · exact List.mem_cons_of_mem _ (ih _ w hw)
  have hin := key _ _ w hw
  rw [← hsw, he] at hin
  obtain ⟨kv, hkv, hk⟩ := List.mem_map.mp hin
  obtain ⟨x, hx, hxt⟩ := List.mem_filterMap.mp hkv
  cases hxt' : x.tie with
  | none => simp [hxt'] at hxt
  | some t =>
    simp only [hxt', Option.map_some, Option.some.injEq] at hxt
    have hxid : x.id = r.id := by rw [← hk, ← hxt]
    have hxr : x = r :=
      List.inj_on_of_nodup_map hnd hx (List.mem_cons_of_mem _ hr) hxid
    rw [hxr, hrt] at hxt'
    exact absurd hxt' (by simp)

/-- A chain of three surveys. -/
def sampleHdrs : List Hdr :=
  [⟨"c", 3000, some ("b", 2000)⟩, ⟨"b", 2500, some ("a", 1000)⟩, ⟨"a", 1500, none⟩]

/-- Their stations. -/
def sampleStations : List St :=
  [⟨"a", 0⟩, ⟨"a", 1000⟩, ⟨"b", 1000⟩, ⟨"b", 2000⟩, ⟨"b", 2500⟩, ⟨"c", 2000⟩, ⟨"c", 3000⟩]

/-- C45 is false: the tie-on station is given twice, once from each survey, and the well is
missing above the shallowest tie-on depth. -/
theorem C45_tie_on_twice :
    survey 1000 sampleHdrs sampleStations ⟨"c", 3000, some ("b", 2000)⟩
      = some [⟨"b", 1000⟩, ⟨"c", 2000⟩, ⟨"b", 2000⟩, ⟨"c", 3000⟩] := by
  have hn : (sampleHdrs.map (·.id)).Nodup := by decide
  have : parentSurveys 1000 sampleHdrs "c" [("c", 3000)] = some [("c", 2000), ("b", 1000)] := by
    rw [show (1000 : ℕ) = 997 + 1 + 1 + 1 from rfl,
      parentSurveys_step (h := ⟨"c", 3000, some ("b", 2000)⟩) hn (by decide)]
    simp only [dictSet, if_true]
    rw [parentSurveys_step (h := ⟨"b", 2500, some ("a", 1000)⟩) hn (by decide)]
    simp only [dictSet]
    rw [if_neg (by decide), parentSurveys_step (h := ⟨"a", 1500, none⟩) hn (by decide)]
  rw [survey]
  simp only [this, Option.map_some]
  decide +kernel

/-- The hypotheses of the partial theorem are met by the sample. -/
example : TieChain sampleHdrs ⟨"c", 3000, some ("b", 2000)⟩
      [⟨"b", 2500, some ("a", 1000)⟩, ⟨"a", 1500, none⟩] ∧
    ((3000 : ℚ) :: (tiedOf [⟨"c", 3000, some ("b", 2000)⟩, ⟨"b", 2500, some ("a", 1000)⟩,
      ⟨"a", 1500, none⟩]).map (·.2)).Pairwise (· > ·) :=
  ⟨.tied (h' := ⟨"b", 2500, some ("a", 1000)⟩) rfl (by decide)
    (.tied (h' := ⟨"a", 1500, none⟩) rfl (by decide) (.root rfl)), by decide +kernel⟩

/-! ### C85 -/

theorem lookup_dictSet {A : Type} (d : List (String × A)) (k k' : String) (v : A) :
    (dictSet d k v).lookup k' = if k' = k then some v else d.lookup k' := by
  induction d with
  | nil => by_cases h : k' = k <;> simp [dictSet, List.lookup, h, beq_false_of_ne]
  | cons a t ih =>
    obtain ⟨k2, v2⟩ := a
    simp only [dictSet]
    by_cases h2 : k2 = k
    · subst h2
      by_cases h : k' = k2 <;> simp [List.lookup, h, beq_false_of_ne]
    · rw [if_neg h2]
      by_cases h : k' = k2
      · subst h; simp [List.lookup, h2]
      · simp [List.lookup, beq_false_of_ne h, ih]

theorem wellboreIds_distinct {root : List Bore} (hn : (root.map (·.name)).Nodup) :
    wellboreIds root = root.map fun b => (b.name, b) := by
  have gen : ∀ (root : List Bore) (d : List (String × Bore)),
      (d.map (·.1) ++ root.map (·.name)).Nodup →
      root.foldl (fun d b => dictSet d b.name b) d = d ++ root.map fun b => (b.name, b) := by
    intro root
    induction root with
    | nil => intro d _; simp
    | cons b t ih =>
      intro d h
      rw [List.foldl_cons, dictSet_new]
      · rw [ih]
        · simp
        · simpa using h
      · intro hb
        have := (List.nodup_append.mp h).2.2
        exact this _ hb _ (by simp) rfl
  rw [wellboreIds, gen root [] (by simpa using hn)]; rfl

/-- C85, what holds: when all wellbore names differ (and the identifiers too) every wellbore is
found by its identifier and by its name. -/
theorem C85_distinct_names_partial {root : List Bore} (hn : (root.map (·.name)).Nodup)
    (hi : (root.map (·.id)).Nodup) {b : Bore} (hb : b ∈ root) :
    (idToName root).lookup b.id = some b.name ∧ (nameToId root).lookup b.name = some b.id := by
  have gen : ∀ (key val : Bore → String) (root : List Bore), (root.map key).Nodup →
      ∀ b ∈ root, ∀ d : List (String × String),
      ((root.map fun b => (b.name, b)).foldl (fun d kv => dictSet d (key kv.2) (val kv.2)) d).lookup
        (key b) = some (val b) := by
    intro key val root
    have other : ∀ (t : List Bore) (k : String), (∀ x ∈ t, key x ≠ k) →
        ∀ d : List (String × String),
        ((t.map fun b => (b.name, b)).foldl (fun d kv => dictSet d (key kv.2) (val kv.2)) d).lookup k
          = d.lookup k := by
      intro t k
      induction t with
      | nil => intro _ d; rfl
      | cons x t ih =>
        intro h d
        rw [List.map_cons, List.foldl_cons, ih fun y hy => h y (List.mem_cons_of_mem _ hy),
          lookup_dictSet, if_neg (h x List.mem_cons_self).symm]
    induction root with
    | nil => intro _ b hb; simp at hb
    | cons x t ih =>
      intro h b hb d
      simp only [List.map_cons, List.nodup_cons] at h
      rw [List.map_cons, List.foldl_cons]
      rcases List.mem_cons.mp hb with rfl | hb
      · rw [other t (key b) fun y hy he => h.1 (List.mem_map.mpr ⟨y, hy, he⟩), lookup_dictSet,
          if_pos rfl]
      · exact ih h.2 b hb _
  unfold idToName nameToId
  rw [wellboreIds_distinct hn]
  exact ⟨gen (·.id) (·.name) root hi b hb [], gen (·.name) (·.id) root hn b hb []⟩

/-- C85 is false: of two wellbores with the same name (as different wells often have) the first
is not found by its identifier. -/
theorem C85_same_name_lost :
    (idToName [⟨"1", "Wellbore #1", none⟩, ⟨"2", "Wellbore #1", none⟩]).lookup "1" = none ∧
    (idToName [⟨"1", "Wellbore #1", none⟩, ⟨"2", "Wellbore #1", none⟩]).lookup "2"
      = some "Wellbore #1" := by
  decide +kernel

/-! ### C86 -/

/-- What a collection lists under a tag. -/
def listed (h : Heap) (d : List (String × ℕ)) (k : String) : List Node :=
  match d.lookup k with
  | some r => h r
  | none => []

/-- Lists kept under different tags are different objects. -/
def Separate (d : List (String × ℕ)) : Prop := ∀ p ∈ d, ∀ q ∈ d, p.2 = q.2 → p.1 = q.1

theorem lookup_mem {A : Type} {d : List (String × A)} {k : String} {r : A}
    (h : d.lookup k = some r) : (k, r) ∈ d := by
  induction d with
  | nil => simp at h
  | cons a t ih =>
    obtain ⟨k', v⟩ := a
    by_cases e : k = k'
    · subst e; simp [List.lookup] at h; simp [h]
    · rw [List.lookup, beq_false_of_ne e] at h
      exact List.mem_cons_of_mem _ (ih h)

theorem addAttributes_spec : ∀ (add : List (String × ℕ)) (h : Heap) (attrs : List (String × ℕ)),
    (add.map (·.1)).Nodup → Separate (attrs ++ add) →
    (∀ k, listed (addAttributes h attrs add).1 (addAttributes h attrs add).2 k
      = listed h attrs k ++ listed h add k) ∧
    (∀ p ∈ (addAttributes h attrs add).2, p ∈ attrs ++ add) ∧
    ∀ r, (∀ k, (k, r) ∈ attrs → k ∉ add.map (·.1)) → (addAttributes h attrs add).1 r = h r
  | [], h, attrs, _, _ => by
    refine ⟨fun k => ?_, fun p hp => ?_, fun r _ => rfl⟩
    · show listed h attrs k = listed h attrs k ++ []
      rw [List.append_nil]
    · simpa [addAttributes] using hp
  | (k₀, r₀) :: t, h, attrs, hn, hs => by
    simp only [List.map_cons, List.nodup_cons] at hn
    have ht : t.lookup k₀ = none := by
      cases e : t.lookup k₀ with
      | none => rfl
      | some r => exact absurd (List.mem_map.2 ⟨_, lookup_mem e, rfl⟩) hn.1
    rw [addAttributes]
    cases e : attrs.lookup k₀ with
    | some r' =>
      have hm := lookup_mem e
      obtain ⟨h1, h2, h3⟩ := addAttributes_spec t (Function.update h r' (h r' ++ h r₀)) attrs hn.2
        (fun p hp q hq => hs p (by simp only [List.mem_append, List.mem_cons] at hp ⊢; tauto) q
          (by simp only [List.mem_append, List.mem_cons] at hq ⊢; tauto))
      refine ⟨fun k => ?_, fun p hp => ?_, fun r hr => ?_⟩
      · dsimp only
        rw [h1 k]
        have hmem : ∀ r, (k, r) ∈ attrs ++ (k₀, r₀) :: t → k ≠ k₀ →
            Function.update h r' (h r' ++ h r₀) r = h r := by
          intro r hr hk
          rw [Function.update_of_ne]
          rintro rfl
          exact hk (hs _ hr _ (List.mem_append_left _ hm) rfl)
        by_cases hk : k = k₀
        · subst hk
          simp only [listed, e, ht, List.lookup, beq_self_eq_true, Function.update_self,
            List.append_nil]
        · have a1 : listed (Function.update h r' (h r' ++ h r₀)) attrs k = listed h attrs k := by
            unfold listed
            cases e1 : attrs.lookup k with
            | none => rfl
            | some r => exact hmem r (List.mem_append_left _ (lookup_mem e1)) hk
          have a2 : listed (Function.update h r' (h r' ++ h r₀)) t k
              = listed h ((k₀, r₀) :: t) k := by
            unfold listed
            rw [List.lookup, beq_false_of_ne hk]
            cases e1 : t.lookup k with
            | none => rfl
            | some r =>
              exact hmem r (List.mem_append_right _ (List.mem_cons_of_mem _ (lookup_mem e1))) hk
          rw [a1, a2]
      · have := h2 p hp
        simp only [List.mem_append, List.mem_cons] at this ⊢
        tauto
      · dsimp only
        rw [h3 r fun k hk hkt => hr k hk (by simp at hkt ⊢; tauto), Function.update_of_ne]
        rintro rfl
        exact hr k₀ hm (by simp)
    | none =>
      obtain ⟨h1, h2, h3⟩ := addAttributes_spec t h (attrs ++ [(k₀, r₀)]) hn.2
        (by simpa [List.append_assoc] using hs)
      have hap : ∀ k, listed h (attrs ++ [(k₀, r₀)]) k =
          listed h attrs k ++ listed h [(k₀, r₀)] k := by
        intro k
        by_cases hk : k = k₀
        · subst hk
          simp [listed, List.lookup_append, e]
        · have h0 : List.lookup k [(k₀, r₀)] = none := by
            simp [List.lookup, beq_false_of_ne hk]
          simp [listed, List.lookup_append, h0]
      refine ⟨fun k => ?_, fun p hp => ?_, fun r hr => ?_⟩
      · dsimp only
        rw [h1 k, hap, List.append_assoc]
        congr 1
        by_cases hk : k = k₀
        · subst hk
          simp [listed, ht]
        · simp [listed, List.lookup, beq_false_of_ne hk]
      · have := h2 p hp
        simpa [List.append_assoc] using this
      · refine h3 r fun k hk hkt => ?_
        rcases List.mem_append.1 hk with hk | hk
        · exact hr k hk (by simp at hkt ⊢; tauto)
        · simp only [List.mem_singleton, Prod.mk.injEq] at hk
          exact hn.1 (hk.1 ▸ hkt)

/-- C86, what holds: for a wellbore with ancestors, every tag lists the wellbore's own elements,
then those of the well, then the surveys of the ancestors, each once. -/
theorem C86_with_ancestors_partial (h : Heap) (own extra surveys : List (String × ℕ))
    (he : (extra.map (·.1)).Nodup) (hs : (surveys.map (·.1)).Nodup)
    (hsep : Separate (own ++ extra)) (hsv : Separate surveys)
    (hd : ∀ p ∈ own ++ extra, ∀ q ∈ surveys, p.2 ≠ q.2) (k : String) :
    let c := collect h own extra (some surveys)
    listed c.1 c.2 k = listed h own k ++ listed h extra k ++ listed h surveys k := by
  obtain ⟨a1, a2, a3⟩ := addAttributes_spec extra h own he hsep
  have hsep2 : Separate ((addAttributes h own extra).2 ++ surveys) := by
    intro p hp q hq hpq
    rcases List.mem_append.1 hp with hp | hp <;> rcases List.mem_append.1 hq with hq | hq
    · exact hsep p (a2 p hp) q (a2 q hq) hpq
    · exact absurd hpq (hd p (a2 p hp) q hq)
    · exact absurd hpq.symm (hd q (a2 q hq) p hp)
    · exact hsv p hp q hq hpq
  obtain ⟨b1, -, -⟩ := addAttributes_spec surveys (addAttributes h own extra).1
    (addAttributes h own extra).2 hs hsep2
  show listed (addAttributes _ _ surveys).1 (addAttributes _ _ surveys).2 k = _
  rw [b1 k, a1 k]
  congr 1
  unfold listed
  cases e : surveys.lookup k with
  | none => rfl
  | some r => exact a3 r fun k' hk' _ => hd (k', r) (List.mem_append_left _ hk') (k, r) (lookup_mem e) rfl

/-- C86 is false: for a wellbore without ancestors every element of the well is listed twice. -/
theorem C86_root_twice (h : Heap) (own extra : List (String × ℕ))
    (he : (extra.map (·.1)).Nodup) (hsep : Separate (own ++ extra))
    (hd : ∀ p ∈ own, ∀ q ∈ extra, p.2 ≠ q.2) (k : String) :
    let c := collect h own extra none
    listed c.1 c.2 k = listed h own k ++ listed h extra k ++ listed h extra k := by
  obtain ⟨a1, a2, a3⟩ := addAttributes_spec extra h own he hsep
  have hsep2 : Separate ((addAttributes h own extra).2 ++ extra) := by
    intro p hp q hq hpq
    have hm : ∀ p ∈ (addAttributes h own extra).2 ++ extra, p ∈ own ++ extra := fun p hp =>
      (List.mem_append.1 hp).elim (a2 p) (List.mem_append_right _)
    exact hsep p (hm p hp) q (hm q hq) hpq
  obtain ⟨b1, -, -⟩ := addAttributes_spec extra (addAttributes h own extra).1
    (addAttributes h own extra).2 he hsep2
  show listed (addAttributes _ _ extra).1 (addAttributes _ _ extra).2 k = _
  rw [b1 k, a1 k]
  congr 1
  unfold listed
  cases e : extra.lookup k with
  | none => rfl
  | some r => exact a3 r fun k' hk' _ => hd (k', r) hk' (k, r) (lookup_mem e) rfl

/-- The hypotheses of `C86_with_ancestors_partial` and `C86_root_twice` are met: the wellbore has a
survey header of its own, the well a datum, and the ancestors have survey headers. -/
example :
    let own := [("CD_SURVEY_HEADER", 0), ("CD_WELLBORE", 1)]
    let extra := [("CD_WELL", 2), ("CD_DATUM", 3)]
    let surveys := [("CD_SURVEY_HEADER", 4), ("CD_SURVEY_STATION", 5)]
    (extra.map (·.1)).Nodup ∧ (surveys.map (·.1)).Nodup ∧ Separate (own ++ extra) ∧
      Separate surveys ∧ (∀ p ∈ own ++ extra, ∀ q ∈ surveys, p.2 ≠ q.2) ∧
      ∀ p ∈ own, ∀ q ∈ extra, p.2 ≠ q.2 := by
  unfold Separate
  decide

/-! ### C87 -/

theorem lookup_map {A B : Type} (f : A → B) (d : List (String × A)) (k : String) :
    (d.map fun kv => (kv.1, f kv.2)).lookup k = (d.lookup k).map f := by
  induction d with
  | nil => rfl
  | cons a t ih =>
    obtain ⟨k', v⟩ := a
    by_cases h : k = k'
    · subst h; simp [List.lookup]
    · simp [List.lookup, beq_false_of_ne h, ih]

/-- C87: every group of a pressure, fracture or temperature table has exactly the rows of that
group, in order of depth. -/
theorem C87_tables (rows : List Row) (g : String) :
    (entry (ppfpt rows) g).Perm ((rows.filter (·.group = g)).map fun r => (r.tvd, r.value)) ∧
    ((entry (ppfpt rows) g).map (·.1)).Pairwise (· ≤ ·) := by
  have gen : ∀ (rows : List Row) (d : List (String × List (ℚ × ℚ))),
      entry (rows.foldl (fun d r => dictAppend d r.group (r.tvd, r.value)) d) g
        = entry d g ++ (rows.filter (·.group = g)).map fun r => (r.tvd, r.value) := by
    intro rows
    induction rows with
    | nil => intro d; simp
    | cons r t ih =>
      intro d
      rw [List.foldl_cons, ih, entry_dictAppend]
      by_cases h : r.group = g
      · simp [h]
      · simp [h, Ne.symm h]
  have hent : entry (ppfpt rows) g
      = ((rows.filter (·.group = g)).map fun r => (r.tvd, r.value)).insertionSort
          fun a b => a.1 ≤ b.1 := by
    have h0 := gen rows []
    unfold entry at h0 ⊢
    unfold ppfpt
    rw [lookup_map]
    simp only [List.lookup_nil, Option.getD_none, List.nil_append] at h0
    rw [← h0]
    cases List.lookup g (rows.foldl (fun d r => dictAppend d r.group (r.tvd, r.value)) []) <;> rfl
  rw [hent]
  refine ⟨List.perm_insertionSort _ _, ?_⟩
  rw [List.pairwise_map]
  have : IsTrans (ℚ × ℚ) fun a b => a.1 ≤ b.1 := ⟨fun _ _ _ h1 h2 => h1.trans h2⟩
  have : Std.Total (fun a b : ℚ × ℚ => a.1 ≤ b.1) := ⟨fun a b => le_total a.1 b.1⟩
  exact List.pairwise_insertionSort (fun a b : ℚ × ℚ => a.1 ≤ b.1) _

example : entry (ppfpt [⟨"g", 2000, 1⟩, ⟨"h", 5, 5⟩, ⟨"g", 1000, 2⟩]) "g"
    = [(1000, 2), (2000, 1)] := by decide +kernel

/-! ### C88 -/

/-- C88, what holds: a tag with exactly one row of the group keeps that row. -/
theorem C88_single_row_partial (tag group : String) (rows : List Node) (row : Node)
    (h : rows.filter (fun r => r.get "hole_sect_group_id" = some group) = [row]) :
    (holeSectionData [(tag, rows)] group).lookup tag = some row := by
  have gen : ∀ (rows : List Node) (d : List (String × Node)),
      (rows.foldl (fun d row => if row.get "hole_sect_group_id" = some group
        then dictSet d tag row else d) d).lookup tag
      = match (rows.filter (fun r => r.get "hole_sect_group_id" = some group)).getLast? with
        | some r => some r
        | none => d.lookup tag := by
    intro rows
    induction rows with
    | nil => intro d; rfl
    | cons r t ih =>
      intro d
      rw [List.foldl_cons, ih]
      by_cases hr : r.get "hole_sect_group_id" = some group
      · rw [if_pos hr, List.filter_cons_of_pos (by simpa using hr), lookup_dictSet, if_pos rfl,
          List.getLast?_cons]
        cases (t.filter (fun r => r.get "hole_sect_group_id" = some group)).getLast? <;> rfl
      · rw [if_neg hr, List.filter_cons_of_neg (by simpa using hr)]
  unfold holeSectionData
  simp only [List.foldl_cons, List.foldl_nil]
  rw [gen, h]
  rfl

/-- C88 is false: of two sections of one hole section group only the last is returned. -/
theorem C88_only_last_row :
    let a : Node := ⟨"CD_HOLE_SECT", [("hole_sect_group_id", "g"), ("name", "17.5 in")]⟩
    let b : Node := ⟨"CD_HOLE_SECT", [("hole_sect_group_id", "g"), ("name", "12.25 in")]⟩
    holeSectionData [("CD_HOLE_SECT", [a, b])] "g" = [("CD_HOLE_SECT", b)] := by
  decide +kernel

end Welleng.Props
