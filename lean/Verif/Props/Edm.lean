import Verif.Model.Edm
import Mathlib.Data.List.Nodup
import Mathlib.Tactic.NormNum

/-!
C43-C45, C85-C88: EDM documents.
-/

namespace Welleng.Props

open Edm

/-! ### C43 -/

/-- What a query asks of an element. -/
def Wanted (logic : Logic) (attributes : List (String × List String)) (c : Node) : Prop :=
  match logic with
  | .and => ∀ q ∈ attributes, ∃ x, c.get q.1 = some x ∧ x ∈ q.2
  | .or => ∃ q ∈ attributes, ∃ x, c.get q.1 = some x ∧ x ∈ q.2

theorem attrOk_iff (c : Node) (q : String × List String) :
    attrOk c q = true ↔ ∃ x, c.get q.1 = some x ∧ x ∈ q.2 := by
  unfold attrOk
  cases c.get q.1 with
  | none => simp
  | some x => simp

theorem entry_dictAppend {A : Type} (d : List (String × List A)) (k k' : String) (x : A) :
    entry (dictAppend d k x) k' = if k' = k then entry d k' ++ [x] else entry d k' := by
  induction d with
  | nil =>
    simp only [dictAppend, entry, List.lookup]
    by_cases h : k' = k
    · simp [h]
    · simp [h, beq_false_of_ne h]
  | cons a t ih =>
    obtain ⟨k2, l⟩ := a
    simp only [dictAppend]
    by_cases h2 : k2 = k
    · subst h2
      by_cases h : k' = k2
      · subst h; simp [entry, List.lookup]
      · simp [entry, List.lookup, h, beq_false_of_ne h]
    · rw [if_neg h2]
      by_cases h : k' = k2
      · subst h; simp [entry, List.lookup, h2]
      · have : ∀ l' : List (String × List A), entry ((k2, l) :: l') k' = entry l' k' := by
          intro l'; simp [entry, List.lookup, beq_false_of_ne h]
        rw [this, this, ih]

/-- How often the loop appends a child. -/
def hits (logic : Logic) (c : Node) : List (String × List String) → List Bool → ℕ
  | [], _ => 0
  | q :: t, bs =>
    (if logicOk logic (bs ++ [attrOk c q]) then 1 else 0) + hits logic c t (bs ++ [attrOk c q])

theorem entry_attrLoop (logic : Logic) (c : Node) (k : String) :
    ∀ (qs : List (String × List String)) (bs : List Bool) (data : List (String × List Node)),
    entry (attrLoop logic c qs bs data) k
      = entry data k ++ (if k = c.tag then List.replicate (hits logic c qs bs) c else [])
  | [], bs, data => by simp [attrLoop, hits]
  | q :: t, bs, data => by
    simp only [attrLoop, hits]
    rw [entry_attrLoop logic c k t]
    by_cases h1 : logicOk logic (bs ++ [attrOk c q]) = true
    · by_cases h2 : k = c.tag
      · simp [h1, h2, entry_dictAppend, List.replicate_add]
      · simp [h1, h2, entry_dictAppend]
    · simp [h1]

/-- How often a query returns a child. -/
def times (attributes : List (String × List String)) (logic : Logic) (c : Node) : ℕ :=
  if attributes.isEmpty then 1 else hits logic c attributes []

theorem entry_getAttributes (root : List Node) (tags : List String)
    (attributes : List (String × List String)) (logic : Logic) (k : String) (hk : k ∈ tags) :
    entry (getAttributes root tags attributes logic) k
      = (root.filter (·.tag = k)).flatMap fun c => List.replicate (times attributes logic c) c := by
  have gen : ∀ (root : List Node) (data : List (String × List Node)),
      entry (root.foldl (fun data c =>
        if tags.contains c.tag then
          if attributes.isEmpty then dictAppend data c.tag c
          else attrLoop logic c attributes [] data
        else data) data) k
      = entry data k ++
        (root.filter (·.tag = k)).flatMap fun c => List.replicate (times attributes logic c) c := by
    intro root
    induction root with
    | nil => intro data; simp
    | cons c t ih =>
      intro data
      rw [List.foldl_cons, ih]
      by_cases hc : c.tag = k
      · subst hc
        rw [if_pos (by simpa using hk)]
        by_cases ha : attributes.isEmpty = true
        · simp [ha, entry_dictAppend, times]
        · simp [ha, entry_attrLoop, times]
      · have hc' : k ≠ c.tag := fun h => hc h.symm
        rw [List.filter_cons_of_neg (by simpa using hc)]
        congr 1
        split_ifs
        · rw [entry_dictAppend, if_neg hc']
        · rw [entry_attrLoop, if_neg hc', List.append_nil]
        · rfl
  rw [getAttributes, gen]; rfl

/-- C43, what holds: with no or one attribute every wanted element is returned exactly once, in
document order. -/
theorem C43_one_attribute_partial (root : List Node) (tags : List String)
    (attributes : List (String × List String)) (logic : Logic) (k : String) (hk : k ∈ tags)
    (hl : attributes.length = 1 ∨ attributes = []) [DecidablePred (Wanted logic attributes)] :
    entry (getAttributes root tags attributes logic) k
      = root.filter fun c => c.tag = k ∧ (attributes = [] ∨ Wanted logic attributes c) := by
  rw [entry_getAttributes _ _ _ _ _ hk]
  induction root with
  | nil => rfl
  | cons c t ih =>
    by_cases hc : c.tag = k
    · rw [List.filter_cons_of_pos (by simpa using hc), List.flatMap_cons, ih]
      rcases hl with hl | rfl
      · obtain ⟨q, rfl⟩ := List.length_eq_one_iff.mp hl
        have hw : Wanted logic [q] c ↔ attrOk c q = true := by
          rw [attrOk_iff]; cases logic <;> simp [Wanted]
        by_cases hok : attrOk c q = true
        · have : times [q] logic c = 1 := by
            cases logic <;> simp [times, hits, logicOk, hok]
          rw [this, List.filter_cons_of_pos (by simp [hc, hw, hok])]
          rfl
        · have : times [q] logic c = 0 := by
            cases logic <;> simp [times, hits, logicOk, hok]
          rw [this, List.filter_cons_of_neg (by simp [hw, hok])]
          rfl
      · rw [List.filter_cons_of_pos (by simp [hc])]
        simp [times]
    · rw [List.filter_cons_of_neg (by simpa using hc),
        List.filter_cons_of_neg (by simp [hc]), ih]

theorem hits_or_pos (c : Node) : ∀ (qs : List (String × List String)) (bs : List Bool), qs ≠ [] →
    (0 < hits .or c qs bs ↔ bs.any id = true ∨ ∃ q ∈ qs, attrOk c q = true)
  | [], _, h => absurd rfl h
  | q :: t, bs, _ => by
    by_cases hq : logicOk .or (bs ++ [attrOk c q]) = true
    · simp only [hits, hq, if_true]
      simp only [logicOk, List.any_append, List.any_cons, List.any_nil, id] at hq
      constructor
      · intro _
        rcases Bool.or_eq_true _ _ |>.mp hq with h | h
        · exact Or.inl (by simpa using h)
        · exact Or.inr ⟨q, List.mem_cons_self, by simpa using h⟩
      · intro _; omega
    · simp only [hits, hq]
      have h1 : ¬ (bs.any id = true) := fun h => hq (by simp only [logicOk, List.any_append, h, Bool.true_or])
      have h2 : ¬ attrOk c q = true := fun h => hq (by simp [logicOk, List.any_append, h])
      cases t with
      | nil => simp [hits, h2]; simpa using h1
      | cons q' t' =>
        have := hits_or_pos c (q' :: t') (bs ++ [attrOk c q]) (by simp)
        simp only [Bool.false_eq_true, if_false, zero_add]
        rw [this]
        constructor
        · rintro (h | ⟨x, hx, h⟩)
          · exact absurd h hq
          · exact Or.inr ⟨x, List.mem_cons_of_mem _ hx, h⟩
        · rintro (h | ⟨x, hx, h⟩)
          · exact absurd h h1
          · rcases List.mem_cons.mp hx with rfl | hx
            · exact absurd h h2
            · exact Or.inr ⟨x, hx, h⟩

/-- C43, what holds: with OR the elements returned are the wanted ones (but not once each). -/
theorem C43_or_members_partial (root : List Node) (tags : List String)
    (attributes : List (String × List String)) (k : String) (hk : k ∈ tags)
    (hne : attributes ≠ []) (c : Node) :
    c ∈ entry (getAttributes root tags attributes .or) k
      ↔ c ∈ root ∧ c.tag = k ∧ Wanted .or attributes c := by
  have ht : times attributes .or c = hits .or c attributes [] := by
    simp [times, hne]
  have := hits_or_pos c attributes [] hne
  simp only [attrOk_iff, List.any_nil, Bool.false_eq_true, false_or] at this
  rw [entry_getAttributes _ _ _ _ _ hk]
  simp only [List.mem_flatMap, List.mem_filter, List.mem_replicate, decide_eq_true_eq, Wanted]
  rw [← this, ← ht]
  constructor
  · rintro ⟨a, ⟨h1, h2⟩, h3, rfl⟩
    exact ⟨h1, h2, Nat.pos_of_ne_zero h3⟩
  · rintro ⟨h1, h2, h3⟩
    exact ⟨c, ⟨h1, h2⟩, h3.ne', rfl⟩

/-- C43 is false: with AND an element is returned as soon as it matches the first attribute,
whatever the others are. -/
theorem C43_and_only_first (root : List Node) (tags : List String) (q : String × List String)
    (t : List (String × List String)) (k : String) (hk : k ∈ tags) (c : Node) :
    c ∈ entry (getAttributes root tags (q :: t) .and) k
      ↔ c ∈ root ∧ c.tag = k ∧ Wanted .and [q] c := by
  have hpos : ∀ c, 0 < hits .and c (q :: t) [] ↔ attrOk c q = true := by
    intro c
    have hz : ∀ (qs : List (String × List String)) (bs : List Bool), bs.all id = false →
        hits .and c qs bs = 0 := by
      intro qs
      induction qs with
      | nil => intro bs _; rfl
      | cons x xs ih =>
        intro bs hb
        have : (bs ++ [attrOk c x]).all id = false := by rw [List.all_append, hb]; rfl
        simp [hits, logicOk, this, ih _ this]
    by_cases h : attrOk c q = true
    · simp [hits, logicOk, h]
    · simp only [hits, logicOk, List.nil_append, h]
      simpa using hz t [false] rfl
  rw [entry_getAttributes _ _ _ _ _ hk]
  simp only [List.mem_flatMap, List.mem_filter, List.mem_replicate, decide_eq_true_eq, Wanted,
    List.mem_singleton, forall_eq, ← attrOk_iff]
  constructor
  · rintro ⟨a, ⟨h1, h2⟩, h3, rfl⟩
    exact ⟨h1, h2, (hpos c).mp (Nat.pos_of_ne_zero (by simpa [times] using h3))⟩
  · rintro ⟨h1, h2, h3⟩
    exact ⟨c, ⟨h1, h2⟩, by simpa [times] using ((hpos c).mpr h3).ne', rfl⟩

/-- C43, the concrete case: asking for a well *and* a name returns an element with another
name, and returns the right element twice. -/
theorem C43_and_wrong :
    let a : Node := ⟨"CD_WELLBORE", [("well_id", "w"), ("name", "x")]⟩
    let b : Node := ⟨"CD_WELLBORE", [("well_id", "w"), ("name", "y")]⟩
    entry (getAttributes [a, b] ["CD_WELLBORE"] [("well_id", ["w"]), ("name", ["y"])] .and)
      "CD_WELLBORE" = [a, b, b] := by
  decide +kernel

/-- C43: with OR an element that matches the first of two attributes is returned twice. -/
theorem C43_or_twice :
    let a : Node := ⟨"CD_WELLBORE", [("well_id", "w"), ("name", "x")]⟩
    entry (getAttributes [a] ["CD_WELLBORE"] [("well_id", ["w"]), ("name", ["y"])] .or)
      "CD_WELLBORE" = [a, a] := by
  decide +kernel

/-! ### C44 -/

/-- `l` is the chain of ancestors of the wellbore `id`, nearest first. -/
inductive Ancestry (all : List Bore) : String → List String → Prop
  | root {id} : (∀ b ∈ all, b.id = id → b.parent = none) → Ancestry all id []
  | child {b p l} : b ∈ all → b.parent = some p → Ancestry all p l → Ancestry all b.id (p :: l)

theorem getParents_none (all : List Bore) (f : ℕ) (id : String) (preds : List String) :
    ∀ rest : List Bore, (∀ b ∈ rest, b.id = id → b.parent = none) →
      getParents all (f + 1) rest id preds = some preds
  | [], _ => by simp [getParents]
  | b :: t, h => by
    rw [getParents]
    split_ifs with hb
    · rw [h b List.mem_cons_self hb]
    · exact getParents_none all f id preds t fun b hb => h b (List.mem_cons_of_mem _ hb)

theorem getParents_some (all : List Bore) (f : ℕ) (p : String) (preds out : List String)
    {b : Bore} (hp : b.parent = some p) (hr : getParents all f all p (preds ++ [p]) = some out) :
    ∀ rest : List Bore, (rest.map (·.id)).Nodup → b ∈ rest →
      getParents all (f + 1) rest b.id preds = some out
  | [], _, h => by simp at h
  | c :: t, hn, h => by
    simp only [List.map_cons, List.nodup_cons] at hn
    rw [getParents]
    by_cases hc : c.id = b.id
    · have hcb : c = b := by
        rcases List.mem_cons.mp h with rfl | h
        · rfl
        · exact absurd (List.mem_map.mpr ⟨b, h, hc.symm⟩) hn.1
      rw [if_pos hc, hcb, hp]
      simp only [hr, Option.bind_some]
      refine getParents_none all f b.id out t ?_
      intro x hx hxe
      exact absurd (List.mem_map.mpr ⟨x, hx, by rw [hxe, hc]⟩) hn.1
    · rw [if_neg hc]
      rcases List.mem_cons.mp h with rfl | h
      · exact absurd rfl hc
      · exact getParents_some all f p preds out hp hr t hn.2 h

/-- A call appends the ancestors to whatever the default list already holds. -/
theorem getParents_appends {all : List Bore} (hn : (all.map (·.id)).Nodup) {id : String}
    {l : List String} (h : Ancestry all id l) :
    ∀ {limit : ℕ} (left : List String), l.length < limit →
      getParents all limit all id left = some (left ++ l) := by
  induction h with
  | root h =>
    intro limit left hl
    obtain ⟨f, rfl⟩ : ∃ f, limit = f + 1 := ⟨limit - 1, by omega⟩
    rw [getParents_none all f _ left all h, List.append_nil]
  | @child b p l hb hp _ ih =>
    intro limit left hl
    obtain ⟨f, rfl⟩ : ∃ f, limit = f + 1 := ⟨limit - 1, by omega⟩
    refine getParents_some all f p left _ hp ?_ all hn hb
    rw [ih (left ++ [p]) (by simpa using hl), List.append_assoc]; rfl

/-- C44, what holds: the first query returns exactly the chain of ancestors (provided it is
shorter than the recursion limit). -/
theorem C44_first_query_partial {all : List Bore} (hn : (all.map (·.id)).Nodup) {id : String}
    {l : List String} (h : Ancestry all id l) {limit : ℕ} (hl : l.length < limit) :
    parentsCall all limit [] id = some l :=
  getParents_appends hn h [] hl

/-- C44 is false: a query after another one returns the ancestors of both. -/
theorem C44_second_query {all : List Bore} (hn : (all.map (·.id)).Nodup) {id id' : String}
    {l l' : List String} (h : Ancestry all id l) (h' : Ancestry all id' l') {limit : ℕ}
    (hl : l.length < limit) (hl' : l'.length < limit) :
    history all limit [] [id, id'] = some (l ++ l') := by
  have h1 : parentsCall all limit [] id = some l := getParents_appends hn h [] hl
  have h2 : parentsCall all limit l id' = some (l ++ l') := getParents_appends hn h' l hl'
  simp [history, h1, h2]

/-- A sidetrack `b` of `a`, and an unrelated wellbore `c`: asking for `b` and then for `c`
attributes the ancestor of `b` to `c`. -/
theorem C44_witness :
    history [⟨"a", "A", none⟩, ⟨"b", "B", some "a"⟩, ⟨"c", "C", none⟩] 1000 [] ["b", "c"]
      = some ["a"] := by
  have hn : (([⟨"a", "A", none⟩, ⟨"b", "B", some "a"⟩, ⟨"c", "C", none⟩] : List Bore).map
      (·.id)).Nodup := by decide
  have ha : Ancestry [⟨"a", "A", none⟩, ⟨"b", "B", some "a"⟩, ⟨"c", "C", none⟩] "a" [] :=
    .root (by decide)
  have hb : Ancestry [⟨"a", "A", none⟩, ⟨"b", "B", some "a"⟩, ⟨"c", "C", none⟩] "b" ["a"] :=
    .child (b := ⟨"b", "B", some "a"⟩) (by decide) rfl ha
  have hc : Ancestry [⟨"a", "A", none⟩, ⟨"b", "B", some "a"⟩, ⟨"c", "C", none⟩] "c" [] :=
    .root (by decide)
  exact C44_second_query hn hb hc (by decide) (by decide)

end Welleng.Props
