import Verif.Props.EdmSurvey

/-! C389: further records in an EDM file do not change what the others say. -/

namespace Welleng.Props

open Welleng Edm

/-- A record that a query cannot be about: another tag, or none of the conditions holds of it. -/
def Unrelated (tags : List String) (attributes : List (String × List String)) (c : Node) : Prop :=
  c.tag ∉ tags ∨ (attributes ≠ [] ∧ ∀ q ∈ attributes, ¬ ∃ x, c.get q.1 = some x ∧ x ∈ q.2)

theorem attrLoop_unrelated (logic : Logic) (c : Node) (qs : List (String × List String))
    (h : ∀ q ∈ qs, attrOk c q = false) (bs : List Bool) (hbs : ∀ b ∈ bs, b = false)
    (data : List (String × List Node)) : attrLoop logic c qs bs data = data := by
  induction qs generalizing bs with
  | nil => rfl
  | cons q t ih =>
    have hq := h q (by simp)
    have hall : ∀ b ∈ bs ++ [attrOk c q], b = false := by
      intro b hb
      rcases List.mem_append.1 hb with hb | hb
      · exact hbs b hb
      · rw [List.mem_singleton.1 hb, hq]
    have hl : logicOk logic (bs ++ [attrOk c q]) = false := by
      cases logic with
      | and => simp [logicOk, hq]
      | or =>
        rw [logicOk, List.any_eq_false]
        intro b hb
        simp [hall b hb]
    rw [attrLoop]
    simp only [hl, Bool.false_eq_true, if_false]
    exact ih (fun q hq => h q (List.mem_cons_of_mem _ hq)) _ hall

/-- **C389** A query to a document is not changed by a further record, anywhere, that it is not about. -/
theorem C389_unrelated (before after : List Node) {tags : List String}
    {attributes : List (String × List String)} (logic : Logic) {c : Node}
    (h : Unrelated tags attributes c) :
    getAttributes (before ++ c :: after) tags attributes logic
      = getAttributes (before ++ after) tags attributes logic := by
  unfold getAttributes
  rw [List.foldl_append, List.foldl_append, List.foldl_cons]
  congr 1
  rcases h with h | ⟨hne, h⟩
  · rw [if_neg (by simpa using h)]
  · have he : attributes.isEmpty = false := by cases attributes <;> simp_all
    simp only [he, Bool.false_eq_true, if_false]
    rw [attrLoop_unrelated logic c attributes (fun q hq => ?_) [] (by simp), ite_self]
    rw [Bool.eq_false_iff]
    exact fun hk => h q hq ((attrOk_iff c q).1 hk)

/-- Non-vacuity: a record of another well. -/
example : Unrelated ["CD_WELLBORE"] [("well_id", ["w"])] ⟨"CD_WELLBORE", [("well_id", "v")]⟩ := by
  refine .inr ⟨by simp, ?_⟩
  intro q hq
  obtain rfl := List.mem_singleton.1 hq
  rintro ⟨x, hx, hm⟩
  simp [Node.get, List.lookup] at hx hm
  subst hm
  exact absurd hx (by decide)

/-- **C389** The records found in two documents one after the other are those found in the first and
then those found in the second. -/
theorem C389_documents (d1 d2 : List Node) (tags : List String) (attributes : List (String × List String))
    (logic : Logic) (k : String) (hk : k ∈ tags) :
    entry (getAttributes (d1 ++ d2) tags attributes logic) k
      = entry (getAttributes d1 tags attributes logic) k
        ++ entry (getAttributes d2 tags attributes logic) k := by
  rw [entry_getAttributes _ _ _ _ _ hk, entry_getAttributes _ _ _ _ _ hk,
    entry_getAttributes _ _ _ _ _ hk, List.filter_append, List.flatMap_append]

/-- Non-vacuity: a wellbore in each. -/
example : entry (getAttributes ([⟨"CD_WELLBORE", [("well_id", "w")]⟩] ++
      [⟨"CD_WELLBORE", [("well_id", "v")]⟩]) ["CD_WELLBORE"] [] .and) "CD_WELLBORE"
    = [⟨"CD_WELLBORE", [("well_id", "w")]⟩, ⟨"CD_WELLBORE", [("well_id", "v")]⟩] := by
  decide +kernel

theorem keys_dictSet {A : Type} (d : List (String × A)) (k : String) (v : A) (x : String)
    (h : x ∈ (dictSet d k v).map (·.1)) : x = k ∨ x ∈ d.map (·.1) := by
  induction d with
  | nil => left; simpa [dictSet] using h
  | cons a t ih =>
    obtain ⟨k', v'⟩ := a
    rw [dictSet] at h
    split_ifs at h with hk
    · right; simpa using h
    · simp only [List.map_cons, List.mem_cons] at h ⊢
      rcases h with h | h
      · exact .inr (.inl h)
      · rcases ih h with h | h
        · exact .inl h
        · exact .inr (.inr h)

theorem keys_parentSurveys (f : ℕ) (hs : List Hdr) (id : String) (data out : List (String × ℚ))
    (h : parentSurveys f hs id data = some out) (x : String) (hx : x ∈ out.map (·.1)) :
    x ∈ hs.map (·.id) ∨ x ∈ data.map (·.1) := by
  induction f generalizing id data out with
  | zero => simp [parentSurveys] at h
  | succ f ih =>
    rw [parentSurveys] at h
    have gen : ∀ (l : List Hdr), (∀ y ∈ l, y ∈ hs) → ∀ data out : List (String × ℚ),
        l.foldlM (fun d h => if h.id = id then
          match h.tie with
          | some (t, depth) => parentSurveys f hs t (dictSet d id depth)
          | none => some d
        else some d) data = some out → x ∈ out.map (·.1) → x ∈ hs.map (·.id) ∨ x ∈ data.map (·.1) := by
      intro l
      induction l with
      | nil =>
        intro _ data out h hx
        simp only [List.foldlM_nil, Option.pure_def, Option.some.injEq] at h
        rw [h]; exact .inr hx
      | cons y l ihl =>
        intro hy data out h hx
        rw [List.foldlM_cons, Option.bind_eq_bind, Option.bind_eq_some_iff] at h
        obtain ⟨mid, h1, h2⟩ := h
        rcases ihl (fun z hz => hy z (List.mem_cons_of_mem _ hz)) mid out h2 hx with h3 | h3
        · exact .inl h3
        · by_cases he : y.id = id
          · rw [if_pos he] at h1
            cases ht : y.tie with
            | none =>
              rw [ht] at h1
              rw [Option.some.inj h1]; exact .inr h3
            | some td =>
              obtain ⟨t, depth⟩ := td
              rw [ht] at h1
              rcases ih t _ mid h1 h3 with h4 | h4
              · exact .inl h4
              · rcases keys_dictSet _ _ _ _ h4 with h5 | h5
                · left
                  rw [h5, ← he]
                  exact List.mem_map_of_mem (hy y (by simp))
                · exact .inr h5
          · rw [if_neg he] at h1
            rw [Option.some.inj h1]; exact .inr h3
    exact gen hs (fun _ hy => hy) data out h hx

theorem gather_foreign (before after : List St) {s : St} (data : List (String × ℚ)) (cur : ℚ)
    (h : s.hdr ∉ data.map (·.1)) :
    gather (before ++ s :: after) data cur = gather (before ++ after) data cur := by
  induction data generalizing cur with
  | nil => rfl
  | cons a t ih =>
    obtain ⟨k, v⟩ := a
    simp only [List.map_cons, List.mem_cons, not_or] at h
    simp only [gather]
    rw [ih _ h.2, ih _ h.2, List.filter_append, List.filter_append, List.filter_cons_of_neg]
    simp [h.1]

/-- **C389** The survey of a header is not changed by further stations, anywhere, that belong to none of
the headers. -/
theorem C389_stations (limit : ℕ) (headers : List Hdr) (before after : List St) {s : St} {h : Hdr}
    (hh : h ∈ headers) (hs : s.hdr ∉ headers.map (·.id)) :
    survey limit headers (before ++ s :: after) h = survey limit headers (before ++ after) h := by
  unfold survey
  cases hp : parentSurveys limit headers h.id [(h.id, h.mdMax)] with
  | none => rfl
  | some data =>
    simp only [Option.map_some]
    rw [gather_foreign]
    intro hx
    rcases keys_parentSurveys _ _ _ _ _ hp _ hx with h1 | h1
    · exact hs h1
    · simp only [List.map_cons, List.map_nil, List.mem_singleton] at h1
      exact hs (h1 ▸ List.mem_map_of_mem hh)

/-- Non-vacuity: a station of another well between two. -/
example : survey 10 [⟨"a", 100, some ("b", 0)⟩] [⟨"a", 10⟩, ⟨"c", 20⟩, ⟨"a", 5⟩] ⟨"a", 100, some ("b", 0)⟩
    = survey 10 [⟨"a", 100, some ("b", 0)⟩] [⟨"a", 10⟩, ⟨"a", 5⟩] ⟨"a", 100, some ("b", 0)⟩ :=
  C389_stations 10 _ [⟨"a", 10⟩] [⟨"a", 5⟩] (by simp) (by decide)

end Welleng.Props
