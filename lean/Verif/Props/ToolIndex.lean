import Verif.Model.ToolIndex
import Mathlib.Data.List.Perm.Basic
import Mathlib.Tactic.Linarith

/-!
C143-C147: choice of a tool error model and diagnostics (`/repo/welleng/error.py`,
`/repo/welleng/errors/tool_errors.py`).
-/

namespace Welleng.Props

open Err

/-- The shipped JSON directories as `os.listdir` may list them: in any order, files in any order. -/
def Listing (dirs : List (List JsonFile)) : Prop :=
  ∃ a b, a.Perm owsgA ∧ b.Perm owsgB ∧ (dirs = [a, b] ∨ dirs = [b, a])

theorem Listing.mem {dirs : List (List JsonFile)} (h : Listing dirs) (f : JsonFile) :
    f ∈ dirs.flatten ↔ f ∈ owsgA ++ owsgB := by
  obtain ⟨a, b, ha, hb, rfl | rfl⟩ := h <;>
  simp [ha.mem_iff, hb.mem_iff, or_comm]

theorem resolveJson_some {dirs : List (List JsonFile)} {model : String} {f : JsonFile}
    (h : resolveJson dirs model = some f) :
    f ∈ dirs.flatten ∧ (f.name = model ∨ f.modelId = model ∨ f.shortName = model) := by
  unfold resolveJson at h
  split at h
  · next g hg =>
    obtain rfl : g = f := by simpa using h
    obtain ⟨d, hd, hf⟩ := List.exists_of_findSome?_eq_some hg
    exact ⟨List.mem_flatten.2 ⟨d, hd, List.mem_of_find?_eq_some hf⟩,
      Or.inl (by simpa using List.find?_some hf)⟩
  · exact ⟨List.mem_of_find?_eq_some h, Or.inr (by simpa using List.find?_some h)⟩

theorem resolveJson_none {dirs : List (List JsonFile)} {model : String} :
    resolveJson dirs model = none ↔
      ∀ f ∈ dirs.flatten, ¬ (f.name = model ∨ f.modelId = model ∨ f.shortName = model) := by
  constructor
  · intro h
    unfold resolveJson at h
    split at h
    · simp at h
    · next hn =>
      rw [List.find?_eq_none] at h
      rw [List.findSome?_eq_none_iff] at hn
      rintro f hf (h1 | h1)
      · obtain ⟨d, hd, hfd⟩ := List.mem_flatten.1 hf
        have := List.find?_eq_none.1 (hn d hd) f hfd
        simp [h1] at this
      · exact (h f hf) (by simpa using h1)
  · intro h
    cases hr : resolveJson dirs model with
    | none => rfl
    | some f => exact absurd (resolveJson_some hr).2 (h f (resolveJson_some hr).1)

/-- The models of the index that have no definition. -/
def undefinedModels : List String :=
  ["GYRO-MWD_Fl", "GYRO-NS_Fl", "GYRO-NS-CT_Fl", "CB_Film_GMS_Fl", "CB_Film_GSS_Fl",
   "spe-90408-ma_example_table_3"]

/-- The models of the index that are defined in a JSON file only. -/
def jsonModels : List String :=
  ["GYRO-MWD", "GYRO-NS", "GYRO-NS-CT", "CB_Film_GMS", "CB_Film_GSS"]

/-- The short names of the index are different, and none is the alias. -/
theorem index_nodup : (toolIndex.map Prod.snd).Nodup ∧
    "ISCWSA MWD Rev5" ∉ toolIndex.map Prod.snd := by
  decide +kernel

theorem errorModelFile_entry {yamls : List String} {dirs : List (List JsonFile)} {k s : String}
    (h : (k, s) ∈ toolIndex) : errorModelFile toolIndex yamls dirs s = toolFile yamls dirs k := by
  have hm : s ∈ toolIndex.map Prod.snd := List.mem_map.2 ⟨_, h, rfl⟩
  have hu : unalias s = s := by
    unfold unalias
    rw [if_neg]
    rintro rfl
    exact index_nodup.2 hm
  unfold errorModelFile
  rw [hu, if_pos hm]
  cases hf : toolIndex.find? fun e => decide (e.2 = s) with
  | none => simpa using List.find?_eq_none.1 hf _ h
  | some e =>
    have h1 : e.2 = s := by simpa using List.find?_some hf
    have h2 := List.mem_of_find?_eq_some hf
    have : e = (k, s) := List.inj_on_of_nodup_map index_nodup.1 h2 h (by simpa using h1)
    rw [this]

theorem surveyModelFile_entry {yamls : List String} {dirs : List (List JsonFile)} {k s : String}
    (h : (k, s) ∈ toolIndex) : surveyModelFile toolIndex yamls dirs s = toolFile yamls dirs k := by
  unfold surveyModelFile
  rw [if_pos (List.mem_map.2 ⟨_, h, rfl⟩), errorModelFile_entry h]

theorem table_kinds : ∀ e ∈ toolIndex,
    (e.1 ∈ yamlFiles ∧ e.2 ∉ jsonModels ∧ e.2 ∉ undefinedModels) ∨
    (e.1 ∉ yamlFiles ∧ e.2 ∈ jsonModels ∧ e.2 ∉ undefinedModels ∧
      (∃ f ∈ owsgA ++ owsgB, f.modelId = e.1) ∧
      ∀ f ∈ owsgA ++ owsgB, (f.name = e.1 ∨ f.modelId = e.1 ∨ f.shortName = e.1) →
        f.modelId = e.1 ∧ (f.shortName = e.2 ∨ f.shortName = e.2 ++ "_Fl")) ∨
    (e.1 ∉ yamlFiles ∧ e.2 ∈ undefinedModels ∧
      ∀ f ∈ owsgA ++ owsgB, ¬ (f.name = e.1 ∨ f.modelId = e.1 ∨ f.shortName = e.1)) := by
  decide +kernel

/-- C143 (partial): every model of the index except six can be used for a survey, whatever the order
in which the file system lists the definitions. -/
theorem C143_listed_model_usable_partial {dirs : List (List JsonFile)} (hd : Listing dirs)
    {k s : String} (h : (k, s) ∈ toolIndex) (hs : s ∉ undefinedModels) :
    ∃ src, surveyModelFile toolIndex yamlFiles dirs s = .ok src := by
  rw [surveyModelFile_entry h]
  rcases table_kinds _ h with ⟨h1, -⟩ | ⟨h1, -, -, ⟨f, hf, hm⟩, -⟩ | ⟨-, h2, -⟩
  · exact ⟨.yaml k, by simp [toolFile, h1]⟩
  · simp only [toolFile, if_neg h1]
    cases hr : resolveJson dirs k with
    | some g => exact ⟨.json g, rfl⟩
    | none => exact absurd (Or.inr (Or.inl hm)) (resolveJson_none.1 hr f ((hd.mem f).2 hf))
  · exact absurd h2 hs

/-- C143 is false: six models of the index have no definition. -/
theorem C143_six_undefined {dirs : List (List JsonFile)} (hd : Listing dirs) {s : String}
    (hs : s ∈ undefinedModels) :
    s ∈ toolIndex.map Prod.snd ∧
    surveyModelFile toolIndex yamlFiles dirs s = .error .fileNotFound := by
  have hm : ∀ s ∈ undefinedModels, s ∈ toolIndex.map Prod.snd := by decide +kernel
  refine ⟨hm s hs, ?_⟩
  obtain ⟨⟨k, s'⟩, h, rfl⟩ := List.mem_map.1 (hm s hs)
  rw [surveyModelFile_entry h]
  rcases table_kinds _ h with ⟨-, -, h2⟩ | ⟨-, -, h2, -⟩ | ⟨h1, -, h3⟩
  · exact absurd hs h2
  · exact absurd hs h2
  · have hr : resolveJson dirs k = none :=
      resolveJson_none.2 fun f hf => h3 f ((hd.mem f).1 hf)
    simp only [toolFile, if_neg h1, hr]

/-- The order of a sorted listing. -/
theorem listing_sorted : Listing [owsgA, owsgB] :=
  ⟨owsgA, owsgB, .refl _, .refl _, Or.inl rfl⟩

example : ∃ src, surveyModelFile toolIndex yamlFiles [owsgA, owsgB] "MWD+IFR1" = .ok src :=
  C143_listed_model_usable_partial listing_sorted (k := "A005Mc") (by decide +kernel)
    (by decide +kernel)

example : surveyModelFile toolIndex yamlFiles [owsgA, owsgB] "GYRO-NS_Fl" = .error .fileNotFound :=
  (C143_six_undefined listing_sorted (by decide +kernel)).2

/-- C144 (partial): a usable model other than the five gyro models is read from the one file named
by its key; a gyro model is read from a file with its model id. -/
theorem C144_definition_partial {dirs : List (List JsonFile)} (hd : Listing dirs) {k s : String}
    (h : (k, s) ∈ toolIndex) {src : Source}
    (hr : surveyModelFile toolIndex yamlFiles dirs s = .ok src) :
    (s ∉ jsonModels → src = .yaml k) ∧
    (s ∈ jsonModels → ∃ f, src = .json f ∧ f ∈ owsgA ++ owsgB ∧ f.modelId = k ∧
      (f.shortName = s ∨ f.shortName = s ++ "_Fl")) := by
  rw [surveyModelFile_entry h] at hr
  rcases table_kinds _ h with ⟨h1, h2, -⟩ | ⟨h1, h2, -, -, h4⟩ | ⟨h1, -, h3⟩
  · refine ⟨fun _ => ?_, fun h3 => absurd h3 h2⟩
    simpa [toolFile, h1, eq_comm] using hr
  · refine ⟨fun h3 => absurd h2 h3, fun _ => ?_⟩
    simp only [toolFile, if_neg h1] at hr
    cases hj : resolveJson dirs k with
    | none => rw [hj] at hr; simp at hr
    | some f =>
      rw [hj] at hr
      obtain ⟨hf1, hf2⟩ := resolveJson_some hj
      have hf := (hd.mem f).1 hf1
      exact ⟨f, by simpa [eq_comm] using hr, hf, h4 f hf hf2⟩
  · have hn : resolveJson dirs k = none :=
      resolveJson_none.2 fun f hf => h3 f ((hd.mem f).1 hf)
    simp [toolFile, h1, hn] at hr

/-- C144 is false: which of two tool models is meant by `GYRO-NS` depends on the order in which the
file system lists the files. -/
theorem C144_depends_on_listing :
    ∃ d1 d2, Listing d1 ∧ Listing d2 ∧
      surveyModelFile toolIndex yamlFiles d1 "GYRO-NS"
        = .ok (.json ⟨"GYRO-NS", "A020Gb", "GYRO-NS"⟩) ∧
      surveyModelFile toolIndex yamlFiles d2 "GYRO-NS"
        = .ok (.json ⟨"GYRO-NS_Fl", "A020Gb", "GYRO-NS_Fl"⟩) := by
  refine ⟨[owsgA, owsgB], [owsgA.reverse, owsgB], listing_sorted,
    ⟨owsgA.reverse, owsgB, List.reverse_perm _, .refl _, Or.inl rfl⟩, ?_, ?_⟩ <;>
  decide +kernel

/-- C145 (partial): the deprecated name selects Rev 5.11 when an error model is built directly. -/
theorem C145_alias_partial (dirs : List (List JsonFile)) :
    errorModelFile toolIndex yamlFiles dirs "ISCWSA MWD Rev5"
      = errorModelFile toolIndex yamlFiles dirs "ISCWSA MWD Rev5.11" ∧
    errorModelFile toolIndex yamlFiles dirs "ISCWSA MWD Rev5.11"
      = .ok (.yaml "ISCWSA MWD Rev5.11") := by
  refine ⟨rfl, ?_⟩
  rw [errorModelFile_entry (k := "ISCWSA MWD Rev5.11") (by decide +kernel)]
  have : "ISCWSA MWD Rev5.11" ∈ yamlFiles := by decide +kernel
  simp [toolFile, this]

/-- C145 is false: a survey refuses the deprecated name. -/
theorem C145_survey_refuses_alias (dirs : List (List JsonFile)) :
    surveyModelFile toolIndex yamlFiles dirs "ISCWSA MWD Rev5" = .error .assertionError := by
  unfold surveyModelFile
  rw [if_neg index_nodup.2]

/-! ### C146 -/

/-- C146: a tool model with a largest inclination is accepted exactly if every station is below it;
a well with one station at or above it is refused. -/
theorem C146_inclination_range (m : ℝ) (inc : List ℝ) :
    (inclinationOk (some m) inc ↔ ∀ i ∈ inc, i * (180 / Real.pi) < m) ∧
    (∀ i ∈ inc, m ≤ i * (180 / Real.pi) → ¬ inclinationOk (some m) inc) := by
  have key : ∀ i : ℝ, i < m * (Real.pi / 180) ↔ i * (180 / Real.pi) < m := by
    intro i
    have hp := Real.pi_pos
    rw [mul_div_assoc', mul_div_assoc', div_lt_iff₀ hp, lt_div_iff₀ (by norm_num)]
  constructor
  · exact forall₂_congr fun i _ => key i
  · intro i hi hm h
    exact absurd ((key i).1 (h i hi)) (not_lt.2 hm)

/-- `INC-ONLY` is for inclinations below 30 degrees. -/
example : inclinationOk (some 30) [0, 20 * (Real.pi / 180)] ∧
    ¬ inclinationOk (some 30) [0, 35 * (Real.pi / 180)] := by
  have hp := Real.pi_pos
  refine ⟨?_, (C146_inclination_range 30 _).2 (35 * (Real.pi / 180)) (by simp) ?_⟩
  · intro i hi
    simp only [List.mem_cons, List.not_mem_nil, or_false] at hi
    rcases hi with rfl | rfl <;> nlinarith
  · rw [show 35 * (Real.pi / 180) * (180 / Real.pi) = 35 by field_simp]; norm_num

/-! ### C147 -/

theorem sum_rows (rows : List M3) : ∀ acc : M3,
    (rows.map getErrors).foldl (fun a r => List.zipWith (· + ·) a r) (getErrors acc)
      = getErrors (acc + rows.sum) := by
  induction rows with
  | nil => intro acc; simp
  | cons c t ih =>
    intro acc
    rw [List.map_cons, List.foldl_cons, List.sum_cons, ← add_assoc, ← ih]
    congr 1

/-- C147 (partial): with at least one error source, the diagnostics at a depth found at one station
only are the six components of the covariance of each source at that station, and the total is that
of the sum of the covariances. -/
theorem C147_diagnostics_partial (mds : List ℝ) (srcs : List (String × (ℕ → M3))) (hs : srcs ≠ [])
    (i : ℕ) (md : ℝ) (hi : mds[i]? = some md) (hu : ∀ j, mds[j]? = some md → j = i) :
    ∃ d, diagnostic mds srcs = .ok d ∧
      diagnosticAt d md = some (srcs.map fun s => (s.1, getErrors (s.2 i)),
        getErrors (srcs.map fun s => s.2 i).sum) := by
  refine ⟨_, by unfold diagnostic; rw [if_neg (fun h => hs h.2)], ?_⟩
  classical
  unfold diagnosticAt
  rw [← List.map_reverse, List.find?_map]
  have hz : (mds.zipIdx.reverse).find? ((fun e : ℝ × List (String × List ℝ) × List ℝ =>
      decide (e.1 = md)) ∘ fun p : ℝ × ℕ =>
        (p.1, srcs.map (fun s => (s.1, getErrors (s.2 p.2))),
          ((srcs.map fun s => (s.1, getErrors (s.2 p.2))).map Prod.snd).foldl
            (fun a r => List.zipWith (· + ·) a r) (List.replicate 6 0))) = some (md, i) := by
    cases hf : (mds.zipIdx.reverse).find? _ with
    | none =>
      have := List.find?_eq_none.1 hf (md, i)
        (List.mem_reverse.2 (List.mem_zipIdx_iff_getElem?.2 hi))
      simp at this
    | some p =>
      obtain ⟨x, j⟩ := p
      have h1 := List.find?_some hf
      have h2 := List.mem_zipIdx_iff_getElem?.1 (List.mem_reverse.1 (List.mem_of_find?_eq_some hf))
      simp only [Function.comp, decide_eq_true_eq] at h1
      simp only [h1] at h2
      rw [h1, hu j h2]
  simp only at hz ⊢
  rw [hz]
  simp only [Option.map_some, Option.some.injEq, Prod.mk.injEq, true_and]
  have := sum_rows (srcs.map fun s => s.2 i) 0
  rw [zero_add] at this
  rw [← this]
  simp [getErrors, List.map_map, Function.comp_def, List.replicate]

/-- C147 is false: for a model without error sources (`ZERO-ERROR`) the diagnostics fail. -/
theorem C147_no_sources (mds : List ℝ) (h : mds ≠ []) :
    diagnostic mds [] = .error .nameError := by
  simp [diagnostic, h]

/-- C147 is false: of two stations at one depth the diagnostics keep the second. -/
theorem C147_repeated_depth (md : ℝ) (code : String) (c : ℕ → M3) :
    ∃ d, diagnostic [md, md] [(code, c)] = .ok d ∧
      diagnosticAt d md = some ([(code, getErrors (c 1))], getErrors (c 1)) := by
  refine ⟨_, by unfold diagnostic; rw [if_neg (by simp)], ?_⟩
  simp [diagnosticAt, getErrors, List.replicate]

example : ∃ d, diagnostic [0, 30] [("DRFR", fun k => (k : ℝ) • 1)] = .ok d ∧
    diagnosticAt d 30 = some ([("DRFR", getErrors ((1 : ℝ) • 1))], getErrors ((1 : ℝ) • 1)) := by
  obtain ⟨d, h1, h2⟩ := C147_diagnostics_partial [0, 30] [("DRFR", fun k => (k : ℝ) • 1)]
    (by simp) 1 30 rfl (by
      intro j hj
      match j, hj with
      | 0, hj => simp at hj
      | 1, _ => rfl
      | j + 2, hj => simp at hj)
  exact ⟨d, h1, by simpa using h2⟩

end Welleng.Props
