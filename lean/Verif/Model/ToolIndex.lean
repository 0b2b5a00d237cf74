import Verif.Model.ErrorModel

/-!
Model of the choice of a tool error model: `/repo/welleng/error.py` 20-75, 165-205,
`/repo/welleng/errors/tool_errors.py` 45-81, 173-200, and `/repo/welleng/survey.py` 749-752, 934,
with the shipped index `errors/tool_index.yaml`, the file names of `errors/tool_codes` and the names
and metadata of the files of `errors/iscwsa_json`.  Reading the files is not modelled.
-/

namespace Welleng.Err

/-- A JSON tool model: its name without `.json`, and `model_id` and `short_name` of its
metadata, `tool_errors.py` 44-82. -/
structure JsonFile where
  name : String
  modelId : String
  shortName : String
  deriving DecidableEq

/-- Where a tool model is read from, `tool_errors.py` 44-82, 138-200. -/
inductive Source
  | yaml (name : String)
  | json (f : JsonFile)
  deriving DecidableEq

/-- `_resolve_json_model`, `tool_errors.py` 46-81; `dirs` are the directories, in the order of
`os.listdir`, each with its files in that order. -/
def resolveJson (dirs : List (List JsonFile)) (model : String) : Option JsonFile :=
  match dirs.findSome? fun d => d.find? fun f => decide (f.name = model) with
  | some f => some f
  | none => dirs.flatten.find? fun f => decide (f.modelId = model ∨ f.shortName = model)

/-- The file a `ToolError` reads, `tool_errors.py` 173-200. -/
def toolFile (yamls : List String) (dirs : List (List JsonFile)) (model : String) :
    Except Exc Source :=
  if model ∈ yamls then .ok (.yaml model)
  else
    match resolveJson dirs model with
    | some f => .ok (.json f)
    | none => .error .fileNotFound

/-- `_DEPRECATED_ERROR_MODEL_ALIASES`, `error.py` 22-24, 165-175. -/
def unalias (name : String) : String :=
  if name = "ISCWSA MWD Rev5" then "ISCWSA MWD Rev5.11" else name

/-- The file read by `ErrorModel(survey, error_model=name)`, `error.py` 165-205; `index` lists key
and Short Name of each entry of the index. -/
def errorModelFile (index : List (String × String)) (yamls : List String)
    (dirs : List (List JsonFile)) (name : String) : Except Exc Source :=
  if unalias name ∈ index.map Prod.snd then
    match index.find? fun e => decide (e.2 = unalias name) with
    | some e => toolFile yamls dirs e.1
    | none => .error .assertionError
  else .error .assertionError

/-- The file read for `Survey(..., error_model=name)` and `survey.get_error(name)`, `survey.py`
749-752, 934-953. -/
def surveyModelFile (index : List (String × String)) (yamls : List String)
    (dirs : List (List JsonFile)) (name : String) : Except Exc Source :=
  if name ∈ index.map Prod.snd then errorModelFile index yamls dirs name
  else .error .assertionError

/-- The check of the inclination range, `tool_errors.py` 219-226; `none` if the header has no
range.  The lower end of the range is not read. -/
noncomputable def inclinationOk (maxDeg : Option ℝ) (inc : List ℝ) : Prop :=
  match maxDeg with
  | none => True
  | some m => ∀ i ∈ inc, i < m * (Real.pi / 180)

/-! ### The shipped tables -/

/-- `errors/tool_index.yaml`: key and Short Name, `error.py` 38-71. -/
def toolIndex : List (String × String) :=
  [("A001Mc", "MWD+SRGM"), ("A001Mc_Fl", "MWD+SRGM_Fl"), ("A002Mc", "MWD+SRGM+SAG"),
   ("A002Mc_Fl", "MWD+SRGM+SAG_Fl"), ("A003Mc", "MWD+SRGM+AX"), ("A003Mc_Fl", "MWD+SRGM+AX_Fl"),
   ("A004Mc", "MWD+SRGM+AX+SAG"), ("A004Mc_Fl", "MWD+SRGM+AX+SAG_Fl"), ("A005Mc", "MWD+IFR1"),
   ("A005Mc_Fl", "MWD+IFR1_Fl"), ("A006Mc", "MWD+IFR1+AX"), ("A006Mc_Fl", "MWD+IFR1+AX_Fl"),
   ("A007Mc", "MWD+IFR1+AX+SAG"), ("A007Mc_Fl", "MWD+IFR1+AX+SAG_Fl"), ("A008Mc", "MWD+IFR1+MS"),
   ("A008Mc_Fl", "MWD+IFR1+MS_Fl"), ("A009Mc", "MWD+IFR1+SAG"), ("A009Mc_Fl", "MWD+IFR1+SAG_Fl"),
   ("A010Mc", "MWD+IFR1+SAG+MS"), ("A010Mc_Fl", "MWD+IFR1+SAG+MS_Fl"),
   ("A011Mc", "MWD+IFR2+AX+SAG"), ("A011Mc_Fl", "MWD+IFR2+AX+SAG_Fl"),
   ("A012Mc", "MWD+IFR2+SAG"), ("A012Mc_Fl", "MWD+IFR2+SAG_Fl"), ("A013Mc", "MWD+IFR2+SAG+MS"),
   ("A013Mc_Fl", "MWD+IFR2+SAG+MS_Fl"), ("A014Mc", "EMS+SRGM"), ("A014Mc_Fl", "EMS+SRGM_Fl"),
   ("A015Mc", "EMS+SRGM+AX"), ("A015Mc_Fl", "EMS+SRGM+AX_Fl"), ("A016Mc", "EMS+SRGM+AX+SAG"),
   ("A016Mc_Fl", "EMS+SRGM+AX+SAG_Fl"), ("A017Mc", "EMS+SRGM+SAG"),
   ("A017Mc_Fl", "EMS+SRGM+SAG_Fl"), ("A018Mb", "DIPMETER"), ("A018Mb_Fl", "DIPMETER_Fl"),
   ("A019Gb", "GYRO-MWD"), ("A019Gb_Fl", "GYRO-MWD_Fl"), ("A020Gb", "GYRO-NS"),
   ("A020Gb_Fl", "GYRO-NS_Fl"), ("A021Gc", "GYRO-NS-CT"), ("A021Gc_Fl", "GYRO-NS-CT_Fl"),
   ("A022Gb", "CB_Film_GMS"), ("A022Gb_Fl", "CB_Film_GMS_Fl"), ("A023Gb", "CB_Film_GSS"),
   ("A023Gb_Fl", "CB_Film_GSS_Fl"), ("A024Mb", "CB_Film_MMS"), ("A024Mb_Fl", "CB_Film_MMS_Fl"),
   ("A025Mb", "CB_Film_MSS"), ("A025Mb_Fl", "CB_Film_MSS_Fl"), ("A026Ua", "BLIND"),
   ("A026Ua_Fl", "BLIND_Fl"), ("A027Ub", "INC-ONLY"), ("A027Ub_Fl", "INC-ONLY_Fl"),
   ("A028Ub", "INC-ONLY_PLANNED_5_DEG"), ("A028Ub_Fl", "INC-ONLY_PLANNED_5_DEG_Fl"),
   ("A029Ub", "UNKNOWN"), ("A029Ub_Fl", "UNKNOWN_Fl"), ("A030Ua", "ZERO-ERROR"),
   ("ISCWSA MWD Rev4", "ISCWSA MWD Rev4"), ("ISCWSA MWD Rev5.11", "ISCWSA MWD Rev5.11"),
   ("spe-90408-ma_example_table_3", "spe-90408-ma_example_table_3")]

/-- `errors/tool_codes`, `tool_errors.py` 138-200. -/
def yamlFiles : List String :=
  ["A001Mc", "A001Mc_Fl", "A002Mc", "A002Mc_Fl", "A003Mc", "A003Mc_Fl", "A004Mc", "A004Mc_Fl",
   "A005Mc", "A005Mc_Fl", "A006Mc", "A006Mc_Fl", "A007Mc", "A007Mc_Fl", "A008Mc", "A008Mc_Fl",
   "A009Mc", "A009Mc_Fl", "A010Mc", "A010Mc_Fl", "A011Mc", "A011Mc_Fl", "A012Mc", "A012Mc_Fl",
   "A013Mc", "A013Mc_Fl", "A014Mc", "A014Mc_Fl", "A015Mc", "A015Mc_Fl", "A016Mc", "A016Mc_Fl",
   "A017Mc", "A017Mc_Fl", "A018Mb", "A018Mb_Fl", "A024Mb", "A024Mb_Fl", "A025Mb", "A025Mb_Fl",
   "A026Ua", "A026Ua_Fl", "A027Ub", "A027Ub_Fl", "A028Ub", "A028Ub_Fl", "A029Ub", "A029Ub_Fl",
   "A030Ua", "ISCWSA MWD Rev4", "ISCWSA MWD Rev5.11", "error_codes", "owsg_generic_A_index"]

/-- `errors/iscwsa_json/owsg_a`, `tool_errors.py` 44-82. -/
def owsgA : List JsonFile :=
  [⟨"BLIND", "A026Ua", "BLIND"⟩, ⟨"BLIND_Fl", "A026Ua", "BLIND_Fl"⟩,
   ⟨"CB_Film_GMS", "A022Gb", "CB_Film_GMS"⟩, ⟨"CB_Film_GMS_Fl", "A022Gb", "CB_Film_GMS_Fl"⟩,
   ⟨"CB_Film_GSS", "A023Gb", "CB_Film_GSS"⟩, ⟨"CB_Film_GSS_Fl", "A023Gb", "CB_Film_GSS_Fl"⟩,
   ⟨"CB_Film_MMS", "A024Mb", "CB_Film_MMS"⟩, ⟨"CB_Film_MMS_Fl", "A024Mb", "CB_Film_MMS_Fl"⟩,
   ⟨"CB_Film_MSS", "A025Mb", "CB_Film_MSS"⟩, ⟨"CB_Film_MSS_Fl", "A025Mb", "CB_Film_MSS_Fl"⟩,
   ⟨"DIPMETER", "A018Mb", "DIPMETER"⟩, ⟨"DIPMETER_Fl", "A018Mb", "DIPMETER_Fl"⟩,
   ⟨"EMS+SRGM+AX+SAG", "A016Mc", "EMS+SRGM+AX+SAG"⟩,
   ⟨"EMS+SRGM+AX+SAG_Fl", "A016Mc", "EMS+SRGM+AX+SAG_Fl"⟩,
   ⟨"EMS+SRGM+AX", "A015Mc", "EMS+SRGM+AX"⟩, ⟨"EMS+SRGM+AX_Fl", "A015Mc", "EMS+SRGM+AX_Fl"⟩,
   ⟨"EMS+SRGM+SAG", "A017Mc", "EMS+SRGM+SAG"⟩, ⟨"EMS+SRGM+SAG_Fl", "A017Mc", "EMS+SRGM+SAG_Fl"⟩,
   ⟨"EMS+SRGM", "A014Mc", "EMS+SRGM"⟩, ⟨"EMS+SRGM_Fl", "A014Mc", "EMS+SRGM_Fl"⟩,
   ⟨"GYRO-MWD", "A019Gb", "GYRO-MWD"⟩, ⟨"GYRO-MWD_Fl", "A019Gb", "GYRO-MWD_Fl"⟩,
   ⟨"GYRO-NS-CT", "A021Gc", "GYRO-NS-CT"⟩, ⟨"GYRO-NS-CT_Fl", "A021Gc", "GYRO-NS-CT_Fl"⟩,
   ⟨"GYRO-NS", "A020Gb", "GYRO-NS"⟩, ⟨"GYRO-NS_Fl", "A020Gb", "GYRO-NS_Fl"⟩,
   ⟨"INC-ONLY", "A027Ub", "INC-ONLY"⟩, ⟨"INC-ONLY_Fl", "A027Ub", "INC-ONLY_Fl"⟩,
   ⟨"INC-ONLY_PLANNED_5_DEG", "A028Ub", "INC-ONLY_PLANNED_5_DEG"⟩,
   ⟨"INC-ONLY_PLANNED_5_DEG_Fl", "A028Ub", "INC-ONLY_PLANNED_5_DEG_Fl"⟩,
   ⟨"MWD+IFR1+AX+SAG", "A007Mc", "MWD+IFR1+AX+SAG"⟩,
   ⟨"MWD+IFR1+AX+SAG_Fl", "A007Mc", "MWD+IFR1+AX+SAG_Fl"⟩,
   ⟨"MWD+IFR1+AX", "A006Mc", "MWD+IFR1+AX"⟩, ⟨"MWD+IFR1+AX_Fl", "A006Mc", "MWD+IFR1+AX_Fl"⟩,
   ⟨"MWD+IFR1+MS", "A008Mc", "MWD+IFR1+MS"⟩, ⟨"MWD+IFR1+MS_Fl", "A008Mc", "MWD+IFR1+MS_Fl"⟩,
   ⟨"MWD+IFR1+SAG+MS", "A010Mc", "MWD+IFR1+SAG+MS"⟩,
   ⟨"MWD+IFR1+SAG+MS_Fl", "A010Mc", "MWD+IFR1+SAG+MS_Fl"⟩,
   ⟨"MWD+IFR1+SAG", "A009Mc", "MWD+IFR1+SAG"⟩, ⟨"MWD+IFR1+SAG_Fl", "A009Mc", "MWD+IFR1+SAG_Fl"⟩,
   ⟨"MWD+IFR1", "A005Mc", "MWD+IFR1"⟩, ⟨"MWD+IFR1_Fl", "A005Mc", "MWD+IFR1_Fl"⟩,
   ⟨"MWD+IFR2+AX+SAG", "A011Mc", "MWD+IFR2+AX+SAG"⟩,
   ⟨"MWD+IFR2+AX+SAG_Fl", "A011Mc", "MWD+IFR2+AX+SAG_Fl"⟩,
   ⟨"MWD+IFR2+SAG+MS", "A013Mc", "MWD+IFR2+SAG+MS"⟩,
   ⟨"MWD+IFR2+SAG+MS_Fl", "A013Mc", "MWD+IFR2+SAG+MS_Fl"⟩,
   ⟨"MWD+IFR2+SAG", "A012Mc", "MWD+IFR2+SAG"⟩, ⟨"MWD+IFR2+SAG_Fl", "A012Mc", "MWD+IFR2+SAG_Fl"⟩,
   ⟨"MWD+SRGM+AX+SAG", "A004Mc", "MWD+SRGM+AX+SAG"⟩,
   ⟨"MWD+SRGM+AX+SAG_Fl", "A004Mc", "MWD+SRGM+AX+SAG_Fl"⟩,
   ⟨"MWD+SRGM+AX", "A003Mc", "MWD+SRGM+AX"⟩, ⟨"MWD+SRGM+AX_Fl", "A003Mc", "MWD+SRGM+AX_Fl"⟩,
   ⟨"MWD+SRGM+SAG", "A002Mc", "MWD+SRGM+SAG"⟩, ⟨"MWD+SRGM+SAG_Fl", "A002Mc", "MWD+SRGM+SAG_Fl"⟩,
   ⟨"MWD+SRGM", "A001Mc", "MWD+SRGM"⟩, ⟨"MWD+SRGM_Fl", "A001Mc", "MWD+SRGM_Fl"⟩,
   ⟨"UNKNOWN", "A029Ub", "UNKNOWN"⟩, ⟨"UNKNOWN_Fl", "A029Ub", "UNKNOWN_Fl"⟩]

/-- `errors/iscwsa_json/owsg_b`, `tool_errors.py` 44-82. -/
def owsgB : List JsonFile :=
  [⟨"BLIND+TREND", "B022Ua", "BLIND+TREND"⟩, ⟨"EMS+HRGM+AX+SAG", "B015Mc", "EMS+HRGM+AX+SAG"⟩,
   ⟨"EMS+HRGM+AX+SAG_Fl", "B015Mc", "EMS+HRGM+AX+SAG_Fl"⟩,
   ⟨"EMS+HRGM+AX", "B014Mc", "EMS+HRGM+AX"⟩, ⟨"EMS+HRGM+AX_Fl", "B014Mc", "EMS+HRGM+AX_Fl"⟩,
   ⟨"EMS+HRGM+SAG", "B016Mc", "EMS+HRGM+SAG"⟩, ⟨"EMS+HRGM+SAG_Fl", "B016Mc", "EMS+HRGM+SAG_Fl"⟩,
   ⟨"EMS+HRGM", "B013Mc", "EMS+HRGM"⟩, ⟨"EMS+HRGM_Fl", "B013Mc", "EMS+HRGM_Fl"⟩,
   ⟨"EMS+IFR1+AX+SAG", "B010Mc", "EMS+IFR1+AX+SAG"⟩,
   ⟨"EMS+IFR1+AX+SAG_Fl", "B010Mc", "EMS+IFR1+AX+SAG_Fl"⟩,
   ⟨"EMS+IFR1+SAG+MS", "B012Mc", "EMS+IFR1+SAG+MS"⟩,
   ⟨"EMS+IFR1+SAG+MS_Fl", "B012Mc", "EMS+IFR1+SAG+MS_Fl"⟩,
   ⟨"EMS+IFR1+SAG", "B011Mc", "EMS+IFR1+SAG"⟩, ⟨"EMS+IFR1+SAG_Fl", "B011Mc", "EMS+IFR1+SAG_Fl"⟩,
   ⟨"EMS+LRGM+AX+SAG", "B019Md", "EMS+LRGM+AX+SAG"⟩,
   ⟨"EMS+LRGM+AX+SAG_Fl", "B019Md", "EMS+LRGM+AX+SAG_Fl"⟩,
   ⟨"EMS+LRGM+AX", "B018Md", "EMS+LRGM+AX"⟩, ⟨"EMS+LRGM+AX_Fl", "B018Md", "EMS+LRGM+AX_Fl"⟩,
   ⟨"EMS+LRGM+SAG", "B020Mc", "EMS+LRGM+SAG"⟩, ⟨"EMS+LRGM+SAG_Fl", "B020Mc", "EMS+LRGM+SAG_Fl"⟩,
   ⟨"EMS+LRGM", "B017Mc", "EMS+LRGM"⟩, ⟨"EMS+LRGM_Fl", "B017Mc", "EMS+LRGM_Fl"⟩,
   ⟨"FINDS", "B021Ga", "FINDS"⟩, ⟨"MWD+HRGM+AX+SAG", "B003Mc", "MWD+HRGM+AX+SAG"⟩,
   ⟨"MWD+HRGM+AX+SAG_Fl", "B003Mc", "MWD+HRGM+AX+SAG_Fl"⟩,
   ⟨"MWD+HRGM+AX", "B002Mc", "MWD+HRGM+AX"⟩, ⟨"MWD+HRGM+AX_Fl", "B002Mc", "MWD+HRGM+AX_Fl"⟩,
   ⟨"MWD+HRGM+SAG+MS", "B005Mc", "MWD+HRGM+SAG+MS"⟩,
   ⟨"MWD+HRGM+SAG+MS_Fl", "B005Mc", "MWD+HRGM+SAG+MS_Fl"⟩,
   ⟨"MWD+HRGM+SAG", "B004Mc", "MWD+HRGM+SAG"⟩, ⟨"MWD+HRGM+SAG_Fl", "B004Mc", "MWD+HRGM+SAG_Fl"⟩,
   ⟨"MWD+HRGM", "B001Mc", "MWD+HRGM"⟩, ⟨"MWD+HRGM_Fl", "B001Mc", "MWD+HRGM_Fl"⟩,
   ⟨"MWD+LRGM+AX+SAG", "B008Mc", "MWD+LRGM+AX+SAG"⟩,
   ⟨"MWD+LRGM+AX+SAG_Fl", "B008Mc", "MWD+LRGM+AX+SAG_Fl"⟩,
   ⟨"MWD+LRGM+AX", "B007Mc", "MWD+LRGM+AX"⟩, ⟨"MWD+LRGM+AX_Fl", "B007Mc", "MWD+LRGM+AX_Fl"⟩,
   ⟨"MWD+LRGM+SAG", "B009Mc", "MWD+LRGM+SAG"⟩, ⟨"MWD+LRGM+SAG_Fl", "B009Mc", "MWD+LRGM+SAG_Fl"⟩,
   ⟨"MWD+LRGM", "B006Mc", "MWD+LRGM"⟩, ⟨"MWD+LRGM_Fl", "B006Mc", "MWD+LRGM_Fl"⟩]

/-! ### Diagnostics -/

/-- `make_diagnostic_data`, `error.py` 553-578, for the covariances of the sources by code: for each
depth the six components of every source, and their sum.  Entries with one depth replace each
other, as in the dictionary.  Without sources the name `k` is not bound at line 577. -/
def diagnostic (mds : List ℝ) (srcs : List (String × (ℕ → M3))) :
    Except Exc (List (ℝ × List (String × List ℝ) × List ℝ)) :=
  if mds ≠ [] ∧ srcs = [] then .error .nameError
  else .ok (mds.zipIdx.map fun p =>
    let rows := srcs.map fun s => (s.1, getErrors (s.2 p.2))
    (p.1, rows, (rows.map Prod.snd).foldl (fun a r => List.zipWith (· + ·) a r)
      (List.replicate 6 0)))

/-- `diagnostic[md]`: the last entry made for the depth, `iscwsa_validate.py` 147-224. -/
noncomputable def diagnosticAt (d : List (ℝ × List (String × List ℝ) × List ℝ)) (md : ℝ) :
    Option (List (String × List ℝ) × List ℝ) :=
  open Classical in
  (d.reverse.find? fun e => decide (e.1 = md)).map Prod.snd

end Welleng.Err
