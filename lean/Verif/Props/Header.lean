import Verif.Spec.Header
import Verif.Lemmas.Angles
import Verif.Props.Angles
import Mathlib.Tactic.NormNum
import Mathlib.Analysis.Real.Pi.Bounds
import Mathlib.Data.List.Induction

/-! C148-C156: survey header, units, hole radius and single nodes. -/

namespace Welleng.Props

open Welleng.Hdr Welleng.Spec Real

/-! ## C148, C149 -/

/-- C148: a header described in radians is the header described in degrees, whatever is given
and whatever the geomagnetic look-up does; also the refusals are the same. -/
theorem C148_header_unit_free (env : Env) (a : Args) (h : a.deg = true) :
    header env (inRadians a) = header env a := by
  have hb : build env (inRadians a) = build env a := by
    cases hd : a.dip <;> cases hl : a.declination <;>
      simp [build, inRadians, h, toRad, orLookup, radians, hd, hl]
  unfold header
  rw [hb]
  rfl

/-- C148: what the header holds is in radians: the angles given in degrees are converted, and a
dip that is not given is minus the inclination looked up. -/
theorem C148_header_in_radians (env : Env) (a : Args) (h : a.deg = true) (hd : Header)
    (hok : header env a = .ok hd) :
    hd.convergence = a.convergence * π / 180 ∧
    hd.verticalIncLimit = a.verticalIncLimit * π / 180 ∧
    hd.verticalSectionAzimuth = a.verticalSectionAzimuth * π / 180 ∧
    (∀ d, a.dip = some d → hd.dip = d * π / 180) ∧
    (∀ d, a.declination = some d → hd.declination = d * π / 180) ∧
    (a.dip = none → env.lookup = none → hd.dip = -a.magDefaults.inclination * π / 180) ∧
    (a.declination = none → env.lookup = none →
      hd.declination = a.magDefaults.declination * π / 180) ∧
    (∀ b, a.bTotal = some b → hd.bTotal = b) := by
  unfold header at hok
  split_ifs at hok
  cases hok
  refine ⟨?_, ?_, ?_, ?_, ?_, ?_, ?_, ?_⟩ <;>
    simp +contextual [build, h, toRad, orLookup, radians, magLookup]

/-- C148: values that are not given come from the look-up at the survey date; if that fails, from the
look-up without a date; if that fails too, from the defaults. -/
theorem C148_field_values (env : Env) (a : Args) (h : a.deg = true) (hd : Header)
    (hok : header env a = .ok hd) (f) (hf : env.lookup = some f) (r : Field)
    (hr : f hd.latitude hd.longitude hd.altitude (some (a.surveyDate.getD env.today)) = some r ∨
      f hd.latitude hd.longitude hd.altitude (some (a.surveyDate.getD env.today)) = none ∧
        (f hd.latitude hd.longitude hd.altitude none = some r ∨
          f hd.latitude hd.longitude hd.altitude none = none ∧ r = a.magDefaults)) :
    (a.bTotal = none → hd.bTotal = r.bTotal) ∧
    (a.dip = none → hd.dip = -r.inclination * π / 180) ∧
    (a.declination = none → hd.declination = r.declination * π / 180) := by
  unfold header at hok
  split_ifs at hok
  cases hok
  simp only [build] at hr
  have hm : (magLookup env a.magDefaults (a.latitude.getD 51.4934) (a.longitude.getD 0.0098)
      (a.altitude.getD 0) (a.surveyDate.getD env.today)).1 = r := by
    unfold magLookup
    rw [hf]
    rcases hr with hr | ⟨hr, hr' | ⟨hr', rfl⟩⟩
    · simp [hr]
    · simp [hr, hr']
    · simp [hr, hr']
  refine ⟨?_, ?_, ?_⟩ <;> intro hn <;>
    simp [build, h, hn, toRad, orLookup, radians, hm]

/-- A look-up that always fails leaves the defaults. -/
example : ∃ (f : ℝ → ℝ → ℝ → Option String → Option Field) (r : Field),
    f 0 0 0 (some "2020-01-31") = none ∧ f 0 0 0 none = none ∧ r = ({} : Args).magDefaults :=
  ⟨fun _ _ _ _ => none, _, rfl, rfl, rfl⟩

/-- C149, the part that holds: with a limit given, a header in radians has the limit given. -/
theorem C149_vertical_limit_partial (env : Env) (a : Args) (hd : Header)
    (hok : header env a = .ok hd) :
    (a.deg = true → hd.verticalIncLimit = a.verticalIncLimit * π / 180) ∧
    (a.deg = false → hd.verticalIncLimit = a.verticalIncLimit) := by
  unfold header at hok
  split_ifs at hok
  cases hok
  simp +contextual [build, toRad, radians]

/-- C149 fails: with no limit given, a header in radians takes a station for vertical up to an
inclination more than fifty times that of a header in degrees. -/
theorem C149_default_limit (env : Env) :
    ∃ h1 h2, header env {} = .ok h1 ∧ header env { deg := false } = .ok h2 ∧
      50 * h1.verticalIncLimit < h2.verticalIncLimit := by
  refine ⟨build env {}, build env { deg := false }, by simp [header, inBounds],
    by simp [header, inBounds], ?_⟩
  simp only [build, toRad, radians, if_true, Bool.false_eq_true, if_false]
  have h3 := Real.pi_lt_d2
  linarith

/-! ## C150 -/

/-- C150, the part that holds: without a geomagnetic calculator, or when the look-up at the
given date succeeds, the header keeps the survey date given. -/
theorem C150_date_kept_partial (env : Env) (a : Args) (hd : Header) (hok : header env a = .ok hd)
    (d : String) (hgiven : a.surveyDate = some d)
    (hl : ∀ f, env.lookup = some f →
      (f hd.latitude hd.longitude hd.altitude (some d)).isSome) :
    hd.surveyDate = d := by
  unfold header at hok
  split_ifs at hok
  cases hok
  simp only [build, hgiven, Option.getD_some, magLookup] at hl ⊢
  cases hf : env.lookup with
  | none => rfl
  | some f =>
    have := hl f hf
    obtain ⟨r, hr⟩ := Option.isSome_iff_exists.1 this
    simp [hr]

/-- C150 fails: if the look-up at the given date raises, the survey date becomes the date of
today, whether or not the second look-up succeeds. -/
theorem C150_date_replaced (env : Env) (a : Args) (hd : Header) (hok : header env a = .ok hd)
    (d : String) (hgiven : a.surveyDate = some d) (f) (hf : env.lookup = some f)
    (hl : f hd.latitude hd.longitude hd.altitude (some d) = none) :
    hd.surveyDate = env.today := by
  unfold header at hok
  split_ifs at hok
  cases hok
  simp only [build, hgiven, Option.getD_some, magLookup, hf] at hl ⊢
  rw [hl]
  cases f (a.latitude.getD 51.4934) (a.longitude.getD 0.0098) (a.altitude.getD 0) none <;> rfl

/-- A calculator that is never reachable, on a day other than the survey date. -/
example : ∃ (env : Env) (a : Args) (hd : Header), header env a = .ok hd ∧
    a.surveyDate = some "2020-01-31" ∧ hd.surveyDate = "2026-11-16" := by
  exact ⟨⟨"2026-11-16", fun _ => true, some fun _ _ _ _ => none⟩,
    { surveyDate := some "2020-01-31" },
    build ⟨"2026-11-16", fun _ => true, some fun _ _ _ _ => none⟩
      { surveyDate := some "2020-01-31" }, by simp [header, inBounds], rfl, rfl⟩

/-! ## C151 -/

/-- C151: a header is refused exactly if a position is out of bounds, the azimuth reference is
not one of the three or the survey date is not a date.  In particular no geomagnetic look-up, no
unit and no other value makes the constructor fail. -/
theorem C151_header_accepted (env : Env) (a : Args) :
    (∃ hd, header env a = .ok hd) ↔
      (∀ v, a.latitude = some v → -90 ≤ v ∧ v ≤ 90) ∧
      (∀ v, a.longitude = some v → -180 ≤ v ∧ v ≤ 180) ∧
      (a.aziReference = "true" ∨ a.aziReference = "magnetic" ∨ a.aziReference = "grid") ∧
      (∀ d, a.surveyDate = some d → env.isDate d = true) := by
  have e1 : inBounds a.latitude (-90) 90 ↔ ∀ v, a.latitude = some v → -90 ≤ v ∧ v ≤ 90 := by
    simp [inBounds]
  have e2 : inBounds a.longitude (-180) 180 ↔
      ∀ v, a.longitude = some v → -180 ≤ v ∧ v ≤ 180 := by
    simp [inBounds]
  have e4 : a.surveyDate.any (fun d => !env.isDate d) = false ↔
      ∀ d, a.surveyDate = some d → env.isDate d = true := by
    cases a.surveyDate <;> simp
  rw [← e1, ← e2, ← e4]
  have e3 : a.aziReference ∈ ["true", "magnetic", "grid"] ↔
      (a.aziReference = "true" ∨ a.aziReference = "magnetic" ∨ a.aziReference = "grid") := by
    simp
  rw [← e3]
  unfold header
  by_cases h1 : inBounds a.latitude (-90) 90
  swap
  · rw [if_pos h1]
    simp [h1]
  rw [if_neg (not_not.2 h1)]
  by_cases h2 : inBounds a.longitude (-180) 180
  swap
  · rw [if_pos h2]
    simp [h2]
  rw [if_neg (not_not.2 h2)]
  by_cases h3 : a.aziReference ∈ ["true", "magnetic", "grid"]
  swap
  · rw [if_pos h3]
    exact ⟨fun ⟨_, h⟩ => (by cases h), fun h => absurd h.2.2.1 h3⟩
  rw [if_neg (not_not.2 h3)]
  by_cases h4 : a.surveyDate.any (fun d => !env.isDate d) = true
  · rw [if_pos h4]
    exact ⟨fun ⟨_, h⟩ => (by cases h), fun h => by rw [h.2.2.2] at h4; cases h4⟩
  · rw [if_neg h4]
    exact ⟨fun _ => ⟨h1, h2, h3, Bool.eq_false_iff.2 h4⟩, fun _ => ⟨_, rfl⟩⟩

/-- C151: a position that is given is kept, also when it is zero; one that is not given is that
of Greenwich. -/
theorem C151_position_kept (env : Env) (a : Args) (hd : Header) (hok : header env a = .ok hd) :
    (∀ v, a.latitude = some v → hd.latitude = v) ∧ (a.latitude = none → hd.latitude = 51.4934) ∧
    (∀ v, a.longitude = some v → hd.longitude = v) ∧
    (a.longitude = none → hd.longitude = 0.0098) ∧
    (∀ v, a.altitude = some v → hd.altitude = v) ∧ (a.altitude = none → hd.altitude = 0) := by
  unfold header at hok
  split_ifs at hok
  cases hok
  refine ⟨?_, ?_, ?_, ?_, ?_, ?_⟩ <;> simp +contextual [build]

example (env : Env) : ∃ hd, header env { latitude := some 0, aziReference := "grid" } = .ok hd :=
  (C151_header_accepted env _).2 ⟨by simp, by simp, by simp, by simp⟩

/-! ## C152 -/

/-- C152, the part that holds: a survey in `meters` or `feet` is accepted with exactly the
headers made with a name of that unit. -/
theorem C152_survey_unit_partial (env : Env) (a : Args) (hd : Header)
    (hok : header env a = .ok hd) :
    (surveyHeader env (some hd) "meters" = .ok hd ↔
      a.depthUnit = "m" ∨ a.depthUnit = "meters") ∧
    (surveyHeader env (some hd) "feet" = .ok hd ↔ a.depthUnit = "ft" ∨ a.depthUnit = "feet") ∧
    surveyHeader env none "meters" = header env {} := by
  have hu : hd.depthUnit = getUnit a.depthUnit := by
    unfold header at hok
    split_ifs at hok
    cases hok
    rfl
  refine ⟨?_, ?_, ?_⟩
  · simp only [surveyHeader, hu, getUnit]
    by_cases h1 : a.depthUnit = "m" ∨ a.depthUnit = "meters"
    · simp [h1]
    · by_cases h2 : a.depthUnit = "ft" ∨ a.depthUnit = "feet" <;> simp [h1, h2]
  · simp only [surveyHeader, hu, getUnit]
    by_cases h1 : a.depthUnit = "m" ∨ a.depthUnit = "meters"
    · have : ¬(a.depthUnit = "ft" ∨ a.depthUnit = "feet") := by
        rcases h1 with h | h <;> simp [h]
      simp [h1, this]
    · by_cases h2 : a.depthUnit = "ft" ∨ a.depthUnit = "feet" <;> simp [h1, h2]
  · obtain ⟨h, hh⟩ := (C151_header_accepted env {}).2 ⟨by simp, by simp, by simp, by simp⟩
    have : h.depthUnit = some "meters" := by
      unfold header at hh
      split_ifs at hh
      cases hh
      rfl
    simp [surveyHeader, hh, this]

/-- C152 fails: a survey in feet cannot be made without a header; a survey whose unit is written
as `ft` or `m` is refused with every header, also with the header made with that very name; and
a header made with an unknown unit is accepted, but no survey can be made with it. -/
theorem C152_unit_refused (env : Env) :
    surveyHeader env none "feet" = .error .assertionError ∧
    (∀ (a : Args) (hd : Header), header env a = .ok hd →
      surveyHeader env (some hd) "ft" = .error .assertionError ∧
      surveyHeader env (some hd) "m" = .error .assertionError) ∧
    (∃ hd, header env { depthUnit := "metres" } = .ok hd ∧
      ∀ unit, surveyHeader env (some hd) unit = .error .assertionError) := by
  have hu : ∀ (a : Args) (hd : Header), header env a = .ok hd →
      hd.depthUnit = getUnit a.depthUnit := by
    intro a hd hok
    unfold header at hok
    split_ifs at hok
    cases hok
    rfl
  refine ⟨?_, ?_, ?_⟩
  · obtain ⟨h, hh⟩ := (C151_header_accepted env {}).2 ⟨by simp, by simp, by simp, by simp⟩
    have := hu _ _ hh
    simp [surveyHeader, hh, this, getUnit]
  · intro a hd hok
    have := hu _ _ hok
    simp only [surveyHeader, this, getUnit]
    constructor <;> split_ifs <;> simp_all
  · obtain ⟨h, hh⟩ := (C151_header_accepted env { depthUnit := "metres" }).2
      ⟨by simp, by simp, by simp, by simp⟩
    refine ⟨h, hh, fun unit => ?_⟩
    have := hu _ _ hh
    simp [surveyHeader, this, getUnit]

/-! ## C153 -/

theorem dictSet_get {A : Type} (d : List (String × A)) (k : String) (v : A) (k' : String) :
    (Edm.dictSet d k v).lookup k' = if k' = k then some v else d.lookup k' := by
  induction d with
  | nil =>
    by_cases h : k' = k
    · simp [Edm.dictSet, List.lookup, h]
    · have : (k' == k) = false := by simpa using h
      simp [Edm.dictSet, List.lookup, h, this]
  | cons a t ih =>
    obtain ⟨k1, v1⟩ := a
    simp only [Edm.dictSet]
    by_cases h1 : k1 = k
    · subst h1
      by_cases h : k' = k1
      · subst h; simp [List.lookup]
      · have : (k' == k1) = false := by simpa using h
        simp [List.lookup, this, h]
    · by_cases h : k' = k
      · subst h
        have : (k' == k1) = false := by simpa using Ne.symm h1
        simp [h1, List.lookup, this, ih]
      · simp only [h1, if_false, List.lookup, ih, h]

/-- C153, the part that holds: the header made from the attributes of a header has exactly these
attributes, and from any data each attribute named in it is the last value given for it, every
other one that of a header made with no arguments. -/
theorem C153_header_from_data_partial (env : Env) :
    (∀ h : Header, makeSurveyHeader env h.vars = .ok h.vars) ∧
    (∀ data, ∃ h0 r, header env {} = .ok h0 ∧ makeSurveyHeader env data = .ok r ∧
      ∀ k, r.lookup k = (data.reverse.lookup k).or (h0.vars.lookup k)) := by
  obtain ⟨h0, hh⟩ := (C151_header_accepted env {}).2 ⟨by simp, by simp, by simp, by simp⟩
  constructor
  · intro h
    simp only [makeSurveyHeader, hh]
    simp [Header.vars, Edm.dictSet]
  · intro data
    refine ⟨h0, data.foldl (fun d kv => Edm.dictSet d kv.1 kv.2) h0.vars, hh,
      by simp only [makeSurveyHeader, hh], ?_⟩
    intro k
    induction data using List.reverseRecOn with
    | nil => simp
    | append_singleton l a ih =>
      rw [List.foldl_append, List.foldl_cons, List.foldl_nil, dictSet_get, ih,
        List.reverse_append]
      obtain ⟨k1, v1⟩ := a
      by_cases h : k = k1
      · subst h; simp [List.lookup]
      · have : (k == k1) = false := by simpa using h
        simp [List.lookup, this, h]

/-- C153: the properties of a header hold every value it was made with. -/
theorem C153_properties_partial (h : Header) :
    h.vars.lookup "latitude" = some (.num h.latitude) ∧
    h.vars.lookup "longitude" = some (.num h.longitude) ∧
    h.vars.lookup "altitude" = some (.num h.altitude) ∧
    h.vars.lookup "survey_date" = some (.str h.surveyDate) ∧
    h.vars.lookup "b_total" = some (.num h.bTotal) ∧
    h.vars.lookup "earth_rate" = some (.num h.earthRate) ∧
    h.vars.lookup "dip" = some (.num h.dip) ∧
    h.vars.lookup "convergence" = some (.num h.convergence) ∧
    h.vars.lookup "declination" = some (.num h.declination) ∧
    h.vars.lookup "vertical_inc_limit" = some (.num h.verticalIncLimit) ∧
    h.vars.lookup "grid_scale_factor" = some (.num h.gridScaleFactor) ∧
    h.vars.lookup "depth_unit" = some (.ofStr? h.depthUnit) ∧
    h.vars.lookup "surface_unit" = some (.ofStr? h.surfaceUnit) ∧
    h.vars.lookup "G" = some (.num h.g) ∧
    h.vars.lookup "azi_reference" = some (.str h.aziReference) ∧
    h.vars.lookup "vertical_section_azimuth" = some (.num h.verticalSectionAzimuth) := by
  refine ⟨?_, ?_, ?_, ?_, ?_, ?_, ?_, ?_, ?_, ?_, ?_, ?_, ?_, ?_, ?_, ?_⟩ <;> rfl

/-- C153 fails: data with the names of the constructor's arguments is not read as the
constructor reads it.  A dip of 60 stays 60 although the attribute is in radians, and an azimuth
reference or a latitude that the constructor refuses is accepted. -/
theorem C153_data_not_converted (env : Env) :
    (∃ r h, makeSurveyHeader env [("dip", .num 60)] = .ok r ∧
      header env { dip := some 60 } = .ok h ∧
      r.lookup "dip" = some (.num 60) ∧ h.dip = π / 3) ∧
    (∃ r, makeSurveyHeader env [("azi_reference", .str "compass")] = .ok r ∧
      r.lookup "azi_reference" = some (.str "compass") ∧
      header env { aziReference := "compass" } = .error .assertionError) := by
  constructor
  · obtain ⟨h0, r, _, h2, h3⟩ := (C153_header_from_data_partial env).2 [("dip", .num 60)]
    obtain ⟨h, hh⟩ := (C151_header_accepted env { dip := some 60 }).2
      ⟨by simp, by simp, by simp, by simp⟩
    refine ⟨r, h, h2, hh, ?_, ?_⟩
    · rw [h3]; simp [List.lookup]
    · rw [(C148_header_in_radians env _ rfl h hh).2.2.2.1 60 rfl]; ring
  · obtain ⟨h0, r, _, h2, h3⟩ :=
      (C153_header_from_data_partial env).2 [("azi_reference", .str "compass")]
    refine ⟨r, h2, ?_, ?_⟩
    · rw [h3]; simp [List.lookup]
    · simp [header, inBounds]

/-! ## C154, C155 -/

theorem getUnitVec_eq (v : V3) : getUnitVec v = normalize v := rfl

theorem swap_unit {v : V3} (h : v.IsUnit) : (swapXY v).IsUnit := by
  simp only [swapXY, V3.IsUnit, V3.dot] at h ⊢
  linarith

theorem getXyz_zero (v : V3) : getXyz v 0 0 = swapXY v := by
  apply V3.ext <;> simp [getXyz, swapXY]

theorem getNev_zero (v : V3) : getNev v 0 0 = swapXY v := by
  apply V3.ext <;> simp [getNev, swapXY]

theorem swap_swap (v : V3) : swapXY (swapXY v) = v := rfl

/-- What a direction record has to satisfy: unit vectors in both axis orders, and angles that
describe them, in their standard ranges, in radians and degrees. -/
def GoodDir (d : Dir) : Prop :=
  d.vecNev.IsUnit ∧ d.vecXyz = swapXY d.vecNev ∧ tangent d.incRad d.aziRad = d.vecNev ∧
  0 ≤ d.incRad ∧ d.incRad ≤ π ∧ 0 ≤ d.aziRad ∧ d.aziRad < 2 * π ∧
  d.incDeg = d.incRad * 180 / π ∧ d.aziDeg = d.aziRad * 180 / π

theorem goodDir {xyz : V3} (h : xyz.IsUnit) : GoodDir (dirOf (swapXY xyz) xyz) := by
  have ha : getAngles xyz false = getAnglesXyz xyz := getAngles_xyz_of_unit h
  have ht := tangent_getAnglesXyz h
  refine ⟨swap_unit h, rfl, ?_, ?_, ?_, ?_, ?_, rfl, rfl⟩
  · simpa [dirOf, ha, swapXY] using ht
  · simp only [dirOf, ha, getAnglesXyz]
    exact Complex.arg_nonneg_iff.2 (sqrt_nonneg _)
  · simp only [dirOf, ha, getAnglesXyz]
    exact Complex.arg_le_pi _
  · simp only [dirOf, ha, getAnglesXyz]
    exact pmod_nonneg _ (by positivity)
  · simp only [dirOf, ha, getAnglesXyz]
    exact pmod_lt _ (by positivity)

/-- C154: a node made from angles, in degrees or radians, points along these angles; its vectors
and angles are consistent. -/
theorem C154_node_from_angles (pos : Option V3) (md : Option ℝ) (inc azi : ℝ) (unit : String)
    (degs nev : Bool) :
    ∃ n d, node pos none md (some inc) (some azi) unit degs nev = .ok n ∧ n.dir = some d ∧
      GoodDir d ∧
      d.vecNev = (if degs then tangent (inc * π / 180) (azi * π / 180) else tangent inc azi) := by
  refine ⟨_, _, rfl, rfl, ?_, ?_⟩
  · rw [getNev_zero]
    exact goodDir (C11_getVec_is_unit_tangent _ _).2.1
  · cases degs <;> simp [dirOf, getNev_zero, getVec_xyz, swapXY, radians]

/-- C154: a node made from a non-zero vector, in either axis order, points along this vector
whatever angles are given with it; its vectors and angles are consistent. -/
theorem C154_node_from_vector (pos : Option V3) (v : V3) (hv : v ≠ 0) (md inc azi : Option ℝ)
    (unit : String) (degs nev : Bool) :
    ∃ n d, node pos (some v) md inc azi unit degs nev = .ok n ∧ n.dir = some d ∧ GoodDir d ∧
      ∃ r : ℝ, 0 < r ∧ v = r • (if nev then d.vecNev else d.vecXyz) := by
  have hu := normalize_unit hv
  have hn : V3.norm v ≠ 0 := by
    intro h0
    rw [V3.IsUnit, normalize, h0] at hu
    simp [V3.dot] at hu
  have hp : 0 < V3.norm v := lt_of_le_of_ne (V3.norm_nonneg v) (Ne.symm hn)
  have hr : v = V3.norm v • normalize v := by
    rw [normalize, smul_smul, mul_one_div_cancel hn, one_smul]
  cases nev
  · refine ⟨_, _, rfl, rfl, ?_, V3.norm v, hp, ?_⟩
    · rw [getNev_zero]
      exact goodDir hu
    · simpa [dirOf, getUnitVec_eq] using hr
  · refine ⟨_, _, rfl, rfl, ?_, V3.norm v, hp, ?_⟩
    · simp only [getUnitVec_eq, getXyz_zero]
      exact goodDir (xyz := swapXY (normalize v)) (swap_unit hu)
    · simpa [dirOf, getUnitVec_eq] using hr

/-- C154: the axis order a node is described in makes no difference. -/
theorem C154_axis_order (pos vec : Option V3) (md inc azi : Option ℝ) (unit : String)
    (degs : Bool) :
    node (pos.map swapXY) (vec.map swapXY) md inc azi unit degs false
      = node pos vec md inc azi unit degs true := by
  have hp : getPos (pos.map swapXY) false = getPos pos true := by
    cases pos <;> simp [getPos, getXyz_zero, getNev_zero, swap_swap]
  have hn : ∀ v : V3, getUnitVec (swapXY v) = swapXY (getUnitVec v) := by
    intro v
    have : V3.norm (swapXY v) = V3.norm v := by
      simp only [V3.norm, V3.dot, swapXY]
      congr 1; ring
    simp only [getUnitVec, this]
    rfl
  cases vec with
  | none => cases inc <;> cases azi <;> simp [node, checkAngleInputs, hp]
  | some v =>
    simp only [node, checkAngleInputs, Option.map_some, hp, hn, getXyz_zero, getNev_zero, swap_swap,
      if_true, Bool.false_eq_true, if_false]

/-- C154: a node is refused exactly if it has no vector and only one of the two angles. -/
theorem C154_node_refused (pos vec : Option V3) (md inc azi : Option ℝ) (unit : String)
    (degs nev : Bool) :
    (∀ n, node pos vec md inc azi unit degs nev ≠ .ok n) ↔
      vec = none ∧ (inc.isSome ≠ azi.isSome) := by
  cases vec <;> cases inc <;> cases azi <;> cases nev <;> simp [node, checkAngleInputs]

example : (⟨3, 0, 4⟩ : V3) ≠ 0 := by
  intro h; have := congrArg V3.x h; simp at this

/-- C155, the part that holds: every direction attribute but the azimuth in degrees can be read
on every node, and is `None` exactly if the node was given no direction. -/
theorem C155_attributes_partial (pos vec : Option V3) (md inc azi : Option ℝ) (unit : String)
    (degs nev : Bool) (n : Node) (h : node pos vec md inc azi unit degs nev = .ok n)
    (a : DirAttr) (ha : a ≠ .aziDeg) :
    n.attr a = some (vec.isSome || (inc.isSome && azi.isSome)) := by
  cases vec <;> cases inc <;> cases azi <;> cases nev <;> simp [node, checkAngleInputs] at h <;>
    subst h <;> simp [Node.attr, ha]

/-- C155 fails: a node made from a position only has no azimuth in degrees at all, so reading it
raises instead of giving `None` as the other direction attributes do. -/
theorem C155_azi_deg_missing (pos : Option V3) (md : Option ℝ) (unit : String) (degs nev : Bool) :
    ∃ n, node pos none md none none unit degs nev = .ok n ∧
      n.attr .aziDeg = none ∧ n.attr .incDeg = some false := by
  exact ⟨_, rfl, rfl, rfl⟩

/-! ## C156 -/

/-- C156: a survey of `n` stations has one hole radius per station: the list given if it has
that length (or the number given, or a foot if nothing is given, for all stations); a list of
another length, other than one, is refused. -/
theorem C156_radius (n : ℕ) :
    getRadius n .none = .ok (List.replicate n (12 * 0.0254)) ∧
    (∀ r, getRadius n (.one r) = .ok (List.replicate n r)) ∧
    (∀ rs, rs.length = n → getRadius n (.list rs) = .ok rs) ∧
    (∀ r, getRadius n (.list [r]) = .ok (List.replicate n r)) ∧
    (∀ rs, rs.length ≠ n → rs.length ≠ 1 → getRadius n (.list rs) = .error .assertionError) ∧
    (∀ arg rs, getRadius n arg = .ok rs → rs.length = n) := by
  refine ⟨by norm_num [getRadius], fun _ => rfl, ?_, fun _ => rfl, ?_, ?_⟩
  · intro rs h
    match rs with
    | [] => simp [getRadius] at h ⊢; exact h
    | [r] => simp at h; subst h; rfl
    | a :: b :: t => simp only [getRadius]; rw [if_pos h]
  · intro rs h h1
    match rs with
    | [] => simp only [getRadius]; rw [if_neg h]
    | [r] => simp at h1
    | a :: b :: t => simp only [getRadius]; rw [if_neg h]
  · intro arg rs h
    match arg with
    | .none => cases h; simp
    | .one r => cases h; simp
    | .list [r] => cases h; simp
    | .list [] =>
      simp only [getRadius] at h
      split_ifs at h with h'
      cases h; exact h'
    | .list (a :: b :: t) =>
      simp only [getRadius] at h
      split_ifs at h with h'
      cases h; exact h'

example : getRadius 3 (.list [0.1, 0.2, 0.3]) = .ok [0.1, 0.2, 0.3] :=
  (C156_radius 3).2.2.1 _ rfl

end Welleng.Props
