import Verif.Model.Factors
import Verif.Props.Header
import Verif.Props.Sensors

/-!
C267, C268: the magnetic dip of a header that looks it up, and the parameters of a map location.
-/

namespace Welleng.Props

open Real Welleng Welleng.Hdr Welleng.Err Welleng.Spec

/-! ### C267 -/

/-- The weighting functions read the field of the header. -/
structure UsesHeader (c : Ctx) (h : Hdr.Header) : Prop where
  g : c.G = h.g
  bTotal : c.bTotal = h.bTotal
  dip : c.dip = h.dip

/-- C267, what holds: with the dip given, positive downwards, the weights of the axial sensors are
the sensitivities in the field of that dip. -/
theorem C267_given_dip_partial {env : Env} {a : Args} {h : Hdr.Header}
    (hok : header env a = .ok h) (hdeg : a.deg = true) {d : ℝ} (hdip : a.dip = some d) {c : Ctx}
    (hc : UsesHeader c h) (hG : 0 < h.g) (hB : h.bTotal ≠ 0) (hd : cos (radians d) ≠ 0) {k : ℕ}
    (hI : sin (c.s.inc k) ≠ 0) (tort t : ℝ) :
    Sensitivity h.g h.bTotal (radians d) (c.s.inc k) (c.aziMag k) t errGz
      (dpde .ABZ c tort k 1) (dpde .ABZ c tort k 2) ∧
    Sensitivity h.g h.bTotal (radians d) (c.s.inc k) (c.aziMag k) t errMz
      (dpde .MBZ c tort k 1) (dpde .MBZ c tort k 2) := by
  have hh : h.dip = radians d := by
    unfold header at hok
    split_ifs at hok
    cases hok
    simp [build, toRad, orLookup, hdeg, hdip]
  have := C98_axial_sensors c tort k (by rw [hc.g]; exact hG) hI (by rw [hc.bTotal]; exact hB)
    (by rw [hc.dip, hh]; exact hd) t
  have h1 := this.1.2
  have h2 := this.2.2.1.2
  rw [hc.g, hc.bTotal, hc.dip, hh] at h1 h2
  exact ⟨h1, h2⟩

/-- C267 is false: when the dip is not given, the header takes minus the inclination of the field
that it looks up, or of the defaults. In a field that is neither level nor vertical, at every
station that is neither vertical nor along the magnetic meridian, the weight of a bias of the axial
accelerometer is then not the sensitivity in that field. -/
theorem C267_looked_up {env : Env} {a : Args} {h : Hdr.Header} (hok : header env a = .ok h)
    (hdeg : a.deg = true) (hdip : a.dip = none) {c : Ctx} (hc : UsesHeader c h) (hG : 0 < h.g)
    (hB : 0 < h.bTotal) {k : ℕ} (hI : c.s.inc k ∈ Set.Ioo 0 π) (hA : sin (c.aziMag k) ≠ 0)
    {θ : ℝ}
    (hθ : θ = radians (magLookup env a.magDefaults h.latitude h.longitude h.altitude
      (a.surveyDate.getD env.today)).1.inclination)
    (hs : sin θ ≠ 0) (hcos : 0 < cos θ) (tort t : ℝ) :
    ¬ Sensitivity h.g h.bTotal θ (c.s.inc k) (c.aziMag k) t errGz
      (dpde .ABZ c tort k 1) (dpde .ABZ c tort k 2) := by
  have hh : h.dip = -θ := by
    unfold header at hok
    split_ifs at hok
    cases hok
    rw [hθ]
    simp [build, toRad, orLookup, hdeg, hdip, radians, neg_div]
  intro hsens
  obtain ⟨fI, fA, e1, e2, e3, e4, e5⟩ :=
    C98_solution_exists (G := h.g) (B := h.bTotal) (d := θ) (I := c.s.inc k) (A := c.aziMag k)
      (t := t) hG hI hB hcos errGz
  have hsI : 0 < sin (c.s.inc k) := sin_pos_of_mem_Ioo hI
  have h1 := (hsens fI fA e1 e2 e3 e4 e5).2
  have h2 := (sensitivity_six hG hsI.ne' hB.ne' hcos.ne' errGz fI fA e1 e2 e3 e4 e5).2
  rw [h1] at h2
  simp only [dpde, errGz, hc.g, hc.dip, hh, tan_neg, Ctx.si, Ctx.sm] at h2
  have hG' := hG.ne'
  have htan : tan θ ≠ 0 := by
    rw [tan_eq_sin_div_cos]
    exact div_ne_zero hs hcos.ne'
  have h3 : sin (c.s.inc k) * tan θ * sin (c.aziMag k) = 0 := by
    simp at h2
    field_simp at h2
    linarith
  exact (mul_ne_zero (mul_ne_zero hsI.ne' htan) hA) h3

/-- With the default field, which dips by 70 degrees, the header has a dip of -70 degrees. -/
theorem C267_default_up (today : String) (isDate : String → Bool) :
    ∃ h, header ⟨today, isDate, none⟩ {} = .ok h ∧ h.dip = radians (-70) := by
  refine ⟨build ⟨today, isDate, none⟩ {}, by simp [header, inBounds], ?_⟩
  simp [build, toRad, orLookup, magLookup]

/-- The hypotheses can be met: the default header, at 45 degrees towards magnetic east. -/
example (today : String) (isDate : String → Bool) : ∃ (h : Hdr.Header) (c : Ctx),
    header ⟨today, isDate, none⟩ {} = .ok h ∧ UsesHeader c h ∧ 0 < h.g ∧ 0 < h.bTotal ∧
      c.s.inc 0 ∈ Set.Ioo 0 π ∧ sin (c.aziMag 0) ≠ 0 ∧ sin (radians 70) ≠ 0 ∧
      0 < cos (radians 70) := by
  refine ⟨build ⟨today, isDate, none⟩ {},
    ⟨⟨0, fun _ => 0, fun _ => π / 4, fun _ => 0, false⟩, fun _ => 0, fun _ => π / 2,
    fun _ => 0, 9.80665, radians (-70), 50000, 0, .true, none⟩, by simp [header, inBounds],
    ⟨by simp [build], by simp [build, magLookup],
      by simp [build, toRad, orLookup, magLookup]⟩, by simp [build]; norm_num,
    by simp [build, magLookup], ⟨by positivity, by linarith [pi_pos]⟩, by simp, ?_, ?_⟩
  · have hp := pi_pos
    exact (sin_pos_of_mem_Ioo ⟨by unfold radians; positivity, by unfold radians; linarith⟩).ne'
  · have hp := pi_pos
    exact cos_pos_of_mem_Ioo ⟨by unfold radians; linarith, by unfold radians; linarith⟩

/-! ### C268 -/

/-- The arguments of a header with a location of the map. -/
def atLocation (a : Args) (F : Factors) (altitude : Option ℝ) : Args :=
  { a with latitude := some F.latitude, longitude := some F.longitude, altitude := altitude
           surveyDate := some F.date, convergence := F.convergence }

/-- The same with the magnetic values filled in. -/
def filledIn (a : Args) (F : Factors) (altitude : Option ℝ) : Args :=
  { atLocation a F altitude with bTotal := F.bTotal, dip := F.dip, declination := F.declination }

/-- C268: a header in degrees that is filled with the values found for a location of the map is the
header that looks up the magnetic values of that location itself, whether the look-up works or
not. -/
theorem C268_same_header (env : Env) (down : Field → Bool) (hdown : ∀ r, down r = true)
    (p : Projection) (x y : ℝ) (altitude : Option ℝ) (date : Option String) (a : Args)
    (hdeg : a.deg = true) (hb : a.bTotal = none) (hd : a.dip = none) (hl : a.declination = none) :
    header env (filledIn a (getFactors env down p x y altitude date) altitude) =
      header env (atLocation a (getFactors env down p x y altitude date) altitude) := by
  have hbuild : build env (filledIn a (getFactors env down p x y altitude date) altitude) =
      build env (atLocation a (getFactors env down p x y altitude date) altitude) := by
    cases hf : env.lookup with
    | none =>
      simp [build, filledIn, atLocation, getFactors, hf, hb, hd, hl]
    | some f =>
      cases hr : f (p.inverse x y).2 (p.inverse x y).1 (altitude.getD 0)
          (some (date.getD env.today)) with
      | none => simp [build, filledIn, atLocation, getFactors, hf, hr, hb, hd, hl]
      | some r =>
        simp [build, filledIn, atLocation, getFactors, hf, hr, hb, hd, hl, hdeg, hdown, magLookup,
          toRad, orLookup]
  unfold header
  rw [hbuild]
  rfl

/-- C268: the location is the one of the projection, and the coordinates are kept. -/
theorem C268_location (env : Env) (down : Field → Bool) (p : Projection) (x y : ℝ)
    (altitude : Option ℝ) (date : Option String) :
    let F := getFactors env down p x y altitude date
    (F.longitude, F.latitude) = p.inverse x y ∧
      (F.convergence, F.scaleFactor) = p.factors F.longitude F.latitude ∧
      F.easting = x ∧ F.northing = y := by
  simp [getFactors]

/-- A look-up that succeeds: the header has the values found. -/
example : (getFactors ⟨"2026-01-01", fun _ => true, some fun _ _ _ _ => some ⟨49381, 67, 2⟩⟩
    (fun _ => true) ⟨fun x y => (x, y), fun _ _ => (1, 1)⟩ 4 52 none none).dip = some (-67) := by
  simp [getFactors]

end Welleng.Props
