import Verif.Props.TorqueDrag
import Verif.Lemmas.Angles

/-!
C42, C78-C84: construction of a torque and drag model, the hanging weight, independence of the
load cases, contact radius, turning of the well, stations, buoyancy and hook load ranges.
-/

namespace Welleng.Props

open Real Td Spec

/-! ### C42 -/

theorem mapM_bottom_error {d : List (ℕ × TSec)} (h : d ≠ []) :
    (iterDict d).mapM getBottom = .error .typeError := by
  cases d with
  | nil => exact absurd rfl h
  | cons kv t => rfl

/-- C42 is false: no torque and drag model can be constructed, from any survey, wellbore and
string. -/
theorem C42_never_constructed (interp : ℝ → Except Exc TStn) (survey : List TStn)
    (wellbore string : Tubular) :
    ∃ e, construct interp survey wellbore string = .error e := by
  have hw : ∃ e, weightBuoyedAndRadius string.sections = .error e := by
    unfold weightBuoyedAndRadius
    by_cases h : string.sections = []
    · rw [h]; exact ⟨.keyError, rfl⟩
    · rw [mapM_bottom_error h]; exact ⟨.typeError, rfl⟩
  obtain ⟨e, he⟩ := hw
  unfold construct
  rw [he]
  cases wellbore.complete
  · exact ⟨_, rfl⟩
  cases string.complete
  · exact ⟨_, rfl⟩
  cases h1 : addSurveyPoints interp survey wellbore.sections string.sections with
  | error e' => exact ⟨e', rfl⟩
  | ok s =>
    cases h2 : index s string.bottom with
    | error e' => exact ⟨e', by simp [bind, Except.bind, h2]⟩
    | ok i => exact ⟨e, by simp [bind, Except.bind, h2]⟩

/-- C42: for valid inputs the exception is a `TypeError`. -/
theorem C42_type_error {interp : ℝ → Except Exc TStn} {survey s : List TStn} {i : ℕ}
    {wellbore string : Tubular} (hw : wellbore.complete = true) (hs : string.complete = true)
    (hp : addSurveyPoints interp survey wellbore.sections string.sections = .ok s)
    (hi : index s string.bottom = .ok i) (hne : string.sections ≠ []) :
    construct interp survey wellbore string = .error .typeError := by
  have : weightBuoyedAndRadius string.sections = .error .typeError := by
    unfold weightBuoyedAndRadius
    rw [mapM_bottom_error hne]; rfl
  unfold construct
  rw [this, hw, hs, hp]
  simp [bind, Except.bind, hi]

/-! ### C78 -/

theorem states_rotating (s : Loads × ℝ) (es : List Elem) :
    ∀ m ≤ es.length, (states s es)[m]?.map (·.1.rotating)
      = some (s.1.rotating + ((es.take m).map fun e => e.weight * cos e.incAvg).sum) := by
  induction es generalizing s with
  | nil => intro m hm; obtain rfl : m = 0 := by simpa using hm
           simp [states]
  | cons e t ih =>
    intro m hm
    cases m with
    | zero => simp [states]
    | succ m =>
      simp only [states, List.getElem?_cons_succ, List.take_succ_cons, List.map_cons, List.sum_cons]
      rw [ih (step s e) m (by simpa using hm)]
      simp [step, forceTensionDelta]
      ring

theorem states_length (s : Loads × ℝ) (es : List Elem) : (states s es).length = es.length + 1 := by
  induction es generalizing s with
  | nil => rfl
  | cons e t ih => simp [states, ih]

theorem profile_getElem? {s : Loads × ℝ} {es : List Elem} {k : ℕ} (hk : k < es.length) :
    (profile s es)[k]? = (states s es)[es.length - 1 - k]? := by
  unfold profile
  rw [List.getElem?_drop, List.getElem?_reverse (by rw [states_length]; omega), states_length]
  congr 1
  omega

/-- All arrays have one entry per station down to the string bottom. -/
def Aligned (a : Arrays) (n : ℕ) : Prop :=
  a.incAvg.length = n ∧ a.incDelta.length = n ∧ a.aziDelta.length = n ∧ a.weight.length = n ∧
    a.mu.length = n ∧ a.radius.length = n ∧ a.index = n

theorem rows_length {a : Arrays} {n : ℕ} (h : Aligned a n) : (rows a).length = n := by
  obtain ⟨h1, h2, h3, h4, h5, h6, h7⟩ := h
  simp [rows, h1, h2, h3, h4, h5, h6, h7]

theorem rows_weight {a : Arrays} {n : ℕ} (h : Aligned a n) :
    (rows a).map (fun e => e.weight * cos e.incAvg)
      = (List.zipWith (fun w i => w * cos i) a.weight a.incAvg).reverse := by
  obtain ⟨h1, h2, h3, h4, h5, h6, h7⟩ := h
  apply List.ext_getElem
  · simp [rows, h1, h2, h3, h4, h5, h6, h7]
  · intro m hm hm'
    simp [rows, h1, h2, h3, h4, h5, h6, h7]

/-- The sum of the buoyed weights, resolved along the well, of all elements below station `k`. -/
noncomputable def hangingWeight (weight incAvg : List ℝ) (k : ℕ) : ℝ :=
  ((List.zipWith (fun w i => w * cos i) weight incAvg).drop (k + 1)).sum

/-- C78: the rotating tension at a station is the sum of the axial components of the buoyed
weights of all elements below it; friction does not enter. -/
theorem C78_rotating_is_hanging_weight {a : Arrays} {n : ℕ} (h : Aligned a n) (p : Profiles) :
    ∃ out ro, getForces a none none none p = .ok out ∧ out.rotating = some ro ∧
      ro.length = n ∧ ∀ k < n, ro[k]? = some (hangingWeight a.weight a.incAvg k) := by
  have hl := rows_length h
  simp only [getForces, store, not_truthy_none, valueOf_none, or_self, false_and, if_false]
  refine ⟨_, _, rfl, rfl, ?_, ?_⟩
  · simp [profile, states_length, hl]
  · intro k hk
    rw [List.getElem?_map, profile_getElem? (by omega), hl,
      states_rotating _ _ _ (by omega), List.map_take, rows_weight h, List.take_reverse,
      List.sum_reverse]
    have : (List.zipWith (fun w i => w * cos i) a.weight a.incAvg).length = n := by
      simp [h.1, h.2.2.2.1]
    rw [this]
    simp only [neg_zero, zero_add, hangingWeight]
    congr 3
    omega

/-- C78 with a weight on bit: reduced by the weight on bit. -/
theorem C78_drilling_is_hanging_weight {a : Arrays} {n : ℕ} (h : Aligned a n) (p : Profiles)
    {wob tob : ℝ} (hw : wob ≠ 0) (ht : tob ≠ 0) :
    ∃ out dr, getForces a (some wob) (some tob) none p = .ok out ∧ out.drilling = some dr ∧
      dr.length = n ∧ ∀ k < n, dr[k]? = some (hangingWeight a.weight a.incAvg k - wob) := by
  have hl := rows_length h
  have h1 := truthy_some hw
  have h2 := truthy_some ht
  simp only [getForces, store, h1, h2, not_truthy_none, valueOf_none,
    valueOf_some, and_self, not_true_eq_false, and_false, if_true, if_false]
  refine ⟨_, _, rfl, rfl, ?_, ?_⟩
  · simp [profile, states_length, hl]
  · intro k hk
    rw [List.getElem?_map, profile_getElem? (by omega), hl,
      states_rotating _ _ _ (by omega), List.map_take, rows_weight h, List.take_reverse,
      List.sum_reverse]
    have : (List.zipWith (fun w i => w * cos i) a.weight a.incAvg).length = n := by
      simp [h.1, h.2.2.2.1]
    rw [this, show n - (n - 1 - k) = k + 1 by omega]
    simp only [hangingWeight]
    congr 1
    ring

example : Aligned sample 3 := by simp [Aligned, sample]

/-- A vertical string of weights 2 and 3 hangs with tension 5 at surface. -/
example : hangingWeight [0, 2, 3] [0, 0, 0] 0 = 5 := by
  simp [hangingWeight]; norm_num

/-! ### C79 -/

theorem states_map_congr {β : Type} {f : Loads × ℝ → β}
    (hf : ∀ s s' e, f s = f s' → f (step s e) = f (step s' e)) (es : List Elem) :
    ∀ s s', f s = f s' → (states s es).map f = (states s' es).map f := by
  induction es with
  | nil => intro s s' h; simp [states, h]
  | cons e t ih => intro s s' h; simp [states, h, ih _ _ (hf s s' e h)]

theorem profile_map_congr {β : Type} {f : Loads × ℝ → β}
    (hf : ∀ s s' e, f s = f s' → f (step s e) = f (step s' e)) {es : List Elem} {s s' : Loads × ℝ}
    (h : f s = f s') : (profile s es).map f = (profile s' es).map f := by
  unfold profile
  rw [List.map_drop, List.map_reverse, states_map_congr hf es s s' h, ← List.map_reverse,
    ← List.map_drop]

/-- C79: adding a drilling or overpull case leaves the off-bottom profiles as they were. -/
theorem C79_cases_independent (a : Arrays) (wob tob overpull : Option ℝ) {p0 p1 p2 : Profiles}
    (h1 : getForces a none none none p0 = .ok p1)
    (h2 : getForces a wob tob overpull p1 = .ok p2) :
    p2.pickup = p1.pickup ∧ p2.slackoff = p1.slackoff ∧ p2.rotating = p1.rotating ∧
      p2.torqueRotating = p1.torqueRotating := by
  simp only [getForces, store, not_truthy_none, valueOf_none, or_self, false_and, if_false,
    Except.ok.injEq] at h1
  subst h1
  have hpick : ∀ s s' : Loads × ℝ, s.1.pickup = s'.1.pickup →
      (profile s (rows a)).map (fun x => x.1.pickup)
        = (profile s' (rows a)).map (fun x => x.1.pickup) := fun s s' h =>
    profile_map_congr (f := fun x => x.1.pickup)
      (fun s s' e h => by simp only [step, forceTensionDelta, normalOf] at *; rw [h]) h
  have hslack : ∀ s s' : Loads × ℝ, s.1.slackoff = s'.1.slackoff →
      (profile s (rows a)).map (fun x => x.1.slackoff)
        = (profile s' (rows a)).map (fun x => x.1.slackoff) := fun s s' h =>
    profile_map_congr (f := fun x => x.1.slackoff)
      (fun s s' e h => by simp only [step, forceTensionDelta, normalOf] at *; rw [h]) h
  have hrot : ∀ s s' : Loads × ℝ, (s.1.rotating, s.2) = (s'.1.rotating, s'.2) →
      (profile s (rows a)).map (fun x => (x.1.rotating, x.2))
        = (profile s' (rows a)).map (fun x => (x.1.rotating, x.2)) := fun s s' h =>
    profile_map_congr (f := fun x => (x.1.rotating, x.2))
      (fun s s' e h => by
        simp only [step, forceTensionDelta, normalOf, Prod.mk.injEq] at *
        rw [h.1, h.2]; exact ⟨rfl, rfl⟩) h
  unfold getForces at h2
  split_ifs at h2 with hbad
  simp only [Except.ok.injEq] at h2
  subst h2
  unfold store
  by_cases hw : truthy wob
  · have ht : truthy tob := by
      by_contra hc; exact hbad ⟨Or.inl hw, fun h => hc h.1⟩
    by_cases ho : truthy overpull
    · simp [hw, ht, ho]
    · have : valueOf overpull = 0 := by simp [valueOf, ho]
      simp only [hw, ht, ho, if_true, if_false, this, and_true]
      exact congrArg some (hpick _ (⟨0, -0, -0⟩, 0) rfl)
  · have ht : ¬ truthy tob := by
      intro hc; exact hbad ⟨Or.inr hc, fun h => hw h.2⟩
    have hwv : valueOf wob = 0 := by simp [valueOf, hw]
    have htv : valueOf tob = 0 := by simp [valueOf, ht]
    have hr := hrot (⟨valueOf overpull, -0, -0⟩, 0) (⟨0, -0, -0⟩, 0) rfl
    have hr1 := congrArg (List.map Prod.fst) hr
    have hr2 := congrArg (List.map Prod.snd) hr
    simp only [List.map_map] at hr1 hr2
    have hs := hslack (⟨valueOf overpull, -0, -0⟩, 0) (⟨0, -0, -0⟩, 0) rfl
    by_cases ho : truthy overpull
    · simp only [hw, ht, ho, if_true, if_false, hwv, htv, true_and]
      exact ⟨by rw [hs], congrArg some hr1, congrArg some hr2⟩
    · have : valueOf overpull = 0 := by simp [valueOf, ho]
      simp [hw, ht, ho, hwv, htv, this]

/-- Without torque on bit a weight on bit is refused, so the hypothesis is met only by both. -/
example (p : Profiles) : ∃ p2, getForces sample (some 1) (some 1) none p = .ok p2 := by
  have h1 := truthy_some (one_ne_zero (α := ℝ))
  exact ⟨_, by simp only [getForces, h1, and_self, not_true_eq_false, and_false, if_false]; rfl⟩

theorem C79_wob_needs_tob (a : Arrays) (p : Profiles) {wob : ℝ} (hw : wob ≠ 0)
    (overpull : Option ℝ) :
    getForces a (some wob) none overpull p = .error .assertion ∧
    getForces a none (some wob) overpull p = .error .assertion := by
  have h1 := truthy_some hw
  simp [getForces, h1]

/-! ### C80 -/

/-- The state at the top of a string of elements listed from the top down, each element with its
own properties. -/
noncomputable def hang (s : Loads × ℝ) : List Elem → Loads × ℝ
  | [] => s
  | e :: t => step (hang s t) e

/-- The elements of the string from the top down, each with its own radius. -/
def elements (a : Arrays) : List Elem :=
  (((((a.incAvg.zip a.incDelta).zip a.aziDelta).zip a.weight).zip a.mu).zip a.radius).map
    fun r => ⟨r.1.1.1.1.1, r.1.1.1.1.2, r.1.1.1.2, r.1.1.2, r.1.2, r.2⟩

theorem states_hang (s : Loads × ℝ) (es : List Elem) :
    ∀ m ≤ es.length, (states s es)[m]? = some (hang s (es.take m).reverse) := by
  have key : ∀ (es : List Elem) (s : Loads × ℝ) (e : Elem),
      hang s (es ++ [e]) = hang (step s e) es := by
    intro es
    induction es with
    | nil => intro s e; rfl
    | cons x t ih => intro s e; simp [hang, ih]
  induction es generalizing s with
  | nil => intro m hm; obtain rfl : m = 0 := by simpa using hm
           simp [states, hang]
  | cons e t ih =>
    intro m hm
    cases m with
    | zero => simp [states, hang]
    | succ m =>
      simp only [states, List.getElem?_cons_succ, List.take_succ_cons, List.reverse_cons]
      rw [ih (step s e) m (by simpa using hm), key]

theorem rows_eq_elements {a : Arrays} {n : ℕ} (h : Aligned a n)
    (hr : a.radius.reverse = a.radius) : rows a = (elements a).reverse := by
  obtain ⟨h1, h2, h3, h4, h5, h6, h7⟩ := h
  have hr' : rows a = (rows { a with radius := a.radius.reverse }) := by rw [hr]
  rw [hr']
  apply List.ext_getElem
  · simp [rows, elements, h1, h2, h3, h4, h5, h6, h7]
  · intro m hm hm'
    simp [rows, elements, h1, h2, h3, h4, h5, h6, h7]

/-- C80, what holds: when the list of radii reads the same in both directions (for example one
diameter throughout) every profile is that of the string hanging below the station. -/
theorem C80_profile_partial {a : Arrays} {n : ℕ} (h : Aligned a n)
    (hr : a.radius.reverse = a.radius) (s : Loads × ℝ) {k : ℕ} (hk : k < n) :
    (profile s (rows a))[k]? = some (hang s ((elements a).drop (k + 1))) := by
  have hl := rows_length h
  have he : (elements a).length = n := by
    rw [← List.length_reverse, ← rows_eq_elements h hr, hl]
  rw [profile_getElem? (by omega), states_hang _ _ _ (by omega), hl, rows_eq_elements h hr,
    List.take_reverse, List.reverse_reverse, he]
  congr 3
  omega

/-- Uniform strings meet the hypothesis. -/
theorem C80_uniform_partial {a : Arrays} {n : ℕ} (h : Aligned a n) {r : ℝ}
    (hr : a.radius = List.replicate n r) (s : Loads × ℝ) {k : ℕ} (hk : k < n) :
    (profile s (rows a))[k]? = some (hang s ((elements a).drop (k + 1))) :=
  C80_profile_partial h (by rw [hr, List.reverse_replicate]) s hk

/-- C80 is false: in the horizontal sample with radii 1 (upper element) and 2 (lower element) the
torque at surface is reported as 2; the elements themselves give 3. -/
theorem C80_radius_reversed :
    (profile (⟨0, 0, 0⟩, 0) (rows sample))[0]?.map (·.2) = some 2 ∧
    (hang (⟨0, 0, 0⟩, 0) ((elements sample).drop 1)).2 = 3 := by
  constructor
  · rw [sample_rows]
    simp [profile, states, step, normalOf, forceNormal, forceTensionDelta, torsionDelta]
    norm_num
  · simp [elements, sample, hang, step, normalOf, forceNormal, forceTensionDelta, torsionDelta]
    norm_num

/-! ### C81 -/

/-- The arrays of a survey given by inclinations and azimuths. -/
noncomputable def arraysOf (inc azi weight mu radius : List ℝ) : Arrays :=
  ⟨incAverage inc, deltas inc, deltas azi, weight, mu, radius, inc.length⟩

theorem deltas_add (l : List ℝ) (c : ℝ) : deltas (l.map (· + c)) = deltas l := by
  cases l with
  | nil => rfl
  | cons x t =>
    simp only [deltas, List.map_cons]
    congr 1
    rw [← List.map_cons (f := (· + c)), List.zipWith_map]
    congr 1
    funext b a
    ring

/-- C81, what holds: turning the well about the vertical does not change the forces as long as
no azimuth passes north. -/
theorem C81_turn_partial (inc azi weight mu radius : List ℝ) (c : ℝ) (wob tob overpull : Option ℝ)
    (p : Profiles) :
    getForces (arraysOf inc (azi.map (· + c)) weight mu radius) wob tob overpull p
      = getForces (arraysOf inc azi weight mu radius) wob tob overpull p := by
  unfold arraysOf
  rw [deltas_add]

/-- C81 is false: a horizontal quarter turn from north to east, and the same turn started at
north-west, have different overpull tensions. -/
theorem C81_turn_changes_forces :
    let azi := [0, π / 2]
    let turned := azi.map fun z => pmod (z - π / 4) (2 * π)
    (profile (⟨1, 0, 0⟩, 0) (rows (arraysOf [π / 2, π / 2] azi [0, 0] [1, 1] [1, 1])))[0]?.map
        (·.1.pickup) = some (1 + π / 2) ∧
    (profile (⟨1, 0, 0⟩, 0) (rows (arraysOf [π / 2, π / 2] turned [0, 0] [1, 1] [1, 1])))[0]?.map
        (·.1.pickup) = some (1 + 3 * π / 2) := by
  have hpi := pi_pos
  have h1 : pmod (0 - π / 4) (2 * π) = 7 * π / 4 := by
    unfold pmod
    have : ⌊(0 - π / 4) / (2 * π)⌋ = -1 := by
      rw [Int.floor_eq_iff]
      have : (0 - π / 4) / (2 * π) = -1 / 8 := by field_simp; ring
      rw [this]; norm_num
    rw [this]; push_cast; ring
  have h2 : pmod (π / 2 - π / 4) (2 * π) = π / 4 := by
    unfold pmod
    have : ⌊(π / 2 - π / 4) / (2 * π)⌋ = 0 := by
      rw [Int.floor_eq_iff]
      have : (π / 2 - π / 4) / (2 * π) = 1 / 8 := by field_simp; ring
      rw [this]; norm_num
    rw [this]; push_cast; ring
  constructor
  · simp [arraysOf, rows, incAverage, deltas, profile, states, step, normalOf, forceNormal,
      forceTensionDelta]
    exact sqrt_sq (by positivity)
  · simp only [List.map_cons, List.map_nil, h1, h2]
    simp [arraysOf, rows, incAverage, deltas, profile, states, step, normalOf, forceNormal,
      forceTensionDelta]
    rw [sqrt_sq_eq_abs, show π / 4 - 7 * π / 4 = -(3 * π / 2) by ring, abs_neg,
      abs_of_pos (by positivity)]

/-! ### C82 -/

theorem ofTup_tup (s : TStn) : ofTup s.tup = s := rfl

theorem missing_spec {interp : ℝ → Except Exc TStn} {survey : List TStn} :
    ∀ {secs : List (ℕ × TSec)} {q}, missing interp survey secs = .ok q →
      ∀ kv ∈ secs, kv.2.bottom ∈ survey.map (·.md) ∨ ∃ s ∈ q, interp kv.2.bottom = .ok s
  | [], _, _, _, h => by simp at h
  | (k, v) :: t, q, hq, kv, h => by
    unfold missing at hq
    split_ifs at hq with hin
    · rcases List.mem_cons.mp h with rfl | h
      · exact Or.inl hin
      · exact missing_spec hq kv h
    · cases h1 : interp v.bottom with
      | error e => simp [h1, bind, Except.bind] at hq
      | ok s =>
        cases h2 : missing interp survey t with
        | error e => simp [h1, h2, bind, Except.bind] at hq
        | ok r =>
          simp only [h1, h2, bind, Except.bind, Except.ok.injEq] at hq
          subst hq
          rcases List.mem_cons.mp h with rfl | h
          · exact Or.inr ⟨s, List.mem_cons_self, h1⟩
          · rcases missing_spec h2 kv h with h | ⟨s', h', h''⟩
            · exact Or.inl h
            · exact Or.inr ⟨s', List.mem_cons_of_mem _ h', h''⟩

/-- C82, what holds: the stations are in order of depth, contain every original station, and
there is a station at the bottom of every section of the string and of the wellbore. -/
theorem C82_stations_partial {interp : ℝ → Except Exc TStn}
    (hi : ∀ m s, interp m = .ok s → s.md = m) {survey out : List TStn}
    {wellbore string : List (ℕ × TSec)}
    (h : addSurveyPoints interp survey wellbore string = .ok out) :
    (out.map (·.md)).Pairwise (· ≤ ·) ∧ (∀ s ∈ survey, s ∈ out) ∧
    ∀ kv ∈ wellbore ++ string, kv.2.bottom ∈ out.map (·.md) := by
  unfold addSurveyPoints at h
  cases h1 : missing interp survey wellbore with
  | error e => simp [h1, bind, Except.bind] at h
  | ok q1 =>
  cases h2 : missing interp survey string with
  | error e => simp [h1, h2, bind, Except.bind] at h
  | ok q2 =>
  simp only [h1, h2, bind, Except.bind, Except.ok.injEq] at h
  subst h
  have hmem : ∀ s : TStn, s ∈ survey ++ (q1 ++ q2) →
      s ∈ (((survey ++ (q1 ++ q2)).map TStn.tup).insertionSort (· ≤ ·)).map ofTup := by
    intro s hs
    rw [List.mem_map]
    refine ⟨s.tup, ?_, ofTup_tup s⟩
    rw [List.mem_insertionSort]
    exact List.mem_map_of_mem hs
  refine ⟨?_, ?_, ?_⟩
  · rw [List.map_map, List.pairwise_map]
    refine (List.pairwise_insertionSort (· ≤ ·) _).imp ?_
    intro x y hxy
    rcases Prod.Lex.le_iff.mp hxy with h | h
    · exact h.le
    · exact h.1.le
  · intro s hs
    exact hmem s (List.mem_append_left _ hs)
  · intro kv hkv
    have hor : kv.2.bottom ∈ survey.map (·.md) ∨ ∃ s ∈ q1 ++ q2, interp kv.2.bottom = .ok s := by
      rcases List.mem_append.mp hkv with hkv | hkv
      · rcases missing_spec h1 kv hkv with h | ⟨s, hs, h⟩
        · exact Or.inl h
        · exact Or.inr ⟨s, List.mem_append_left _ hs, h⟩
      · rcases missing_spec h2 kv hkv with h | ⟨s, hs, h⟩
        · exact Or.inl h
        · exact Or.inr ⟨s, List.mem_append_right _ hs, h⟩
    rw [List.mem_map]
    rcases hor with h | ⟨s, hs, h⟩
    · obtain ⟨s, hs, he⟩ := List.mem_map.mp h
      exact ⟨s, hmem s (List.mem_append_left _ hs), he⟩
    · exact ⟨s, hmem s (List.mem_append_right _ hs), hi _ _ h⟩

/-- C82 is false: a string run to the bottom of a wellbore section, at a depth that is no survey
station, gets that depth twice; the bottom station found is the first of the two. -/
theorem C82_duplicate_station (sec : TSec) (hb : sec.bottom = 15) :
    let survey : List TStn := [⟨10, 0, 0⟩, ⟨20, 0, 0⟩]
    addSurveyPoints (fun m => .ok ⟨m, 0, 0⟩) survey [(0, sec)] [(0, sec)]
      = .ok [⟨10, 0, 0⟩, ⟨15, 0, 0⟩, ⟨15, 0, 0⟩, ⟨20, 0, 0⟩] := by
  have hm : missing (fun m => .ok ⟨m, 0, 0⟩) [⟨10, 0, 0⟩, ⟨20, 0, 0⟩] [(0, sec)]
      = .ok [⟨15, 0, 0⟩] := by
    unfold missing
    rw [if_neg (by simp [hb])]
    simp [missing, bind, Except.bind, hb]
  simp only [addSurveyPoints, hm, bind, Except.bind]
  congr 1
  have h1 : (toLex ((15 : ℝ), toLex ((0 : ℝ), (0 : ℝ))) : Tup) ≤ toLex (15, toLex (0, 0)) := le_refl _
  have lt : ∀ a b : ℝ, a < b →
      (toLex (a, toLex ((0 : ℝ), (0 : ℝ))) : Tup) ≤ toLex (b, toLex (0, 0)) := fun a b h =>
    Prod.Lex.le_iff.mpr (Or.inl h)
  have nlt : ∀ a b : ℝ, a < b →
      ¬ (toLex (b, toLex ((0 : ℝ), (0 : ℝ))) : Tup) ≤ toLex (a, toLex (0, 0)) := fun a b h hc => by
    rcases Prod.Lex.le_iff.mp hc with h' | h'
    · exact absurd h' (not_lt.mpr h.le)
    · exact absurd h'.1 h.ne'
  simp [TStn.tup, List.insertionSort, List.orderedInsert, lt 10 15 (by norm_num),
    lt 15 20 (by norm_num), lt 10 20 (by norm_num), nlt 15 20 (by norm_num), ofTup]

/-! ### C83 -/

/-- C83: the buoyed weight is the weight in air less the weight of the displaced fluid, and
lies between zero and the weight in air when the fluid is not denser than the string. -/
theorem C83_buoyed_weight {fluid string : ℝ} (hs : 0 < string) (volume g : ℝ) :
    buoyancyFactor fluid string * (string * volume * g)
      = string * volume * g - fluid * volume * g ∧
    (0 ≤ fluid → fluid ≤ string →
      0 ≤ buoyancyFactor fluid string ∧ buoyancyFactor fluid string ≤ 1) := by
  unfold buoyancyFactor
  refine ⟨by field_simp, fun h1 h2 => ⟨div_nonneg (by linarith) hs.le, ?_⟩⟩
  rw [div_le_one hs]; linarith

example : buoyancyFactor 1.57 7.85 = 0.8 := by norm_num [buoyancyFactor]

/-! ### C84 -/

/-- C84: the friction factors of a hook load calculation start at the first, end with the last,
increase strictly in steps of at most `step`. -/
theorem C84_friction_range {start stop step : ℝ} (hst : 0 < step) (h : start < stop) :
    (ffRange start stop step).head? = some start ∧
    (ffRange start stop step).getLast? = some stop ∧
    StepOrdered step (ffRange start stop step) := by
  obtain ⟨c1, c2, c3⟩ := ceil_facts hst h
  obtain ⟨n, hn⟩ : ∃ n, ⌈(stop - start) / step⌉.toNat = n + 1 := ⟨_, (Nat.succ_pred_eq_of_pos c3).symm⟩
  rw [hn] at c1 c2
  push_cast at c1 c2
  have hsplit : Con.arange start stop step
      = start :: (List.range n).map (fun k : ℕ => (start + step) + (k : ℝ) * step) := by
    unfold Con.arange
    rw [hn, List.range_succ_eq_map]
    simp only [List.map_cons, List.map_map, Nat.cast_zero, zero_mul, add_zero]
    congr 1
    apply List.map_congr_left
    intro k _
    simp only [Function.comp, Nat.succ_eq_add_one]
    push_cast; ring
  refine ⟨?_, ?_, ?_⟩
  · unfold ffRange; rw [hsplit]; rfl
  · simp [ffRange]
  · unfold ffRange
    rw [hsplit, List.cons_append]
    refine chain_arange hst [] n start (start + step) (by linarith) (by linarith) (by linarith)
      (by linarith) h ?_ (by simp [StepOrdered])
    rcases Nat.eq_zero_or_pos n with rfl | hn
    · left; simp at c2; linarith
    · exact Or.inr hn

/-- C84: the depths of a hook load calculation end at the string bottom and increase strictly in
steps of at most `step`, the first being at most `step` below the string top. -/
theorem C84_depth_range {top bottom step : ℝ} (hst : 0 < step) (h : top < bottom) :
    (mdRange top bottom step).getLast? = some bottom ∧
    StepOrdered step (top :: mdRange top bottom step) := by
  refine ⟨by simp [mdRange], ?_⟩
  rcases lt_or_ge (top + step) bottom with hlt | hge
  · obtain ⟨c1, c2, c3⟩ := ceil_facts hst hlt
    unfold mdRange Con.arange
    exact chain_arange hst [] _ top (top + step) (by linarith) (by linarith) (by linarith)
      (by linarith) h (Or.inr c3) (by simp [StepOrdered])
  · have : Con.arange (top + step) bottom step = [] := by
      unfold Con.arange
      have : ⌈(bottom - (top + step)) / step⌉ ≤ 0 :=
        Int.ceil_le.mpr (by push_cast; exact div_nonpos_of_nonpos_of_nonneg (by linarith) hst.le)
      rw [Int.toNat_of_nonpos this]; rfl
    unfold mdRange
    rw [this]
    simp [StepOrdered, h]
    linarith

example : ffRange 0 2 1 = [0, 1, 2] := by
  simp [ffRange, Con.arange, List.range_succ]

end Welleng.Props
