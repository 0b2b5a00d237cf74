import Verif.Model.FromConnections
import Verif.Props.Resample
import Verif.Props.ResampledNodes
import Verif.Lemmas.ConnectorSolve

/-!
C356: the survey made from connections.
-/

namespace Welleng.Props

open Real Welleng Spec Con Rs Fc

/-- The well `γ`, `τ` runs from the depth `a` along one arc of the length `dc`, from the direction `v` to
the direction `w`, by the angle `d`, which `interpolate_curve` does not take for zero. -/
structure CurveAlong (γ τ : ℝ → V3) (a dc : ℝ) (v w : V3) (d : ℝ) : Prop where
  len : 0 < dc
  arc : OneArc a (a + dc) γ τ
  start : τ a = v
  stop : τ (a + dc) = w
  turn : d = angle v w
  tol : 1e-10 ≤ sin d

/-- The well `γ`, `τ` runs straight from the depth `a` to the depth `b` in the direction `v`. -/
structure HoldAlong (γ τ : ℝ → V3) (a b : ℝ) (v : V3) : Prop where
  len : a < b
  arc : OneArc a b γ τ
  start : τ a = v
  stop : τ b = v

/-- The well runs along the arcs and straights of a connection. -/
def Follows (γ τ : ℝ → V3) (s : Conn) : Prop :=
  let curve := CurveAlong γ τ s.md1 s.distCurve s.vec1 s.vecT s.dogleg ∧ s.mdT = s.md1 + s.distCurve
  let curveHold := ∃ md2, s.md2 = some md2 ∧ CurveAlong γ τ s.md1 s.distCurve s.vec1 s.vec2 s.dogleg ∧
    md2 = s.md1 + s.distCurve ∧ HoldAlong γ τ md2 s.mdT s.vec2
  match s.method with
  | .hold => HoldAlong γ τ s.md1 s.mdT s.vec1
  | .minCurveToTarget => curve
  | .minDistToTarget => curveHold
  | .minCurve => (s.md2 = none ∧ curve) ∨ curveHold
  | .curveHoldCurve => ∃ md2 md3, s.md2 = some md2 ∧ s.md3 = some md3 ∧
      CurveAlong γ τ s.md1 s.distCurve s.vec1 s.vec2 s.dogleg ∧ md2 = s.md1 + s.distCurve ∧
      HoldAlong γ τ md2 md3 s.vec2 ∧ CurveAlong γ τ md3 s.distCurve2 s.vec3 s.vecT s.dogleg2 ∧
      s.mdT = md3 + s.distCurve2

/-- The depths of the ends and joints of a connection. -/
def joints (s : Conn) : List ℝ :=
  match s.method with
  | .hold | .minCurveToTarget => [s.md1, s.mdT]
  | .minDistToTarget | .minCurve => s.md1 :: s.mdT :: s.md2.toList
  | .curveHoldCurve => s.md1 :: s.mdT :: (s.md2.toList ++ s.md3.toList)

/-- A depth that gets a station: one of `ds`, or a multiple of the step. -/
def WantedMd (step : Option ℝ) (ds : List ℝ) (x : ℝ) : Prop :=
  x ∈ ds ∨ ∃ st, step = some st ∧ ∃ k : ℤ, x = k * st

/-- Two such depths are equal or more than `1e-4` apart. -/
def WantedApart (step : Option ℝ) (ds : List ℝ) : Prop :=
  ∀ x y, WantedMd step ds x → WantedMd step ds y → x = y ∨ 1e-4 < |x - y|

/-! ### Depths of a part -/

theorem grid_open {a e : ℝ} {step : Option ℝ} (he : 0 < e) (hs : ∀ st, step = some st → 0 < st) :
    ((gridRel a e step false).map (· + a)).head? = some a ∧
    ((gridRel a e step false).map (· + a) ++ [a + e]).IsChain (· < ·) ∧
    ∀ x ∈ (gridRel a e step false).map (· + a) ++ [a + e], a ≤ x ∧ x ≤ a + e ∧
      (x = a ∨ x = a + e ∨ ∃ st, step = some st ∧ ∃ k : ℤ, x = k * st) := by
  have hh : ((gridRel a e step false).map (· + a)).head? = some a := by
    obtain ⟨t, ht⟩ := gridRel_head a e step
    rw [ht]; simp
  refine ⟨hh, ?_⟩
  cases step with
  | none =>
    simp only [gridRel, Bool.false_eq_true, if_false, List.map_cons, List.map_nil, zero_add,
      List.cons_append, List.nil_append]
    refine ⟨List.IsChain.cons_cons (by linarith) (List.IsChain.singleton _), ?_⟩
    intro x hx
    rcases List.mem_cons.mp hx with rfl | hx
    · exact ⟨le_rfl, by linarith, Or.inl rfl⟩
    · obtain rfl := List.mem_singleton.mp hx
      exact ⟨by linarith, le_rfl, Or.inr (Or.inl rfl)⟩
  | some st =>
    have hg := section_grid (md1 := a) (hs st rfl) he
    have eq : (gridRel a e (some st) false).map (· + a) ++ [a + e]
        = (gridRel a e (some st) true).map (· + a) := by
      rw [gridRel_true]; simp [add_comm]
    rw [eq]
    refine ⟨hg.ordered.imp fun _ _ h => h.1, fun x hx => ?_⟩
    obtain ⟨h1, h2⟩ := grid_range hg x hx
    refine ⟨h1, h2, ?_⟩
    rcases eq_or_lt_of_le h1 with rfl | h1
    · exact Or.inl rfl
    rcases eq_or_lt_of_le h2 with rfl | h2
    · exact Or.inr (Or.inl rfl)
    · exact Or.inr (Or.inr ⟨st, rfl, (hg.inside x h1 h2).mp hx⟩)

/-! ### Rows of parts and connections -/

/-- Neighbouring rows: at the same depth, or in order on one arc. -/
def Nxt (key : ℝ → ℤ) (γ τ : ℝ → V3) (x y : ℝ) : Prop :=
  x = y ∨ (key x ≠ key y ∧ (x < y ∧ ∃ a b, OneArc a b γ τ ∧ a ≤ x ∧ y ≤ b))

/-- Rows from the depth `a` up to the depth `b`, which itself is left out. -/
structure OpenRows (key : ℝ → ℤ) (γ τ : ℝ → V3) (a b : ℝ) (rows : List (ℝ × V3)) : Prop where
  first : (rows.map Prod.fst).head? = some a
  chain : (rows.map Prod.fst ++ [b]).IsChain (Nxt key γ τ)
  dirs : ∀ r ∈ rows, r.2 = τ r.1 ∧ r.2.IsUnit

/-- Rows from the depth `a` to the depth `b`. -/
structure FullRows (key : ℝ → ℤ) (γ τ : ℝ → V3) (a b : ℝ) (rows : List (ℝ × V3)) : Prop where
  first : (rows.map Prod.fst).head? = some a
  last : (rows.map Prod.fst).getLast? = some b
  chain : (rows.map Prod.fst).IsChain (Nxt key γ τ)
  dirs : ∀ r ∈ rows, r.2 = τ r.1 ∧ r.2.IsUnit

variable {key : ℝ → ℤ} {γ τ : ℝ → V3} {a b c : ℝ}

theorem OpenRows.append {r r' : List (ℝ × V3)} (h : OpenRows key γ τ a b r)
    (h' : FullRows key γ τ b c r') : FullRows key γ τ a c (r ++ r') := by
  have hc := List.isChain_append.mp h.chain
  refine ⟨?_, ?_, ?_, fun x hx => (List.mem_append.mp hx).elim (h.dirs x) (h'.dirs x)⟩
  · rw [List.map_append, List.head?_append, h.first]; rfl
  · rw [List.map_append, List.getLast?_append, h'.last]; rfl
  · rw [List.map_append, List.isChain_append]
    refine ⟨hc.1, h'.chain, fun x hx y hy => ?_⟩
    rw [h'.first] at hy
    exact hc.2.2 x hx y (by simpa using hy)

theorem OpenRows.append_open {r r' : List (ℝ × V3)} (h : OpenRows key γ τ a b r)
    (h' : OpenRows key γ τ b c r') : OpenRows key γ τ a c (r ++ r') := by
  have hc := List.isChain_append.mp h.chain
  refine ⟨?_, ?_, fun x hx => (List.mem_append.mp hx).elim (h.dirs x) (h'.dirs x)⟩
  · rw [List.map_append, List.head?_append, h.first]; rfl
  · rw [List.map_append, List.append_assoc, List.isChain_append]
    refine ⟨hc.1, h'.chain, fun x hx y hy => ?_⟩
    rw [List.head?_append, h'.first] at hy
    exact hc.2.2 x hx y (by simpa using hy)

theorem FullRows.append {r r' : List (ℝ × V3)} (h : FullRows key γ τ a b r)
    (h' : FullRows key γ τ b c r') : FullRows key γ τ a c (r ++ r') := by
  refine ⟨?_, ?_, ?_, fun x hx => (List.mem_append.mp hx).elim (h.dirs x) (h'.dirs x)⟩
  · rw [List.map_append, List.head?_append, h.first]; rfl
  · rw [List.map_append, List.getLast?_append, h'.last]; rfl
  · rw [List.map_append, List.isChain_append]
    refine ⟨h.chain, h'.chain, fun x hx y hy => ?_⟩
    rw [h'.first] at hy
    rw [h.last] at hx
    simp only [Option.mem_def, Option.some.injEq] at hx hy
    exact Or.inl (hx.symm.trans hy)

/-- The rows of one part, whatever gives their directions. -/
theorem part_rows {e : ℝ} {step : Option ℝ} {ds : List ℝ} (f : ℝ → ℝ × V3) (hf : ∀ m, (f m).1 = m)
    (he : 0 < e) (hs : ∀ st, step = some st → 0 < st)
    (hkey : ∀ x y, WantedMd step ds x → WantedMd step ds y → x ≠ y → key x ≠ key y)
    (ha : a ∈ ds) (hb : a + e ∈ ds) (harc : OneArc a (a + e) γ τ)
    (hd : ∀ m, a ≤ m → m ≤ a + e → (f m).2 = τ m) :
    OpenRows key γ τ a (a + e) (((gridRel a e step false).map (· + a)).map f) ∧
    FullRows key γ τ a (a + e) (((gridRel a e step true).map (· + a)).map f) := by
  obtain ⟨g1, g2, g3⟩ := grid_open (a := a) he hs
  have hid : Prod.fst ∘ f = id := funext hf
  have eq : (gridRel a e step true).map (· + a) = (gridRel a e step false).map (· + a) ++ [a + e] := by
    rw [gridRel_true]; simp [add_comm]
  have hw : ∀ x ∈ (gridRel a e step false).map (· + a) ++ [a + e], WantedMd step ds x := by
    intro x hx
    rcases (g3 x hx).2.2 with rfl | rfl | h
    · exact Or.inl ha
    · exact Or.inl hb
    · exact Or.inr h
  have hchain : ((gridRel a e step false).map (· + a) ++ [a + e]).IsChain (Nxt key γ τ) := by
    refine List.isChain_iff_forall_rel_of_append_cons_cons.mpr ?_
    intro x y l1 l2 hl
    have hxy := List.isChain_iff_forall_rel_of_append_cons_cons.mp g2 hl
    have hx : x ∈ (gridRel a e step false).map (· + a) ++ [a + e] := by rw [hl]; simp
    have hy : y ∈ (gridRel a e step false).map (· + a) ++ [a + e] := by rw [hl]; simp
    exact Or.inr ⟨hkey x y (hw x hx) (hw y hy) hxy.ne, hxy, a, a + e, harc, (g3 x hx).1, (g3 y hy).2.1⟩
  have hdir : ∀ r ∈ ((gridRel a e step false).map (· + a) ++ [a + e]).map f, r.2 = τ r.1 ∧ r.2.IsUnit := by
    intro r hr
    obtain ⟨m, hm, rfl⟩ := List.mem_map.mp hr
    obtain ⟨m1, m2, -⟩ := g3 m hm
    rw [hf, hd m m1 m2]
    exact ⟨rfl, oneArc_unit harc m1 m2⟩
  constructor
  · refine ⟨?_, ?_, fun r hr => hdir r ?_⟩
    · rw [List.map_map, hid, List.map_id]; exact g1
    · rw [List.map_map, hid, List.map_id]; exact hchain
    · rw [List.map_append]; exact List.mem_append_left _ hr
  · rw [eq]
    refine ⟨?_, ?_, ?_, hdir⟩
    · rw [List.map_map, hid, List.map_id, List.head?_append, g1]; rfl
    · rw [List.map_map, hid, List.map_id]; simp
    · rw [List.map_map, hid, List.map_id]; exact hchain

variable {step : Option ℝ} {ds : List ℝ}

theorem hold_rows {v : V3} (h : HoldAlong γ τ a b v) (hs : ∀ st, step = some st → 0 < st)
    (hkey : ∀ x y, WantedMd step ds x → WantedMd step ds y → x ≠ y → key x ≠ key y)
    (ha : a ∈ ds) (hb : b ∈ ds) :
    OpenRows key γ τ a b (holdRows a v b step false) ∧ FullRows key γ τ a b (holdRows a v b step true) := by
  obtain ⟨h1, h2, h3, h4⟩ := h
  have e : a + (b - a) = b := by ring
  have := part_rows (e := b - a) (fun m => (m, v)) (fun _ => rfl) (by linarith) hs hkey ha
    (by rwa [e]) (by rwa [e]) (fun m m1 m2 => by
      rw [e] at m2
      have := oneArc_straight h2 h1 (by rw [h3, h4]) m1 m2
      rw [this, h3])
  rw [e] at this
  exact this

theorem curve_rows {v w : V3} {dc d : ℝ} (h : CurveAlong γ τ a dc v w d)
    (hs : ∀ st, step = some st → 0 < st)
    (hkey : ∀ x y, WantedMd step ds x → WantedMd step ds y → x ≠ y → key x ≠ key y)
    (ha : a ∈ ds) (hb : a + dc ∈ ds) :
    OpenRows key γ τ a (a + dc) (curveRows a v w dc d step false) ∧
      FullRows key γ τ a (a + dc) (curveRows a v w dc d step true) := by
  obtain ⟨h1, h2, h3, h4, h5, h6⟩ := h
  have h0 : 0 < d := by
    rw [h5] at h6 ⊢
    refine lt_of_le_of_ne (angle_nonneg _ _) fun h => ?_
    rw [← h, sin_zero] at h6
    norm_num at h6
  have hpi : d < π := by
    rw [h5] at h6 ⊢
    refine lt_of_le_of_ne (angle_le_pi _ _) fun h => ?_
    rw [h, sin_pi] at h6
    norm_num at h6
  unfold curveRows curveMds
  rw [if_neg h1.ne', if_neg h1.ne', abs_of_pos h1]
  refine part_rows _ (fun _ => rfl) h1 hs hkey ha hb h2 fun m m1 m2 => ?_
  simp only [curveRow]
  rw [if_neg h1.ne']
  have hab : a < a + dc := by linarith
  rw [h5, ← h3, ← h4] at h0 hpi h6
  have := oneArc_curveVec h2 hab h0 hpi h6 m1 m2
  rw [add_sub_cancel_left, h3, h4, ← h5] at this
  exact this

theorem FullRows.ends {r : List (ℝ × V3)} (h : FullRows key γ τ a b r) :
    a ∈ r.map Prod.fst ∧ b ∈ r.map Prod.fst :=
  ⟨List.mem_of_head? h.first, List.mem_of_getLast? h.last⟩

/-- A curve and a hold. -/
theorem curveHold_rows {s : Conn} {md2 : ℝ} (h1 : s.md2 = some md2)
    (h2 : CurveAlong γ τ s.md1 s.distCurve s.vec1 s.vec2 s.dogleg) (h3 : md2 = s.md1 + s.distCurve)
    (h4 : HoldAlong γ τ md2 s.mdT s.vec2) (hs : ∀ st, step = some st → 0 < st)
    (hkey : ∀ x y, WantedMd step ds x → WantedMd step ds y → x ≠ y → key x ≠ key y)
    (hds : ∀ x ∈ s.md1 :: s.mdT :: s.md2.toList, x ∈ ds) :
    ∃ rows, minDistToTargetRows s step = some rows ∧ FullRows key γ τ s.md1 s.mdT rows ∧
      ∀ x ∈ s.md1 :: s.mdT :: s.md2.toList, x ∈ rows.map Prod.fst := by
  have d1 : s.md1 ∈ ds := hds _ (by simp)
  have d2 : md2 ∈ ds := hds _ (by simp [h1])
  have d3 : s.mdT ∈ ds := hds _ (by simp)
  have c1 := (curve_rows h2 hs hkey d1 (h3 ▸ d2)).1
  rw [← h3] at c1
  have c2 := (hold_rows h4 hs hkey d2 d3).2
  have c := c1.append c2
  refine ⟨_, by rw [minDistToTargetRows, h1]; rfl, c, fun x hx => ?_⟩
  simp only [h1, Option.toList_some, List.mem_cons, List.not_mem_nil, or_false] at hx
  rcases hx with rfl | rfl | rfl
  · exact c.ends.1
  · exact c.ends.2
  · rw [List.map_append]
    exact List.mem_append_right _ c2.ends.1

/-- A curve alone. -/
theorem curveOnly_rows {s : Conn} (h2 : CurveAlong γ τ s.md1 s.distCurve s.vec1 s.vecT s.dogleg)
    (h3 : s.mdT = s.md1 + s.distCurve) (hs : ∀ st, step = some st → 0 < st)
    (hkey : ∀ x y, WantedMd step ds x → WantedMd step ds y → x ≠ y → key x ≠ key y)
    (hds : ∀ x ∈ [s.md1, s.mdT], x ∈ ds) :
    FullRows key γ τ s.md1 s.mdT (minCurveToTargetRows s step) := by
  have c := (curve_rows h2 hs hkey (hds _ (by simp)) (h3 ▸ hds _ (by simp))).2
  rw [← h3] at c
  exact c

/-- The rows of one connection. -/
theorem conn_rows {s : Conn} (h : Follows γ τ s) (hs : ∀ st, step = some st → 0 < st)
    (hkey : ∀ x y, WantedMd step ds x → WantedMd step ds y → x ≠ y → key x ≠ key y)
    (hds : ∀ x ∈ joints s, x ∈ ds) :
    ∃ rows, connRows step s = some rows ∧ FullRows key γ τ s.md1 s.mdT rows ∧
      ∀ x ∈ joints s, x ∈ rows.map Prod.fst := by
  unfold Follows at h
  unfold joints at hds ⊢
  unfold connRows
  cases hm : s.method <;> simp only [hm] at h hds ⊢
  · have c := (hold_rows h hs hkey (hds _ (by simp)) (hds _ (by simp))).2
    refine ⟨_, rfl, c, fun x hx => ?_⟩
    simp only [List.mem_cons, List.not_mem_nil, or_false] at hx
    rcases hx with rfl | rfl
    · exact c.ends.1
    · exact c.ends.2
  · obtain ⟨md2, h1, h2, h3, h4⟩ := h
    exact curveHold_rows h1 h2 h3 h4 hs hkey hds
  · have c := curveOnly_rows h.1 h.2 hs hkey hds
    refine ⟨_, rfl, c, fun x hx => ?_⟩
    simp only [List.mem_cons, List.not_mem_nil, or_false] at hx
    rcases hx with rfl | rfl
    · exact c.ends.1
    · exact c.ends.2
  · obtain ⟨md2, md3, e2, e3, h1, h2, h3, h4, h5⟩ := h
    have d1 : s.md1 ∈ ds := hds _ (by simp)
    have d2 : md2 ∈ ds := hds _ (by simp [e2])
    have d3 : md3 ∈ ds := hds _ (by simp [e3])
    have d4 : s.mdT ∈ ds := hds _ (by simp)
    have c1 := (curve_rows h1 hs hkey d1 (h2 ▸ d2)).1
    rw [← h2] at c1
    have c2 := (hold_rows h3 hs hkey d2 d3).1
    have c3 := (curve_rows h4 hs hkey d3 (h5 ▸ d4)).2
    rw [← h5] at c3
    have c23 := c2.append c3
    have c := c1.append c23
    refine ⟨_, by simp only [curveHoldCurveRows, e2, e3], c, fun x hx => ?_⟩
    simp only [e2, e3, Option.toList_some, List.mem_cons, List.mem_append, List.not_mem_nil, or_false] at hx
    rcases hx with rfl | rfl | rfl | rfl
    · exact c.ends.1
    · exact c.ends.2
    · rw [List.map_append]
      exact List.mem_append_right _ c23.ends.1
    · rw [List.map_append, List.map_append]
      exact List.mem_append_right _ (List.mem_append_right _ c3.ends.1)
  · rcases h with ⟨e, h1, h2⟩ | ⟨md2, h1, h2, h3, h4⟩
    · have c := curveOnly_rows h1 h2 hs hkey (fun x hx => hds x (by rw [e]; simpa using hx))
      rw [e]
      refine ⟨_, rfl, c, fun x hx => ?_⟩
      simp only [Option.toList_none, List.mem_cons, List.not_mem_nil, or_false] at hx
      rcases hx with rfl | rfl
      · exact c.ends.1
      · exact c.ends.2
    · obtain ⟨rows, e, r⟩ := curveHold_rows h1 h2 h3 h4 hs hkey hds
      refine ⟨rows, ?_, r⟩
      simp only [h1]
      exact e

/-- The depth at which the last of the connections ends. -/
def endMd (m : ℝ) : List Conn → ℝ
  | [] => m
  | s :: rest => endMd s.mdT rest

/-- The rows of all connections, each starting at the depth where the one before ends. -/
theorem well_rows (s : Conn) (l : List Conn) (h : ∀ x ∈ s :: l, Follows γ τ x)
    (hj : (s :: l).IsChain fun x y => y.md1 = x.mdT) (hs : ∀ st, step = some st → 0 < st)
    (hkey : ∀ x y, WantedMd step ds x → WantedMd step ds y → x ≠ y → key x ≠ key y)
    (hds : ∀ c ∈ s :: l, ∀ x ∈ joints c, x ∈ ds) :
    ∃ rows, wellRows step (s :: l) = some rows ∧ FullRows key γ τ s.md1 (endMd s.md1 (s :: l)) rows ∧
      ∀ c ∈ s :: l, ∀ x ∈ joints c, x ∈ rows.map Prod.fst := by
  induction l generalizing s with
  | nil =>
    obtain ⟨rows, e, c, m⟩ := conn_rows (h s (by simp)) hs hkey (hds s (by simp))
    refine ⟨rows, by simp [wellRows, e], c, ?_⟩
    simpa using m
  | cons t l ih =>
    rw [List.isChain_cons_cons] at hj
    obtain ⟨rows, e, c, m⟩ := conn_rows (h s (by simp)) hs hkey (hds s (by simp))
    obtain ⟨rows', e', c', m'⟩ := ih t (fun x hx => h x (List.mem_cons_of_mem _ hx)) hj.2
      (fun x hx => hds x (List.mem_cons_of_mem _ hx))
    rw [hj.1] at c'
    refine ⟨rows ++ rows', by rw [wellRows, e, e'], c.append c', fun x hx y hy => ?_⟩
    rw [List.map_append]
    rcases List.mem_cons.mp hx with rfl | hx
    · exact List.mem_append_left _ (m y hy)
    · exact List.mem_append_right _ (m' x hx y hy)

theorem joints_ends (s : Conn) : s.md1 ∈ joints s ∧ s.mdT ∈ joints s := by
  unfold joints
  cases s.method <;> simp

/-- A connection along a well has a length. -/
theorem follows_lt {s : Conn} (h : Follows γ τ s) : s.md1 < s.mdT := by
  have := h
  unfold Follows at this
  cases hm : s.method <;> simp only [hm] at this
  · exact this.len
  · obtain ⟨md2, -, h2, h3, h4⟩ := this
    have := h2.len; have := h4.len; linarith
  · have := this.1.len; linarith
  · obtain ⟨md2, md3, -, -, h1, h2, h3, h4, h5⟩ := this
    have := h1.len; have := h3.len; have := h4.len; linarith
  · rcases this with ⟨-, h1, h2⟩ | ⟨md2, -, h2, h3, h4⟩
    · have := h1.len; linarith
    · have := h2.len; have := h4.len; linarith

/-- In a chain of depths no depth lies below the last. -/
theorem le_last {l : List ℝ} (h : l.IsChain (Nxt key γ τ)) (hl : l.getLast? = some b) : ∀ x ∈ l, x ≤ b := by
  have : l.IsChain (· ≤ ·) := h.imp fun x y h => by
    rcases h with rfl | h
    · exact le_rfl
    · exact h.2.1.le
  have hp : l.Pairwise (· ≤ ·) := List.isChain_iff_pairwise.mp this
  obtain ⟨t, rfl⟩ := List.getLast?_eq_some_iff.mp hl
  intro x hx
  rcases List.mem_append.mp hx with hx | hx
  · exact (List.pairwise_append.mp hp).2.2 x hx b (by simp)
  · simp at hx; exact hx.le

/-- **C356** The survey made from connections that run along a well, one after the other.  Its depths
increase from the start of the first connection to the end of the last, with a station at every end and
joint; every station has the direction of the well, and the survey computes for it the position of the
well. -/
theorem C356_on_path {key : ℕ → ℝ → ℤ} (hk : RoundsTo4 (key 4)) (decimals : ℕ) (s : Conn) (l : List Conn)
    (h : ∀ x ∈ s :: l, Follows γ τ x) (hj : (s :: l).IsChain fun x y => y.md1 = x.mdT)
    (hs : ∀ st, step = some st → 0 < st) (ha : WantedApart step ((s :: l).flatMap joints)) :
    ∃ out, fromConnections key decimals step (s :: l) = .ok out ∧
      out.IsChain (fun x y => x.md < y.md) ∧
      (out.map Station.md).head? = some s.md1 ∧ (out.map Station.md).getLast? = some (endMd s.md1 (s :: l)) ∧
      (∀ c ∈ s :: l, ∀ x ∈ joints c, x ∈ out.map Station.md) ∧
      (∀ r ∈ out, tangent r.inc r.azi = τ r.md) ∧
      surveyPositions (γ s.md1) out = .ok (out.map fun r => γ r.md) := by
  have hkey : ∀ x y, WantedMd step ((s :: l).flatMap joints) x → WantedMd step ((s :: l).flatMap joints) y →
      x ≠ y → key 4 x ≠ key 4 y :=
    fun x y hx hy hne => rounds_apart hk ((ha x y hx hy).resolve_left hne)
  obtain ⟨rows, e, c, m⟩ := well_rows s l h hj hs hkey
    (fun c hc x hx => List.mem_flatMap.mpr ⟨c, hc, hx⟩)
  set srows := rows.map toStation with hsrows
  have hmd : srows.map Station.md = rows.map Prod.fst := by
    rw [hsrows, List.map_map]; rfl
  have hch : srows.IsChain fun x y => x.md = y.md ∨ (key 4 x.md ≠ key 4 y.md ∧
      (x.md < y.md ∧ ∃ a b, OneArc a b γ τ ∧ a ≤ x.md ∧ y.md ≤ b)) := by
    have := c.chain
    rw [← hmd, List.isChain_map] at this
    exact this
  obtain ⟨k1, k2, k3⟩ := kept_chain Station.md (key 4)
    (fun x y => x < y ∧ ∃ a b, OneArc a b γ τ ∧ a ≤ x ∧ y ≤ b) srows hch
  have hlt : s.md1 < s.mdT := follows_lt (h s (by simp))
  obtain ⟨r1, r2, t, hrows⟩ : ∃ r1 r2 t, rows = r1 :: r2 :: t := by
    have hm1 := m s (by simp) _ (joints_ends s).1
    have hm2 := m s (by simp) _ (joints_ends s).2
    match rows, hm1, hm2 with
    | [], h, _ => simp at h
    | [x], h1, h2 =>
      simp only [List.map_cons, List.map_nil, List.mem_singleton] at h1 h2
      linarith
    | r1 :: r2 :: t, _, _ => exact ⟨r1, r2, t, rfl⟩
  have hmem : ∀ x ∈ rows.map Prod.fst, x ∈ (kept (fun x => key 4 x.md) srows).map Station.md := by
    intro x hx
    rw [← hmd] at hx
    obtain ⟨y, hy, rfl⟩ := List.mem_map.mp hx
    obtain ⟨z, hz, hzy⟩ := k3 y hy
    exact List.mem_map.mpr ⟨z, hz, hzy⟩
  have hhead : ((kept (fun x => key 4 x.md) srows).map Station.md).head? = some s.md1 := by
    have := c.first
    rw [hrows] at this
    rw [hsrows, hrows]
    simpa [kept, toStation] using this
  have hsorted : ((kept (fun x => key 4 x.md) srows).map Station.md).Pairwise (· < ·) := by
    have : ((kept (fun x => key 4 x.md) srows).map Station.md).IsChain (· < ·) := by
      rw [List.isChain_map]
      exact k1.imp fun _ _ h => h.1
    exact List.isChain_iff_pairwise.mp this
  have hlast : ((kept (fun x => key 4 x.md) srows).map Station.md).getLast? = some (endMd s.md1 (s :: l)) := by
    have hin := hmem _ c.ends.2
    have hle : ∀ x ∈ (kept (fun x => key 4 x.md) srows).map Station.md, x ≤ endMd s.md1 (s :: l) := by
      intro x hx
      obtain ⟨y, hy, rfl⟩ := List.mem_map.mp hx
      refine le_last c.chain c.last _ ?_
      rw [← hmd]
      exact List.mem_map.mpr ⟨y, k2 y hy, rfl⟩
    generalize (kept (fun x => key 4 x.md) srows).map Station.md = L at hin hle hsorted
    rcases List.eq_nil_or_concat L with rfl | ⟨L', z, rfl⟩
    · simp at hin
    · simp only [List.concat_eq_append] at hin hle hsorted ⊢
      rw [List.getLast?_append]
      simp only [List.getLast?_singleton, Option.some_or, Option.some.injEq]
      rcases List.mem_append.mp hin with hin | hin
      · have h1 := (List.pairwise_append.mp hsorted).2.2 _ hin z (by simp)
        have h2 := hle z (by simp)
        linarith
      · exact (List.mem_singleton.mp hin).symm
  have hdir : ∀ r ∈ kept (fun x => key 4 x.md) srows, τ r.md = tangent r.inc r.azi := by
    intro r hr'
    obtain ⟨x, hx, rfl⟩ := List.mem_map.mp (k2 r hr')
    obtain ⟨h1, h2⟩ := c.dirs x hx
    simp only [toStation]
    rw [tangent_getAngles_nev h2, h1]
  refine ⟨kept (fun x => key 4 x.md) srows, ?_, k1.imp fun _ _ h => h.1, hhead, hlast,
    fun c' hc x hx => hmem x (m c' hc x hx), fun r hr => (hdir r hr).symm, ?_⟩
  · unfold fromConnections
    simp only [e]
    rw [← hsrows, hsrows, hrows]
    simp only [List.map_cons]
    rw [removeDuplicates_kept]
  · have h2 : 2 ≤ (kept (fun x => key 4 x.md) srows).length := by
      have i1 := hmem _ (m s (by simp) _ (joints_ends s).1)
      have i2 := hmem _ (m s (by simp) _ (joints_ends s).2)
      generalize kept (fun x => key 4 x.md) srows = K at i1 i2
      match K, i1, i2 with
      | [], h, _ => simp at h
      | [x], h1, h2 =>
        simp only [List.map_cons, List.map_nil, List.mem_singleton] at h1 h2
        linarith
      | _ :: _ :: _, _, _ => simp
    obtain ⟨⟨sv, xyz⟩, hsv⟩ := surveyG_ok (u := .meters) 0 (γ s.md1) (by simp) h2
    unfold surveyPositions
    rw [hsv]
    simp only [Except.ok.injEq]
    unfold surveyG at hsv
    cases ho : minCurve (kept (fun x => key 4 x.md) srows) 0 .meters with
    | error e => rw [ho] at hsv; simp at hsv
    | ok o =>
      rw [ho] at hsv
      simp only [Except.ok.injEq, Prod.mk.injEq] at hsv
      rw [← hsv.1]
      simp only
      rw [minCurve_poss ho]
      have hp := positions_on_path (γ := γ) (τ := τ) (kept (fun x => key 4 x.md) srows) hdir
        (k1.imp fun _ _ h => ⟨h.1.le, h.2⟩) (0 + swap (γ s.md1)) (by
          intro r hr
          rw [List.head?_map, hr] at hhead
          simp only [Option.map_some, Option.some.injEq] at hhead
          rw [hhead, zero_add])
      rw [positions_translate] at hp
      have hq := congrArg (List.map swap) hp
      simp only [List.map_map] at hq
      have e1 : (swap ∘ fun q : V3 => q + swap (γ s.md1)) = fun q => getNev q 0 (γ s.md1) := by
        funext q
        ext <;> simp [swap, getNev]
      have e2 : (swap ∘ fun r : Station => swap (γ r.md)) = fun r => γ r.md := rfl
      rw [e1, e2] at hq
      exact hq

/-! ### Joining paths -/

theorem glue {b : ℝ} {γ₁ τ₁ γ₂ τ₂ : ℝ → V3} (hγ : γ₁ b = γ₂ b) (hτ : τ₁ b = τ₂ b) :
    ∃ γ τ : ℝ → V3, (∀ s, s ≤ b → γ s = γ₁ s ∧ τ s = τ₁ s) ∧ ∀ s, b ≤ s → γ s = γ₂ s ∧ τ s = τ₂ s := by
  refine ⟨fun s => if s ≤ b then γ₁ s else γ₂ s, fun s => if s ≤ b then τ₁ s else τ₂ s,
    fun s hs => ⟨if_pos hs, if_pos hs⟩, fun s hs => ?_⟩
  rcases eq_or_lt_of_le hs with rfl | hs
  · exact ⟨(if_pos le_rfl).trans hγ, (if_pos le_rfl).trans hτ⟩
  · exact ⟨if_neg (not_le.mpr hs), if_neg (not_le.mpr hs)⟩

theorem oneArc_congr {a b : ℝ} {γ τ γ' τ' : ℝ → V3}
    (he : ∀ s, a ≤ s → s ≤ b → γ' s = γ s ∧ τ' s = τ s) (h : OneArc a b γ τ) : OneArc a b γ' τ' := by
  obtain ⟨g, t, ν, κ, hc, h1, h2, h3⟩ := h
  exact ⟨g, t, ν, κ, hc, h1, h2, fun s sa sb => by
    rw [(he s sa sb).1, (he s sa sb).2]; exact h3 s sa sb⟩

theorem curveAlong_congr {a dc d : ℝ} {v w : V3} {γ τ γ' τ' : ℝ → V3}
    (he : ∀ s, a ≤ s → s ≤ a + dc → γ' s = γ s ∧ τ' s = τ s) (h : CurveAlong γ τ a dc v w d) :
    CurveAlong γ' τ' a dc v w d := by
  have hl := h.len
  exact ⟨h.len, oneArc_congr he h.arc, by rw [(he a le_rfl (by linarith)).2, h.start],
    by rw [(he _ (by linarith) le_rfl).2, h.stop], h.turn, h.tol⟩

theorem holdAlong_congr {a b : ℝ} {v : V3} {γ τ γ' τ' : ℝ → V3}
    (he : ∀ s, a ≤ s → s ≤ b → γ' s = γ s ∧ τ' s = τ s) (h : HoldAlong γ τ a b v) :
    HoldAlong γ' τ' a b v := by
  have hl := h.len
  exact ⟨h.len, oneArc_congr he h.arc, by rw [(he a le_rfl hl.le).2, h.start],
    by rw [(he _ hl.le le_rfl).2, h.stop]⟩

/-- Whether the well runs along a connection depends only on its course there. -/
theorem follows_congr {γ τ γ' τ' : ℝ → V3} {c : Conn}
    (he : ∀ s, c.md1 ≤ s → s ≤ c.mdT → γ' s = γ s ∧ τ' s = τ s) (h : Follows γ τ c) : Follows γ' τ' c := by
  unfold Follows at h ⊢
  have curve : (CurveAlong γ τ c.md1 c.distCurve c.vec1 c.vecT c.dogleg ∧ c.mdT = c.md1 + c.distCurve) →
      CurveAlong γ' τ' c.md1 c.distCurve c.vec1 c.vecT c.dogleg ∧ c.mdT = c.md1 + c.distCurve :=
    fun h => ⟨curveAlong_congr (fun s s1 s2 => he s s1 (by rw [h.2]; exact s2)) h.1, h.2⟩
  have curveHold : (∃ md2, c.md2 = some md2 ∧ CurveAlong γ τ c.md1 c.distCurve c.vec1 c.vec2 c.dogleg ∧
      md2 = c.md1 + c.distCurve ∧ HoldAlong γ τ md2 c.mdT c.vec2) →
      ∃ md2, c.md2 = some md2 ∧ CurveAlong γ' τ' c.md1 c.distCurve c.vec1 c.vec2 c.dogleg ∧
      md2 = c.md1 + c.distCurve ∧ HoldAlong γ' τ' md2 c.mdT c.vec2 := by
    rintro ⟨md2, h1, h2, h3, h4⟩
    have l1 := h2.len
    have l2 := h4.len
    exact ⟨md2, h1, curveAlong_congr (fun s s1 s2 => he s s1 (by linarith)) h2, h3,
      holdAlong_congr (fun s s1 s2 => he s (by linarith) s2) h4⟩
  cases hm : c.method <;> simp only [hm] at h ⊢
  · exact holdAlong_congr he h
  · exact curveHold h
  · exact curve h
  · obtain ⟨md2, md3, e2, e3, h1, h2, h3, h4, h5⟩ := h
    have l1 := h1.len
    have l2 := h3.len
    have l3 := h4.len
    exact ⟨md2, md3, e2, e3, curveAlong_congr (fun s s1 s2 => he s s1 (by linarith)) h1, h2,
      holdAlong_congr (fun s s1 s2 => he s (by linarith) (by linarith)) h3,
      curveAlong_congr (fun s s1 s2 => he s (by linarith) (by linarith)) h4, h5⟩
  · exact h.imp (fun h => ⟨h.1, curve h.2⟩) curveHold

/-! ### The path of an arc and of a straight -/

theorem straight_path {a T : ℝ} {p v q : V3} (hv : v.IsUnit) (hT : 0 < T) (h : StraightTo T p v q) :
    ∃ γ τ : ℝ → V3, γ a = p ∧ γ (a + T) = q ∧ HoldAlong γ τ a (a + T) v := by
  obtain ⟨n, hn, ho⟩ := exists_normal hv
  refine ⟨fun s => p + (s - a) • v, fun _ => v, by simp, ?_, by linarith, ?_, rfl, rfl⟩
  · simp only [add_sub_cancel_left]
    exact h.2.symm
  · refine ⟨fun s => p + s • v, fun _ => v, fun _ => n, 0, ?_, le_rfl, by simp [pi_pos], fun s _ _ => ⟨rfl, rfl⟩⟩
    refine CircularCurve.move (γ := fun s => s • v) ⟨fun u => ?_, fun u => ?_, fun u => ?_,
      fun _ => hv, fun _ => hn, fun _ => ho⟩ p
    · refine (HasDeriv.smul_const (hasDerivAt_id u) v).congr (one_smul ℝ _)
    · rw [zero_smul]
      exact ⟨hasDerivAt_const _ _, hasDerivAt_const _ _, hasDerivAt_const _ _⟩
    · rw [zero_smul, neg_zero]
      exact ⟨hasDerivAt_const _ _, hasDerivAt_const _ _, hasDerivAt_const _ _⟩

theorem arc_path {a R L : ℝ} {p v q w : V3} (hR : 0 < R) (hL : 0 < L) (hpi : L / R < π)
    (htol : 1e-10 ≤ sin (L / R)) (h : ArcTo R L p v q w) :
    v.IsUnit ∧ w.IsUnit ∧ ∃ γ τ : ℝ → V3, γ a = p ∧ γ (a + L) = q ∧ CurveAlong γ τ a L v w (L / R) := by
  obtain ⟨g, t, ν, hc, g0, t0, gL, tL⟩ := h
  have hv : v.IsUnit := t0 ▸ hc.unit_tan 0
  have hw : w.IsUnit := tL ▸ hc.unit_tan L
  refine ⟨hv, hw, fun s => g (s - a), fun s => t (s - a), by simp [g0], by simp [gL], hL, ?_, by simp [t0],
    by simp [tL], ?_, htol⟩
  · exact ⟨g, t, ν, 1 / R, hc, by positivity, by rw [add_sub_cancel_left]; rw [one_div_mul_eq_div]; exact hpi,
      fun s _ _ => ⟨rfl, rfl⟩⟩
  · have e := hc.tan_eq L
    have ho := hc.ortho 0
    rw [tL, t0] at e
    rw [t0] at ho
    have hdot : V3.dot v w = cos (L / R) := by
      rw [e, V3.dot_add_right, V3.dot_smul_right, V3.dot_smul_right, ho,
        show V3.dot v v = 1 from hv, one_div_mul_eq_div]
      ring
    unfold angle
    rw [hdot, arccos_cos (by positivity) hpi.le]

/-- **C356** A connection of an arc, a straight and an arc: the survey made from it starts at its start and
ends where the second arc ends, in the direction of its end. -/
theorem C356_curve_hold_curve {key : ℕ → ℝ → ℤ} (hk : RoundsTo4 (key 4)) (decimals : ℕ)
    (hs : ∀ st, step = some st → 0 < st) {md R L T R' L' : ℝ} {p v q w q' p' v' : V3}
    (hR : 0 < R) (hL : 0 < L) (hpi : L / R < π) (htol : 1e-10 ≤ sin (L / R)) (h1 : ArcTo R L p v q w)
    (hT : 0 < T) (h2 : StraightTo T q w q')
    (hR' : 0 < R') (hL' : 0 < L') (hpi' : L' / R' < π) (htol' : 1e-10 ≤ sin (L' / R')) (h3 : ArcTo R' L' q' w p' v')
    (ha : WantedApart step [md, md + L + T + L', md + L, md + L + T]) :
    ∃ out pos, fromConnections key decimals step [⟨.curveHoldCurve, md, md + L + T + L', some (md + L),
        some (md + L + T), v, w, w, v', L, L / R, L', L' / R'⟩] = .ok out ∧
      surveyPositions p out = .ok pos ∧ pos.head? = some p ∧
      (md + L, q) ∈ (out.map Station.md).zip pos ∧ (md + L + T, q') ∈ (out.map Station.md).zip pos ∧
      pos.getLast? = some p' ∧
      (out.getLast?.map fun r => (r.md, tangent r.inc r.azi)) = some (md + L + T + L', v') := by
  obtain ⟨-, hw, γ₁, τ₁, a1, a2, a3⟩ := arc_path (a := md) hR hL hpi htol h1
  obtain ⟨γ₂, τ₂, b1, b2, b3⟩ := straight_path (a := md + L) hw hT h2
  obtain ⟨-, -, γ₃, τ₃, c1, c2, c3⟩ := arc_path (a := md + L + T) hR' hL' hpi' htol' h3
  obtain ⟨γ₄, τ₄, e1, e2⟩ := glue (b := md + L) (by rw [a2, b1] : γ₁ _ = γ₂ _)
    (by rw [a3.stop, b3.start] : τ₁ _ = τ₂ _)
  obtain ⟨γ, τ, f1, f2⟩ := glue (b := md + L + T) (γ₁ := γ₄) (τ₁ := τ₄) (γ₂ := γ₃) (τ₂ := τ₃)
    (by rw [(e2 _ (by linarith)).1, b2, c1]) (by rw [(e2 _ (by linarith)).2, b3.stop, c3.start])
  have g1 : ∀ s, s ≤ md + L → γ s = γ₁ s ∧ τ s = τ₁ s := fun s hs' => by
    rw [(f1 s (by linarith)).1, (f1 s (by linarith)).2]; exact e1 s hs'
  have g2 : ∀ s, md + L ≤ s → s ≤ md + L + T → γ s = γ₂ s ∧ τ s = τ₂ s := fun s s1 s2 => by
    rw [(f1 s s2).1, (f1 s s2).2]; exact e2 s s1
  have hfol : Follows γ τ ⟨.curveHoldCurve, md, md + L + T + L', some (md + L), some (md + L + T), v, w, w, v',
      L, L / R, L', L' / R'⟩ :=
    ⟨md + L, md + L + T, rfl, rfl, curveAlong_congr (fun s _ s2 => g1 s s2) a3, rfl,
      holdAlong_congr g2 b3, curveAlong_congr (fun s s1 _ => f2 s s1) c3, rfl⟩
  obtain ⟨out, o1, -, o3, o4, o5, o6, o7⟩ := C356_on_path hk decimals _ [] (fun x hx => by
    rw [List.mem_singleton.mp hx]; exact hfol) (List.IsChain.singleton _) hs (by simpa [joints] using ha)
  have hp : γ md = p := by rw [(g1 md (by linarith)).1, a1]
  have hq : γ (md + L) = q := by rw [(g1 _ le_rfl).1, a2]
  have hq' : γ (md + L + T) = q' := by rw [(f2 _ le_rfl).1, c1]
  have hp' : γ (md + L + T + L') = p' := by rw [(f2 _ (by linarith)).1, c2]
  have hv' : τ (md + L + T + L') = v' := by rw [(f2 _ (by linarith)).2, c3.stop]
  have hz : ∀ m, m ∈ out.map Station.md → (m, γ m) ∈ (out.map Station.md).zip (out.map fun r => γ r.md) := by
    intro m hm
    obtain ⟨r, hr, rfl⟩ := List.mem_map.mp hm
    rw [List.zip_map', List.mem_map]
    exact ⟨r, hr, rfl⟩
  simp only [endMd] at o3 o4
  rw [List.head?_map] at o3
  rw [List.getLast?_map] at o4
  rw [Option.map_eq_some_iff] at o3 o4
  obtain ⟨r, hr, hrm⟩ := o3
  obtain ⟨x, hx, hxm⟩ := o4
  refine ⟨out, _, o1, by rw [← hp]; exact o7, ?_, ?_, ?_, ?_, ?_⟩
  · rw [List.head?_map, hr, Option.map_some, hrm, hp]
  · rw [← hq]; exact hz _ (o5 _ (List.mem_singleton.mpr rfl) _ (by simp [joints]))
  · rw [← hq']; exact hz _ (o5 _ (List.mem_singleton.mpr rfl) _ (by simp [joints]))
  · rw [List.getLast?_map, hx, Option.map_some, hxm, hp']
  · rw [hx, Option.map_some, o6 x (List.mem_of_getLast? hx), hxm, hv']

/-- From vertical by a quarter circle to the horizontal, 50 m straight on, and by a quarter circle back to
the vertical. -/
example {key : ℕ → ℝ → ℤ} (hk : RoundsTo4 (key 4)) : ∃ p' out pos,
    fromConnections key 4 none [⟨.curveHoldCurve, 0, 0 + 100 * (π / 2) + 50 + 100 * (π / 2),
        some (0 + 100 * (π / 2)), some (0 + 100 * (π / 2) + 50), ⟨0, 0, 1⟩, ⟨1, 0, 0⟩, ⟨1, 0, 0⟩, ⟨0, 0, 1⟩,
        100 * (π / 2), 100 * (π / 2) / 100, 100 * (π / 2), 100 * (π / 2) / 100⟩] = .ok out ∧
      surveyPositions 0 out = .ok pos ∧ pos.getLast? = some p' := by
  have hv : (⟨0, 0, 1⟩ : V3).IsUnit := by norm_num [V3.IsUnit, V3.dot]
  have hw : (⟨1, 0, 0⟩ : V3).IsUnit := by norm_num [V3.IsUnit, V3.dot]
  have hpi := pi_pos
  have hpi3 := pi_gt_three
  have e : 100 * (π / 2) / 100 = π / 2 := by ring
  have h1 := arcTo_getPos (R := 100) (d := π / 2) 0 hv hw (by positivity) (by linarith)
    (by rw [cos_pi_div_two]; norm_num [V3.dot]) (by norm_num)
  generalize getPos (0 : V3) _ _ _ _ = q at h1
  have h3 := arcTo_getPos (R := 100) (d := π / 2) (q + (50 : ℝ) • (⟨1, 0, 0⟩ : V3)) hw hv (by positivity)
    (by linarith) (by rw [cos_pi_div_two]; norm_num [V3.dot]) (by norm_num)
  obtain ⟨out, pos, o1, o2, -, -, -, o3, -⟩ := C356_curve_hold_curve (step := none) hk 4 (by simp) (md := 0)
    (by norm_num) (by positivity) (by rw [e]; linarith) (by rw [e, sin_pi_div_two]; norm_num) h1
    (by norm_num) ⟨by norm_num, rfl⟩
    (by norm_num) (by positivity) (by rw [e]; linarith) (by rw [e, sin_pi_div_two]; norm_num) h3 (by
      intro x y hx hy
      simp only [WantedMd, List.mem_cons, List.not_mem_nil, or_false, reduceCtorEq, false_and, exists_false] at hx hy
      rcases hx with rfl | rfl | rfl | rfl <;> rcases hy with rfl | rfl | rfl | rfl <;>
        first
        | exact .inl rfl
        | (right; refine lt_of_lt_of_le (by norm_num : (1e-4 : ℝ) < 1) ?_; rw [le_abs]; left; linarith)
        | (right; refine lt_of_lt_of_le (by norm_num : (1e-4 : ℝ) < 1) ?_; rw [le_abs]; right; linarith))
  exact ⟨_, out, pos, o1, o2, o3⟩

end Welleng.Props
