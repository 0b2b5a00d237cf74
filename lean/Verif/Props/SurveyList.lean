import Verif.Lemmas.Survey
import Mathlib.Analysis.Real.Pi.Bounds
import Mathlib.Tactic.NormNum

/-!
Properties C19, C20, C21, C57: duplicate removal, splicing and the depths of the maximum
curvature survey (`/repo/welleng/survey.py` 1446-1518, 2609-2619, 3070-3189).
-/

namespace Welleng.Props

open Real Welleng Welleng.Sv

/-! ## C19 -/

section C19

variable {α κ : Type*} [DecidableEq κ] (key : α → κ)

/-- The rows kept after `a`. -/
private def keep (a : α) (l : List α) : List α :=
  (pairwise (fun x y => (x, y)) (a :: l)).filterMap
    fun (x, y) => if key y ≠ key x then some y else none

private theorem keep_cons (a b : α) (l : List α) :
    keep key a (b :: l) = if key b ≠ key a then b :: keep key b l else keep key b l := by
  unfold keep
  simp only [pairwise, List.filterMap_cons]
  split_ifs <;> simp_all

private theorem keep_sublist (a : α) (l : List α) : (keep key a l).Sublist l := by
  induction l generalizing a with
  | nil => exact List.Sublist.refl _
  | cons b t ih =>
    rw [keep_cons]
    split_ifs
    · exact (ih b).cons_cons b
    · exact (ih b).cons b

private theorem keep_congr {a b : α} (h : key a = key b) (l : List α) :
    keep key a l = keep key b l := by
  cases l with
  | nil => rfl
  | cons c t => rw [keep_cons, keep_cons, h]

private theorem keep_chain (a : α) (l : List α) :
    List.IsChain (fun x y => key x ≠ key y) (a :: keep key a l) := by
  induction l generalizing a with
  | nil => exact List.IsChain.singleton a
  | cons b t ih =>
    rw [keep_cons]
    split_ifs with h
    · exact List.isChain_cons_cons.2 ⟨fun e => h e.symm, ih b⟩
    · push Not at h
      rw [keep_congr key h]
      exact ih a

private theorem keep_mem (a : α) (l : List α) (x : α) (hx : x ∈ l) :
    ∃ y ∈ a :: keep key a l, key y = key x := by
  induction l generalizing a with
  | nil => simp at hx
  | cons b t ih =>
    rw [keep_cons]
    rcases List.mem_cons.1 hx with rfl | hx
    · split_ifs with h
      · exact ⟨x, by simp, rfl⟩
      · push Not at h; exact ⟨a, by simp, h.symm⟩
    · split_ifs with h
      · obtain ⟨y, hy, e⟩ := ih b hx
        exact ⟨y, List.mem_cons_of_mem _ hy, e⟩
      · push Not at h
        rw [keep_congr key h]
        exact ih a hx

private theorem keep_of_chain (a : α) (l : List α)
    (h : List.IsChain (fun x y => key x ≠ key y) (a :: l)) : keep key a l = l := by
  induction l generalizing a with
  | nil => rfl
  | cons b t ih =>
    rw [List.isChain_cons_cons] at h
    rw [keep_cons, if_pos (Ne.symm h.1), ih b h.2]

/-- C19: on two or more stations, duplicate removal succeeds, keeps the first station and the
original order (the result is a subsequence), leaves no two adjacent stations at the same
rounded depth, loses no depth, and applying it again (when there are still two stations)
changes nothing. -/
theorem C19_remove_duplicates (a b : α) (t : List α) :
    ∃ out, removeDuplicates key (a :: b :: t) = .ok (a :: out) ∧
      (a :: out).Sublist (a :: b :: t) ∧
      List.IsChain (fun x y => key x ≠ key y) (a :: out) ∧
      (∀ x ∈ a :: b :: t, ∃ y ∈ a :: out, key y = key x) ∧
      (out ≠ [] → removeDuplicates key (a :: out) = .ok (a :: out)) := by
  refine ⟨keep key a (b :: t), rfl, (keep_sublist key a _).cons_cons a, keep_chain key a _, ?_, ?_⟩
  · intro x hx
    rcases List.mem_cons.1 hx with rfl | hx
    · exact ⟨x, by simp, rfl⟩
    · exact keep_mem key a _ x hx
  · intro hne
    have hc := keep_chain key a (b :: t)
    cases ho : keep key a (b :: t) with
    | nil => exact absurd ho hne
    | cons c s =>
      rw [ho] at hc
      show Except.ok (a :: keep key a (c :: s)) = _
      rw [keep_of_chain key a (c :: s) hc]

example : removeDuplicates (fun x : ℕ => x / 10) [0, 3, 12, 15, 18, 7] = .ok [0, 12, 7] := by
  decide

/-- C19: with fewer than two stations the function raises. -/
theorem C19_needs_two_stations (l : List α) (h : l.length < 2) :
    removeDuplicates key l = .error .indexError := by
  match l, h with
  | [], _ => rfl
  | [_], _ => rfl

end C19

/-! ## C20 and C57 -/

/-- The covariance lists of a survey, when present. -/
private theorem loop_spec (acc : Spliced) (cn ch : List M3) (hcn : acc.covNev = some cn)
    (hch : acc.covHla = some ch) (pick : Azis → ℝ)
    (hp : ∀ l : List Azis, aziAttr acc.header.aziRef l = .ok (l.map pick)) (t : List Data)
    (ht : ∀ s ∈ t, s.covNev.isSome ∧ s.covHla.isSome) :
    dataLoop acc t = .ok {
      header := acc.header
      md := acc.md ++ t.flatMap (fun s => s.md.tail)
      inc := acc.inc ++ t.flatMap (fun s => s.inc.tail)
      azi := acc.azi ++ t.flatMap (fun s => (s.azi.map pick).tail)
      covNev := some (cn ++ t.flatMap (fun s => (s.covNev.getD []).tail))
      covHla := some (ch ++ t.flatMap (fun s => (s.covHla.getD []).tail))
      radius := acc.radius ++ t.flatMap (fun s => s.radius.tail) } := by
  induction t generalizing acc cn ch with
  | nil =>
    obtain ⟨hd, md, inc, azi, c1, c2, r⟩ := acc
    simp only at hcn hch
    simp [dataLoop, hcn, hch]
  | cons s t ih =>
    obtain ⟨h1, h2⟩ := ht s (by simp)
    obtain ⟨c1, hc1⟩ := Option.isSome_iff_exists.1 h1
    obtain ⟨c2, hc2⟩ := Option.isSome_iff_exists.1 h2
    have hstep : dataAppend acc s = .ok ⟨acc.header, acc.md ++ s.md.tail, acc.inc ++ s.inc.tail,
        acc.azi ++ (s.azi.map pick).tail, some (cn ++ c1.tail), some (ch ++ c2.tail),
        acc.radius ++ s.radius.tail⟩ := by
      unfold dataAppend
      rw [hp s.azi, hcn, hch, hc1, hc2]
      rfl
    rw [dataLoop, hstep]
    simp only
    rw [ih ⟨acc.header, acc.md ++ s.md.tail, acc.inc ++ s.inc.tail,
        acc.azi ++ (s.azi.map pick).tail, some (cn ++ c1.tail), some (ch ++ c2.tail),
        acc.radius ++ s.radius.tail⟩ (cn ++ c1.tail) (ch ++ c2.tail) rfl rfl hp
      (fun s' hs' => ht s' (List.mem_cons_of_mem _ hs'))]
    simp [hc1, hc2]

/-- C20: splicing surveys in metres with covariances, in grid or true reference (the reference
of the first one), gives all rows of the first followed by all but the first row of each
later one, in order, for depths, inclinations, azimuths, covariances and radii. -/
theorem C20_splice (s : Data) (t : List Data) (hu : s.header.depthUnit = .meters)
    (hr : s.header.aziRef ≠ .magnetic)
    (hc : ∀ x ∈ s :: t, x.covNev.isSome ∧ x.covHla.isSome) :
    ∃ out, spliceSurveys (s :: t) = .ok out ∧ out.header = s.header ∧
      out.md = s.md ++ t.flatMap (fun x => x.md.tail) ∧
      out.inc = s.inc ++ t.flatMap (fun x => x.inc.tail) ∧
      out.azi = s.azi.map (fun a => a.get s.header.aziRef false)
        ++ t.flatMap (fun x => (x.azi.map (fun a => a.get s.header.aziRef false)).tail) ∧
      out.covNev = some (s.covNev.getD [] ++ t.flatMap (fun x => (x.covNev.getD []).tail)) ∧
      out.covHla = some (s.covHla.getD [] ++ t.flatMap (fun x => (x.covHla.getD []).tail)) ∧
      out.radius = s.radius ++ t.flatMap (fun x => x.radius.tail) := by
  obtain ⟨h1, h2⟩ := hc s (by simp)
  obtain ⟨c1, hc1⟩ := Option.isSome_iff_exists.1 h1
  obtain ⟨c2, hc2⟩ := Option.isSome_iff_exists.1 h2
  have hp : ∀ l : List Azis, aziAttr s.header.aziRef l
      = .ok (l.map (fun a => a.get s.header.aziRef false)) := by
    intro l
    cases hx : s.header.aziRef with
    | grid => rfl
    | true_ => rfl
    | magnetic => exact absurd hx hr
  have hinit : dataInit s = .ok ⟨s.header, s.md, s.inc,
      s.azi.map (fun a => a.get s.header.aziRef false), s.covNev, s.covHla, s.radius⟩ := by
    unfold dataInit; rw [hp]
  have hloop := loop_spec ⟨s.header, s.md, s.inc,
      s.azi.map (fun a => a.get s.header.aziRef false), s.covNev, s.covHla, s.radius⟩
      c1 c2 hc1 hc2 _ hp t (fun x hx => hc x (List.mem_cons_of_mem _ hx))
  have hres : ∀ out, dataLoop ⟨s.header, s.md, s.inc,
      s.azi.map (fun a => a.get s.header.aziRef false), s.covNev, s.covHla, s.radius⟩ t = .ok out →
      out.header = s.header → spliceSurveys (s :: t) = .ok out := by
    intro out ho hh
    simp only [spliceSurveys, hinit, ho, hh, hu, if_true]
  exact ⟨_, hres _ hloop rfl, rfl, rfl, rfl, rfl, by simp [hc1], by simp [hc2], rfl⟩

/-- Tie-on: each later survey starts at the last depth of its predecessor, and every survey
has increasing depths. -/
def TieOn : List (List ℝ) → Prop
  | a :: b :: t => a ≠ [] ∧ a.getLast? = b.head? ∧ List.IsChain (· < ·) a ∧ TieOn (b :: t)
  | [a] => a ≠ [] ∧ List.IsChain (· < ·) a
  | [] => True

/-- C20: if every survey starts at the tie-on depth of the previous one, the spliced depths
increase strictly, and every depth of every input survey is still there. -/
theorem C20_depths_ordered_and_complete (a : List ℝ) (t : List (List ℝ)) (h : TieOn (a :: t)) :
    List.IsChain (· < ·) (a ++ t.flatMap List.tail) ∧
    ∀ l ∈ a :: t, ∀ x ∈ l, x ∈ a ++ t.flatMap List.tail := by
  induction t generalizing a with
  | nil => simpa [TieOn] using h.2
  | cons b t ih =>
    obtain ⟨hne, htie, hch, hrest⟩ := h
    obtain ⟨h1, h2⟩ := ih b hrest
    obtain ⟨b0, bs, rfl⟩ : ∃ b0 bs, b = b0 :: bs := by
      cases b with
      | nil => simp at htie; exact absurd htie hne
      | cons b0 bs => exact ⟨b0, bs, rfl⟩
    obtain ⟨as, rfl⟩ : ∃ as, a = as ++ [b0] := by
      simp only [List.head?_cons] at htie
      obtain ⟨as, rfl⟩ := List.getLast?_eq_some_iff.1 htie
      exact ⟨as, rfl⟩
    have e : (as ++ [b0]) ++ List.flatMap List.tail ((b0 :: bs) :: t)
        = as ++ (b0 :: bs ++ t.flatMap List.tail) := by simp
    constructor
    · rw [e]
      rw [List.isChain_append] at hch ⊢
      refine ⟨hch.1, h1, ?_⟩
      intro x hx y hy
      exact hch.2.2 x hx y (by simpa using hy)
    · intro l hl x hx
      rw [e]
      rcases List.mem_cons.1 hl with rfl | hl
      · rcases List.mem_append.1 hx with hx | hx
        · exact List.mem_append_left _ hx
        · simp only [List.mem_singleton] at hx
          subst hx; simp
      · exact List.mem_append_right _ (h2 l hl x hx)

/-- Two surveys tied at 1000. -/
example : TieOn [[0, 500, 1000], [1000, 1200, 1500]] := by
  simp [TieOn]
  norm_num

/-- C57 is false of the code: splicing two or more surveys always fails when the first is
magnetic, when one has no covariances, or when the survey is in feet. -/
theorem C57_splice_rejects (s s' : Data) (t : List Data)
    (h : s.header.aziRef = .magnetic ∨ s.covNev = none ∨ s'.covNev = none ∨
      s.header.depthUnit = .feet) :
    ∃ e, spliceSurveys (s :: s' :: t) = .error e := by
  simp only [spliceSurveys]
  cases hi : dataInit s with
  | error e => exact ⟨e, rfl⟩
  | ok acc =>
    have hacc : acc.header = s.header ∧ acc.covNev = s.covNev ∧ s.header.aziRef ≠ .magnetic := by
      unfold dataInit at hi
      cases hr : s.header.aziRef <;> rw [hr] at hi <;> simp [aziAttr] at hi <;> subst hi <;> simp
    have hloop_header : ∀ (l : List Data) (x y : Spliced), dataLoop x l = .ok y →
        y.header = x.header := by
      intro l
      induction l with
      | nil => intro x y hxy; simp only [dataLoop, Except.ok.injEq] at hxy; rw [hxy]
      | cons d l ih =>
        intro x y hxy
        rw [dataLoop] at hxy
        cases hd : dataAppend x d with
        | error e => rw [hd] at hxy; simp at hxy
        | ok x' =>
          rw [hd] at hxy
          simp only at hxy
          rw [ih x' y hxy]
          unfold dataAppend at hd
          split at hd
          · simp at hd
          · split at hd
            · simp only [Except.ok.injEq] at hd; rw [← hd]
            · simp at hd
    simp only
    cases hl : dataLoop acc (s' :: t) with
    | error e => exact ⟨e, rfl⟩
    | ok acc' =>
      simp only
      have hh := hloop_header _ _ _ hl
      rcases h with h | h | h | h
      · exact absurd h hacc.2.2
      · exfalso
        rw [dataLoop, dataAppend, hacc.2.1, h] at hl
        cases hz : aziAttr acc.header.aziRef s'.azi <;> rw [hz] at hl <;> simp [appendCov] at hl
      · exfalso
        rw [dataLoop, dataAppend, h] at hl
        cases hz : aziAttr acc.header.aziRef s'.azi <;> rw [hz] at hl <;>
          cases hc : acc.covNev <;> rw [hc] at hl <;> simp [appendCov] at hl
      · rw [hh, hacc.1, h]; exact ⟨_, if_neg (by simp)⟩

/-- Two ordinary magnetic surveys meet the hypothesis. -/
example : ∃ e, spliceSurveys
    [⟨⟨.magnetic, 0, 0, 1, some 0, .meters⟩, [0, 100], [0, 0], [⟨0, 0, 0, 0, 0, 0⟩, ⟨0, 0, 0, 0, 0, 0⟩],
      some [1, 1], some [1, 1], [1, 1]⟩,
     ⟨⟨.magnetic, 0, 0, 1, some 0, .meters⟩, [100, 200], [0, 0],
      [⟨0, 0, 0, 0, 0, 0⟩, ⟨0, 0, 0, 0, 0, 0⟩], some [1, 1], some [1, 1], [1, 1]⟩] = .error e :=
  C57_splice_rejects _ _ _ (Or.inl rfl)

/-- C57: a single survey with a magnetic reference cannot be spliced either. -/
theorem C57_single_magnetic (s : Data) (t : List Data) (h : s.header.aziRef = .magnetic) :
    spliceSurveys (s :: t) = .error .attributeError := by
  simp [spliceSurveys, dataInit, aziAttr, h]

/-! ## C21 -/

/-- C21: the returned survey has `2n - 1` stations and station `k` of the original is station
`2k` of the result, at its original depth. -/
theorem C21_count_and_originals (noise : ℝ) (rows : List (ℝ × ℝ)) (hne : rows ≠ []) :
    (maxCurvMds noise rows).length = 2 * rows.length - 1 ∧
    ∀ (k : ℕ) (r : ℝ × ℝ), rows[k]? = some r → (maxCurvMds noise rows)[2 * k]? = some (some r.1) := by
  induction rows with
  | nil => exact absurd rfl hne
  | cons a t ih =>
    cases t with
    | nil =>
      refine ⟨rfl, ?_⟩
      intro k r hk
      cases k with
      | zero => simp at hk; subst hk; rfl
      | succ k => simp at hk
    | cons b t =>
      obtain ⟨h1, h2⟩ := ih (by simp)
      constructor
      · obtain ⟨a1, a2⟩ := a
        obtain ⟨b1, b2⟩ := b
        simp only [maxCurvMds, List.length_cons] at h1 ⊢; omega
      · intro k r hk
        cases k with
        | zero => simp at hk; subst hk; rfl
        | succ k =>
          have := h2 k r (by simpa using hk)
          rw [show 2 * (k + 1) = 2 * k + 1 + 1 by ring]
          simpa [maxCurvMds] using this

/-- Half-way depth: for a positive effective dls whose half sweep does not exceed `π` radians,
the inserted station is half-way between its neighbours. -/
theorem C21_inserted_station_half_way {noise md1 md2 dls2 : ℝ} (hd : 0 < dls2 + noise)
    (hs : (md2 - md1) * (dls2 + noise) ≤ 10800) :
    midMd noise md1 md2 dls2 = some ((md1 + md2) / 2) := by
  have hpi := pi_pos
  unfold midMd radiusFromDlsArr
  simp only [if_pos hd.ne']
  have hr : (30 / (dls2 + noise) * 360 / (2 * π)) ≠ 0 := by positivity
  have hdl : (md2 - md1) / (30 / (dls2 + noise) * 360 / (2 * π)) / 2
      = (md2 - md1) * (dls2 + noise) / 10800 * π := by
    field_simp; ring
  rw [if_neg]
  · congr 1
    field_simp
    ring
  · rw [hdl, not_lt]
    nlinarith

/-- C21: with positive noise-plus-dls and ordinary interval lengths, the result's depths are in
non-decreasing order. -/
theorem C21_depths_ordered_partial {noise : ℝ} (rows : List (ℝ × ℝ))
    (hord : List.IsChain (fun a b => a.1 ≤ b.1 ∧ 0 < b.2 + noise ∧
      (b.1 - a.1) * (b.2 + noise) ≤ 10800) rows) :
    ∃ mds : List ℝ, maxCurvMds noise rows = mds.map some ∧ List.IsChain (· ≤ ·) mds ∧
      mds.head? = rows.head?.map Prod.fst := by
  induction rows with
  | nil => exact ⟨[], rfl, List.IsChain.nil, rfl⟩
  | cons a t ih =>
    cases t with
    | nil => exact ⟨[a.1], rfl, List.IsChain.singleton _, rfl⟩
    | cons b t =>
      rw [List.isChain_cons_cons] at hord
      obtain ⟨mds, e, hc, hh⟩ := ih hord.2
      obtain ⟨h1, h2, h3⟩ := hord.1
      refine ⟨a.1 :: (a.1 + b.1) / 2 :: mds, ?_, ?_, rfl⟩
      · obtain ⟨a1, a2⟩ := a
        obtain ⟨b1, b2⟩ := b
        simp only [maxCurvMds, List.map_cons]
        rw [C21_inserted_station_half_way h2 h3, e]
      · cases mds with
        | nil => simp at hh
        | cons m ms =>
          simp only [List.head?_cons, Option.map_some, Option.some.injEq] at hh
          subst hh
          exact List.isChain_cons_cons.2 ⟨by linarith, List.isChain_cons_cons.2 ⟨by linarith, hc⟩⟩

example : List.IsChain (fun a b : ℝ × ℝ => a.1 ≤ b.1 ∧ 0 < b.2 + 1 ∧
    (b.1 - a.1) * (b.2 + 1) ≤ 10800) [(0, 0), (30, 2), (60, 3)] := by
  simp [List.isChain_cons_cons]; norm_num

/-- C21 is false of the code without that bound: when the half sweep exceeds `π` the radius is
replaced but the sweep is not, and the inserted station lies below the next station (by more
than a whole interval). -/
theorem C21_inserted_station_overshoots {noise md1 md2 dls2 : ℝ} (hm : md1 < md2)
    (hs : 10800 < (md2 - md1) * (dls2 + noise)) :
    ∃ m, midMd noise md1 md2 dls2 = some m ∧ md2 + (md2 - md1) < m := by
  have hpi := pi_pos
  have hL : 0 < md2 - md1 := by linarith
  have hd : 0 < dls2 + noise := by
    by_contra h; push Not at h
    nlinarith
  unfold midMd radiusFromDlsArr
  simp only [if_pos hd.ne']
  have hdl : (md2 - md1) / (30 / (dls2 + noise) * 360 / (2 * π)) / 2
      = (md2 - md1) * (dls2 + noise) / 10800 * π := by
    field_simp; ring
  have hgt : π < (md2 - md1) / (30 / (dls2 + noise) * 360 / (2 * π)) / 2 := by
    rw [hdl]
    have : 1 < (md2 - md1) * (dls2 + noise) / 10800 := by
      rw [lt_div_iff₀ (by norm_num)]; linarith
    nlinarith
  rw [if_pos hgt]
  refine ⟨_, rfl, ?_⟩
  set x := (md2 - md1) / (30 / (dls2 + noise) * 360 / (2 * π)) / 2 with hx
  have : x * ((md2 - md1) * 4 / (2 * π)) = (x / π) * (2 * (md2 - md1)) := by
    field_simp
    ring
  rw [this]
  have h1 : 1 < x / π := by rw [lt_div_iff₀ hpi]; linarith
  nlinarith

/-- A 3000 m gap in the survey listing and a noise of 10 deg/30 m. -/
example : (10800 : ℝ) < (3000 - 0) * (0 + 10) := by norm_num

/-- C21 is false of the code with zero noise on a straight interval: the inserted depth is not a
number. -/
theorem C21_zero_noise_straight (md1 md2 : ℝ) : midMd 0 md1 md2 0 = none := by
  simp [midMd, radiusFromDlsArr]

end Welleng.Props
