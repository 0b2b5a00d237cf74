import Verif.Model.Mesh
import Mathlib.Data.List.Perm.Basic
import Mathlib.Tactic.Linarith
import Mathlib.Tactic.Ring
import Mathlib.Tactic.IntervalCases

/-! C33, C34: the triangulation of a well. -/

namespace Welleng.Props

open Welleng Spec Mesh

/-- A vertex, by ring and place in the ring. -/
inductive Vx | ring (r i : ℕ) | top | bot
  deriving DecidableEq

/-- Its index. -/
def enc (n rows : ℕ) : Vx → ℕ
  | .ring r i => r * n + i
  | .top => rows * n
  | .bot => rows * n + 1

/-- Vertices that exist. -/
def Valid (n rows : ℕ) : Vx → Prop
  | .ring r i => r < rows ∧ i < n
  | _ => True

theorem enc_lt {n rows r i : ℕ} (h : r < rows) (hi : i < n) : r * n + i < rows * n := by
  calc r * n + i < (r + 1) * n := by rw [Nat.succ_mul]; omega
    _ ≤ rows * n := Nat.mul_le_mul_right _ h

theorem enc_inj {n rows : ℕ} {a b : Vx} (ha : Valid n rows a) (hb : Valid n rows b)
    (h : enc n rows a = enc n rows b) : a = b := by
  cases a with
  | top => cases b with
    | top => rfl
    | bot => simp [enc] at h
    | ring r i => have := enc_lt hb.1 hb.2; simp only [enc] at h; omega
  | bot => cases b with
    | top => simp [enc] at h
    | bot => rfl
    | ring r i => have := enc_lt hb.1 hb.2; simp only [enc] at h; omega
  | ring r i => cases b with
    | top => have := enc_lt ha.1 ha.2; simp only [enc] at h; omega
    | bot => have := enc_lt ha.1 ha.2; simp only [enc] at h; omega
    | ring r' i' =>
      simp only [enc] at h
      have hn : 0 < n := by have := ha.2; omega
      have h1 : r = r' := by
        have e1 : (r * n + i) / n = r := by
          rw [mul_comm, Nat.mul_add_div hn, Nat.div_eq_of_lt ha.2, add_zero]
        have e2 : (r' * n + i') / n = r' := by
          rw [mul_comm, Nat.mul_add_div hn, Nat.div_eq_of_lt hb.2, add_zero]
        rw [← e1, ← e2, h]
      subst h1
      have : i = i' := by omega
      rw [this]

/-- The triangles by name. -/
inductive Fc | top (i : ℕ) | s1 (r i : ℕ) | s2 (r i : ℕ) | bot (i : ℕ)
  deriving DecidableEq

def FcValid (n rows : ℕ) : Fc → Prop
  | .top i | .bot i => i < n
  | .s1 r i | .s2 r i => r + 1 < rows ∧ i < n

/-- Corners of a named triangle. -/
def corners (n rows : ℕ) : Fc → Vx × Vx × Vx
  | .top i => (.top, .ring 0 i, .ring 0 (next n i))
  | .s1 r i => (.ring r i, .ring (r + 1) i, .ring (r + 1) (next n i))
  | .s2 r i => (.ring r i, .ring r (next n i), .ring (r + 1) (next n i))
  | .bot i => (.bot, .ring (rows - 1) (next n i), .ring (rows - 1) i)

def tri (n rows : ℕ) (f : Fc) : Tri :=
  let c := corners n rows f
  (enc n rows c.1, enc n rows c.2.1, enc n rows c.2.2)

/-- The named triangles, in order. -/
def names (n rows : ℕ) : List Fc :=
  (List.range n).map .top
    ++ ((List.range (rows - 1)).flatMap fun r => (List.range n).flatMap fun i => [.s1 r i, .s2 r i])
    ++ (List.range n).map .bot

theorem getFaces_eq (n rows : ℕ) : getFaces n rows = (names n rows).map (tri n rows) := by
  simp only [getFaces, names, List.map_append, List.map_map, topFaces, bottomFaces, sideFaces,
    List.map_flatMap]
  congr 1
  · congr 1
    · apply List.map_congr_left; intro i _; simp [tri, corners, enc]
    · congr 1; funext r; congr 1; funext i
      simp [tri, corners, enc, add_comm]

theorem mem_names {n rows : ℕ} {f : Fc} : f ∈ names n rows ↔ FcValid n rows f := by
  cases f <;> simp [names, FcValid] <;> omega

theorem nodup_names (n rows : ℕ) : (names n rows).Nodup := by
  unfold names
  refine List.Nodup.append (List.Nodup.append ?_ ?_ ?_) ?_ ?_
  · exact List.nodup_range.map fun a b h => by simpa using h
  · rw [List.nodup_flatMap]
    refine ⟨fun r _ => ?_, List.nodup_range.imp fun h => ?_⟩
    · rw [List.nodup_flatMap]
      refine ⟨fun i _ => by simp, List.nodup_range.imp fun h => ?_⟩
      simp [Function.onFun, List.Disjoint, h, Ne.symm h]
    · intro x hx hy
      simp only [List.mem_flatMap, List.mem_range, List.mem_cons, List.not_mem_nil, or_false] at hx hy
      obtain ⟨i, -, rfl | rfl⟩ := hx <;> obtain ⟨j, -, hj | hj⟩ := hy <;> simp_all
  · intro x hx hy
    simp only [List.mem_map, List.mem_flatMap, List.mem_range, List.mem_cons, List.not_mem_nil,
      or_false] at hx hy
    obtain ⟨i, -, rfl⟩ := hx
    obtain ⟨r, -, j, -, h | h⟩ := hy <;> simp at h
  · exact List.nodup_range.map fun a b h => by simpa using h
  · intro x hx hy
    simp only [List.mem_append, List.mem_map, List.mem_flatMap, List.mem_range, List.mem_cons,
      List.not_mem_nil, or_false] at hx hy
    obtain ⟨i, -, rfl⟩ := hy
    obtain ⟨j, -, h⟩ | ⟨r, -, j, -, h | h⟩ := hx <;> simp at h

theorem next_spec {n i : ℕ} (hi : i < n) :
    next n i < n ∧ ((i + 1 = n ∧ next n i = 0) ∨ (i + 1 < n ∧ next n i = i + 1)) := by
  unfold next; split <;> omega

theorem valid_corners {n rows : ℕ} (hr : 1 ≤ rows) {f : Fc} (hf : FcValid n rows f) :
    Valid n rows (corners n rows f).1 ∧ Valid n rows (corners n rows f).2.1 ∧
      Valid n rows (corners n rows f).2.2 := by
  have h : ∀ {i}, i < n → next n i < n := fun h => (next_spec h).1
  cases f with
  | top i => have := h hf; simp only [FcValid] at hf; simp only [corners, Valid, true_and]; omega
  | bot i => have := h hf; simp only [FcValid] at hf; simp only [corners, Valid, true_and]; omega
  | s1 r i => have := h hf.2; simp only [FcValid] at hf; simp only [corners, Valid]; omega
  | s2 r i => have := h hf.2; simp only [FcValid] at hf; simp only [corners, Valid]; omega

/-- The directed edges of a named triangle. -/
def vedges (n rows : ℕ) (f : Fc) : List (Vx × Vx) :=
  let c := corners n rows f
  [(c.1, c.2.1), (c.2.1, c.2.2), (c.2.2, c.1)]

theorem runs_iff {n rows : ℕ} (hr : 1 ≤ rows) {f : Fc} (hf : FcValid n rows f) {u v : Vx}
    (hu : Valid n rows u) (hv : Valid n rows v) :
    (tri n rows f).runs (enc n rows u) (enc n rows v) = true ↔ (u, v) ∈ vedges n rows f := by
  obtain ⟨h1, h2, h3⟩ := valid_corners hr hf
  have e : ∀ {a b : Vx}, Valid n rows a → Valid n rows b →
      (enc n rows a = enc n rows b ↔ a = b) := fun ha hb => ⟨enc_inj ha hb, fun h => h ▸ rfl⟩
  simp only [Tri.runs, Tri.edges, tri, vedges, List.contains_eq_mem, List.mem_cons,
    List.not_mem_nil, or_false, Prod.mk.injEq, decide_eq_true_eq, e hu h1, e hu h2, e hu h3, e hv h1,
    e hv h2, e hv h3]

theorem countP_eq_two {α : Type*} [DecidableEq α] {l : List α} (hl : l.Nodup) {p : α → Bool}
    {a b : α} (hab : a ≠ b) (h : ∀ x, x ∈ l ∧ p x = true ↔ x = a ∨ x = b) : l.countP p = 2 := by
  rw [List.countP_eq_length_filter]
  have : (l.filter p).Perm [a, b] := by
    rw [List.perm_ext_iff_of_nodup (hl.filter p) (by simp [hab])]
    intro x; rw [List.mem_filter, h]; simp
  rw [this.length_eq]; rfl

/-- Place in the ring of a named triangle. -/
def ix : Fc → ℕ
  | .top i | .bot i | .s1 _ i | .s2 _ i => i

/-- The place before `i` in a ring. -/
def prev (n i : ℕ) : ℕ := if i = 0 then n - 1 else i - 1

theorem prev_spec {n i : ℕ} (hi : i < n) :
    prev n i < n ∧ next n (prev n i) = i ∧
      ((i = 0 ∧ prev n i + 1 = n) ∨ (0 < i ∧ prev n i + 1 = i)) := by
  unfold prev next; split_ifs <;> omega


/-- A named triangle has the edge between `u` and `v`. -/
def Has (n rows : ℕ) (x : Fc) (u v : Vx) : Prop :=
  (u, v) ∈ vedges n rows x ∨ (v, u) ∈ vedges n rows x

theorem next_facts {n : ℕ} (hn : 3 ≤ n) {i j : ℕ} (hi : i < n) (hj : j < n) :
    (next n i = next n j → i = j) ∧ next n i ≠ i ∧ (next n i = j → next n j ≠ i) := by
  have h1 := next_spec hi
  have h2 := next_spec hj
  omega

theorem has_top {n rows : ℕ} (hn : 3 ≤ n) {j : ℕ} (hj : j < n) {x : Fc}
    (hx : FcValid n rows x) : Has n rows x .top (.ring 0 j) ↔ x = .top j ∨ x = .top (prev n j) := by
  have hp := prev_spec hj
  cases x with
  | top i =>
    have h1 := next_facts hn hx hp.1
    simp only [Has, vedges, corners]
    grind
  | _ => simp [Has, vedges, corners]

theorem has_bot {n rows : ℕ} (hn : 3 ≤ n) {j : ℕ} (hj : j < n) {x : Fc}
    (hx : FcValid n rows x) :
    Has n rows x .bot (.ring (rows - 1) j) ↔ x = .bot j ∨ x = .bot (prev n j) := by
  have hp := prev_spec hj
  cases x with
  | bot i =>
    have h1 := next_facts hn hx hp.1
    simp only [Has, vedges, corners]
    grind
  | _ => simp [Has, vedges, corners]

theorem has_diag {n rows : ℕ} (hn : 3 ≤ n) {r i : ℕ} (hi : i < n) {x : Fc}
    (hx : FcValid n rows x) :
    Has n rows x (.ring r i) (.ring (r + 1) (next n i)) ↔ x = .s1 r i ∨ x = .s2 r i := by
  cases x with
  | top j => simp [Has, vedges, corners]
  | bot j => simp [Has, vedges, corners]; omega
  | s1 s j =>
    have h1 := next_facts hn hi hx.2
    have h2 := next_facts hn hx.2 hi
    simp only [Has, vedges, corners]
    grind
  | s2 s j =>
    have h1 := next_facts hn hi hx.2
    have h2 := next_facts hn hx.2 hi
    simp only [Has, vedges, corners]
    grind

theorem has_vert {n rows : ℕ} (hn : 3 ≤ n) {r i : ℕ} (hi : i < n) {x : Fc}
    (hx : FcValid n rows x) :
    Has n rows x (.ring r i) (.ring (r + 1) i) ↔ x = .s1 r i ∨ x = .s2 r (prev n i) := by
  have hp := prev_spec hi
  cases x with
  | top j => simp [Has, vedges, corners]
  | bot j => simp [Has, vedges, corners]; omega
  | s1 s j =>
    have h1 := next_facts hn hi hx.2
    have h2 := next_facts hn hx.2 hi
    simp only [Has, vedges, corners]
    grind
  | s2 s j =>
    have h1 := next_facts hn hp.1 hx.2
    have h2 := next_facts hn hx.2 hi
    simp only [Has, vedges, corners]
    grind

theorem has_ring {n rows : ℕ} (hn : 3 ≤ n) (hrows : 2 ≤ rows) {r i : ℕ} (hr : r < rows)
    (hi : i < n) {x : Fc} (hx : FcValid n rows x) :
    Has n rows x (.ring r i) (.ring r (next n i)) ↔
      x = (if r = 0 then .top i else .s1 (r - 1) i) ∨
      x = (if r + 1 = rows then .bot i else .s2 r i) := by
  cases x with
  | top j =>
    have h1 := next_facts hn hi hx
    have h2 := next_facts hn hx hi
    simp only [Has, vedges, corners]
    grind
  | bot j =>
    have h1 := next_facts hn hi hx
    have h2 := next_facts hn hx hi
    simp only [Has, vedges, corners]
    grind
  | s1 s j =>
    have h1 := next_facts hn hi hx.2
    have h2 := next_facts hn hx.2 hi
    simp only [Has, vedges, corners]
    simp only [FcValid] at hx
    grind
  | s2 s j =>
    have h1 := next_facts hn hi hx.2
    have h2 := next_facts hn hx.2 hi
    simp only [Has, vedges, corners]
    simp only [FcValid] at hx
    grind

theorem Has.symm {n rows : ℕ} {x : Fc} {u v : Vx} : Has n rows x u v ↔ Has n rows x v u :=
  or_comm

theorem share {n rows : ℕ} (hn : 3 ≤ n) (hrows : 2 ≤ rows) {f : Fc} (hf : FcValid n rows f)
    {e : Vx × Vx} (he : e ∈ vedges n rows f) :
    e.1 ≠ e.2 ∧ ∃ a b, FcValid n rows a ∧ FcValid n rows b ∧ a ≠ b ∧
      ∀ x, FcValid n rows x → (Has n rows x e.1 e.2 ↔ x = a ∨ x = b) := by
  -- the five kinds of edge
  have top : ∀ j < n, ∃ a b, FcValid n rows a ∧ FcValid n rows b ∧ a ≠ b ∧
      ∀ x, FcValid n rows x → (Has n rows x .top (.ring 0 j) ↔ x = a ∨ x = b) := fun j hj => by
    have hp := prev_spec hj
    exact ⟨.top j, .top (prev n j), hj, hp.1, by rw [ne_eq, Fc.top.injEq]; omega,
      fun x hx => has_top hn hj hx⟩
  have bot : ∀ j < n, ∃ a b, FcValid n rows a ∧ FcValid n rows b ∧ a ≠ b ∧
      ∀ x, FcValid n rows x → (Has n rows x .bot (.ring (rows - 1) j) ↔ x = a ∨ x = b) :=
    fun j hj => by
    have hp := prev_spec hj
    exact ⟨.bot j, .bot (prev n j), hj, hp.1, by rw [ne_eq, Fc.bot.injEq]; omega,
      fun x hx => has_bot hn hj hx⟩
  have diag : ∀ r i, r + 1 < rows → i < n → ∃ a b, FcValid n rows a ∧ FcValid n rows b ∧ a ≠ b ∧
      ∀ x, FcValid n rows x →
        (Has n rows x (.ring r i) (.ring (r + 1) (next n i)) ↔ x = a ∨ x = b) :=
    fun r i hr hi => ⟨.s1 r i, .s2 r i, ⟨hr, hi⟩, ⟨hr, hi⟩, by simp, fun x hx => has_diag hn hi hx⟩
  have vert : ∀ r i, r + 1 < rows → i < n → ∃ a b, FcValid n rows a ∧ FcValid n rows b ∧ a ≠ b ∧
      ∀ x, FcValid n rows x →
        (Has n rows x (.ring r i) (.ring (r + 1) i) ↔ x = a ∨ x = b) :=
    fun r i hr hi => ⟨.s1 r i, .s2 r (prev n i), ⟨hr, hi⟩, ⟨hr, (prev_spec hi).1⟩, by simp,
      fun x hx => has_vert hn hi hx⟩
  have ring : ∀ r i, r < rows → i < n → ∃ a b, FcValid n rows a ∧ FcValid n rows b ∧ a ≠ b ∧
      ∀ x, FcValid n rows x →
        (Has n rows x (.ring r i) (.ring r (next n i)) ↔ x = a ∨ x = b) :=
    fun r i hr hi => by
    refine ⟨if r = 0 then .top i else .s1 (r - 1) i, if r + 1 = rows then .bot i else .s2 r i,
      ?_, ?_, ?_, fun x hx => has_ring hn hrows hr hi hx⟩
    · split
      · exact hi
      · exact ⟨by omega, hi⟩
    · split
      · exact hi
      · exact ⟨by omega, hi⟩
    · split_ifs <;> simp
  have hN : ∀ {i}, i < n → next n i < n ∧ next n i ≠ i := fun h =>
    ⟨(next_spec h).1, (next_facts hn h h).2.1⟩
  cases f with
  | top i =>
    have h0 := hN hf
    simp only [vedges, corners, List.mem_cons, List.not_mem_nil, or_false] at he
    rcases he with rfl | rfl | rfl
    · exact ⟨by simp, top i hf⟩
    · exact ⟨by simp [h0.2.symm], ring 0 i (by omega) hf⟩
    · refine ⟨by simp, ?_⟩
      simp only [Has.symm (v := Vx.top)]
      exact top _ h0.1
  | bot i =>
    have h0 := hN hf
    simp only [vedges, corners, List.mem_cons, List.not_mem_nil, or_false] at he
    rcases he with rfl | rfl | rfl
    · exact ⟨by simp, bot _ h0.1⟩
    · refine ⟨by simp [h0.2], ?_⟩
      simp only [Has.symm (u := Vx.ring (rows - 1) (next n i))]
      exact ring (rows - 1) i (by omega) hf
    · refine ⟨by simp, ?_⟩
      simp only [Has.symm (v := Vx.bot)]
      exact bot _ hf
  | s1 r i =>
    have h0 := hN hf.2
    simp only [vedges, corners, List.mem_cons, List.not_mem_nil, or_false] at he
    rcases he with rfl | rfl | rfl
    · exact ⟨by simp, vert r i hf.1 hf.2⟩
    · exact ⟨by simp [h0.2.symm], ring (r + 1) i hf.1 hf.2⟩
    · refine ⟨by simp, ?_⟩
      simp only [Has.symm (v := Vx.ring r i)]
      exact diag r i hf.1 hf.2
  | s2 r i =>
    have h0 := hN hf.2
    simp only [vedges, corners, List.mem_cons, List.not_mem_nil, or_false] at he
    rcases he with rfl | rfl | rfl
    · exact ⟨by simp [h0.2.symm], ring r i (by have := hf.1; omega) hf.2⟩
    · exact ⟨by simp, vert r _ hf.1 h0.1⟩
    · refine ⟨by simp, ?_⟩
      simp only [Has.symm (v := Vx.ring r i)]
      exact diag r i hf.1 hf.2

/-- **C33** For at least two rings of at least three vertices, every index is that of an existing
vertex (the ring vertices and the two centres) and every edge belongs to exactly two
triangles. -/
theorem C33_watertight {n rows : ℕ} (hn : 3 ≤ n) (hrows : 2 ≤ rows) :
    (∀ t ∈ getFaces n rows, t.1 < rows * n + 2 ∧ t.2.1 < rows * n + 2 ∧ t.2.2 < rows * n + 2) ∧
    Watertight (getFaces n rows) := by
  have h1 : 1 ≤ rows := by omega
  rw [getFaces_eq]
  constructor
  · intro t ht
    rw [List.mem_map] at ht
    obtain ⟨f, hf, rfl⟩ := ht
    rw [mem_names] at hf
    obtain ⟨v1, v2, v3⟩ := valid_corners h1 hf
    have hlt : ∀ {v}, Valid n rows v → enc n rows v < rows * n + 2 := by
      intro v hv
      cases v with
      | ring r i => have := enc_lt hv.1 hv.2; simp only [enc]; omega
      | _ => simp only [enc]; omega
    exact ⟨hlt v1, hlt v2, hlt v3⟩
  · intro t ht e he
    rw [List.mem_map] at ht
    obtain ⟨f, hf, rfl⟩ := ht
    rw [mem_names] at hf
    obtain ⟨v1, v2, v3⟩ := valid_corners h1 hf
    obtain ⟨u, hu, hu1, hu2, rfl⟩ : ∃ u ∈ vedges n rows f, Valid n rows u.1 ∧ Valid n rows u.2 ∧
        (enc n rows u.1, enc n rows u.2) = e := by
      simp only [Tri.edges, tri, List.mem_cons, List.not_mem_nil, or_false] at he
      rcases he with rfl | rfl | rfl
      · exact ⟨((corners n rows f).1, (corners n rows f).2.1), by simp [vedges], v1, v2, rfl⟩
      · exact ⟨((corners n rows f).2.1, (corners n rows f).2.2), by simp [vedges], v2, v3, rfl⟩
      · exact ⟨((corners n rows f).2.2, (corners n rows f).1), by simp [vedges], v3, v1, rfl⟩
    obtain ⟨hne, a, b, ha, hb, hab, hiff⟩ := share hn hrows hf hu
    refine ⟨fun h => hne (enc_inj hu1 hu2 h), ?_⟩
    rw [List.countP_map]
    refine countP_eq_two (nodup_names n rows) hab fun x => ?_
    rw [mem_names]
    constructor
    · rintro ⟨hx, hr⟩
      simp only [Function.comp_apply, Bool.or_eq_true] at hr
      rw [runs_iff h1 hx hu1 hu2, runs_iff h1 hx hu2 hu1] at hr
      exact (hiff x hx).1 hr
    · intro hx
      have hxv : FcValid n rows x := by rcases hx with rfl | rfl <;> assumption
      refine ⟨hxv, ?_⟩
      simp only [Function.comp_apply, Bool.or_eq_true]
      rw [runs_iff h1 hxv hu1 hu2, runs_iff h1 hxv hu2 hu1]
      exact (hiff x hxv).2 hx

/-- Non-vacuity: three rings of four vertices, 24 triangles. -/
example : (getFaces 4 3).length = 24 ∧ Watertight (getFaces 4 3) :=
  ⟨by decide, (C33_watertight (by norm_num) (by norm_num)).2⟩

/-- **C34** is false of the code for every size: the two triangles between the same pair of
vertices run along their common diagonal in the same direction. -/
theorem C34_never_oriented {n rows : ℕ} (hn : 1 ≤ n) (hrows : 2 ≤ rows) :
    ¬ Oriented (getFaces n rows) := by
  intro h
  have h1 : 1 ≤ rows := by omega
  have m1 : Fc.s1 0 0 ∈ names n rows := mem_names.2 ⟨by omega, by omega⟩
  have m2 : Fc.s2 0 0 ∈ names n rows := mem_names.2 ⟨by omega, by omega⟩
  rw [getFaces_eq] at h
  have hc := (h (tri n rows (.s1 0 0)) (List.mem_map_of_mem m1)
    ((tri n rows (.s1 0 0)).2.2, (tri n rows (.s1 0 0)).1) (by simp [Tri.edges])).1
  rw [List.countP_map, List.countP_eq_length_filter] at hc
  have hsub : ([Fc.s1 0 0, Fc.s2 0 0] : List Fc).length
      ≤ ((names n rows).filter ((fun g => Tri.runs (tri n rows (.s1 0 0)).2.2
          (tri n rows (.s1 0 0)).1 g) ∘ tri n rows)).length := by
    refine (List.subperm_of_subset (by simp) fun x hx => ?_).length_le
    simp only [List.mem_cons, List.not_mem_nil, or_false] at hx
    rw [List.mem_filter]
    rcases hx with rfl | rfl
    · exact ⟨m1, by simp [Tri.runs, Tri.edges]⟩
    · exact ⟨m2, by simp [Tri.runs, Tri.edges, tri, corners]⟩
  have := hsub.trans hc.le
  simp at this

end Welleng.Props

