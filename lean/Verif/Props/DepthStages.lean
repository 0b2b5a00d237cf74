import Verif.Props.Architecture

/-!
C379: a string run to a depth in stages.
-/

namespace Welleng.Props

open Arch Spec

variable {α V : Type} [Field α] [LinearOrder α] [IsStrictOrderedRing α]

theorem dropBf_dropBf (x : α × List (String × V)) : dropBf (dropBf x) = dropBf x := by
  simp [dropBf]

theorem take_sum_mono {l : List α} (h : ∀ x ∈ l, 0 < x) {a b : ℕ} (hab : a ≤ b) :
    (l.take a).sum ≤ (l.take b).sum := by
  obtain ⟨c, rfl⟩ := Nat.exists_eq_add_of_le hab
  rw [List.take_add, List.sum_append]
  exact le_add_of_nonneg_right (Arch.sum_nonneg' fun x hx =>
    h x (List.mem_of_mem_drop (List.mem_of_mem_take hx)))

theorem pieces_needed {l : List α} (h : ∀ x ∈ l, 0 < x) {D : α} {a b : ℕ}
    (ha : (l.take (a - 1)).sum < D) (ha' : D ≤ (l.take a).sum)
    (hb : (l.take (b - 1)).sum < D) (hb' : D ≤ (l.take b).sum) : a = b := by
  rcases lt_trichotomy a b with hlt | he | hlt
  · exact absurd (ha'.trans (take_sum_mono h (show a ≤ b - 1 by omega))) (not_le.2 hb)
  · exact he
  · exact absurd (hb'.trans (take_sum_mono h (show b ≤ a - 1 by omega))) (not_le.2 ha)

theorem str_eq {s t : Str α V} {L : List (Sec α V)} {c : α} (hs : Building s L c) (ht : Building t L c)
    (h1 : s.top = t.top) (h2 : s.bottom = t.bottom) (h3 : s.complete = t.complete) : s = t := by
  have hsec : s.sections = t.sections := by
    have e1 := hs.idx
    have e2 := ht.idx
    unfold Indexed at e1 e2
    have hl : s.sections.length = t.sections.length := by
      have := congrArg List.length (hs.secs.trans ht.secs.symm)
      simpa using this
    rw [← List.zip_unzip s.sections, ← List.zip_unzip t.sections, List.unzip_eq_map, List.unzip_eq_map]
    simp only [e1, e2, hl, hs.secs, ht.secs]
  have h4 := hs.kind.trans ht.kind.symm
  have h5 := hs.meth.trans ht.meth.symm
  cases s; cases t
  simp only at h1 h2 h3 h4 h5 hsec
  subst h1 h2 h3 h4 h5 hsec
  rfl

/-- **C379** Running a string to a depth and the result to a shallower depth is running the string to the
shallower depth at once: the same sections with the same properties, and the same depths. -/
theorem C379_stages {top bottom m₁ m₂ : α} (d0 : V) {pieces : List (α × List (String × V))}
    (hpos : ∀ x ∈ pieces, 0 < x.1) (hsum : (pieces.map Prod.fst).dropLast.sum < bottom - top)
    (h₂ : top < m₂) (h₁ : m₂ ≤ m₁) (h₀ : m₁ ≤ bottom) {s : Str α V}
    (hs : addAll d0 (Str.init .string top bottom .bottomUp) (pieces.map lenKw) = (s, .ok ()))
    (hc : s.complete = true) :
    ∃ s₁ s₂, depth d0 s m₁ = .ok s₁ ∧ depth d0 s₁ m₂ = .ok s₂ ∧ depth d0 s m₂ = .ok s₂ := by
  obtain ⟨s0, e1, hB, ht, hb, hcomp⟩ := build_run d0 pieces (building_init top bottom) hpos (fun _ => hsum)
  rw [hs] at e1
  injection e1 with e1 _
  subst e1
  replace ht : s.top = top := ht
  replace hb : s.bottom = bottom := hb
  have htot : bottom - top ≤ (pieces.map Prod.fst).sum := by
    rcases hcomp.mp hc with h | h
    · simp [Str.init] at h
    · exact h.2
  have hes : s.sections.reverse.map Prod.snd = stackSecs top bottom pieces := by
    rw [List.map_reverse, hB.secs, List.append_nil, List.reverse_reverse]
    rfl
  have run : ∀ m, top < m → m ≤ bottom → ∃ s' k, depth d0 s m = .ok s' ∧
      ((pieces.take (k - 1)).map Prod.fst).sum < m - top ∧ m - top ≤ ((pieces.take k).map Prod.fst).sum ∧
      Building s' ((stackSecs top m ((pieces.take k).map dropBf)).reverse ++ []) top ∧
      s'.top = top ∧ s'.bottom = m ∧ s'.complete = true := by
    intro m hm hm'
    obtain ⟨s', k, a1, a2, a3, a4, a5, a6, a7, a8, a9⟩ := depth_run d0 pieces
      (s := Str.init .string top m .bottomUp) (building_init top m) (es := s.sections.reverse)
      (b0 := bottom) hes hpos hm (by show m - top ≤ _; linarith)
    refine ⟨s', k, ?_, a4, a5, a6, a7, a8, a9⟩
    unfold depth
    rw [ht, hb]
    simp only [check, hm, hm', and_self, decide_true, if_true, bind, Except.bind]
    exact a1
  obtain ⟨s₁, k₁, r1, r2, r3, r4, r5, r6, -⟩ := run m₁ (h₂.trans_le h₁) h₀
  obtain ⟨s₂, k₂, q1, q2, q3, q4, q5, q6, q7⟩ := run m₂ h₂ (h₁.trans h₀)
  have hfst : ∀ l : List (α × List (String × V)), (l.map dropBf).map Prod.fst = l.map Prod.fst := by
    intro l; rw [List.map_map]; rfl
  have hes₁ : s₁.sections.reverse.map Prod.snd = stackSecs top m₁ ((pieces.take k₁).map dropBf) := by
    rw [List.map_reverse, r4.secs, List.append_nil, List.reverse_reverse]
  have hpos₁ : ∀ x ∈ (pieces.take k₁).map dropBf, 0 < x.1 := by
    intro x hx
    obtain ⟨y, hy, rfl⟩ := List.mem_map.1 hx
    exact hpos y (List.mem_of_mem_take hy)
  obtain ⟨s₃, k₃, a1, a2, a3, a4, a5, a6, a7, a8, a9⟩ := depth_run d0 ((pieces.take k₁).map dropBf)
    (s := Str.init .string top m₂ .bottomUp) (building_init top m₂) (es := s₁.sections.reverse)
    (b0 := m₁) hes₁ hpos₁ h₂ (by rw [hfst]; show m₂ - top ≤ _; linarith)
  replace a4 : ((((pieces.take k₁).map dropBf).take (k₃ - 1)).map Prod.fst).sum < m₂ - top := a4
  replace a5 : m₂ - top ≤ ((((pieces.take k₁).map dropBf).take k₃).map Prod.fst).sum := a5
  replace a6 : Building s₃ ((stackSecs top m₂ ((((pieces.take k₁).map dropBf).take k₃).map dropBf)).reverse ++ [])
    top := a6
  have hk : k₃ ≤ k₁ := a3.trans (by simp)
  have t1 : ∀ j ≤ k₁, ((pieces.take k₁).map dropBf).take j = (pieces.take j).map dropBf := by
    intro j hj
    rw [← List.map_take, List.take_take, min_eq_left hj]
  rw [t1 _ (by omega), hfst] at a4
  rw [t1 _ hk, hfst] at a5
  have hlen : ∀ x ∈ pieces.map Prod.fst, 0 < x := by
    intro x hx
    obtain ⟨y, hy, rfl⟩ := List.mem_map.1 hx
    exact hpos y hy
  have hkk : k₃ = k₂ := by
    rw [List.map_take] at a4 a5 q2 q3
    exact pieces_needed hlen a4 a5 q2 q3
  subst hkk
  rw [t1 _ hk, List.map_map, show (dropBf ∘ dropBf : α × List (String × V) → _) = dropBf from
    funext dropBf_dropBf] at a6
  have he : s₃ = s₂ := str_eq a6 q4 (a7.trans q5.symm) (a8.trans q6.symm) (a9.trans q7.symm)
  subst he
  refine ⟨s₁, s₃, r1, ?_, q1⟩
  unfold depth
  rw [r5, r6]
  simp only [check, h₂, h₁, and_self, decide_true, if_true, bind, Except.bind]
  exact a1

/-- Non-vacuity: a string of two pieces run to 60 m and then to 20 m, where only the lower piece is left. -/
example : ∃ s s₁ s₂ : Str ℚ ℤ, addAll 0 (Str.init .string 0 100 .bottomUp)
      ([(30, [("od", 8)]), (500, [("od", 5)])].map lenKw) = (s, .ok ()) ∧
    depth 0 s 60 = .ok s₁ ∧ depth 0 s₁ 20 = .ok s₂ ∧ depth 0 s 20 = .ok s₂ := by
  obtain ⟨s, h1, -, h3⟩ := C04_build (α := ℚ) (V := ℤ) (top := 0) (bottom := 100) 0
    (pieces := [(30, [("od", 8)]), (500, [("od", 5)])])
    (by intro x hx; simp at hx; rcases hx with rfl | rfl <;> norm_num) (by simp) (by norm_num)
  obtain ⟨s₁, s₂, a, b, c⟩ := C379_stages 0 (m₁ := 60) (m₂ := 20)
    (by intro x hx; simp at hx; rcases hx with rfl | rfl <;> norm_num) (by norm_num) (by norm_num)
    (by norm_num) (by norm_num) h1 (h3.mpr (by norm_num))
  exact ⟨s, s₁, s₂, h1, a, b, c⟩

end Welleng.Props
