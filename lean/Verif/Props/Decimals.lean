import Verif.Props.FromConnections

/-!
C358: the argument `decimals` of `from_connections`.
-/

namespace Welleng.Props

open Real Welleng Spec Con Rs Fc

/-- Two straights down, to 100 m and on for 0.02 mm. -/
noncomputable def shortLast : List Conn :=
  [⟨.hold, 0, 100, none, none, ⟨0, 0, 1⟩, ⟨0, 0, 1⟩, ⟨0, 0, 1⟩, ⟨0, 0, 1⟩, 0, 0, 0, 0⟩,
   ⟨.hold, 100, 100.00002, none, none, ⟨0, 0, 1⟩, ⟨0, 0, 1⟩, ⟨0, 0, 1⟩, ⟨0, 0, 1⟩, 0, 0, 0, 0⟩]

/-- **C358** is false of the code: with `decimals=6` two ends of connections whose depths differ at six
decimals are taken for duplicates, and the end of the well is not a station of the survey. -/
theorem C358_end_lost {key : ℕ → ℝ → ℤ} (hk : RoundsTo4 (key 4))
    (hk6 : ∀ x, |(key 6 x : ℝ) - x * 1000000| ≤ 1 / 2) :
    key 6 100 ≠ key 6 100.00002 ∧
    ∃ out, fromConnections key 6 none shortLast = .ok out ∧ (100.00002 : ℝ) ∉ out.map Station.md := by
  constructor
  · intro h
    have h1 := abs_le.mp (hk6 100)
    have h2 := abs_le.mp (hk6 100.00002)
    rw [← h] at h2
    norm_num at h1 h2
    linarith
  · have k0 : key 4 0 = 0 := by
      have h := abs_le.mp (hk 0)
      have h1 : (key 4 0 : ℝ) < 1 := by linarith
      have h2 : (-1 : ℝ) < key 4 0 := by linarith
      have h1' : key 4 0 < 1 := by exact_mod_cast h1
      have h2' : -1 < key 4 0 := by exact_mod_cast h2
      omega
    have k1 : key 4 100 = 1000000 := by
      have h := abs_le.mp (hk 100)
      have h1 : (key 4 100 : ℝ) < 1000001 := by linarith
      have h2 : (999999 : ℝ) < key 4 100 := by linarith
      have h1' : key 4 100 < 1000001 := by exact_mod_cast h1
      have h2' : 999999 < key 4 100 := by exact_mod_cast h2
      omega
    have k2 : key 4 100.00002 = 1000000 := by
      have h := abs_le.mp (hk 100.00002)
      have h1 : (key 4 100.00002 : ℝ) < 1000001 := by norm_num at h ⊢; linarith
      have h2 : (999999 : ℝ) < key 4 100.00002 := by norm_num at h ⊢; linarith
      have h1' : key 4 100.00002 < 1000001 := by exact_mod_cast h1
      have h2' : 999999 < key 4 100.00002 := by exact_mod_cast h2
      omega
    refine ⟨[toStation (0, ⟨0, 0, 1⟩), toStation (100, ⟨0, 0, 1⟩)], ?_, ?_⟩
    · have e1 : holdMds 0 100 none true = [0, 100] := by simp [holdMds, gridRel]
      have e2 : holdMds 100 100.00002 none true = [100, 100.00002] := by
        norm_num [holdMds, gridRel]
      simp only [fromConnections, shortLast, wellRows, connRows, holdRows, e1, e2]
      simp [Sv.removeDuplicates, toStation, pairwise, k0, k1, k2]
    · simp only [List.map_cons, List.map_nil, toStation, List.mem_cons, List.not_mem_nil, or_false]
      norm_num

/-- **C358** (partial) Whatever `decimals` is given, depths more than `1e-4` apart are kept: every end and
joint of the connections is a station. -/
theorem C358_apart_partial {key : ℕ → ℝ → ℤ} (hk : RoundsTo4 (key 4)) {step : Option ℝ} {γ τ : ℝ → V3}
    (s : Conn) (l : List Conn) (h : ∀ x ∈ s :: l, Follows γ τ x)
    (hj : (s :: l).IsChain fun x y => y.md1 = x.mdT) (hs : ∀ st, step = some st → 0 < st)
    (ha : WantedApart step ((s :: l).flatMap joints)) :
    ∃ out, (∀ decimals, fromConnections key decimals step (s :: l) = .ok out) ∧
      out.IsChain (fun x y => x.md < y.md) ∧ ∀ c ∈ s :: l, ∀ x ∈ joints c, x ∈ out.map Station.md := by
  obtain ⟨out, h1, h2, -, -, h5, -⟩ := C356_on_path hk 4 s l h hj hs ha
  exact ⟨out, fun _ => h1, h2, h5⟩

/-- Rounding half up meets the hypotheses of `C358_end_lost`. -/
example : RoundsTo4 (fun x => round (x * 10 ^ 4)) ∧
    ∀ x : ℝ, |((round (x * 10 ^ 6) : ℤ) : ℝ) - x * 1000000| ≤ 1 / 2 := by
  refine ⟨fun x => ?_, fun x => ?_⟩
  · rw [abs_sub_comm, show (10000 : ℝ) = 10 ^ 4 by norm_num]; exact abs_sub_round _
  · rw [abs_sub_comm, show (1000000 : ℝ) = 10 ^ 6 by norm_num]; exact abs_sub_round _

end Welleng.Props
