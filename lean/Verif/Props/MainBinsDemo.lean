import Verif.Props.MainBins
import Verif.Props.ExampleInput

/-
C150 for the file `example_input`.
-/

namespace Bdld

open Spec

noncomputable section

/-- The options of the example: 200 bins between -2.5 and 2.5. -/
theorem example_binOptions : BinOptions exampleHistOpts 0 (-5 / 2) (5 / 2) 200 := ⟨rfl, rfl, rfl⟩

variable {R : Type}

/-- C150 for the example: it runs to the end, and its histogram always has the edges -2.5, -2.475, …, 2.5. -/
theorem example_bins (w : World R) (hconv : w.conv = realConv) (hops : w.bdOps.Lawful) (hinit : w.init.Lawful)
    (hlin : LinearGriddata w) (hpng : saveable w.figFormats "fes.png" = true) :
    ∃ (cfg : SimCfg 1) (sim s0 : Sim 1 R) (n : Nat) (hr : FinishedRun w (some exampleFile) ⟨1, cfg, sim⟩ exampleInput n s0),
      ∀ t ≤ n, (hr.histAt t).bins = [(List.range 201).map fun i : Nat => -5 / 2 + (i : ℝ) / 40] := by
  have hp := example_parse
  rw [← hconv] at hp
  obtain ⟨⟨d, cfg, sim⟩, ha⟩ := line_progress w (some exampleFile) exampleInput hp (example_consistent hpng w.terminal) hops hinit hlin
    (fun o ho => .inl (by cases ho; rfl))
  obtain ⟨config, n, s0, hr⟩ := main_run w _ _ ha
  have hp' := hr.parse
  rw [hp] at hp'
  cases hp'
  obtain ⟨hd, _⟩ := (main_potential hr).oneDim rfl rfl
  simp only at hd
  subst hd
  refine ⟨cfg, sim, s0, n, hr, fun t ht => ?_⟩
  obtain ⟨edges, he, hall, _⟩ := main_bins hr exampleHistOpts rfl
  rw [hall t ht]
  obtain ⟨lo, hi, m, ho, _, _, h0⟩ := he.edges 0 Nat.one_pos
  have e1 := ho.min.symm.trans example_binOptions.min
  have e2 := ho.max.symm.trans example_binOptions.max
  have e3 := ho.bins.symm.trans example_binOptions.bins
  cases e1; cases e2; cases e3
  have hlen : edges.length = 1 := he.dims
  obtain ⟨e, rfl⟩ := List.length_eq_one_iff.1 hlen
  rw [List.getElem?_cons_zero, Option.some.injEq] at h0
  rw [h0]
  unfold widened
  rw [if_neg (by norm_num)]
  congr 1
  refine List.map_congr_left fun i _ => ?_
  push_cast
  ring

/-- The first walker of the histogram, at 0, is in interval 100 of the example; 2.5 itself belongs to the last one. -/
example : InBins exampleHistOpts 1 [100] [0] ∧ ¬ InBins exampleHistOpts 1 [99] [0] ∧ InBins exampleHistOpts 1 [199] [5 / 2] := by
  have key : ∀ (k : Nat) lo hi m, k < 1 → BinOptions exampleHistOpts k lo hi m → k = 0 ∧ lo = -5 / 2 ∧ hi = 5 / 2 ∧ m = 200 := by
    intro k lo hi m hk ho
    obtain rfl : k = 0 := by omega
    have e1 := ho.min.symm.trans example_binOptions.min
    have e2 := ho.max.symm.trans example_binOptions.max
    have e3 := ho.bins.symm.trans example_binOptions.bins
    cases e1; cases e2; cases e3
    exact ⟨rfl, rfl, rfl, rfl⟩
  refine ⟨⟨rfl, rfl, ?_⟩, fun h => ?_, ⟨rfl, rfl, ?_⟩⟩
  · intro k lo hi m i x ho h1 h2
    obtain ⟨rfl, rfl, rfl, rfl⟩ := key k lo hi m (List.getElem?_eq_some_iff.1 h1).1 ho
    cases h1; cases h2
    exact ⟨by norm_num, by norm_num, .inl (by norm_num)⟩
  · obtain ⟨_, _, h | h⟩ := h.2.2 0 _ _ _ 99 0 example_binOptions rfl rfl
    · norm_num at h
    · omega
  · intro k lo hi m i x ho h1 h2
    obtain ⟨rfl, rfl, rfl, rfl⟩ := key k lo hi m (List.getElem?_eq_some_iff.1 h1).1 ho
    cases h1; cases h2
    exact ⟨by norm_num, by norm_num, .inr ⟨rfl, rfl⟩⟩

end

end Bdld
