import Verif.Props.DeltaFExt
import Verif.Props.ExampleInput

/-
C138: the shipped example.
-/

namespace Bdld

open Spec

variable {R : Type}

theorem example_states : stateRanges exampleDfOpts = .ok [[(-5 / 2, 0)], [(0, 5 / 2)]] := by
  rfl

/-- **C138.** The free energy difference in the shipped example in every step: that of the two halves of the range at the
last multiple of 100 steps. It is a number in all steps after both halves were visited. -/
theorem example_deltaF {w : World R} {a : AnySim R} (hconv : w.conv = realConv) (hops : w.bdOps.Lawful)
    (h : mainText w (some exampleLines) = .finished a) : ∃ f s0, ∃ hr : FinishedRun w (some exampleFile) a exampleInput 10000 s0,
      a.cfg.deltaF = some f ∧ ∀ t ≤ 10000, calculateDeltaFX (s0.fesAt w a.cfg t) f.kt f.masks =
        .ok [freeEnergyDiffX 1 (stateCounts (hr.histAt (t / 100 * 100)) [(0, 5 / 2)])
          (stateCounts (hr.histAt (t / 100 * 100)) [(-5 / 2, 0)])] ∧
        ∀ t' ≤ 10000, t ≤ t' → ∀ s, stateCounts (hr.histAt (t / 100 * 100)) s ≤ stateCounts (hr.histAt (t' / 100 * 100)) s := by
  obtain ⟨s0, hr⟩ := example_finished hconv h
  obtain ⟨-, hlen, -, -, hkt, -⟩ := example_system hconv hops h
  obtain ⟨f, _, _, h1, _, _, h4, _⟩ := main_deltaFX hr exampleDfOpts exampleFesOpts rfl rfl _ example_states (by simp)
  have hstep : ∀ t, fesStep exampleFesOpts t = t / 100 * 100 := fun t => rfl
  refine ⟨f, s0, hr, h1, fun t ht => ⟨?_, fun t' ht' hle s => ?_⟩⟩
  · rw [h4 t ht, hstep, hkt]
    rfl
  · exact main_stateCounts_mono hr hops exampleTrajOpts exampleHistOpts rfl rfl rfl
      (by rw [← (main_walkers hr hops).2, hlen]; decide) _ _ (by omega) (by omega) s

end Bdld
