import Verif.Props.ManyWalkers
import Mathlib.Probability.Independence.InfinitePi
import Mathlib.MeasureTheory.Constructions.Pi
import Mathlib.MeasureTheory.Measure.Lebesgue.Basic

/-
C139: independent walkers exist for every distribution; walkers distributed uniformly in a square.
-/

namespace Bdld

open MeasureTheory ProbabilityTheory Filter Topology Spec

/-- Every distribution has independent walkers. -/
theorem sample_exists {d : Nat} (ν : Measure (Fin d → ℝ)) [IsProbabilityMeasure ν] :
    Sample (Measure.infinitePi (fun _ : ℕ => ν)) ν (fun i ω => ω i) where
  measurable := fun i => measurable_pi_apply i
  law := fun i => Measure.infinitePi_map_eval (fun _ : ℕ => ν) i
  indep := fun _ _ hij => (iIndepFun_infinitePi (X := fun (_ : ℕ) (ω : Fin d → ℝ) => ω)
    (fun _ => measurable_id)).indepFun hij

/-- The uniform distribution in the unit square. -/
noncomputable def squareUniform : Measure (Fin 2 → ℝ) := Measure.pi (fun _ => volume.restrict (Set.Icc 0 1))

instance : IsProbabilityMeasure ((volume : Measure ℝ).restrict (Set.Icc 0 1)) := ⟨by simp⟩

instance : IsProbabilityMeasure squareUniform := by
  unfold squareUniform
  infer_instance

theorem square_compact : IsCompact (Set.pi Set.univ (fun _ : Fin 2 => Set.Icc (0 : ℝ) 1)) :=
  isCompact_univ_pi (fun _ => isCompact_Icc)

theorem square_mem : ∀ᵐ y ∂squareUniform, y ∈ Set.pi Set.univ (fun _ : Fin 2 => Set.Icc (0 : ℝ) 1) := by
  have h : ∀ᵐ y ∂squareUniform, ∀ i, y i ∈ Set.Icc (0 : ℝ) 1 := by
    rw [ae_all_iff]
    intro i
    unfold squareUniform
    exact Measure.tendsto_eval_ae_ae (μ := fun _ : Fin 2 => (volume : Measure ℝ).restrict (Set.Icc 0 1))
      (i := i) (ae_restrict_mem measurableSet_Icc)
  filter_upwards [h] with y hy i _ using hy i

/-- Walkers in the unit square, potential `x² + 2 y`, bandwidths 0.1 and 0.2: the rates of the original variant
converge. -/
example : ∀ᵐ ω ∂(Measure.infinitePi (fun _ : ℕ => squareUniform)), ∀ ε > 0, ∃ N, ∀ n ≥ N, ∀ i : Fin n, ∃ b : ℝ,
    calcBetas ⟨![0.1, 0.2], 0.5, .orig, fun _ => 0⟩ (fun j : Fin n => ω j) (fun j => ω j 0 ^ 2 + 2 * ω j 1) i
      = (b : WithBot ℝ) ∧
    |b - limitRate ![0.1, 0.2] squareUniform (fun x => (x 0 ^ 2 + 2 * x 1) / 0.5) (ω i)| < ε := by
  have hc : Continuous (fun x : Fin 2 → ℝ => x 0 ^ 2 + 2 * x 1) := by fun_prop
  refine rates_many_orig (sample_exists squareUniform) ⟨![0.1, 0.2], 0.5, .orig, fun _ => 0⟩ ?_ rfl
    (fun x => x 0 ^ 2 + 2 * x 1) square_compact square_mem hc.measurable ?_
  · intro k
    fin_cases k <;> norm_num
  · obtain ⟨b, hb⟩ := square_compact.exists_bound_of_continuousOn hc.continuousOn
    exact Integrable.of_bound hc.aestronglyMeasurable b
      (by filter_upwards [square_mem] with y hy using hb y hy)

end Bdld
