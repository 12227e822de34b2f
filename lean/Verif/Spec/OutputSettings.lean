import Verif.Spec.Options

/-
Output settings that contradict each other. Independent of the set-up functions.
-/

namespace Bdld.Spec

/-- `[histogram]`: files are wanted regularly, but there is no name. -/
def BadHistogramOutput (o : Dict (OptVal ℝ)) : Prop := 0 < natOption o "write-stride" 0 ∧ hasFilename o = false

/-- `[fes]`: files or plots are wanted regularly, but the FES is not calculated regularly or there is no name. -/
def BadFesOutput (o : Dict (OptVal ℝ)) : Prop :=
  0 < natOption o "write-stride" 0 ∧ (natOption o "stride" 0 = 0 ∨ hasFilename o = false) ∨
    intOption o "plot-stride" ≠ 0 ∧ (natOption o "stride" 0 = 0 ∨ strOption o "plot-filename" = "")

/-- `[delta-f]`, `[particle-distribution]`: values are calculated regularly, but there is no name for the file, or the file is
written at steps without value. -/
def BadSeriesOutput (o : Dict (OptVal ℝ)) : Prop :=
  0 < natOption o "stride" 0 ∧ 0 < natOption o "write-stride" 0 ∧
    (hasFilename o = false ∨ ¬ natOption o "stride" 0 ∣ natOption o "write-stride" 0)

/-- One of the sections has contradicting settings. -/
def BadOutput (config : Input ℝ) : Prop :=
  (∃ o, config.histogram = some o ∧ BadHistogramOutput o) ∨ (∃ o, config.fes = some o ∧ BadFesOutput o) ∨
    (∃ o, config.deltaF = some o ∧ BadSeriesOutput o) ∨ ∃ o, config.particleDistribution = some o ∧ BadSeriesOutput o

end Bdld.Spec
