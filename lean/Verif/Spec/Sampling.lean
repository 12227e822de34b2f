import Verif.Spec.Bins
import Verif.Spec.ManyWalkers
import Mathlib.MeasureTheory.Measure.WithDensity
import Mathlib.MeasureTheory.Constructions.Pi
import Mathlib.MeasureTheory.Measure.Lebesgue.Basic

/-
Specification of histograms of independent samples: the region of a bin, the canonical distribution in a region, the
largest probability of a bin and the probability of the bins of a state. Independent of the model.
-/

namespace Bdld.Spec

open MeasureTheory

/-- The points in the bin with the given multi-index. -/
def binRegion {d : Nat} (bins : List (List ℝ)) (idx : List Nat) : Set (Fin d → ℝ) :=
  {x | InBin bins idx (List.ofFn x)}

/-- Evenly spaced edges with the given width of the bins. -/
def EvenBins (w : ℝ) (e : List ℝ) : Prop :=
  ∀ (i : Nat) (lo hi : ℝ), e[i]? = some lo → e[i + 1]? = some hi → hi - lo = w

noncomputable section

/-- The largest of the probabilities. -/
def largest (l : List ℝ) : ℝ := l.foldr max 0

/-- Probability of the bins marked by a mask. -/
def markedSum (l : List ℝ) (mask : List Bool) : ℝ :=
  (List.zipWith (fun p (b : Bool) => if b then p else 0) l mask).sum

/-- The Boltzmann factor as density. -/
def weight {d : Nat} (U : (Fin d → ℝ) → ℝ) (kt : ℝ) (x : Fin d → ℝ) : ENNReal := ENNReal.ofReal (Real.exp (-U x / kt))

/-- The canonical distribution of the energy `U` in a region: density proportional to `exp (-U / kT)`. -/
def canonicalIn {d : Nat} (U : (Fin d → ℝ) → ℝ) (kt : ℝ) (S : Set (Fin d → ℝ)) : Measure (Fin d → ℝ) :=
  (∫⁻ x in S, weight U kt x)⁻¹ • (volume.restrict S).withDensity (weight U kt)

end

end Bdld.Spec
