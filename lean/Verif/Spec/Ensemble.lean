import Verif.Spec.Stationary
import Mathlib.Probability.Independence.Basic

/-
Specification of a stream of random vectors and of a walker that takes vectors from the stream. Independent of the model.
-/

namespace Bdld.Spec

open MeasureTheory ProbabilityTheory

/-- Independent vectors of standard normal numbers. -/
structure NormalStream {Ω : Type} [MeasurableSpace Ω] (P : Measure Ω) {d : Nat} (g : ℕ → Ω → Fin d → ℝ) : Prop where
  measurable : ∀ i, Measurable (g i)
  law : ∀ i, P.map (g i) = standard d
  indep : iIndepFun g P

/-- A walker for `t` steps; in step number `i` it takes the vectors number `a i` and `b i` from the stream `g`. -/
def noisePath {d : Nat} (T : (Fin d → ℝ) → (Fin d → ℝ) → Phase d → Phase d) (a b : ℕ → ℕ) (g : ℕ → Fin d → ℝ) :
    ℕ → Phase d → Phase d
  | 0, s => s
  | t + 1, s => T (g (a t)) (g (b t)) (noisePath T a b g t s)

/-- A function of the stream that only looks at the vectors in `S`. -/
def OnlyOn {d : Nat} {α : Type} (S : Finset ℕ) (F : (ℕ → Fin d → ℝ) → α) : Prop :=
  ∀ g g', (∀ i ∈ S, g i = g' i) → F g = F g'

/-- The vectors taken in the first `n` steps. -/
def taken (a b : ℕ → ℕ) (n : ℕ) : Finset ℕ := (Finset.range n).image a ∪ (Finset.range n).image b

end Bdld.Spec
