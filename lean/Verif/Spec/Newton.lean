import Verif.Spec.Path
import Mathlib.Analysis.Calculus.Deriv.Pi
import Mathlib.Analysis.Calculus.MeanValue

/-
Solutions of Newton's equations.
-/

namespace Bdld.Spec

open Set

/-- `x` and `p` are position and momentum of a particle with mass `m` in the force field `f` during the time `T`. -/
structure NewtonPath {d : Nat} (f : (Fin d → ℝ) → Fin d → ℝ) (m T : ℝ) (x p : ℝ → Fin d → ℝ) : Prop where
  pos : ∀ t ∈ Icc 0 T, HasDerivWithinAt x (fun k => p t k / m) (Icc 0 T) t
  mom : ∀ t ∈ Icc 0 T, HasDerivWithinAt p (f (x t)) (Icc 0 T) t

end Bdld.Spec
