import Verif.Spec.Rounding
import Verif.Spec.Bins

/-
Error of computed bin edges, and points that are not close to an edge.
-/

namespace Bdld.Spec

/-- Error of computed edges of `n` bins of a range of length `Δ` with absolute values at most `M`: three roundings of the distance
from the lower end, one of the edge. -/
noncomputable def edgeErr (u η Δ M : ℝ) (n : Nat) : ℝ :=
  (1 + u) * (((1 + u) ^ 3 - 1) * Δ + ((1 + u) * n + 1) * η) + u * M

/-- The point has more than the distance `δ` from all edges, in all dimensions. -/
def Clear (δ : ℝ) : List (List ℝ) → List ℝ → Prop
  | e :: es, x :: xs => (∀ b ∈ e, δ < |x - b|) ∧ Clear δ es xs
  | _, _ => True

section
variable {F : Type} [Add F] [Sub F] [Mul F] [Div F] [Neg F] [LT F]

/-- Computed edges approximate exact ones. -/
def NearEdges (A : Rounding F) (δ : ℝ) (edges : List F) (exact : List ℝ) : Prop :=
  List.Forall₂ (fun a b => A.fin a ∧ |A.val a - b| ≤ δ) edges exact

/-- A computed point approximates an exact one. -/
def NearPoint (A : Rounding F) (ε : ℝ) (p : List F) (q : List ℝ) : Prop :=
  List.Forall₂ (fun a b => A.fin a ∧ |A.val a - b| ≤ ε) p q

end

end Bdld.Spec
