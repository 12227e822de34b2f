import Verif.Spec.Bins
import Verif.Spec.Console

/-
Specification for C150: the bins requested by the options `min`, `max` and `bins`.
-/

namespace Bdld.Spec

noncomputable section

/-- Coordinate `x` is in interval `i` of the `n` intervals of equal length between `lo` and `hi`. The lower end of an
interval belongs to it, the upper one only for the last. -/
def InInterval (lo hi : ℝ) (n i : Nat) (x : ℝ) : Prop :=
  i < n ∧ lo + i * ((hi - lo) / n) ≤ x ∧ (x < lo + (i + 1) * ((hi - lo) / n) ∨ i + 1 = n ∧ x = hi)

/-- The options of dimension `k`. -/
structure BinOptions (o : Dict (OptVal ℝ)) (k : Nat) (lo hi : ℝ) (n : Nat) : Prop where
  min : (floatsOf o "min")[k]? = some lo
  max : (floatsOf o "max")[k]? = some hi
  bins : (natsOf o "bins")[k]? = some n

/-- A position is in the cell with the given numbers of the intervals. -/
def InBins (o : Dict (OptVal ℝ)) (d : Nat) (idx : List Nat) (p : List ℝ) : Prop :=
  idx.length = d ∧ p.length = d ∧ ∀ k lo hi n i x, BinOptions o k lo hi n → idx[k]? = some i → p[k]? = some x →
    InInterval lo hi n i x

/-- The range of an option `min` equal to `max` has length 1. -/
def widened (lo hi : ℝ) : ℝ × ℝ := if lo = hi then (lo - 1 / 2, hi + 1 / 2) else (lo, hi)

/-- Edges as requested: in dimension `k` those of `n` intervals of equal length. -/
structure RequestedBins (o : Dict (OptVal ℝ)) (d : Nat) (edges : List (List ℝ)) : Prop where
  dims : edges.length = d
  edges : ∀ k, k < d → ∃ lo hi n, BinOptions o k lo hi n ∧ 1 ≤ n ∧ lo ≤ hi ∧
    edges[k]? = some ((List.range (n + 1)).map fun i : Nat =>
      (widened lo hi).1 + i * (((widened lo hi).2 - (widened lo hi).1) / n))

end

end Bdld.Spec
