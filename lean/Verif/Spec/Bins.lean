import Mathlib.Order.Defs.LinearOrder

/-
Specification of histogram bins: half-open intervals, the last one closed. Independent of the model.
-/

namespace Bdld.Spec

/-- `x` lies in bin `i` of the given edges: lower edge inclusive, upper edge exclusive, except for the
last bin, where the upper edge is inclusive. -/
def InBin1 {F : Type _} [LinearOrder F] (edges : List F) (i : Nat) (x : F) : Prop :=
  ∃ lo hi, edges[i]? = some lo ∧ edges[i + 1]? = some hi ∧ lo ≤ x ∧
    (x < hi ∨ (i + 2 = edges.length ∧ x = hi))

/-- A point lies in the bin with the given multi-index. -/
def InBin {F : Type _} [LinearOrder F] : List (List F) → List Nat → List F → Prop
  | [], [], [] => True
  | e :: es, i :: is, x :: xs => InBin1 e i x ∧ InBin es is xs
  | _, _, _ => False

/-- A coordinate lies in the histogram range. -/
def InRange1 {F : Type _} [LinearOrder F] (edges : List F) (x : F) : Prop :=
  ∃ lo hi, edges.head? = some lo ∧ edges.getLast? = some hi ∧ lo ≤ x ∧ x ≤ hi

/-- A point lies in the histogram range. -/
def InRange {F : Type _} [LinearOrder F] : List (List F) → List F → Prop
  | [], [] => True
  | e :: es, x :: xs => InRange1 e x ∧ InRange es xs
  | _, _ => False

/-- Edges that define bins: at least two, strictly increasing. -/
def GoodEdges {F : Type _} [LinearOrder F] (edges : List F) : Prop :=
  2 ≤ edges.length ∧ edges.Pairwise (· < ·)

end Bdld.Spec
