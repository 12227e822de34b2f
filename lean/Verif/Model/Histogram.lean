import Verif.Model.Py
import Mathlib.Algebra.Field.Defs
import Mathlib.Order.Defs.LinearOrder

/-
Model of `bdld/histogram.py` and of the parts of `numpy.histogramdd` it uses.
`add` is order-only (any linear order of coordinates, e.g. doubles without NaN); `new` uses exact
arithmetic for the positions of the edges. Counts are natural numbers (numpy stores them as doubles, which
is exact below 2^53).
-/

namespace Bdld

/-- `np.searchsorted(edges, x, side="right")` for sorted edges: the number of edges `≤ x`. -/
def searchRight {F : Type _} [LinearOrder F] (edges : List F) (x : F) : Nat :=
  edges.countP (fun e => decide (e ≤ x))

/-- Bin of a coordinate in one dimension as computed by `numpy.histogramdd`: `searchsorted` to the right,
values equal to the last edge are shifted into the last bin, the outlier bins are dropped afterwards. -/
def binIndex {F : Type _} [LinearOrder F] (edges : List F) (x : F) : Option Nat :=
  let n := searchRight edges x
  let n := if edges.getLast? = some x then n - 1 else n
  if 1 ≤ n ∧ n + 1 ≤ edges.length then some (n - 1) else none

/-- Multi-dimensional bin of a point (`none` if it is outside in any dimension). -/
def binOf {F : Type _} [LinearOrder F] : List (List F) → List F → Option (List Nat)
  | [], [] => some []
  | e :: es, x :: xs =>
    match binIndex e x, binOf es xs with
    | some i, some is => some (i :: is)
    | _, _ => none
  | _, _ => none

/-- The attributes of a `Histogram` used here (`histogram.py:20-23`): the bin edges per dimension
(`bins`) and the counts (`data`, a function of the multi-index of the bin). -/
structure Histogram (F : Type _) where
  bins : List (List F)
  data : List Nat → Nat

/-- `np.histogramdd(points, bins)` : counts per bin. A wrong number of columns is a `ValueError`. -/
def histogramdd {F : Type _} [LinearOrder F] (bins : List (List F)) (points : List (List F)) :
    Except PyErr (List Nat → Nat) :=
  if points.all (fun p => p.length == bins.length) then
    .ok (fun idx => points.countP (fun p => decide (binOf bins p = some idx)))
  else .error .valueError

/-- `Histogram.add`, `histogram.py:53-60`. -/
def Histogram.add {F : Type _} [LinearOrder F] (h : Histogram F) (points : List (List F)) :
    Except PyErr (Histogram F) := do
  let tmp ← histogramdd h.bins points
  return { h with data := fun idx => h.data idx + tmp idx }

/-- `Histogram.clear`, `histogram.py:62-64`. -/
def Histogram.clear {F : Type _} (h : Histogram F) : Histogram F :=
  { h with data := fun _ => 0 }

/-- Edges of one dimension made by `numpy.histogramdd` for `n` bins in `(lo, hi)`
(`np.linspace(lo, hi, n + 1)`). Exact arithmetic. -/
def linEdges {F : Type _} [Field F] (lo hi : F) (n : Nat) : List F :=
  (List.range (n + 1)).map (fun i : Nat => lo + (i : F) * ((hi - lo) / (n : F)))

/-- `numpy.histogramdd`'s edges for a positive integer number of bins: `ValueError` if `hi < lo`; an
empty range `lo = hi` is widened by one half to both sides. -/
def npEdges {F : Type _} [Field F] [LinearOrder F] (n : Nat) (r : F × F) : Except PyErr (List F) :=
  if r.2 < r.1 then .error .valueError
  else if r.1 = r.2 then .ok (linEdges (r.1 - 1 / 2) (r.2 + 1 / 2) n)
  else .ok (linEdges r.1 r.2 n)

/-- `Histogram.__init__`, `histogram.py:36-51`: the edges are obtained by histogramming one point at the
origin (`np.zeros((1, n_dim))`), the result of which also becomes the initial data. Different numbers of
`n_bins` and `ranges` raise (`IndexError` if there are more ranges, from `stepsizes_from_npoints`,
grid.py:277; `ValueError` from numpy if there are fewer), as does a number of bins of zero
(`ZeroDivisionError` from `stepsizes_from_npoints`). -/
def Histogram.new {F : Type _} [Field F] [LinearOrder F] (nBins : List Nat) (ranges : List (F × F)) :
    Except PyErr (Histogram F) := do
  if nBins.length < ranges.length then throw .indexError
  if (nBins.zip ranges).any (fun nr => nr.1 == 0) then throw .zeroDivisionError
  if ranges.length < nBins.length then throw .valueError
  let bins ← (nBins.zip ranges).mapM (fun nr => npEdges nr.1 nr.2)
  let data ← histogramdd bins [List.replicate nBins.length 0]
  return { bins := bins, data := data }

end Bdld
