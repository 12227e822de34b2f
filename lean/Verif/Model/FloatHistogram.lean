import Verif.Model.Histogram

/-
Model of `bdld/histogram.py` and of `numpy.histogramdd` and `numpy.linspace` for any kind of numbers: the operations are those of the
code in the order of the code. (With exact numbers: `Model/Histogram.lean`.) Comparisons are made with `<` only: `a ≤ b` is
`¬ b < a`, `a == b` is neither `a < b` nor `b < a` (right for all numbers except NaN).
-/

namespace Bdld

section
variable {F : Type} [Add F] [Sub F] [Mul F] [Div F] [LT F] [DecidableLT F]

/-- `a == b`. -/
def eqF (a b : F) : Bool := !decide (a < b) && !decide (b < a)

/-- `np.searchsorted(edges, x, side="right")` for sorted edges: the number of edges `≤ x`. -/
def searchRightF (edges : List F) (x : F) : Nat := edges.countP (fun e => !decide (x < e))

/-- Bin of a coordinate, see `binIndex`. -/
def binIndexF (edges : List F) (x : F) : Option Nat :=
  let n := searchRightF edges x
  let n := if (edges.getLast?.map (eqF · x)).getD false then n - 1 else n
  if 1 ≤ n ∧ n + 1 ≤ edges.length then some (n - 1) else none

/-- Multi-dimensional bin of a point. -/
def binOfF : List (List F) → List F → Option (List Nat)
  | [], [] => some []
  | e :: es, x :: xs =>
    match binIndexF e x, binOfF es xs with
    | some i, some is => some (i :: is)
    | _, _ => none
  | _, _ => none

/-- `np.histogramdd(points, bins)`. -/
def histogramddF (bins : List (List F)) (points : List (List F)) : Except PyErr (List Nat → Nat) :=
  if points.all (fun p => p.length == bins.length) then
    .ok (fun idx => points.countP (fun p => decide (binOfF bins p = some idx)))
  else .error .valueError

/-- `Histogram.add`, `histogram.py:53-60`. -/
def Histogram.addF (h : Histogram F) (points : List (List F)) : Except PyErr (Histogram F) := do
  let tmp ← histogramddF h.bins points
  return { h with data := fun idx => h.data idx + tmp idx }

/-- `np.linspace(lo, hi, n + 1)` for `n ≥ 1`: `step = (hi - lo) / n`, `y = arange(0, n + 1) * step + lo` (if `step == 0`:
`y = arange(0, n + 1) / n * (hi - lo) + lo`), and the last value is set to `hi`. -/
def linEdgesF (zero : F) (ofNat : Nat → F) (lo hi : F) (n : Nat) : List F :=
  let delta := hi - lo
  let step := delta / ofNat n
  (List.range n).map (fun i =>
    (if eqF step zero then ofNat i / ofNat n * delta else ofNat i * step) + lo) ++ [hi]

/-- `numpy.histogramdd`'s edges for a positive integer number of bins. -/
def npEdgesF (zero half : F) (ofNat : Nat → F) (n : Nat) (r : F × F) : Except PyErr (List F) :=
  if r.2 < r.1 then .error .valueError
  else if eqF r.1 r.2 then .ok (linEdgesF zero ofNat (r.1 - half) (r.2 + half) n)
  else .ok (linEdgesF zero ofNat r.1 r.2 n)

/-- `Histogram.__init__`, `histogram.py:36-51`. -/
def Histogram.newF (zero half : F) (ofNat : Nat → F) (nBins : List Nat) (ranges : List (F × F)) : Except PyErr (Histogram F) := do
  if nBins.length < ranges.length then throw .indexError
  if (nBins.zip ranges).any (fun nr => nr.1 == 0) then throw .zeroDivisionError
  if ranges.length < nBins.length then throw .valueError
  let bins ← (nBins.zip ranges).mapM (fun nr => npEdgesF zero half ofNat nr.1 nr.2)
  let data ← histogramddF bins [List.replicate nBins.length zero]
  return { bins := bins, data := data }

end

end Bdld
