import Verif.Model.Py
import Mathlib.Algebra.Field.Defs
import Mathlib.Algebra.Order.Floor.Defs
import Mathlib.Algebra.BigOperators.Group.List.Defs

/-
Model of `bdld/grid.py` and of the numpy array functions it uses. Numbers are elements of a field (exact
arithmetic); functions that only move data around need no laws. Numbers of points are natural numbers
(negative ones do not occur for ranges with `min ≤ max`).
-/

namespace Bdld

/-! ### numpy arrays -/

/-- All multi-indices of an array of the given shape in C (row-major) order. -/
def indices : List Nat → List (List Nat)
  | [] => [[]]
  | n :: s => (List.range n).flatMap (fun i => (indices s).map (i :: ·))

/-- Position of a multi-index in the flattened array (C order). -/
def ravel : List Nat → List Nat → Nat
  | _ :: s, i :: idx => i * s.prod + ravel s idx
  | _, _ => 0

/-- A numpy array: its shape and its values in C order. -/
structure Nd (F : Type) where
  shape : List Nat
  flat : List F
deriving DecidableEq, Repr

/-- Array with given values. -/
def Nd.ofFn {F : Type} (shape : List Nat) (f : List Nat → F) : Nd F := ⟨shape, (indices shape).map f⟩

/-- `a[idx]`; the default value stands for an index outside the array. -/
def Nd.get {F : Type} [Inhabited F] (a : Nd F) (idx : List Nat) : F :=
  a.flat.getD (ravel a.shape idx) default

/-- `a.reshape(shape)`: same values in C order, `ValueError` if the numbers of values differ. -/
def Nd.reshape {F : Type} (a : Nd F) (shape : List Nat) : Except PyErr (Nd F) :=
  if a.flat.length = shape.prod then .ok ⟨shape, a.flat⟩ else .error .valueError

/-- `np.empty(0)`. -/
def Nd.empty0 {F : Type} : Nd F := ⟨[0], []⟩

/-- A numpy ufunc of one array. -/
def Nd.map {F G : Type} (op : F → G) (a : Nd F) : Nd G := ⟨a.shape, a.flat.map op⟩

/-- Common shape of two arrays with numpy's broadcasting rules, shapes in reversed order. -/
def broadcastRev : List Nat → List Nat → Option (List Nat)
  | [], t => some t
  | s, [] => some s
  | m :: s, n :: t =>
    if m = n ∨ n = 1 then (broadcastRev s t).map (m :: ·)
    else if m = 1 then (broadcastRev s t).map (n :: ·)
    else none

/-- Index into an array of shape `s` that belongs to the index `idx` of the broadcast array: additional
leading dimensions are dropped, dimensions of size one are repeated. -/
def broadcastIdx (s idx : List Nat) : List Nat :=
  List.zipWith (fun n i => if n = 1 then 0 else i) s (idx.drop (idx.length - s.length))

/-- A numpy ufunc of two arrays with broadcasting; `ValueError` for incompatible shapes. -/
def Nd.map2 {F : Type} [Inhabited F] (op : F → F → F) (a b : Nd F) : Except PyErr (Nd F) :=
  if a.shape = b.shape then .ok ⟨a.shape, List.zipWith op a.flat b.flat⟩
  else match broadcastRev a.shape.reverse b.shape.reverse with
    | none => .error .valueError
    | some s => .ok (Nd.ofFn s.reverse
        (fun idx => op (a.get (broadcastIdx a.shape idx)) (b.get (broadcastIdx b.shape idx))))

/-! ### Grid points -/

/-- `np.linspace(lo, hi, n)` in exact arithmetic. -/
def linspace {F : Type} [Field F] (lo hi : F) (n : Nat) : List F :=
  (List.range n).map (fun i : Nat => lo + (i : F) * ((hi - lo) / ((n : F) - 1)))

/-- Swap of the first two entries: the default `indexing="xy"` of `np.meshgrid` swaps the first two
dimensions of its results. -/
def swap01 {α : Type} : List α → List α
  | a :: b :: l => b :: a :: l
  | l => l

/-- An array given by a function of the multi-index (intermediate results of `Grid.points`). -/
structure NdFn (F : Type) where
  shape : List Nat
  val : List Nat → F

/-- `np.meshgrid(*axes)`: array number `i` holds the coordinate `i` of every point. -/
def meshgrid {F : Type} [Inhabited F] (axes : List (List F)) : List (NdFn F) :=
  (List.range axes.length).map (fun i =>
    ⟨swap01 (axes.map List.length),
      fun idx => (axes.getD i []).getD ((swap01 idx).getD i 0) default⟩)

/-- `np.array(list of arrays of the same shape)`: the number of the array becomes the first index. -/
def npStack {F : Type} [Inhabited F] (l : List (NdFn F)) : NdFn F where
  shape := l.length :: (l.head?.map NdFn.shape).getD []
  val := fun idx => ((l[idx.headD 0]?).map (fun a => a.val idx.tail)).getD default

/-- `a.T`. -/
def NdFn.transpose {F : Type} (a : NdFn F) : NdFn F where
  shape := a.shape.reverse
  val := fun idx => a.val idx.reverse

/-- `a.reshape(n, d)` as list of rows. -/
def NdFn.toRows {F : Type} (a : NdFn F) (n d : Nat) : List (List F) :=
  (List.range n).map (fun m => (((indices a.shape).map a.val).drop (m * d)).take d)

/-- `Grid.points`, `grid.py:146-150`, as function of the axes (`Histogram` overrides `axes`,
histogram.py:79-83). In zero dimensions `np.prod([])` is a float, which `reshape` rejects
(`TypeError`). -/
def pointsOfAxes {F : Type} [Inhabited F] (axes : List (List F)) : Except PyErr (List (List F)) :=
  if axes = [] then .error .typeError
  else .ok ((npStack (meshgrid axes)).transpose.toRows (axes.map List.length).prod axes.length)

/-! ### The class -/

/-- Attributes of `Grid`, `grid.py:26-35`. -/
structure Grid (F : Type) where
  data : Nd F
  ranges : List (F × F)
  nPoints : List Nat
  stepsizes : List F
deriving DecidableEq, Repr

/-- `n_dim` is set to the number of ranges by all constructors (grid.py:277 and 303). -/
def Grid.nDim {F : Type} (g : Grid F) : Nat := g.ranges.length

/-- Setter of `data`, `grid.py:45-51`. -/
def Grid.setData {F : Type} (g : Grid F) (value : Nd F) : Except PyErr (Grid F) := do
  let d ← value.reshape g.nPoints
  return { g with data := d }

/-- `stepsizes_from_npoints`, `grid.py:255-263`: one point in a dimension is a `ZeroDivisionError`. -/
def stepsizesFromNpoints {F : Type} [Field F] : List (F × F) → List Nat → Except PyErr (List F)
  | [], _ => .ok []
  | _ :: _, [] => .error .indexError
  | r :: rs, n :: ns =>
    if n = 1 then .error .zeroDivisionError
    else match stepsizesFromNpoints rs ns with
      | .error e => .error e
      | .ok l => .ok ((r.2 - r.1) / ((n : F) - 1) :: l)

/-- `from_npoints`, `grid.py:266-288`, with a list of numbers of points. -/
def fromNpoints {F : Type} [Field F] (ranges : List (F × F)) (nPoints : List Nat) :
    Except PyErr (Grid F) :=
  if nPoints.length ≠ ranges.length then .error .valueError
  else match stepsizesFromNpoints ranges nPoints with
    | .error e => .error e
    | .ok st => .ok { data := Nd.empty0, ranges := ranges, nPoints := nPoints, stepsizes := st }

/-- `from_npoints` with a single number (`grid.py:278-282`). -/
def fromNpointsInt {F : Type} [Field F] (ranges : List (F × F)) (n : Nat) : Except PyErr (Grid F) :=
  fromNpoints ranges (List.replicate ranges.length n)

/-- Loop of `from_stepsizes`, `grid.py:312-315`: ranges and numbers of points. A stepsize of zero raises
`ZeroDivisionError`. -/
def stepsizeLoop {F : Type} [Field F] [LinearOrder F] [FloorRing F] (shrink : Bool) :
    List (F × F) → List F → Except PyErr (List (F × F) × List Nat)
  | [], _ => .ok ([], [])
  | _ :: _, [] => .error .indexError
  | r :: rs, h :: hs =>
    if h = 0 then .error .zeroDivisionError
    else
      let n : Int := ⌈(r.2 - r.1) / h⌉ + 1 - (if shrink then 1 else 0)
      match stepsizeLoop shrink rs hs with
      | .error e => .error e
      | .ok (l, m) => .ok ((r.1, r.1 + h * ((n : F) - 1)) :: l, n.toNat :: m)

/-- `from_stepsizes`, `grid.py:291-316`, with a list of stepsizes. -/
def fromStepsizes {F : Type} [Field F] [LinearOrder F] [FloorRing F] (ranges : List (F × F))
    (stepsizes : List F) (shrink : Bool) : Except PyErr (Grid F) :=
  match stepsizeLoop shrink ranges stepsizes with
  | .error e => .error e
  | .ok (l, m) => .ok { data := Nd.empty0, ranges := l, nPoints := m, stepsizes := stepsizes }

/-- `from_stepsizes` with a single number (`grid.py:304-308`). -/
def fromStepsizesNum {F : Type} [Field F] [LinearOrder F] [FloorRing F] (ranges : List (F × F))
    (h : F) (shrink : Bool) : Except PyErr (Grid F) :=
  fromStepsizes ranges (List.replicate ranges.length h) shrink

/-- `Grid.copy_empty`, `grid.py:158-160`. -/
def Grid.copyEmpty {F : Type} [Field F] (g : Grid F) : Except PyErr (Grid F) :=
  fromNpoints g.ranges g.nPoints

/-- `Grid.axes`, `grid.py:140-144`. -/
def Grid.axes {F : Type} [Field F] (g : Grid F) : List (List F) :=
  List.zipWith (fun r n => linspace r.1 r.2 n) g.ranges g.nPoints

/-- `Grid.points`, `grid.py:146-150`. -/
def Grid.points {F : Type} [Field F] [Inhabited F] (g : Grid F) : Except PyErr (List (List F)) :=
  pointsOfAxes g.axes

/-- `Grid.set_from_func`, `grid.py:152-156`. -/
def Grid.setFromFunc {F : Type} [Field F] [Inhabited F] (g : Grid F) (f : List F → F) :
    Except PyErr (Grid F) := do
  let p ← g.points
  g.setData ⟨[p.length], p.map f⟩

/-- `Grid._perform_math_on_self`, `grid.py:115-118`. -/
def Grid.mathOnSelf {F : Type} [Field F] (g : Grid F) (op : F → F) : Except PyErr (Grid F) := do
  let n ← g.copyEmpty
  n.setData (g.data.map op)

/-- Second operand of an arithmetic operation: a `float` or `int`, a numpy array, an instance of `Grid` (or
of its subclass `Histogram`), or anything else. -/
inductive Operand (F : Type) where
  | num (x : F)
  | array (a : Nd F)
  | grid (isHistogram : Bool) (g : Grid F)
  | other

/-- `Grid._perform_arithmetic_operation`, `grid.py:120-138`. `selfIsHistogram`: class of the first operand,
`isinstance(other, self.__class__)` is false for a plain grid if the first operand is a histogram. -/
def Grid.arith {F : Type} [Field F] [Inhabited F] [DecidableEq F] (selfIsHistogram : Bool) (g : Grid F)
    (operand : Operand F) (op : F → F → F) : Except PyErr (Grid F) := do
  let n ← g.copyEmpty
  match operand with
  | .num x => n.setData (g.data.map (fun y => op y x))
  | .array a => do
    let v ← g.data.map2 op a
    n.setData v
  | .grid isHistogram o =>
    if selfIsHistogram && !isHistogram then throw .valueError
    if ¬ g.nPoints = o.nPoints ∨ ¬ g.ranges = o.ranges then throw .valueError
    let v ← g.data.map2 op o.data
    n.setData v
  | .other => throw .valueError

/-- `Grid.__eq__` for two grids, `grid.py:61-67` (`np.array_equal` compares shapes and values). -/
def Grid.eq {F : Type} [DecidableEq F] (g o : Grid F) : Bool :=
  decide (g.nPoints = o.nPoints) && decide (g.ranges = o.ranges) && decide (g.data = o.data)

/-! ### Convolution -/

/-- `mode` argument of `scipy.signal.convolve`. -/
inductive ConvMode where
  | valid
  | same
  | full
  | unknown
deriving DecidableEq, Repr

/-- Is the multi-index inside the shape? -/
def inShape : List Nat → List Nat → Bool
  | [], [] => true
  | n :: s, i :: idx => decide (i < n) && inShape s idx
  | _, _ => false

/-- Value of an array with zeros outside of its shape. -/
def Nd.getZ {F : Type} [Zero F] (a : Nd F) (idx : List Nat) : F :=
  if inShape a.shape idx then a.flat.getD (ravel a.shape idx) 0 else 0

/-- Entry `k` of the full discrete convolution of two arrays: `Σ_j a[k - j] b[j]`. -/
def convFull {F : Type} [Field F] (a b : Nd F) (k : List Nat) : F :=
  ((indices b.shape).map (fun j =>
    if (List.zipWith (fun x y => decide (x ≤ y)) j k).all id
    then a.getZ (List.zipWith (· - ·) k j) * b.getZ j else 0)).sum

/-- Every entry of `s` is at most the entry of `t`. -/
def shapeLe (s t : List Nat) : Bool := (List.zipWith (fun m n => decide (m ≤ n)) s t).all id

/-- `scipy.signal.convolve(a, b, mode)` (documentation of scipy): arrays of different dimensionality raise
`ValueError`; "valid": the entries that do not rely on zero padding, `ValueError` unless one array is at
least as large as the other in every dimension; "same": the central part of the full convolution with the
shape of the first array. Empty arrays are not modelled. -/
def spConvolve {F : Type} [Field F] (a b : Nd F) : ConvMode → Except PyErr (Nd F)
  | .valid =>
    if a.shape.length ≠ b.shape.length then .error .valueError
    else if shapeLe b.shape a.shape || shapeLe a.shape b.shape then
      .ok (Nd.ofFn (List.zipWith (fun m n => max m n - min m n + 1) a.shape b.shape)
        (fun k => convFull a b
          (List.zipWith (· + ·) k (List.zipWith (fun m n => min m n - 1) a.shape b.shape))))
    else .error .valueError
  | .same =>
    if a.shape.length ≠ b.shape.length then .error .valueError
    else .ok (Nd.ofFn a.shape (fun k => convFull a b
      (List.zipWith (· + ·) k (b.shape.map (fun n => (n - 1) / 2)))))
  | .full =>
    if a.shape.length ≠ b.shape.length then .error .valueError
    else .ok (Nd.ofFn (List.zipWith (fun m n => m + n - 1) a.shape b.shape) (convFull a b))
  | .unknown => .error .valueError

/-- Ranges of the result of a "valid" convolution, loop of `grid.py:244-247`. -/
def validRanges {F : Type} [Field F] : List (F × F) → List Nat → List F → List (F × F)
  | r :: rs, ns :: nss, h :: hs =>
    let offset := ((ns : F) - 1) / 2 * h
    (r.1 + offset, r.2 - offset) :: validRanges rs nss hs
  | _, _, _ => []

/-- Lexicographic order of the lists of numbers of points (`sorted` with key `n_points`, grid.py:243). -/
def lexLt : List Nat → List Nat → Bool
  | [], [] => false
  | [], _ :: _ => true
  | _ :: _, [] => false
  | m :: s, n :: t => if m = n then lexLt s t else decide (m < n)

/-- `convolve`, `grid.py:215-252`. `sorted` is stable, so the first grid counts as the smaller one for equal
numbers of points. An unknown mode already fails in scipy. -/
def convolve {F : Type} [Field F] [DecidableEq F] (g1 g2 : Grid F) (mode : ConvMode) :
    Except PyErr (Grid F) := do
  if ¬ g1.stepsizes = g2.stepsizes then throw .valueError
  let conv0 ← spConvolve g1.data g2.data mode
  let conv := conv0.map (fun x => x * g1.stepsizes.prod)
  match mode with
  | .same => do
    let grid ← g1.copyEmpty
    grid.setData conv
  | .valid => do
    let gs := if lexLt g2.nPoints g1.nPoints then g2 else g1
    let gl := if lexLt g2.nPoints g1.nPoints then g1 else g2
    let grid ← fromNpoints (validRanges gl.ranges gs.nPoints g1.stepsizes)
      (List.zipWith (fun m n => m - n + 1) gl.nPoints gs.nPoints)
    grid.setData conv
  | .full => throw .notImplementedError
  | .unknown => throw .unboundLocalError

/-! ### Interpolation and sparsify -/

/-- `sparsify`, `grid.py:319-335`. `interp points values xs` stands for `scipy.interpolate.griddata` with
the given method and fill value `nan` (`Grid.interpolate`, grid.py:162-178). -/
def sparsify {F : Type} [Field F] [Inhabited F]
    (interp : List (List F) → List F → List (List F) → List F) (g : Grid F) (maxPoints : List Nat) :
    Except PyErr (Grid F) := do
  if maxPoints.length < g.nPoints.length then throw .indexError
  let s ← fromNpoints g.ranges
    (List.zipWith (fun n m => if n ≤ m then n else m) g.nPoints maxPoints)
  let src ← g.points
  let dst ← s.points
  let v := interp src g.data.flat dst
  s.setData ⟨[v.length], v⟩

/-! ### Trapezoidal rule -/

/-- `np.trapz(data, dx=h)` along the last axis of an array given as function of the multi-index. -/
def trapzLast {F : Type} [Field F] (a : NdFn F) (h : F) : NdFn F where
  shape := a.shape.dropLast
  val := fun idx => ((List.range (a.shape.getLastD 0 - 1)).map
    (fun i => h * (a.val (idx ++ [i + 1]) + a.val (idx ++ [i])) / 2)).sum

/-- `nd_trapz` with a list of stepsizes, `birth_death.py:540-555`: the last dimension is integrated first. -/
def ndTrapz {F : Type} [Field F] (a : NdFn F) (dx : List F) : NdFn F :=
  dx.reverse.foldl trapzLast a

end Bdld
