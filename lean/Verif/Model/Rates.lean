import Verif.Model.BirthDeath
import Mathlib.Analysis.SpecialFunctions.Pow.Real
import Mathlib.Analysis.SpecialFunctions.Log.Basic
import Mathlib.Analysis.SpecialFunctions.Trigonometric.Basic

/-
Model of the rates of the birth-death algorithm: kernel, walker density and `calc_betas`,
`bdld/actions/birth_death.py`. Real level: exact arithmetic over ℝ. The number of dimensions `d` and the
number of walkers `n` are arbitrary; arrays of shape `(n, d)` are functions.
-/

namespace Bdld

noncomputable section

/-- `calc_kernel` for one distance vector, `birth_death.py:397-410`. -/
def calcKernel {d : Nat} (bw dist : Fin d → ℝ) : ℝ :=
  1 / ((2 * Real.pi) ^ ((d : ℝ) / 2) * ∏ k, bw k)
    * Real.exp (-∑ k, dist k ^ 2 / (2 * bw k ^ 2))

/-- `np.mean` of a vector. -/
def npMean {n : Nat} (v : Fin n → ℝ) : ℝ := (∑ i, v i) / n

/-- `_walker_density_manual`, `birth_death.py:429-446`. -/
def walkerDensityManual {n d : Nat} (pos : Fin n → Fin d → ℝ) (bw : Fin d → ℝ) : Fin n → ℝ :=
  fun i => npMean (fun j => calcKernel bw (pos i - pos j))

/-- `scipy.spatial.distance.pdist` for `n` observations with the (symmetric) function `f i j` of the
observations `i < j`: the "condensed" vector of `n(n-1)/2` values, first index slowest. -/
def pdistList {α : Type} (n : Nat) (f : Nat → Nat → α) : List α :=
  (List.range n).flatMap (fun i => (List.range (n - 1 - i)).map (fun k => f i (i + 1 + k)))

/-- Position of the pair `i < j` in a condensed vector (documentation of scipy's `squareform`). -/
def condensedIndex (n i j : Nat) : Nat := n * i - i * (i + 1) / 2 + (j - i - 1)

/-- `scipy.spatial.distance.squareform` of a condensed vector: symmetric matrix with zero diagonal. -/
def squareform (n : Nat) (v : List ℝ) (i j : Fin n) : ℝ :=
  if i = j then 0
  else v.getD (condensedIndex n (min i.val j.val) (max i.val j.val)) 0

/-- `np.fill_diagonal(m, x)`. -/
def fillDiagonal {n : Nat} (m : Fin n → Fin n → ℝ) (x : ℝ) (i j : Fin n) : ℝ :=
  if i = j then x else m i j

/-- `bw[0]`. -/
def firstOf {d : Nat} (v : Fin d → ℝ) : ℝ := if h : 0 < d then v ⟨0, h⟩ else 0

/-- Row `i` of the array of positions for `i` below the number of walkers. -/
def posRow {n d : Nat} (pos : Fin n → Fin d → ℝ) (i : Nat) : Fin d → ℝ :=
  if h : i < n then pos ⟨i, h⟩ else 0

/-- Gaussian matrix of the 1d branch, `birth_death.py:464-469` (`sqeuclidean`: sum of squared
differences). -/
def gaussMatrix1 {n d : Nat} (pos : Fin n → Fin d → ℝ) (bw : Fin d → ℝ) : Fin n → Fin n → ℝ :=
  let dist := pdistList n (fun i j => ∑ k, (posRow pos i k - posRow pos j k) ^ 2)
  let height := 1 / (Real.sqrt (2 * Real.pi) * firstOf bw)
  let gauss := dist.map (fun x => height * Real.exp (-x / (2 * firstOf bw ^ 2)))
  fillDiagonal (squareform n gauss) height

/-- Gaussian matrix of the branch for several dimensions, `birth_death.py:470-480`: one condensed vector per
dimension, multiplied elementwise. -/
def gaussMatrixN {n d : Nat} (pos : Fin n → Fin d → ℝ) (bw : Fin d → ℝ) : Fin n → Fin n → ℝ :=
  let heights := fun k => 1 / (Real.sqrt (2 * Real.pi) * bw k)
  let gaussPerDim := fun k => (pdistList n (fun i j => (posRow pos i k - posRow pos j k) ^ 2)).map
    (fun x => heights k * Real.exp (-x / (2 * bw k ^ 2)))
  let prod := (List.range (n * (n - 1) / 2)).map (fun m => ∏ k, (gaussPerDim k).getD m 0)
  fillDiagonal (squareform n prod) (∏ k, heights k)

/-- `_walker_density_pdist`, `birth_death.py:449-481`. -/
def walkerDensityPdist {n d : Nat} (pos : Fin n → Fin d → ℝ) (bw : Fin d → ℝ) : Fin n → ℝ :=
  let gauss := if d = 1 then gaussMatrix1 pos bw else gaussMatrixN pos bw
  fun j => npMean (fun i => gauss i j)

/-- `walker_density`, `birth_death.py:413-426`. -/
def walkerDensity {n d : Nat} (pos : Fin n → Fin d → ℝ) (bw : Fin d → ℝ) : Fin n → ℝ :=
  if n ≤ 10000 then walkerDensityPdist pos bw else walkerDensityManual pos bw

/-- `np.log` of a non-negative number with `divide="ignore"`; `⊥` is `-inf`. -/
def npLog (x : ℝ) : WithBot ℝ := if x = 0 then ⊥ else (Real.log x : ℝ)

/-- `beta += x` for one entry, `-inf` stays `-inf`. -/
def addB (b : WithBot ℝ) (x : ℝ) : WithBot ℝ := b.map (· + x)

/-- Contribution of an entry to a sum over `beta[beta != -np.inf]`. -/
def finPart : WithBot ℝ → ℝ
  | ⊥ => 0
  | (x : ℝ) => x

/-- `np.mean(beta[beta != -np.inf])` (`nan` for an empty selection is not modelled: 0). -/
def meanFinite {n : Nat} (b : Fin n → WithBot ℝ) : ℝ :=
  (∑ i, finPart (b i)) / ((Finset.univ.filter (fun i => b i ≠ ⊥)).card : ℝ)

/-- `ApproxVariant`, `birth_death.py:16-21`. -/
inductive ApproxVariant where
  | orig
  | add
  | mult
deriving DecidableEq, Repr

/-- Constants of the rate calculation. `approx` is the interpolation of `approx_grid` (`Grid.interpolate`
with `scipy.interpolate.griddata`, fill value 0), an arbitrary function of the position here. -/
structure RateCfg (d : Nat) where
  bw : Fin d → ℝ
  kt : ℝ
  variant : ApproxVariant
  approx : (Fin d → ℝ) → ℝ

/-- `BirthDeath.calc_betas`, `birth_death.py:222-244`, for positions `pos` and energies `ene`;
`inv_kt = 1 / kt` (line 94). -/
def calcBetas {n d : Nat} (c : RateCfg d) (pos : Fin n → Fin d → ℝ) (ene : Fin n → ℝ) :
    Fin n → WithBot ℝ :=
  let beta0 := fun i => npLog (walkerDensity pos c.bw i)
  match c.variant with
  | .mult =>
    let beta1 := fun i => addB (beta0 i) (c.approx (pos i))
    fun i => addB (beta1 i) (-meanFinite beta1)
  | .orig =>
    let beta1 := fun i => addB (beta0 i) (ene i * (1 / c.kt))
    fun i => addB (beta1 i) (-meanFinite beta1)
  | .add =>
    let beta1 := fun i => addB (beta0 i) (ene i * (1 / c.kt))
    let beta2 := fun i => addB (beta1 i) (-meanFinite beta1)
    fun i => addB (beta2 i) (c.approx (pos i))

/-- `1 - np.exp(-np.abs(beta) * self.dt * self.rate_fac)` (`birth_death.py:178` and 207); infinite rates
give 1 (positive `dt * rate_fac`). -/
def acceptProb (dt rateFac : ℝ) : WithBot ℝ → ℝ
  | ⊥ => 1
  | (b : ℝ) => 1 - Real.exp (-|b| * dt * rateFac)

/-- What the birth-death algorithm reads from a particle. -/
structure Walker (d : Nat) where
  pos : Fin d → ℝ
  energy : ℝ

/-- The birth-death algorithm of `Model/BirthDeath.lean` with the real rates and probabilities. `view`
extracts position and energy from a particle. -/
def realBdCfg {P : Type} {d : Nat} (c : RateCfg d) (dt rateFac : ℝ) (recalc : Bool) (view : P → Walker d) :
    BdCfg P (WithBot ℝ) ℝ where
  calcBetas := fun ps => List.ofFn (fun i : Fin ps.length =>
    calcBetas c (fun i : Fin ps.length => (view (ps.get i)).pos) (fun i => (view (ps.get i)).energy) i)
  gt0 := fun b => @decide (0 < b) (Classical.propDecidable _)
  lt0 := fun b => @decide (b < 0) (Classical.propDecidable _)
  accept := fun r b => @decide (r ≤ acceptProb dt rateFac b) (Classical.propDecidable _)
  recalcProbs := recalc

end

end Bdld
