import Verif.Model.Grid
import Verif.Model.Rates
import Mathlib.Algebra.Order.Floor.Ring
import Mathlib.Algebra.Order.Archimedean.Real.Basic

/-
Model of the probability density of a potential on a grid (`bdld/potential/potential.py:75-98`), of the grid
used for it (`bdld/main.py:276-297`) and of the grids of the additive and multiplicative approximations
(`bdld/actions/birth_death.py:484-555` and 113-136). Real level.
-/

namespace Bdld

noncomputable section

/-- `Potential.calculate_probability_density`, `potential.py:75-98`, for a potential with `n_dim = nDim` and
the given energy function. -/
def calculateProbabilityDensity (energy : List ℝ → ℝ) (nDim : Nat) (kt : ℝ) (ranges : List (ℝ × ℝ))
    (gridPoints : List Nat) : Except PyErr (Grid ℝ) :=
  if ranges.length ≠ nDim then .error .valueError
  else if gridPoints.length ≠ nDim then .error .valueError
  else do
    let fes0 ← fromNpoints ranges gridPoints
    let fes ← fes0.setFromFunc energy
    let neg ← fes.mathOnSelf (fun x => -x)
    let quot ← neg.arith false (.num kt) (fun x y => x / y)
    let prob ← quot.mathOnSelf Real.exp
    prob.arith false (.num (prob.data.flat.sum * prob.stepsizes.prod)) (fun x y => x / y)

/-- Number of grid points in one dimension, `main.py:290-296`. -/
def bdGridPoints (r : ℝ × ℝ) (bw : ℝ) : Nat :=
  let minPointsGaussian : Int := ⌈(r.2 - r.1) / (0.5 * bw)⌉
  let tmp : Int := max 501 minPointsGaussian
  (if tmp % 2 = 0 then tmp + 1 else tmp).toNat

/-- `bd_prob_density`, `main.py:276-297`; `bw` has one entry per dimension (checked by the caller). -/
def bdProbDensity (energy : List ℝ → ℝ) (nDim : Nat) (ranges : List (ℝ × ℝ)) (bw : List ℝ) (kt : ℝ) :
    Except PyErr (Grid ℝ) :=
  if bw.length < ranges.length then .error .indexError
  else calculateProbabilityDensity energy nDim kt ranges (List.zipWith bdGridPoints ranges bw)

/-- `calc_kernel` of one grid point (a row of `kernel.points()`). -/
def kernelAt (bw p : List ℝ) : ℝ := calcKernel (fun k => bw.get k) (fun k : Fin bw.length => p.getD k 0)

/-- `dens_kernel_convolution`, `birth_death.py:484-509`. -/
def densKernelConvolution (eqDensity : Grid ℝ) (bw : List ℝ) (mode : ConvMode) : Except PyErr (Grid ℝ) := do
  let kernel0 ← fromStepsizes (bw.map (fun b => (-(5 * b), 5 * b))) eqDensity.stepsizes false
  let p ← kernel0.points
  let kernel ← kernel0.setData ⟨[p.length], p.map (kernelAt bw)⟩
  convolve eqDensity kernel mode

/-- `calc_additive_correction` with `conv_mode="same"`, `birth_death.py:512-537` (the only mode used by
`BirthDeath`, line 125). -/
def calcAdditiveCorrection (interp : List (List ℝ) → List ℝ → List (List ℝ) → List ℝ)
    (eqDensity : Grid ℝ) (bw : List ℝ) : Except PyErr (Grid ℝ) := do
  let conv ← densKernelConvolution eqDensity bw .same
  let quot ← conv.arith false (.grid false eqDensity) (fun x y => x / y)
  let logTerm ← quot.mathOnSelf Real.log
  let prod ← logTerm.data.map2 (fun x y => x * y) eqDensity.data
  let integralTerm := (ndTrapz ⟨prod.shape, prod.get⟩ conv.stepsizes).val []
  let neg ← logTerm.mathOnSelf (fun x => -x)
  let correction ← neg.arith false (.num integralTerm) (fun x y => x + y)
  if correction.nPoints.any (fun n => decide (n > 101)) then
    sparsify interp correction (List.replicate correction.nDim 101)
  else
    return correction

/-- `approx_grid` of the multiplicative variant, `birth_death.py:133-136`. -/
def multiplicativeGrid (interp : List (List ℝ) → List ℝ → List (List ℝ) → List ℝ)
    (eqDensity : Grid ℝ) (bw : List ℝ) : Except PyErr (Grid ℝ) := do
  let conv ← densKernelConvolution eqDensity bw .same
  let sparse ← sparsify interp conv (List.replicate conv.nDim 101)
  let l ← sparse.mathOnSelf Real.log
  l.mathOnSelf (fun x => -x)

end

end Bdld
