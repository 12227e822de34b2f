import Verif.Spec.Kernel
import Verif.Spec.Grid
import Mathlib.Order.ConditionallyCompleteLattice.Basic
import Mathlib.Algebra.Order.Floor.Defs
import Mathlib.Analysis.SpecialFunctions.Log.Basic

/-
Specification of the corrections of the birth-death rates in one dimension, written with sums and functions of the
numbers of the grid points. Independent of the model.
-/

namespace Bdld.Spec

noncomputable section

/-- Linear interpolation of the values `v 0, …, v (n - 1)` at the points `x₀, x₀ + h, …`: between the two neighbours of
`x`, the last interval includes its end. -/
def lin (x₀ h : ℝ) (n : Nat) (v : Nat → ℝ) (x : ℝ) : ℝ :=
  let j := min ⌊(x - x₀) / h⌋₊ (n - 2)
  v j + ((x - x₀) / h - j) * (v (j + 1) - v j)

/-- A one-dimensional system: range of the potential, bandwidth, thermal energy, energy. -/
structure Line where
  lo : ℝ
  hi : ℝ
  bw : ℝ
  kt : ℝ
  energy : ℝ → ℝ

namespace Line

variable (s : Line)

/-- Number of points of the grid: the smallest odd number which is at least 501 and at least two per bandwidth. -/
def size : Nat := sInf {n : Nat | n % 2 = 1 ∧ 501 ≤ n ∧ 2 * (s.hi - s.lo) / s.bw ≤ n}

/-- Distance of the points. -/
def step : ℝ := (s.hi - s.lo) / (s.size - 1)

/-- Boltzmann factor of a grid point. -/
def boltzmann (i : Nat) : ℝ := Real.exp (-s.energy (s.lo + i * s.step) / s.kt)

/-- Equilibrium density at a grid point, normalised by the sum over the grid points. -/
def density (i : Nat) : ℝ := s.boltzmann i / ((∑ j ∈ Finset.range s.size, s.boltzmann j) * s.step)

/-- Number of steps of the kernel grid, which covers five bandwidths to both sides. -/
def reach : Nat := ⌈10 * s.bw / s.step⌉₊

/-- The kernel is evaluated at the points `-5 bw + j step`; point number `reach / 2` is taken for its centre, the
coordinate of which is not exactly zero. -/
def offset : ℝ := (s.reach / 2 : Nat) * s.step - 5 * s.bw

/-- The density smoothed with the kernel, at a grid point: sum over the points within reach. -/
def smooth (k : Nat) : ℝ :=
  s.step * ∑ i ∈ Finset.range s.size, if i ≤ k + s.reach / 2 ∧ k + s.reach / 2 ≤ i + s.reach
    then s.density i * normalPdf s.bw ((k - i) * s.step + s.offset) else 0

/-- Average of `log (smooth / density)` over the density, with the trapezoidal rule. -/
def logAverage : ℝ :=
  ∑ i ∈ Finset.range s.size, trapWeight s.size i * s.step * (Real.log (s.smooth i / s.density i) * s.density i)

/-- Additive correction at a grid point. -/
def additive (k : Nat) : ℝ := -Real.log (s.smooth k / s.density k) + s.logAverage

/-- Points of the coarse grid with 101 points. -/
def coarse (m : Nat) : ℝ := s.lo + m * ((s.hi - s.lo) / 100)

/-- A function given by values on the coarse grid: linear inside the range, zero outside. -/
def fromCoarse (v : Nat → ℝ) (x : ℝ) : ℝ :=
  if s.lo ≤ x ∧ x ≤ s.hi then lin s.lo ((s.hi - s.lo) / 100) 101 v x else 0

/-- Correction of the additive variant at a position: the additive correction taken at the points of the coarse grid. -/
def additiveAt (x : ℝ) : ℝ := s.fromCoarse (fun m => lin s.lo s.step s.size s.additive (s.coarse m)) x

/-- Correction of the multiplicative variant: minus the logarithm of the smoothed density taken at the points of the
coarse grid. -/
def multiplicativeAt (x : ℝ) : ℝ :=
  s.fromCoarse (fun m => -Real.log (lin s.lo s.step s.size s.smooth (s.coarse m))) x

end Line

end

end Bdld.Spec
