import Verif.Spec.Consistent

/-
Input in two or three dimensions without contradictions: conditions on the options (and on the table in the coefficient file),
independent of how the program is set up.
-/

namespace Bdld.Spec

/-- One minimum and one maximum per dimension, in the given relation. -/
def GoodBox (d : Nat) (rel : ℝ → ℝ → Prop) (o : Dict (OptVal ℝ)) : Prop :=
  ∀ mins maxs, FloatsOpt o "min" mins → FloatsOpt o "max" maxs → mins.length = d ∧ List.Forall₂ rel mins maxs

/-- The coefficient file exists and contains two or more monomials. -/
def GoodFile {R : Type} (w : World R) (d : Nat) (o : Dict (OptVal ℝ)) : Prop :=
  ∀ name, StrOpt o "coeffs-file" name →
    ∃ rows, w.coeffFile name = some rows ∧ ∃ l : List ((Fin d → Nat) × ℝ), RowsOf rows l ∧ 2 ≤ l.length

/-- A potential in `d` dimensions: a polynomial in two or three variables, or the one of Müller and Brown (with the option `n_dim`
other than 1). -/
def GoodPotential {R : Type} (w : World R) (d : Nat) (o : Dict (OptVal ℝ)) : Prop :=
  StrOpt o "type" "polynomial" ∧ IntOpt o "n_dim" d ∧ (d = 2 ∨ d = 3) ∧ GoodFile w d o ∧ GoodBox d (· < ·) o ∨
  StrOpt o "type" "mueller-brown" ∧ ¬ IntOpt o "n_dim" 1 ∧ d = 2

/-- Initial positions: random, or given positions with `d` coordinates each, and as many non-negative fractions. -/
def GoodStartIn (d : Nat) (o : Dict (OptVal ℝ)) : Prop :=
  o.get? "initial-distribution" = some (.base (.str "random-global")) ∨
  ∃ choices, Starts o choices ∧ (∀ p ∈ choices, p.length = d) ∧
    (o.get? "initial-distribution" = some (.base (.str "random-pos")) ∧ choices ≠ [] ∨
     o.get? "initial-distribution" = some (.base (.str "fractions-pos")) ∧
      ∀ fractions : List ℝ, o.get? "fractions" = some (.list (fractions.map .float)) →
        (∀ x ∈ fractions, 0 ≤ x) ∧ 0 < fractions.sum ∧ choices.length = fractions.length)

/-- States with `d` minima and maxima each. -/
def GoodStatesIn (d : Nat) (o : Dict (OptVal ℝ)) : Prop :=
  ∃ mins maxs : List (List ℝ), Numbered o.get? "state" "-min" (mins.map (fun p => .list (p.map .float))) ∧
    Numbered o.get? "state" "-max" (maxs.map (fun p => .list (p.map .float))) ∧ (∀ p ∈ mins, p.length = d) ∧ ∀ p ∈ maxs, p.length = d

/-- Input in `d` dimensions without contradictions. There are no free energy differences in more than one dimension (C65). -/
structure ConsistentSpace {R : Type} (w : World R) (d : Nat) (c : Input ℝ) : Prop where
  potential : GoodPotential w d c.potential
  ldSeed : GoodSeed c.ld
  particlesSeed : GoodSeed c.particles
  start : GoodStartIn d c.particles
  bdSeed : ∀ o, c.birthDeath = some o → GoodSeed o
  bdWalkers : c.birthDeath.isSome → ∀ n, c.particles.get? "number" = some (.base (.int n)) → 2 ≤ n
  bdVariant : ∀ o, c.birthDeath = some o → KnownLabels o
  bandwidths : ∀ o l, c.birthDeath = some o → FloatsOpt o "kernel-bandwidth" l → l.length = d
  needsTrajectories : c.histogram.isSome → c.trajectories.isSome
  bins : ∀ o l, c.histogram = some o → IntsOpt o "bins" l → l.length = d
  binRange : ∀ o, c.histogram = some o → GoodBox d (· ≤ ·) o
  output : ¬ BadOutput c
  plots : ∀ o, c.fes = some o → Plottable w.figFormats w.terminal o
  noDeltaF : c.deltaF = none
  distribution : ∀ o, c.particleDistribution = some o → GoodStatesIn d o

/-- `griddata` returns one value per position (also outside of the grid, where it is `nan`). -/
def OneValueEach {R : Type} (w : World R) : Prop := ∀ points vals xs, (w.interp points vals xs).length = xs.length

end Bdld.Spec
