import Mathlib.Analysis.SpecialFunctions.Log.Basic
import Mathlib.Order.WithBot

/-
Specifications for free energies and states, independent of the model.
-/

namespace Bdld.Spec

/-- The largest number of counts. -/
def maxCount (l : List Nat) : Nat := l.foldr max 0

/-- Free energy of a bin with `n` of at most `m` counts: `kT ln(m / n)`, infinite for an empty bin. -/
noncomputable def freeEnergy (kt : ℝ) (m n : Nat) : WithTop ℝ :=
  if n = 0 then ⊤ else ((kt * Real.log ((m : ℝ) / n) : ℝ) : WithTop ℝ)

/-- Number of counts in the bins marked by a mask. -/
def countsIn (counts : List Nat) (mask : List Bool) : Nat :=
  (List.zipWith (fun n (b : Bool) => if b then n else 0) counts mask).sum

/-- A position lies in a state if every coordinate is in the closed interval of that dimension. -/
def InState {F : Type} [LE F] (p : List F) (s : List (F × F)) : Prop :=
  List.Forall₂ (fun x (r : F × F) => r.1 ≤ x ∧ x ≤ r.2) p s

instance {F : Type} [LE F] [DecidableLE F] (p : List F) (s : List (F × F)) : Decidable (InState p s) :=
  inferInstanceAs (Decidable (List.Forall₂ _ p s))

/-- No position lies in both states. -/
def Disjoint {F : Type} [LE F] (s t : List (F × F)) : Prop := ∀ p, ¬ (InState p s ∧ InState p t)

end Bdld.Spec
