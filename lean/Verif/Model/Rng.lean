import Verif.Model.Py

/-
Interface of `numpy.random.Generator` as far as bdld uses it. The generator is an abstract state machine;
theorems hold for every generator satisfying the contract `RngOps.Lawful` taken from numpy's documentation.
-/

namespace Bdld

/-- The methods of the generator used by `birth_death.py`. `R` is the state of the
generator, `U` the type of random floats. -/
structure RngOps (R U : Type) where
  /-- `rng.random(n)`: `n` floats in [0, 1). -/
  random : Nat → R → List U × R
  /-- `rng.shuffle(a)` on an integer array. -/
  shuffle : List Nat → R → List Nat × R
  /-- `rng.integers(n)` for positive `n`: an integer in `0..n-1`. -/
  integers : Nat → R → Nat × R

/-- numpy's contract. -/
structure RngOps.Lawful {R U : Type} (ops : RngOps R U) : Prop where
  random_length : ∀ n r, (ops.random n r).1.length = n
  shuffle_perm : ∀ l r, (ops.shuffle l r).1.Perm l
  integers_lt : ∀ n r, 0 < n → (ops.integers n r).1 < n

end Bdld
