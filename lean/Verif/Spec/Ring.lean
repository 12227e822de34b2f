/-
Specification vocabulary for buffers that are refilled from the beginning after their last row.
Independent of the model.
-/

namespace Bdld.Spec

/-- `data` has `N` rows and is filled by recording `f t` at every time step `t` that is a multiple of
`u` (`t = u, 2u, 3u, …`), starting with row 0 and wrapping around. At time `now` the last `N` recordings
are therefore in place; nothing is said about rows that have not been filled yet. -/
def IsRing {α : Type _} (data : List α) (f : Nat → α) (N u now : Nat) : Prop :=
  data.length = N ∧
  ∀ k, 1 ≤ k → u * k ≤ now → now < u * (k + N) → data[(k - 1) % N]? = some (f (u * k))

/-- The time steps `t` with `after < t ≤ upTo` that are multiples of `stride`, in increasing order. -/
def sampledSteps (stride after upTo : Nat) : List Nat :=
  (List.range (upTo + 1)).filter (fun t => decide (after < t) && decide (stride ∣ t))

/-- In words. -/
theorem mem_sampledSteps {stride after upTo t : Nat} :
    t ∈ sampledSteps stride after upTo ↔ after < t ∧ t ≤ upTo ∧ stride ∣ t := by
  simp [sampledSteps, Nat.lt_succ_iff]
  omega

end Bdld.Spec
