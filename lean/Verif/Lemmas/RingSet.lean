import Verif.Lemmas.Ring
import Verif.Model.Trajectory
import Mathlib.Data.Nat.ModEq

/-
Helper lemmas: writing the next row of a ring buffer.
-/

namespace Bdld
open Spec

/-- The index `K % N - 1` used by the code (with Python's negative index for the last row) is the
index `(K - 1) % N`. -/
theorem pySetItem_ring {α} (data : List α) (K : Nat) (v : α) (hN : 0 < data.length) (hK : 0 < K) :
    pySetItem data (((K % data.length : Nat) : Int) - 1) v
      = .ok (data.set ((K - 1) % data.length) v) := by
  have hlt := Nat.mod_lt K hN
  obtain ⟨k, rfl⟩ : ∃ k, K = k + 1 := ⟨K - 1, by omega⟩
  have hk := Nat.mod_lt k hN
  have hsucc : (k + 1) % data.length = if k % data.length + 1 = data.length then 0
      else k % data.length + 1 := by
    rw [Nat.add_mod]
    rcases Nat.lt_or_ge 1 data.length with h1 | h1
    · rw [Nat.mod_eq_of_lt h1]
      split
      · rename_i h; rw [h, Nat.mod_self]
      · rw [Nat.mod_eq_of_lt (by omega)]
    · have : data.length = 1 := by omega
      simp [this, Nat.mod_one]
  unfold pySetItem
  rw [Nat.add_sub_cancel]
  by_cases h : k % data.length + 1 = data.length
  · rw [if_pos h] at hsucc
    rw [hsucc, if_neg (by omega), if_pos (by omega)]
    congr 2; omega
  · rw [if_neg h] at hsucc
    rw [hsucc, if_pos (by omega)]
    congr 2; omega

theorem IsRing.set {α} {data : List α} {f : Nat → α} {N u K : Nat} (hN : 0 < N) (hu : 0 < u)
    (hK : 0 < K) (h : IsRing data f N u (u * K - 1)) :
    IsRing (data.set ((K - 1) % N) (f (u * K))) f N u (u * K) := by
  refine ⟨by simpa using h.1, ?_⟩
  intro k h1 h2 h3
  have hkK : k ≤ K := Nat.le_of_mul_le_mul_left h2 hu
  have hKN : K < k + N := Nat.lt_of_mul_lt_mul_left h3
  rcases Nat.eq_or_lt_of_le hkK with rfl | hlt
  · rw [List.getElem?_set_self]
    rw [h.1]; exact Nat.mod_lt _ hN
  · have hne : (K - 1) % N ≠ (k - 1) % N := by
      intro he
      have e : (K - 1) ≡ (k - 1) [MOD N] := he
      have : N ∣ (K - 1) - (k - 1) := (Nat.modEq_iff_dvd' (by omega)).1 e.symm
      have := Nat.le_of_dvd (by omega) this
      omega
    rw [List.getElem?_set_ne hne]
    apply h.2 k h1
    · have : u * k < u * K := Nat.mul_lt_mul_of_pos_left hlt hu
      omega
    · omega

theorem IsRing.skip {α} {data : List α} {f : Nat → α} {N u now : Nat}
    (hnd : ¬ u ∣ now + 1) (h : IsRing data f N u now) : IsRing data f N u (now + 1) := by
  refine ⟨h.1, ?_⟩
  intro k h1 h2 h3
  apply h.2 k h1
  · have : u * k ≠ now + 1 := fun e => hnd ⟨k, e.symm⟩
    omega
  · omega

/-- At time 0 nothing has been recorded. -/
theorem IsRing.zero {α} {data : List α} {f : Nat → α} {N u : Nat} (hu : 0 < u)
    (h : data.length = N) : IsRing data f N u 0 := by
  refine ⟨h, ?_⟩
  intro k h1 h2 h3
  have : 0 < u * k := Nat.mul_pos hu (by omega)
  omega

end Bdld
