import Verif.Lemmas.Ring
import Mathlib.Tactic.IntervalCases

/-
C01: what `get_valid_data` returns.
-/

namespace Bdld
open Spec

/-- **C01.** On a ring buffer filled every `u` steps, `get_valid_data` returns exactly the rows recorded
at the multiples of `stride` in `(last_write, step]`, in chronological order.

Hypotheses: the stride is a multiple `m * u` of the update stride; `last_write ≤ step` and the buffer
has not been rewritten from the beginning since `last_write` (`hwin`, the documented assumption); and either
something has been recorded since `last_write`, or the call is not at a block boundary (`hnew`; see
`getValidData_stale` for the excluded point). -/
theorem getValidData_correct {α} (data : List α) (f : Nat → α) (N u m step lastWrite : Nat)
    (hN : 0 < N) (hu : 0 < u) (hm : 0 < m)
    (hring : IsRing data f N u step)
    (hle : lastWrite ≤ step)
    (hwin : step / u ≤ N * (lastWrite / u / N + 1))
    (hnew : lastWrite = step ∨ lastWrite / u < step / u ∨ ¬ N ∣ step / u) :
    getValidData data step ((m * u : Nat) : Int) u lastWrite
      = .ok ((sampledSteps (m * u) lastWrite step).map f) := by
  by_cases hne : step = lastWrite
  · subst hne
    unfold getValidData
    simp
  · rw [getValidData_nat data N u m step lastWrite hring.1 hN hu hm hne]
    have hK : lastWrite / u ≤ step / u := Nat.div_le_div_right hle
    have hdm := Nat.div_add_mod (step / u) N
    have hda := Nat.div_add_mod (lastWrite / u) N
    have ha := Nat.mod_lt (lastWrite / u) hN
    have hs := Nat.mod_lt (step / u) hN
    have hhi : (if step / u % N = 0 then N else step / u % N)
        = step / u - N * (lastWrite / u / N) ∨
        (step / u = lastWrite / u ∧ step / u % N ≠ 0) := by
      rcases Nat.lt_or_ge (lastWrite / u) (step / u) with h | h
      · left
        have hb1 : lastWrite / u / N ≤ step / u / N := Nat.div_le_div_right hK
        rcases Nat.lt_or_ge (step / u) (N * (lastWrite / u / N + 1)) with h' | h'
        · have : step / u / N = lastWrite / u / N := by
            have : step / u / N < lastWrite / u / N + 1 := by
              rw [Nat.div_lt_iff_lt_mul hN, Nat.mul_comm]; exact h'
            omega
          rw [this] at hdm
          rw [if_neg (by omega)]; omega
        · have he : step / u = N * (lastWrite / u / N + 1) := by omega
          have : step / u % N = 0 := by rw [he]; exact Nat.mul_mod_right _ _
          rw [if_pos this]
          rw [Nat.mul_add] at he; omega
      · right
        have he : step / u = lastWrite / u := by omega
        refine ⟨he, ?_⟩
        rcases hnew with h1 | h1 | h1
        · omega
        · omega
        · intro h0; exact h1 (Nat.dvd_of_mod_eq_zero h0)
    rcases hhi with h | ⟨h1, h2⟩
    · rw [h, slice_eq_sampled hN hu hm hring rfl hwin]
    · rw [if_neg h2]
      have : step / u % N = step / u - N * (lastWrite / u / N) := by rw [← h1]; omega
      rw [this, slice_eq_sampled hN hu hm hring rfl hwin]

/-- Non-vacuity: the situation of the repository's own unit test (`test/test_action.py`): 20 rows,
update stride 2, stride 6, step 63, last write 47. -/
example : getValidData ((List.range 20).map (fun i => if i ≤ 10 then 42 + 2 * i else 2 + 2 * i))
    (63 : Nat) ((3 * 2 : Nat) : Int) (2 : Nat) (47 : Nat) = .ok [48, 54, 60] := by decide

example : IsRing ((List.range 20).map (fun i => if i ≤ 10 then 42 + 2 * i else 2 + 2 * i))
    id 20 2 63 ∧ 63 / 2 ≤ 20 * (47 / 2 / 20 + 1) ∧ 47 / 2 < 63 / 2 := by
  refine ⟨⟨rfl, ?_⟩, by decide, by decide⟩
  intro k h1 h2 h3
  have : k ≤ 31 := by omega
  have : 12 ≤ k := by omega
  interval_cases k <;> rfl

/-- The excluded point of C01 (the code does not satisfy the property there): if nothing has been
recorded since `last_write`, the current step is not `last_write`, and the buffer is at a block boundary,
then with `stride = update_stride` the whole array is returned again, although no row is new. -/
theorem getValidData_stale {α} (data : List α) (u step lastWrite : Nat)
    (hN : 0 < data.length) (hu : 0 < u) (hlt : lastWrite < step)
    (hsame : lastWrite / u = step / u) (hblock : data.length ∣ step / u) :
    getValidData data step u u lastWrite = .ok data ∧ sampledSteps u lastWrite step = [] := by
  constructor
  · have h := getValidData_nat data data.length u 1 step lastWrite rfl hN hu Nat.one_pos (by omega)
    rw [Nat.one_mul] at h
    rw [h, if_pos (Nat.mod_eq_zero_of_dvd hblock), hsame, Nat.mod_eq_zero_of_dvd hblock]
    have : min (0 + (1 - 1) - step / u % 1) data.length = 0 := by omega
    rw [this, sliceIdx_full, filterMap_range_get]
  · apply List.eq_nil_iff_forall_not_mem.2
    intro t ht
    rw [mem_sampledSteps] at ht
    obtain ⟨h1, h2, q, rfl⟩ := ht
    have : lastWrite / u < q := by rw [Nat.div_lt_iff_lt_mul hu, Nat.mul_comm]; exact h1
    have : q ≤ step / u := by rw [Nat.le_div_iff_mul_le hu, Nat.mul_comm]; exact h2
    omega

example : getValidData [10, 20] (5 : Nat) (2 : Nat) (2 : Nat) (4 : Nat) = .ok [10, 20] := by decide

end Bdld
