import Verif.Model.Main
import Verif.Model.Header
import Verif.Model.Headers
import Verif.Model.Polynomial
import Verif.Model.Trajectory

/-
Corner cases that the theorems about whole operations do not distinguish (found with wrong programs): Python's indices
and slices, kinds of exceptions, defaults.
-/

namespace Bdld

/-! ### Indices and slices -/

/-- An index `i` with `-n ≤ i < n` is accepted and counts from the end if it is negative; others raise `IndexError`. -/
theorem npIndex_iff (n : Nat) (i : Int) (j : Nat) :
    npIndex n i = .ok j ↔ j < n ∧ ((j : Int) = i ∨ (j : Int) = i + n) ∧ (0 ≤ i → (j : Int) = i) := by
  unfold npIndex
  split_ifs with h1 h2
  · rw [Except.ok.injEq]
    omega
  · rw [Except.ok.injEq]
    omega
  · constructor
    · intro h; cases h
    · omega

/-- The only error is `IndexError`. -/
theorem npIndex_error (n : Nat) (i : Int) (e : PyErr) : npIndex n i = .error e ↔ e = .indexError ∧ (i < -n ∨ (n : Int) ≤ i) := by
  unfold npIndex
  split_ifs with h1 h2
  · constructor
    · intro h; cases h
    · omega
  · constructor
    · intro h; cases h
    · omega
  · constructor
    · intro h; cases h; exact ⟨rfl, by omega⟩
    · rintro ⟨rfl, -⟩; rfl

example : npIndex 3 (-3) = .ok 0 := rfl
example : npIndex 3 (-4) = .error .indexError := rfl
example : npIndex 3 2 = .ok 2 := rfl

/-- Bounds of slices are moved into the array. -/
theorem sliceBound_spec (n : Nat) (i : Int) : sliceBound n i ≤ n ∧
    (0 ≤ i → i ≤ n → (sliceBound n i : Int) = i) ∧ (i < 0 → -n ≤ i → (sliceBound n i : Int) = i + n) ∧
    (i < -n → sliceBound n i = 0) ∧ ((n : Int) ≤ i → sliceBound n i = n) := by
  unfold sliceBound
  split_ifs with h <;> omega

example : sliceBound 5 (-2) = 3 := rfl
example : pySlice [1, 2, 3, 4, 5] (-2) none 1 = .ok [4, 5] := rfl
example : pySlice [1, 2, 3, 4, 5] 1 (some (-1)) 2 = .ok [2, 4] := rfl

/-- A missing column raises `IndexError`. -/
theorem npColumn_error {α : Type} (rows : List (List α)) (i : Nat) (e : PyErr) :
    npColumn rows i = .error e ↔ e = .indexError ∧ ∃ r ∈ rows, r.length ≤ i := by
  induction rows with
  | nil => simp [npColumn, pure, Except.pure]
  | cons r rows ih =>
    have hc : npColumn (r :: rows) i = (do
        let a ← (match r[i]? with
          | some x => (Except.ok x : Except PyErr α)
          | none => .error .indexError)
        let b ← npColumn rows i
        pure (a :: b)) := List.mapM_cons
    rw [hc]
    rcases hr : r[i]? with _ | x
    · have hle : r.length ≤ i := List.getElem?_eq_none_iff.1 hr
      constructor
      · intro h; cases h; exact ⟨rfl, r, by simp, hle⟩
      · rintro ⟨rfl, -⟩; rfl
    · have hlt : i < r.length := (List.getElem?_eq_some_iff.1 hr).1
      have hiff : (∃ s ∈ r :: rows, s.length ≤ i) ↔ ∃ s ∈ rows, s.length ≤ i := by
        simp only [List.mem_cons, exists_eq_or_imp]
        exact ⟨fun h => h.resolve_left (by omega), Or.inr⟩
      rw [hiff, ← ih]
      rcases hm : npColumn rows i with e' | xs
      · rfl
      · constructor <;> intro h <;> cases h

example : npColumn [[1, 2], [3]] 1 = .error .indexError := rfl

/-! ### Convolution -/

/-- Arrays with different numbers of axes cannot be convolved. -/
theorem spConvolve_axes {F : Type} [Field F] (a b : Nd F) (h : a.shape.length ≠ b.shape.length) (m : ConvMode) :
    spConvolve a b m = .error .valueError := by
  cases m <;> simp [spConvolve, h]

/-- The full convolution has `m + n - 1` values along every axis. -/
theorem spConvolve_full {F : Type} [Field F] (a b : Nd F) (h : a.shape.length = b.shape.length) :
    ∃ c, spConvolve a b .full = .ok c ∧ c.shape = List.zipWith (fun m n => m + n - 1) a.shape b.shape := by
  refine ⟨_, by rw [spConvolve, if_neg (not_not.2 h)], rfl⟩

/-! ### Input -/

example : checkAllDims ([] : List (Item ℝ)) [] = .error .indexError := rfl
example (x : ℝ) : checkAllDims [.num x] [.num x] = .error .typeError := rfl

/-- `all(x > 0 for x in value)` of a text: `TypeError` unless it is empty. -/
theorem allPositive_text {F : Type} [LinearOrder F] [Zero F] (s : String) :
    allPositive (F := F) (.base (.str s)) = if s = "" then .ok true else .error .typeError := rfl

/-- A factor that is missing or zero is 1, any other is used. -/
theorem rateFactor_spec (x : Option ℝ) : (x = none ∨ x = some 0 → rateFactor x = 1) ∧
    ∀ y, y ≠ 0 → x = some y → rateFactor x = y := by
  refine ⟨?_, ?_⟩
  · rintro (rfl | rfl) <;> simp [rateFactor]
  · rintro y hy rfl
    simp [rateFactor, hy]

/-! ### Headers -/

example : statsFields = ["timestep", "dup_succ", "dup_attempts", "kill_succ", "kill_attempts"] := rfl
example : PlHeader.new [] [] [] = ⟨[], [], ['#', '!']⟩ := by decide
example : PlHeader.new [] [] ['#'] = ⟨[], [], ['#']⟩ := by decide

/-- Text without header raises `ValueError`. -/
theorem parse_no_header (h : PlHeader) (content delim : Txt)
    (hn : ∀ l ∈ pyLines content, (if delim = [] then h.delim else delim).isPrefixOf l = false) :
    h.parse content delim = .error .valueError := by
  unfold PlHeader.parse
  have : (pyLines content).filter (fun l => (if delim = [] then h.delim else delim).isPrefixOf l) = [] := by
    rw [List.filter_eq_nil_iff]
    intro l hl
    rw [hn l hl]
    decide
  simp only [this]
  rfl

example : (PlHeader.new [] [] []).parse "1 2\n3 4".toList [] = .error .valueError := by decide +kernel

end Bdld
