import Verif.Props.PyNumber
import Verif.Props.ConfigDemo
import Verif.Lemmas.Text

/-
C121: numbers of output files and numbers of the documentation are read.
-/

namespace Bdld
open Spec

theorem isDigit_digit {c : Char} (h : c.isDigit = true) : ∃ d < 10, c = Nat.digitChar d ∧ d = c.toNat - '0'.toNat := by
  have h' : 48 ≤ c.toNat ∧ c.toNat ≤ 57 := by
    simp only [Char.isDigit, Bool.and_eq_true, decide_eq_true_eq, ge_iff_le, UInt32.le_iff_toNat_le] at h
    exact h
  have hd : digitOf c = some (c.toNat - 48) := by rw [digitOf, if_pos h']
  obtain ⟨h1, h2⟩ := (digitOf_iff c _).1 hd
  exact ⟨_, h1, h2, rfl⟩

theorem digits_text (l : List Char) (h1 : l ≠ []) (h2 : ∀ c ∈ l, c.isDigit = true) : DigitText l (l.map fun c => c.toNat - '0'.toNat) := by
  induction l with
  | nil => exact absurd rfl h1
  | cons c l ih =>
    obtain ⟨d, hd, hc, hv⟩ := isDigit_digit (h2 c List.mem_cons_self)
    rw [List.map_cons, ← hv, hc]
    by_cases hl : l = []
    · subst hl
      exact .one hd
    · exact .cons hd (ih hl fun c hc => h2 c (List.mem_cons_of_mem _ hc))

theorem readNat_text {l : List Char} {n : Nat} (h : readNat l = some n) : ∃ ds, DigitText l ds ∧ digitsValue ds = n ∧ ds.length = l.length := by
  rw [readNat] at h
  split at h
  · rename_i h1
    refine ⟨_, digits_text l h1.1 (by simpa [List.all_eq_true] using h1.2), ?_, by simp⟩
    rw [← natValue_eq, natValue, List.foldl_map]
    exact Option.some.inj h
  · cases h

theorem readUnsigned_text {l : List Char} {q : ℚ} (h : readUnsigned l = some q) : MantissaText l q := by
  rw [readUnsigned] at h
  have hl := (List.takeWhile_append_dropWhile (p := fun c => decide (c ≠ '.')) (l := l)).symm
  rw [List.span_eq_takeWhile_dropWhile] at h
  cases hd : l.dropWhile (fun c => decide (c ≠ '.')) with
  | nil =>
    rw [hd] at h hl
    rw [List.append_nil] at hl
    rw [← hl] at h
    dsimp only at h
    cases hn : readNat l with
    | none => rw [hn] at h; cases h
    | some n =>
      rw [hn] at h
      obtain rfl := Option.some.inj h
      obtain ⟨ds, h1, h2, _⟩ := readNat_text hn
      dsimp only
      rw [← h2]
      exact .int h1
  | cons c b =>
    have hc : c = '.' := by
      have := List.head_dropWhile_not (fun c => decide (c ≠ '.')) (l := l) (by rw [hd]; simp)
      simp only [hd, List.head_cons] at this
      simpa using this
    rw [hd] at h hl
    subst hc
    generalize l.takeWhile (fun c => decide (c ≠ '.')) = a at h hl
    subst hl
    dsimp only at h
    cases hn : readNat a with
    | none => rw [hn] at h; cases h
    | some n =>
      cases hm : readNat b with
      | none => rw [hn, hm] at h; cases h
      | some m =>
        rw [hn, hm] at h
        obtain rfl := Option.some.inj h
        obtain ⟨ds, h1, h2, _⟩ := readNat_text hn
        obtain ⟨ds', h1', h2', h3'⟩ := readNat_text hm
        rw [← h2, ← h2', ← h3']
        exact .both h1 h1'

/-- The value that `float()` gives. -/
def floatOf : WithTop ℚ → FloatVal
  | some q => .num q
  | none => .inf false

theorem stripped_self (s : List Char) : Stripped pySpace s s := ⟨[], [], by simp, by simp, by simp⟩

/-- **C121.** Every number of an output file is read by `float()` with its value. -/
theorem readNumber_float {l : List Char} {v : WithTop ℚ} (h : readNumber l = some v) : pyFloat l = some (floatOf v) := by
  unfold readNumber at h
  split at h
  · rename_i r
    cases hr : readUnsigned r with
    | none => rw [hr] at h; cases h
    | some q =>
      rw [hr] at h
      obtain rfl := Option.some.inj h
      exact (pyFloat_iff _ _).2 ⟨_, stripped_self _, .mk .minus (.plain (readUnsigned_text hr))⟩
  · obtain rfl := Option.some.inj h
    decide +kernel
  · cases hr : readUnsigned l with
    | none => rw [hr] at h; cases h
    | some q =>
      rw [hr] at h
      obtain rfl := Option.some.inj h
      exact (pyFloat_iff _ _).2 ⟨_, stripped_self _, .mk .none (.plain (readUnsigned_text hr))⟩

theorem strip_replicate (k : Nat) (t : List Char) : strip (List.replicate k ' ' ++ t) = strip t := by
  have := strip_padded (s := List.replicate k ' ') (t := t) (u := []) (fun c hc => by rw [List.eq_of_mem_replicate hc]; decide) (fun c hc => by cases hc)
  rwa [List.append_nil] at this

/-- **C121.** Printed numbers, with the padding of their columns, are read by `float()`. -/
theorem fmtFixed_float {F : Type} [Field F] [LinearOrder F] [FloorSemiring F] [IsStrictOrderedRing F] (w p : Nat) (x : WithTop F) :
    pyFloat (fmtFixed w p x) = some (floatOf (printedValue p x)) := by
  have h := readNumber_float (readNumber_bare p x)
  rw [fmtFixed_eq]
  unfold pyFloat at h ⊢
  rw [strip_replicate]
  exact h

/-- **C121.** Printed integers are read by `int()`. -/
theorem toDigits_int (n : Nat) : pyInt (Nat.toDigits 10 n) = some (n : Int) := by
  obtain ⟨ds, h1, h2, _⟩ := readNat_text (readNat_toDigits n)
  have := IntegerText.mk .none h1
  rw [signed, h2] at this
  exact (pyInt_iff _ _).2 ⟨_, stripped_self _, this⟩

/-- **C121.** So are negative ones. -/
theorem neg_int (n : Nat) : pyInt ('-' :: Nat.toDigits 10 n) = some (-(n : Int)) := by
  obtain ⟨ds, h1, h2, _⟩ := readNat_text (readNat_toDigits n)
  have := IntegerText.mk .minus h1
  rw [signed, h2] at this
  exact (pyInt_iff _ _).2 ⟨_, stripped_self _, this⟩

/-- **C121.** A text that is an integer is read as the same number by `float()`. -/
theorem int_float {s : List Char} {i : Int} (h : pyInt s = some i) : pyFloat s = some (.num i) := by
  obtain ⟨t, h1, h2⟩ := (pyInt_iff s i).1 h
  refine (pyFloat_iff s i).2 ⟨t, h1, ?_⟩
  obtain ⟨hs, ht⟩ := h2
  have := DecimalText.mk hs (.plain (.int ht))
  convert this using 1
  unfold signed
  split <;> simp

/-- **C121.** The conversions ignore white space at the ends. -/
theorem textConv_ignores {F : Type} (ofRat : ℚ → F) : IgnoresSpaces (textConv ofRat) where
  toFloat s t u hs hu := by simp only [textConv, pyFloat, String.toList_ofList, strip_padded hs hu]
  toInt s t u hs hu := by simp only [textConv, pyInt, String.toList_ofList, strip_padded hs hu]

/-- **C121.** A number of the input is the exact value of its text; texts that are no decimal numbers are rejected. -/
theorem textConv_float {F : Type} (ofRat : ℚ → F) (hinj : Function.Injective ofRat) (s : String) (q : ℚ) :
    (textConv ofRat).toFloat s = some (ofRat q) ↔ ∃ t, Stripped pySpace s.toList t ∧ DecimalText t q := by
  rw [← pyFloat_iff]
  change Option.map ofRat ((pyFloat s.toList).bind FloatVal.finite) = _ ↔ _
  cases hf : pyFloat s.toList with
  | none => simp
  | some v =>
    cases v with
    | num r => simp [FloatVal.finite, hinj.eq_iff]
    | inf b => simp [FloatVal.finite]
    | nan => simp [FloatVal.finite]

/-- **C121.** The same for integers. -/
theorem textConv_int {F : Type} (ofRat : ℚ → F) (s : String) (i : Int) :
    (textConv ofRat).toInt s = some i ↔ ∃ t, Stripped pySpace s.toList t ∧ IntegerText t i := pyInt_iff _ _

/-! ### Examples -/

example : pyFloat "0.005".toList = some (.num (1 / 200)) := by decide +kernel
example : pyFloat " -2.5 ".toList = some (.num (-5 / 2)) := by decide +kernel
example : pyFloat ".5e-3".toList = some (.num (1 / 2000)) := by decide +kernel
example : pyFloat "1_000.".toList = some (.num 1000) := by decide +kernel
example : pyFloat "1e3".toList = some (.num 1000) := by decide +kernel
example : pyFloat "-Inf".toList = some (.inf true) := by decide +kernel
example : pyFloat "NaN".toList = some .nan := by decide +kernel
example : pyFloat "1,5".toList = none := by decide +kernel
example : pyFloat "1.5 # comment".toList = none := by decide +kernel
example : pyFloat ".".toList = none := by decide +kernel
example : pyFloat "1e".toList = none := by decide +kernel
example : pyInt "+1_000".toList = some 1000 := by decide +kernel
example : pyInt "1__0".toList = none := by decide +kernel
/-- Integers are not written with decimals: `n_steps: 1e6` and `number: 10.0` are rejected. -/
example : pyInt "1e6".toList = none ∧ pyInt "10.0".toList = none := by decide +kernel

end Bdld
