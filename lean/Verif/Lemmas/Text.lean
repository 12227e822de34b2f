import Verif.Spec.Text
import Verif.Model.Text
import Mathlib.Data.List.TakeWhile
import Mathlib.Tactic.FieldSimp
import Mathlib.Tactic.Ring
import Mathlib.Tactic.Linarith
import Mathlib.Tactic.Positivity

/-
Lemmas about printing and reading numbers.
-/

namespace Bdld
open Spec

/-! ### Pieces of a text -/

theorem piecesFrom_append (sep : Char) (l r : List Char) : ∀ cur, sep ∉ l →
    piecesFrom sep cur (l ++ r) = piecesFrom sep (cur ++ l) r := by
  induction l with
  | nil => intro cur _; simp
  | cons c l ih =>
    intro cur h
    have h1 : c ≠ sep := fun e => h (by simp [e])
    have h2 : sep ∉ l := fun e => h (by simp [e])
    rw [List.cons_append, piecesFrom, if_neg h1, ih _ h2]
    simp

theorem pieces_line (sep : Char) (l r : List Char) (h : sep ∉ l) :
    pieces sep (l ++ sep :: r) = (if l = [] then [] else [l]) ++ pieces sep r := by
  rw [pieces, piecesFrom_append sep l _ _ h, List.nil_append, piecesFrom, if_pos rfl]
  rfl

theorem pieces_single (sep : Char) (l : List Char) (h : sep ∉ l) : pieces sep l = if l = [] then [] else [l] := by
  rw [pieces, ← List.append_nil l, piecesFrom_append sep l _ _ h]
  simp [piecesFrom]

theorem pieces_cons_sep (sep : Char) (r : List Char) : pieces sep (sep :: r) = pieces sep r := by
  have := pieces_line sep [] r (by simp)
  simpa using this

theorem pieces_replicate (sep : Char) (k : Nat) (r : List Char) : pieces sep (List.replicate k sep ++ r) = pieces sep r := by
  induction k with
  | zero => simp
  | succ k ih => rw [List.replicate_succ, List.cons_append, pieces_cons_sep, ih]

theorem pieces_lines (ls : List (List Char)) (h : ∀ l ∈ ls, '\n' ∉ l) (r : List Char) :
    pieces '\n' (ls.flatMap (fun l => l ++ ['\n']) ++ r) = ls.filter (fun l => decide (l ≠ [])) ++ pieces '\n' r := by
  induction ls with
  | nil => simp
  | cons l ls ih =>
    rw [List.flatMap_cons, List.append_assoc, List.append_assoc, List.singleton_append,
      pieces_line _ _ _ (h l (by simp)), ih (fun x hx => h x (by simp [hx]))]
    by_cases e : l = []
    · subst e; simp
    · simp [e]

/-- Words of padded columns. -/
theorem words_columns (cols : List (Nat × List Char)) (h : ∀ c ∈ cols, ' ' ∉ c.2 ∧ c.2 ≠ []) :
    textWords ([' '].intercalate (cols.map (fun c => List.replicate c.1 ' ' ++ c.2))) = cols.map Prod.snd := by
  induction cols with
  | nil => rfl
  | cons c cols ih =>
    obtain ⟨h1, h2⟩ := h c (by simp)
    cases cols with
    | nil =>
      simp only [List.map_cons, List.map_nil, List.intercalate, List.intersperse, List.flatten_cons, List.flatten_nil, List.append_nil]
      rw [textWords, pieces_replicate, pieces_single _ _ h1, if_neg h2]
    | cons c' cols =>
      have ih := ih (fun x hx => h x (by simp [hx]))
      rw [textWords, List.map_cons, List.map_cons] at *
      simp only [List.intercalate, List.intersperse, List.flatten_cons, List.append_assoc, List.singleton_append] at ih ⊢
      rw [pieces_replicate, pieces_line _ _ _ h1, if_neg h2, ih]
      simp

/-! ### Natural numbers -/

theorem readNat_eq (l : List Char) (h1 : l ≠ []) (h2 : ∀ c ∈ l, c.isDigit = true) : readNat l = some (Nat.ofDigitChars 10 l 0) := by
  rw [readNat, if_pos ⟨h1, by simpa [List.all_eq_true] using h2⟩, Nat.ofDigitChars_eq_foldl]

theorem digit_of_mem_toDigits (n : Nat) : ∀ c ∈ Nat.toDigits 10 n, c.isDigit = true :=
  fun _ hc => Nat.isDigit_of_mem_toDigits (by decide) (by decide) hc

theorem readNat_toDigits (n : Nat) : readNat (Nat.toDigits 10 n) = some n := by
  rw [readNat_eq _ Nat.toDigits_ne_nil (digit_of_mem_toDigits n), Nat.ofDigitChars_ten_toDigits]

theorem digit_of_mem_padded (p n : Nat) : ∀ c ∈ paddedDigits p n, c.isDigit = true := by
  intro c hc
  rcases List.mem_append.1 hc with h | h
  · rw [List.eq_of_mem_replicate h]
    rfl
  · exact digit_of_mem_toDigits n c h

theorem readNat_padded (p n : Nat) : readNat (paddedDigits p n) = some n := by
  rw [readNat_eq _ (by simp [paddedDigits, Nat.toDigits_ne_nil]) (digit_of_mem_padded p n), paddedDigits, Nat.ofDigitChars_append,
    Nat.ofDigitChars_replicate_zero, Nat.mul_zero, Nat.ofDigitChars_ten_toDigits]

theorem padded_length (p n : Nat) (hp : 0 < p) (h : n < 10 ^ p) : (paddedDigits p n).length = p := by
  have : (Nat.toDigits 10 n).length ≤ p := (Nat.length_toDigits_le_iff (by decide) hp).2 h
  simp only [paddedDigits, List.length_append, List.length_replicate]
  omega

/-! ### Decimal numbers -/

theorem digit_ne {c d : Char} (h : c.isDigit = true) (hd : d.isDigit = false) : c ≠ d := by
  rintro rfl
  rw [h] at hd
  cases hd

theorem mem_fixedPoint (p n : Nat) : ∀ c ∈ fixedPoint p n, c.isDigit = true ∨ c = '.' := by
  intro c hc
  rcases List.mem_append.1 hc with h | h
  · exact Or.inl (digit_of_mem_toDigits _ c h)
  · split at h
    · simp at h
    · rcases List.mem_cons.1 h with h | h
      · exact Or.inr h
      · exact Or.inl (digit_of_mem_padded _ _ c h)

theorem readUnsigned_fixedPoint (p n : Nat) : readUnsigned (fixedPoint p n) = some ((n : ℚ) / 10 ^ p) := by
  have hd : ∀ c ∈ Nat.toDigits 10 (n / 10 ^ p), (decide (c ≠ '.')) = true := fun c hc =>
    decide_eq_true (digit_ne (digit_of_mem_toDigits _ c hc) rfl)
  unfold readUnsigned fixedPoint
  rw [List.span_eq_takeWhile_dropWhile]
  by_cases hp : p = 0
  · subst hp
    rw [if_pos rfl, List.append_nil, List.takeWhile_eq_self_iff.2 hd, List.dropWhile_eq_nil_iff.2 hd]
    simp [readNat_toDigits]
  · rw [if_neg hp, List.takeWhile_append_of_pos hd, List.dropWhile_append_of_pos hd]
    simp only [ne_eq, not_true_eq_false, decide_false, Bool.false_eq_true, not_false_eq_true, List.takeWhile_cons_of_neg,
      List.append_nil, List.dropWhile_cons_of_neg]
    have hpow : (0 : ℕ) < 10 ^ p := by positivity
    rw [readNat_toDigits, readNat_padded, padded_length p _ (by omega) (Nat.mod_lt _ hpow)]
    simp only [Option.bind_eq_bind, Option.bind_some, Option.pure_def, Option.some.injEq]
    have h : ((10 ^ p * (n / 10 ^ p) + n % 10 ^ p : ℕ) : ℚ) = n := by rw [Nat.div_add_mod]
    push_cast at h
    rw [eq_div_iff (by positivity), add_mul, div_mul_cancel₀ _ (by positivity), ← h]
    ring

/-- The number that is printed. -/
def printedValue {F : Type} [Field F] [LinearOrder F] [FloorSemiring F] (p : Nat) : WithTop F → WithTop ℚ
  | some x => (((if x < 0 then -((roundEven (-x * 10 ^ p) : ℚ) / 10 ^ p) else (roundEven (x * 10 ^ p) : ℚ) / 10 ^ p) : ℚ) : WithTop ℚ)
  | none => ⊤

theorem fixedPoint_head (p n : Nat) : ∃ c r, fixedPoint p n = c :: r ∧ c.isDigit = true := by
  unfold fixedPoint
  cases h : Nat.toDigits 10 (n / 10 ^ p) with
  | nil => exact absurd h Nat.toDigits_ne_nil
  | cons c r => exact ⟨c, _, rfl, digit_of_mem_toDigits (n / 10 ^ p) c (by simp [h])⟩

theorem readNumber_fixedPoint (p n : Nat) : readNumber (fixedPoint p n) = some (((n : ℚ) / 10 ^ p : ℚ) : WithTop ℚ) := by
  obtain ⟨c, r, h, hc⟩ := fixedPoint_head p n
  have h0 := readUnsigned_fixedPoint p n
  rw [h] at h0 ⊢
  unfold readNumber
  split
  · next h' =>
    cases h'
    exact absurd hc (by decide)
  · next h' =>
    cases h'
    exact absurd hc (by decide)
  · rw [h0]
    rfl

section
variable {F : Type} [Field F] [LinearOrder F] [FloorSemiring F]

/-- A printed number without the padding. -/
def bareNumber (p : Nat) : WithTop F → List Char
  | some x => fixedSigned p x
  | none => ['i', 'n', 'f']

theorem fmtFixed_eq (w p : Nat) (x : WithTop F) :
    fmtFixed w p x = List.replicate (w - (bareNumber p x).length) ' ' ++ bareNumber p x := by
  cases x <;> rfl

theorem readNumber_bare (p : Nat) (x : WithTop F) : readNumber (bareNumber p x) = some (printedValue p x) := by
  cases x with
  | top => rfl
  | coe x =>
    show readNumber (fixedSigned p x) = some (((if x < 0 then -((roundEven (-x * 10 ^ p) : ℚ) / 10 ^ p)
      else (roundEven (x * 10 ^ p) : ℚ) / 10 ^ p) : ℚ) : WithTop ℚ)
    unfold fixedSigned
    by_cases h : x < 0
    · rw [if_pos h, if_pos h, readNumber, readUnsigned_fixedPoint]
      rfl
    · rw [if_neg h, if_neg h]
      exact readNumber_fixedPoint _ _

theorem bare_noSep (p : Nat) (x : WithTop F) (sep : Char) (h1 : sep.isDigit = false) (h2 : sep ≠ '.') (h3 : sep ≠ '-')
    (h4 : sep ∉ ['i', 'n', 'f']) : sep ∉ bareNumber p x := by
  have hf : ∀ n, sep ∉ fixedPoint p n := by
    intro n h
    rcases mem_fixedPoint p n sep h with h | h
    · rw [h] at h1
      cases h1
    · exact h2 h
  cases x with
  | top => exact h4
  | coe x =>
    show sep ∉ fixedSigned p x
    unfold fixedSigned
    split
    · intro h
      rcases List.mem_cons.1 h with h | h
      · exact h3 h
      · exact hf _ h
    · exact hf _

theorem bare_ne_nil (p : Nat) (x : WithTop F) : bareNumber p x ≠ [] := by
  intro h
  have := readNumber_bare p x
  rw [h] at this
  simp [readNumber, readUnsigned, readNat, List.span_eq_takeWhile_dropWhile] at this

end

end Bdld
