import Verif.Lemmas.Text
import Mathlib.Algebra.Order.Floor.Ring

/-
C113: the numbers in the text of the output files.
-/

namespace Bdld
open Spec

section
variable {F : Type} [Field F] [LinearOrder F] [IsStrictOrderedRing F] [FloorSemiring F]

/-! ### Rounding -/

omit [IsStrictOrderedRing F] in
theorem floor_bounds {x : F} (hx : 0 ≤ x) : (⌊x⌋₊ : F) ≤ x ∧ x < ⌊x⌋₊ + 1 := ⟨Nat.floor_le hx, Nat.lt_floor_add_one x⟩

/-- The printed number is a nearest one. -/
theorem roundEven_error {x : F} (hx : 0 ≤ x) : |(roundEven x : F) - x| ≤ 1 / 2 := by
  obtain ⟨h1, h2⟩ := floor_bounds hx
  unfold roundEven
  simp only
  split_ifs
  · rw [abs_le]; constructor <;> linarith
  · rw [abs_le]; push_cast; constructor <;> linarith
  · rw [abs_le]; constructor <;> linarith
  · rw [abs_le]; push_cast; constructor <;> linarith

theorem roundEven_natCast (n : Nat) : roundEven (n : F) = n := by
  unfold roundEven
  simp

/-- The order is kept. -/
theorem roundEven_mono {x y : F} (h : x ≤ y) : roundEven x ≤ roundEven y := by
  have hf : ⌊x⌋₊ ≤ ⌊y⌋₊ := Nat.floor_mono h
  have hx1 : roundEven x ≤ ⌊x⌋₊ + 1 := by unfold roundEven; simp only; split_ifs <;> omega
  have hy1 : ⌊y⌋₊ ≤ roundEven y := by unfold roundEven; simp only; split_ifs <;> omega
  rcases Nat.lt_or_ge ⌊x⌋₊ ⌊y⌋₊ with hlt | hge
  · omega
  · have e : ⌊x⌋₊ = ⌊y⌋₊ := le_antisymm hf hge
    unfold roundEven
    simp only [← e]
    split_ifs <;> first | omega | (exfalso; linarith)

/-- Numbers whose distance is more than one unit are different after rounding. -/
theorem roundEven_strict {x y : F} (hx : 0 ≤ x) (h : x + 1 < y) : roundEven x < roundEven y := by
  have h1 := abs_le.1 (roundEven_error hx)
  have h2 := abs_le.1 (roundEven_error (x := y) (by linarith))
  have : (roundEven x : F) < roundEven y := by linarith
  exact_mod_cast this

/-- **C113.** The printed number differs from the number at most by half of the last digit. -/
theorem printedValue_error (p : Nat) (x : F) : ∃ q : ℚ, printedValue p (x : WithTop F) = (q : WithTop ℚ) ∧
    |(q : F) - x| ≤ 1 / (2 * 10 ^ p) := by
  have hp : (0 : F) < 10 ^ p := by positivity
  refine ⟨_, rfl, ?_⟩
  have key : ∀ y : F, 0 ≤ y → |(((roundEven (y * 10 ^ p) : ℚ) / 10 ^ p : ℚ) : F) - y| ≤ 1 / (2 * 10 ^ p) := by
    intro y hy
    have h1 := roundEven_error (x := y * 10 ^ p) (by positivity)
    push_cast
    have : (roundEven (y * 10 ^ p) : F) / 10 ^ p - y = ((roundEven (y * 10 ^ p) : F) - y * 10 ^ p) / 10 ^ p := by
      field_simp
    rw [this, abs_div, abs_of_pos hp, div_le_div_iff₀ hp (by positivity)]
    nlinarith
  split
  · next h =>
    have := key (-x) (by linarith)
    rw [abs_le] at this ⊢
    push_cast at this ⊢
    constructor <;> linarith
  · next h => exact key x (not_lt.1 h)

/-- **C113.** A number with at most `p` decimal digits is printed exactly. -/
theorem printedValue_exact (p : Nat) (k : Int) : printedValue p (((k : F) / 10 ^ p : F) : WithTop F) = (((k : ℚ) / 10 ^ p : ℚ) : WithTop ℚ) := by
  have hp : (0 : F) < 10 ^ p := by positivity
  show (((if ((k : F) / 10 ^ p) < 0 then -((roundEven (-((k : F) / 10 ^ p) * 10 ^ p) : ℚ) / 10 ^ p)
    else (roundEven (((k : F) / 10 ^ p) * 10 ^ p) : ℚ) / 10 ^ p) : ℚ) : WithTop ℚ) = _
  rw [show -((k : F) / 10 ^ p) * 10 ^ p = -k by field_simp, div_mul_cancel₀ _ hp.ne']
  refine congrArg (fun q : ℚ => (q : WithTop ℚ)) ?_
  by_cases hk : k < 0
  · rw [if_pos (div_neg_of_neg_of_pos (by exact_mod_cast hk) hp)]
    obtain ⟨n, rfl⟩ : ∃ n : Nat, k = -n := ⟨k.natAbs, by omega⟩
    push_cast
    rw [neg_neg, roundEven_natCast]
    rw [neg_div]
  · rw [if_neg (not_lt.2 (div_nonneg (by exact_mod_cast (not_lt.1 hk)) hp.le))]
    obtain ⟨n, rfl⟩ : ∃ n : Nat, k = n := ⟨k.natAbs, by omega⟩
    push_cast
    rw [roundEven_natCast]

/-- **C113.** Integers are printed exactly. -/
theorem printedValue_int (p : Nat) (k : Int) : printedValue p ((k : F) : WithTop F) = ((k : ℚ) : WithTop ℚ) := by
  have h := printedValue_exact (F := F) p (k * 10 ^ p)
  push_cast at h
  rwa [mul_div_cancel_right₀ _ (by positivity), mul_div_cancel_right₀ _ (by positivity)] at h

/-! ### Rows and files -/

omit [IsStrictOrderedRing F] in
/-- **C113.** The words of a printed row are the printed numbers, however long they are. -/
theorem row_words (w p : Nat) (row : List (WithTop F)) :
    (textWords ([' '].intercalate (row.map (fmtFixed w p)))).mapM readNumber = some (row.map (printedValue p)) := by
  have h : row.map (fmtFixed w p) =
      (row.map (fun x => (w - (bareNumber p x).length, bareNumber p x))).map (fun c => List.replicate c.1 ' ' ++ c.2) := by
    rw [List.map_map]
    exact List.map_congr_left fun x _ => fmtFixed_eq w p x
  rw [h, words_columns]
  · rw [List.map_map]
    induction row with
    | nil => rfl
    | cons x row ih =>
      rw [List.map_cons, List.mapM_cons, ih (by rw [List.map_map]; exact List.map_congr_left fun x _ => fmtFixed_eq w p x)]
      simp only [Function.comp_apply]
      rw [readNumber_bare]
      rfl
  · intro c hc
    obtain ⟨x, _, rfl⟩ := List.mem_map.1 hc
    exact ⟨bare_noSep p x ' ' rfl (by decide) (by decide) (by decide), bare_ne_nil p x⟩

omit [IsStrictOrderedRing F] in
theorem fmtFixed_noSep (w p : Nat) (x : WithTop F) (sep : Char) (h0 : sep ≠ ' ') (h1 : sep.isDigit = false) (h2 : sep ≠ '.')
    (h3 : sep ≠ '-') (h4 : sep ∉ ['i', 'n', 'f']) : sep ∉ fmtFixed w p x := by
  rw [fmtFixed_eq]
  intro h
  rcases List.mem_append.1 h with h | h
  · exact h0 (List.eq_of_mem_replicate h)
  · exact bare_noSep p x sep h1 h2 h3 h4 h

theorem mem_intercalate {c : Char} {ls : List (List Char)} (h : c ∈ [' '].intercalate ls) : c = ' ' ∨ ∃ l ∈ ls, c ∈ l := by
  induction ls with
  | nil => simp [List.intercalate] at h
  | cons l ls ih =>
    cases ls with
    | nil =>
      simp only [List.intercalate, List.intersperse, List.flatten_cons, List.flatten_nil, List.append_nil] at h
      exact Or.inr ⟨l, by simp, h⟩
    | cons l' ls =>
      simp only [List.intercalate, List.intersperse, List.flatten_cons, List.mem_append] at h ih
      rcases h with h | h | h
      · exact Or.inr ⟨l, by simp, h⟩
      · exact Or.inl (by simpa using h)
      · rcases ih h with h | ⟨x, hx, h⟩
        · exact Or.inl h
        · exact Or.inr ⟨x, by simp only [List.mem_cons] at hx ⊢; tauto, h⟩

omit [IsStrictOrderedRing F] in
theorem row_noSep (w p : Nat) (row : List (WithTop F)) (sep : Char) (h0 : sep ≠ ' ') (h1 : sep.isDigit = false) (h2 : sep ≠ '.')
    (h3 : sep ≠ '-') (h4 : sep ∉ ['i', 'n', 'f']) : sep ∉ [' '].intercalate (row.map (fmtFixed w p)) := by
  intro h
  rcases mem_intercalate h with h | ⟨l, hl, h⟩
  · exact h0 h
  · obtain ⟨x, _, rfl⟩ := List.mem_map.1 hl
    exact fmtFixed_noSep w p x sep h0 h1 h2 h3 h4 h

omit [IsStrictOrderedRing F] in
theorem row_ne_nil (w p : Nat) (row : List (WithTop F)) (h : row ≠ []) : [' '].intercalate (row.map (fmtFixed w p)) ≠ [] := by
  intro h0
  have := row_words w p row
  rw [h0] at this
  simp only [textWords, pieces, piecesFrom, if_true, List.mapM_nil] at this
  have := Option.some.inj this
  exact h (List.map_eq_nil_iff.1 this.symm)

/-- Lines of a file. -/
inductive TextLine (F : Type) where
  /-- a comment -/
  | comment (text : List Char)
  /-- a row of numbers -/
  | row (values : List (WithTop F))
  /-- an empty line -/
  | blank

/-- Text of a line without newline. -/
def TextLine.text (w p : Nat) : TextLine F → List Char
  | .comment t => t
  | .row values => [' '].intercalate (values.map (fmtFixed w p))
  | .blank => []

/-- Rows of a file. -/
def TextLine.values : TextLine F → Option (List (WithTop F))
  | .row values => some values
  | _ => none

/-- Comments are recognisable, and rows are not empty. -/
def TextLine.Good : TextLine F → Prop
  | .comment t => t.head? = some '#' ∧ '\n' ∉ t
  | .row values => values ≠ []
  | .blank => True

omit [IsStrictOrderedRing F] in
/-- **C113.** Reading a file gives the printed numbers of its rows, in order; header and empty lines do not matter. -/
theorem readTable_lines (w p : Nat) (ls : List (TextLine F)) (h : ∀ l ∈ ls, l.Good) :
    readTable (ls.flatMap (fun l => l.text w p ++ ['\n'])) =
      some ((ls.filterMap TextLine.values).map (fun r => r.map (printedValue p))) := by
  have hnl : ∀ l ∈ ls.map (TextLine.text w p), '\n' ∉ l := by
    intro t ht
    obtain ⟨l, hl, rfl⟩ := List.mem_map.1 ht
    have hg := h l hl
    cases l with
    | comment t => exact hg.2
    | row v => exact row_noSep w p v '\n' (by decide) rfl (by decide) (by decide) (by decide)
    | blank => simp [TextLine.text]
  have e := pieces_lines (ls.map (TextLine.text w p)) hnl []
  rw [List.flatMap_map, List.append_nil] at e
  rw [readTable, textLines, e]
  simp only [pieces, piecesFrom, if_true, List.append_nil]
  clear e hnl
  induction ls with
  | nil => rfl
  | cons l ls ih =>
    have ih := ih (fun x hx => h x (by simp [hx]))
    have hg := h l (by simp)
    rw [List.map_cons]
    cases l with
    | comment t =>
      have h1 : t ≠ [] := by
        rintro rfl
        cases hg.1
      have h2 : isComment t = true := by simp [isComment, hg.1]
      rw [List.filter_cons_of_pos (by simp [TextLine.text, h1]), List.filter_cons_of_neg (by simp [TextLine.text, h2]), ih]
      rfl
    | row v =>
      have h1 := row_ne_nil w p v hg
      have h2 : isComment ([' '].intercalate (v.map (fmtFixed w p))) = false := by
        have := row_noSep w p v '#' (by decide) rfl (by decide) (by decide) (by decide)
        unfold isComment
        cases hh : [' '].intercalate (v.map (fmtFixed w p)) with
        | nil => rfl
        | cons c r =>
          rw [hh] at this
          simp only [List.head?_cons, beq_eq_false_iff_ne, ne_eq, Option.some.injEq]
          rintro rfl
          simp at this
      rw [List.filter_cons_of_pos (by simp [TextLine.text, h1]), List.filter_cons_of_pos (by simp [TextLine.text, h2]),
        List.mapM_cons, ih]
      rw [show TextLine.text w p (.row v) = [' '].intercalate (v.map (fmtFixed w p)) from rfl, row_words]
      rfl
    | blank =>
      rw [List.filter_cons_of_neg (by simp [TextLine.text]), ih]
      rfl

end

/-- **C113.** What is read differs from the numbers at most by half of the last printed digit. -/
theorem printed_table (p : Nat) (rows : List (List (WithTop ℝ))) :
    PrintedTable p (rows.map (fun r => r.map (printedValue p))) rows := by
  rw [PrintedTable, List.forall₂_map_left_iff, List.forall₂_same]
  intro r _
  rw [List.forall₂_map_left_iff, List.forall₂_same]
  intro x _
  cases x with
  | top => trivial
  | coe x =>
    obtain ⟨q, h1, h2⟩ := printedValue_error p x
    rw [h1]
    exact h2

/-- **C113.** Column width: at least `w` characters; all columns have exactly `w` characters as long as the number has enough room. -/
theorem fmtFixed_length {F : Type} [Field F] [LinearOrder F] [FloorSemiring F] (w p : Nat) (x : WithTop F) :
    (fmtFixed w p x).length = max w (bareNumber p x).length := by
  rw [fmtFixed_eq]
  simp only [List.length_append, List.length_replicate]
  omega

/-- **C113.** Lines of birth-death statistics are read exactly. -/
theorem ints_words (row : List Nat) :
    (textWords ([' '].intercalate (row.map (Nat.toDigits 10)))).mapM readNat = some row := by
  have h : row.map (Nat.toDigits 10) = (row.map (fun x => (0, Nat.toDigits 10 x))).map (fun c => List.replicate c.1 ' ' ++ c.2) := by
    rw [List.map_map]
    exact List.map_congr_left fun x _ => rfl
  rw [h, words_columns]
  · rw [List.map_map]
    clear h
    induction row with
    | nil => rfl
    | cons x row ih =>
      rw [List.map_cons, List.mapM_cons, ih]
      simp only [Function.comp_apply]
      rw [readNat_toDigits]
      rfl
  · intro c hc
    obtain ⟨x, _, rfl⟩ := List.mem_map.1 hc
    exact ⟨fun h => absurd (digit_of_mem_toDigits x ' ' h) (by decide), Nat.toDigits_ne_nil⟩

end Bdld
