import Verif.Model.Printf
import Verif.Spec.Printf
import Verif.Props.DeltaFText

/-
C145: number formats given by the user.
-/

namespace Bdld

open Spec

/-! ### Words -/

/-- Words of columns padded on both sides. -/
theorem words_columns2 (cols : List (Nat × List Char × Nat)) (h : ∀ c ∈ cols, ' ' ∉ c.2.1 ∧ c.2.1 ≠ []) :
    textWords ([' '].intercalate (cols.map (fun c => List.replicate c.1 ' ' ++ c.2.1 ++ List.replicate c.2.2 ' '))) =
      cols.map (fun c => c.2.1) := by
  have key : ∀ (w : List Char) (n : Nat) (r : List Char), ' ' ∉ w → w ≠ [] →
      pieces ' ' (w ++ (List.replicate n ' ' ++ ' ' :: r)) = w :: pieces ' ' r := by
    intro w n r h1 h2
    have e : List.replicate n ' ' ++ ' ' :: r = ' ' :: (List.replicate n ' ' ++ r) := by
      rw [List.append_cons, ← List.replicate_succ', List.replicate_succ, List.cons_append]
    rw [e, pieces_line _ _ _ h1, if_neg h2, pieces_replicate]
    rfl
  have key0 : ∀ (w : List Char) (n : Nat), ' ' ∉ w → w ≠ [] → pieces ' ' (w ++ List.replicate n ' ') = [w] := by
    intro w n h1 h2
    cases n with
    | zero => rw [List.replicate_zero, List.append_nil, pieces_single _ _ h1, if_neg h2]
    | succ n =>
      have := pieces_replicate ' ' n []
      rw [List.append_nil] at this
      rw [List.replicate_succ, pieces_line _ _ _ h1, if_neg h2, this]
      rfl
  induction cols with
  | nil => rfl
  | cons c cols ih =>
    obtain ⟨h1, h2⟩ := h c (by simp)
    cases cols with
    | nil =>
      simp only [List.map_cons, List.map_nil, List.intercalate, List.intersperse, List.flatten_cons, List.flatten_nil, List.append_nil]
      rw [textWords, List.append_assoc, pieces_replicate, key0 _ _ h1 h2]
    | cons c' cols =>
      have ih := ih (fun x hx => h x (by simp [hx]))
      rw [textWords, List.map_cons, List.map_cons] at *
      simp only [List.intercalate, List.intersperse, List.flatten_cons, List.append_assoc, List.singleton_append] at ih ⊢
      rw [pieces_replicate, key _ _ _ h1 h2, ih]
      simp

/-- Lines and words of a file whose entries are padded on both sides. -/
theorem table_words2 {α : Type} (print bare : α → List Char)
    (hpr : ∀ x, ∃ a b, print x = List.replicate a ' ' ++ bare x ++ List.replicate b ' ') (h1 : ∀ x, ' ' ∉ bare x)
    (h2 : ∀ x, bare x ≠ []) (h3 : ∀ x, '\n' ∉ bare x) (h4 : ∀ x, '#' ∉ bare x) (header : List String)
    (hh : ∀ l ∈ header, CommentLine l.toList) (rows : List (List α)) :
    ((textLines (headerText header ++
      rows.flatMap (fun r => [' '].intercalate (r.map print) ++ ['\n']))).filter
        (fun l => !isComment l)).map textWords = (rows.filter (fun r => !r.isEmpty)).map (fun r => r.map bare) := by
  choose pa pb hpr using hpr
  have hpad : ∀ r : List α, r.map print =
      (r.map (fun x => (pa x, bare x, pb x))).map
        (fun c => List.replicate c.1 ' ' ++ c.2.1 ++ List.replicate c.2.2 ' ') := by
    intro r
    rw [List.map_map]
    exact List.map_congr_left fun x _ => hpr x
  have hwords : ∀ r : List α, textWords ([' '].intercalate (r.map print)) = r.map bare := by
    intro r
    rw [hpad, words_columns2]
    · rw [List.map_map]
      rfl
    · intro c hc
      obtain ⟨x, _, rfl⟩ := List.mem_map.1 hc
      exact ⟨h1 x, h2 x⟩
  have hsep : ∀ c : Char, c ≠ ' ' → (∀ x, c ∉ bare x) → ∀ r : List α, c ∉ [' '].intercalate (r.map print) := by
    intro c hc hb r h
    rcases mem_intercalate h with h | ⟨l, hl, h⟩
    · exact hc h
    · obtain ⟨x, _, rfl⟩ := List.mem_map.1 hl
      rw [hpr x] at h
      rcases List.mem_append.1 h with h | h
      · rcases List.mem_append.1 h with h | h
        · exact hc (List.eq_of_mem_replicate h)
        · exact hb x h
      · exact hc (List.eq_of_mem_replicate h)
  have e := pieces_lines (header.map String.toList ++ rows.map (fun r => [' '].intercalate (r.map print))) (by
    intro l hl
    rcases List.mem_append.1 hl with hl | hl
    · obtain ⟨s, hs, rfl⟩ := List.mem_map.1 hl
      exact (hh s hs).2
    · obtain ⟨r, _, rfl⟩ := List.mem_map.1 hl
      exact hsep '\n' (by decide) h3 r) []
  rw [List.append_nil, List.flatMap_append, List.flatMap_map, List.flatMap_map] at e
  unfold headerText textLines
  rw [e]
  simp only [pieces, piecesFrom, if_true, List.append_nil, List.filter_append]
  have e1 : ((header.map String.toList).filter (fun l => l ≠ [])).filter (fun l => !isComment l) = [] := by
    rw [List.filter_eq_nil_iff]
    intro l hl
    obtain ⟨s, hs, rfl⟩ := List.mem_map.1 (List.mem_filter.1 hl).1
    simp [isComment, (hh s hs).1]
  rw [e1, List.nil_append]
  clear e e1
  induction rows with
  | nil => rfl
  | cons r rows ih =>
    by_cases hr : r = []
    · subst hr
      simpa [List.intercalate] using ih
    have hw := hwords r
    have hne : [' '].intercalate (r.map print) ≠ [] := by
      intro h0
      rw [h0] at hw
      exact hr (List.map_eq_nil_iff.1 hw.symm)
    have hcm : isComment ([' '].intercalate (r.map print)) = false := by
      have := hsep '#' (by decide) h4 r
      unfold isComment
      cases hx : [' '].intercalate (r.map print) with
      | nil => rfl
      | cons c t =>
        rw [hx] at this
        simp only [List.head?_cons, beq_eq_false_iff_ne, ne_eq, Option.some.injEq]
        rintro rfl
        simp at this
    rw [List.map_cons, List.filter_cons_of_pos (by simp [hne]), List.filter_cons_of_pos (by simp [hcm]), List.map_cons,
      ih, hw, List.filter_cons_of_pos (by simp [hr]), List.map_cons]

/-! ### Scientific notation -/

section
variable {F : Type} [Field F] [LinearOrder F] [IsStrictOrderedRing F] [FloorSemiring F]

/-- **C145.** The mantissa has one digit that is not zero before the point. -/
theorem sciParts_normal (p : Nat) {x : F} (hx : 0 < x) : 10 ^ p ≤ (sciParts p x).1 ∧ (sciParts p x).1 < 10 ^ (p + 1) := by
  have h1 : ((10 : ℕ) : F) ^ Int.log 10 x ≤ x := Int.zpow_log_le_self (by decide) hx
  have h2 : x < ((10 : ℕ) : F) ^ (Int.log 10 x + 1) := Int.lt_zpow_succ_log_self (by decide) x
  push_cast at h1 h2
  have hpos : (0 : F) < 10 ^ (Int.log 10 x - (p : ℤ)) := by positivity
  have e1 : (10 : F) ^ Int.log 10 x = 10 ^ p * 10 ^ (Int.log 10 x - (p : ℤ)) := by
    rw [← zpow_natCast, ← zpow_add₀ (by norm_num)]
    congr 1
    ring
  have e2 : (10 : F) ^ (Int.log 10 x + 1) = 10 ^ (p + 1) * 10 ^ (Int.log 10 x - (p : ℤ)) := by
    rw [← zpow_natCast, ← zpow_add₀ (by norm_num)]
    congr 1
    push_cast
    ring
  have g1 : ((10 ^ p : ℕ) : F) ≤ x / 10 ^ (Int.log 10 x - (p : ℤ)) := by
    rw [le_div_iff₀ hpos]
    push_cast
    rw [← e1]
    exact h1
  have g2 : x / 10 ^ (Int.log 10 x - (p : ℤ)) ≤ ((10 ^ (p + 1) : ℕ) : F) := by
    rw [div_le_iff₀ hpos]
    push_cast
    rw [← e2]
    exact h2.le
  have m1 := roundEven_mono g1
  have m2 := roundEven_mono g2
  rw [roundEven_natCast] at m1 m2
  unfold sciParts
  rw [if_neg hx.ne']
  simp only
  have hlt : 10 ^ p < 10 ^ (p + 1) := Nat.pow_lt_pow_right (by decide) (by omega)
  split_ifs with h
  · exact ⟨le_rfl, hlt⟩
  · exact ⟨m1, lt_of_le_of_ne m2 h⟩

theorem sciParts_value (p : Nat) {x : F} (hx : 0 < x) : ((sciParts p x).1 : F) / 10 ^ p * 10 ^ (sciParts p x).2 =
    (roundEven (x / 10 ^ (Int.log 10 x - (p : ℤ))) : F) * 10 ^ (Int.log 10 x - (p : ℤ)) := by
  have e3 : ∀ e : ℤ, (10 : F) ^ (e - (p : ℤ)) = 10 ^ e / 10 ^ p := fun e => by
    rw [zpow_sub₀ (by norm_num), zpow_natCast]
  unfold sciParts
  rw [if_neg hx.ne']
  simp only
  split_ifs with h
  · rw [h, e3, zpow_add₀ (by norm_num)]
    push_cast
    rw [pow_succ]
    field_simp
  · rw [e3]
    field_simp

/-- **C145.** The relative error of the printed number. -/
theorem sciParts_error (p : Nat) {x : F} (hx : 0 ≤ x) :
    |((sciParts p x).1 : F) / 10 ^ p * 10 ^ (sciParts p x).2 - x| ≤ x / (2 * 10 ^ p) := by
  rcases hx.eq_or_lt with rfl | hx
  · simp [sciParts]
  have h1 : ((10 : ℕ) : F) ^ Int.log 10 x ≤ x := Int.zpow_log_le_self (by decide) hx
  push_cast at h1
  have hpos : (0 : F) < 10 ^ (Int.log 10 x - (p : ℤ)) := by positivity
  have he := roundEven_error (x := x / 10 ^ (Int.log 10 x - (p : ℤ))) (by positivity)
  have hval := sciParts_value p hx
  have hfac : (roundEven (x / 10 ^ (Int.log 10 x - (p : ℤ))) : F) * 10 ^ (Int.log 10 x - (p : ℤ)) - x =
      ((roundEven (x / 10 ^ (Int.log 10 x - (p : ℤ))) : F) - x / 10 ^ (Int.log 10 x - (p : ℤ))) *
        10 ^ (Int.log 10 x - (p : ℤ)) := by
    field_simp
  rw [hval, hfac, abs_mul, abs_of_pos hpos]
  refine (mul_le_mul_of_nonneg_right he hpos.le).trans ?_
  rw [zpow_sub₀ (by norm_num), zpow_natCast, div_mul_div_comm, one_mul]
  exact div_le_div_of_nonneg_right h1 (by positivity)

end

/-! ### Reading entries -/

theorem readUnsigned_zeros (k p n : Nat) :
    readUnsigned (List.replicate k '0' ++ fixedPoint p n) = some ((n : ℚ) / 10 ^ p) := by
  have hz : ∀ c ∈ List.replicate k '0', (decide (c ≠ '.')) = true := fun c hc => by
    rw [List.eq_of_mem_replicate hc]; decide
  have hN : ∀ a : List Char, a ≠ [] → (∀ c ∈ a, c.isDigit = true) →
      readNat (List.replicate k '0' ++ a) = readNat a := by
    intro a ha hd
    rw [readNat_eq _ (by simp [ha]) (by
      intro c hc
      rcases List.mem_append.1 hc with h | h
      · rw [List.eq_of_mem_replicate h]; rfl
      · exact hd c h), readNat_eq _ ha hd, Nat.ofDigitChars_append, Nat.ofDigitChars_replicate_zero, Nat.mul_zero]
  have h0 := readUnsigned_fixedPoint p n
  have hd : ∀ c ∈ Nat.toDigits 10 (n / 10 ^ p), (decide (c ≠ '.')) = true := fun c hc =>
    decide_eq_true (digit_ne (digit_of_mem_toDigits _ c hc) rfl)
  rw [← h0]
  unfold readUnsigned fixedPoint
  rw [List.span_eq_takeWhile_dropWhile, List.span_eq_takeWhile_dropWhile, List.takeWhile_append_of_pos hz,
    List.dropWhile_append_of_pos hz]
  by_cases hp : p = 0
  · subst hp
    rw [if_pos rfl, List.append_nil, List.takeWhile_eq_self_iff.2 hd, List.dropWhile_eq_nil_iff.2 hd]
    simp only
    rw [hN _ Nat.toDigits_ne_nil (digit_of_mem_toDigits _)]
  · rw [if_neg hp, List.takeWhile_append_of_pos hd, List.dropWhile_append_of_pos hd]
    simp only [ne_eq, not_true_eq_false, decide_false, Bool.false_eq_true, not_false_eq_true, List.takeWhile_cons_of_neg,
      List.append_nil, List.dropWhile_cons_of_neg]
    rw [hN _ Nat.toDigits_ne_nil (digit_of_mem_toDigits _)]

theorem readExponent_text (e : ℤ) : readExponent ((if e < 0 then '-' else '+') :: paddedDigits 2 e.natAbs) = some e := by
  split_ifs with h
  · change (readNat (paddedDigits 2 e.natAbs)).map (fun n => -(n : ℤ)) = some e
    rw [readNat_padded]
    exact congrArg some (by dsimp only; omega)
  · change (readNat (paddedDigits 2 e.natAbs)).map (fun n => (n : ℤ)) = some e
    rw [readNat_padded]
    exact congrArg some (by dsimp only; omega)

theorem mem_zeros_fixed (k p n : Nat) : ∀ c ∈ List.replicate k '0' ++ fixedPoint p n, c.isDigit = true ∨ c = '.' := by
  intro c hc
  rcases List.mem_append.1 hc with h | h
  · rw [List.eq_of_mem_replicate h]; exact .inl rfl
  · exact mem_fixedPoint p n c h

theorem zeros_fixed_head (k p n : Nat) : ∃ c r, List.replicate k '0' ++ fixedPoint p n = c :: r ∧ c.isDigit = true := by
  cases k with
  | zero => exact fixedPoint_head p n
  | succ k => exact ⟨'0', _, rfl, rfl⟩

theorem readMagnitude_fixed (k p n : Nat) :
    readMagnitude (List.replicate k '0' ++ fixedPoint p n) = some (.fin ((n : ℚ) / 10 ^ p)) := by
  obtain ⟨c, r, hc, hd⟩ := zeros_fixed_head k p n
  have he : ∀ x ∈ List.replicate k '0' ++ fixedPoint p n, decide (x ≠ 'e') = true := fun x hx => by
    rcases mem_zeros_fixed k p n x hx with h | rfl
    · exact decide_eq_true (digit_ne h rfl)
    · decide
  have hu := readUnsigned_zeros k p n
  rw [hc] at he hu ⊢
  unfold readMagnitude
  split
  · next e => simp only [List.cons.injEq] at e; rw [e.1] at hd; exact absurd hd (by decide)
  · next e => simp only [List.cons.injEq] at e; rw [e.1] at hd; exact absurd hd (by decide)
  · rw [List.span_eq_takeWhile_dropWhile, List.takeWhile_eq_self_iff.2 he, List.dropWhile_eq_nil_iff.2 he]
    simp only [hu, Option.map_some]

theorem readMagnitude_sci (k p n : Nat) (e : ℤ) :
    readMagnitude (List.replicate k '0' ++ (fixedPoint p n ++ exponentText e)) =
      some (.fin ((n : ℚ) / 10 ^ p * 10 ^ e)) := by
  obtain ⟨c, r, hc, hd⟩ := zeros_fixed_head k p n
  have he : ∀ x ∈ List.replicate k '0' ++ fixedPoint p n, decide (x ≠ 'e') = true := fun x hx => by
    rcases mem_zeros_fixed k p n x hx with h | rfl
    · exact decide_eq_true (digit_ne h rfl)
    · decide
  have hu := readUnsigned_zeros k p n
  rw [← List.append_assoc]
  rw [hc] at he hu ⊢
  unfold readMagnitude
  split
  · next e => simp only [List.cons_append, List.cons.injEq] at e; rw [e.1] at hd; exact absurd hd (by decide)
  · next e => simp only [List.cons_append, List.cons.injEq] at e; rw [e.1] at hd; exact absurd hd (by decide)
  · rw [List.span_eq_takeWhile_dropWhile, List.takeWhile_append_of_pos he, List.dropWhile_append_of_pos he]
    simp only [exponentText, ne_eq, not_true_eq_false, decide_false, Bool.false_eq_true, not_false_eq_true,
      List.takeWhile_cons_of_neg, List.append_nil, List.dropWhile_cons_of_neg, hu, readExponent_text]
    rfl

/-- The entry without spaces. -/
noncomputable def NumFmt.bare (f : NumFmt) (x : XReal) : List Char :=
  (f.sign x).filter (· ≠ ' ') ++
    List.replicate (if f.left then 0 else if f.zero then f.width - (f.sign x ++ f.body x).length else 0) '0' ++ f.body x

open Classical in
theorem sign_cases (f : NumFmt) (x : XReal) : (x.isNeg ∧ f.sign x = ['-']) ∨ (¬ x.isNeg ∧ f.sign x = ['+']) ∨
    (¬ x.isNeg ∧ f.sign x = [' ']) ∨ (¬ x.isNeg ∧ f.sign x = []) := by
  unfold NumFmt.sign
  split_ifs with h1 h2 h3 <;> simp_all

theorem print_bare (f : NumFmt) (x : XReal) :
    ∃ a b, f.print x = List.replicate a ' ' ++ f.bare x ++ List.replicate b ' ' := by
  have hs : ∃ k, f.sign x = List.replicate k ' ' ++ (f.sign x).filter (· ≠ ' ') := by
    rcases sign_cases f x with ⟨_, h⟩ | ⟨_, h⟩ | ⟨_, h⟩ | ⟨_, h⟩ <;> rw [h]
    · exact ⟨0, rfl⟩
    · exact ⟨0, rfl⟩
    · exact ⟨1, rfl⟩
    · exact ⟨0, rfl⟩
  obtain ⟨k, hk⟩ := hs
  have e : ∀ l, f.sign x ++ l = List.replicate k ' ' ++ ((f.sign x).filter (· ≠ ' ') ++ l) := fun l => by
    rw [← List.append_assoc, ← hk]
  unfold NumFmt.print NumFmt.bare
  generalize f.width - (f.sign x ++ f.body x).length = n
  simp only
  split_ifs
  · refine ⟨k, n, ?_⟩
    rw [List.append_assoc, e]
    simp only [List.append_assoc, List.replicate_zero, List.nil_append]
  · refine ⟨k, 0, ?_⟩
    rw [List.append_assoc, e]
    simp only [List.append_assoc, List.replicate_zero, List.append_nil]
  · refine ⟨n + k, 0, ?_⟩
    rw [List.append_assoc, e, ← List.append_assoc, List.replicate_append_replicate]
    simp only [List.replicate_zero, List.append_nil]

theorem mem_body (f : NumFmt) (x : XReal) (c : Char) (h : c ∈ f.body x) :
    c.isDigit = true ∨ c ∈ ['.', 'e', '+', '-', 'i', 'n', 'f', 'a'] := by
  unfold NumFmt.body at h
  cases x with
  | fin x =>
    cases hk : f.kind with
    | fixed =>
      simp only [hk] at h
      rcases mem_fixedPoint _ _ c h with h | rfl
      · exact .inl h
      · exact .inr (by decide)
    | sci =>
      simp only [hk] at h
      rcases List.mem_append.1 h with h | h
      · rcases mem_fixedPoint _ _ c h with h | rfl
        · exact .inl h
        · exact .inr (by decide)
      · unfold exponentText at h
        rcases List.mem_cons.1 h with rfl | h
        · exact .inr (by decide)
        · rcases List.mem_cons.1 h with h | h
          · refine .inr ?_
            rw [h]
            split_ifs <;> decide
          · exact .inl (digit_of_mem_padded _ _ c h)
  | inf b => fin_cases h <;> exact .inr (by decide)
  | nan => fin_cases h <;> exact .inr (by decide)

theorem body_ne_nil (f : NumFmt) (x : XReal) : f.body x ≠ [] := by
  have hf : ∀ p n, fixedPoint p n ≠ [] := fun p n h => by
    obtain ⟨c, r, h', _⟩ := fixedPoint_head p n
    rw [h] at h'
    cases h'
  unfold NumFmt.body
  cases x with
  | fin x =>
    cases hk : f.kind with
    | fixed => exact hf _ _
    | sci => simp [hf]
  | inf b => simp
  | nan => simp

theorem bareF_noSep (f : NumFmt) (x : XReal) (sep : Char) (h1 : sep.isDigit = false)
    (h2 : sep ∉ ['.', 'e', '+', '-', 'i', 'n', 'f', 'a']) : sep ∉ f.bare x := by
  intro h
  unfold NumFmt.bare at h
  rcases List.mem_append.1 h with h | h
  · rcases List.mem_append.1 h with h | h
    · have hm := (List.mem_filter.1 h).1
      have hn := (List.mem_filter.1 h).2
      rcases sign_cases f x with ⟨_, e⟩ | ⟨_, e⟩ | ⟨_, e⟩ | ⟨_, e⟩ <;> rw [e] at hm
      · rw [List.mem_singleton.1 hm] at h2; exact h2 (by decide)
      · rw [List.mem_singleton.1 hm] at h2; exact h2 (by decide)
      · rw [List.mem_singleton.1 hm] at hn; exact absurd hn (by decide)
      · cases hm
    · rw [List.eq_of_mem_replicate h] at h1
      exact absurd h1 (by decide)
  · rcases mem_body f x sep h with h | h
    · rw [h1] at h; cases h
    · exact h2 h

/-- Value of the absolute value as printed. -/
noncomputable def NumFmt.magnitude (f : NumFmt) : XReal → XRat
  | .fin x =>
    match f.kind with
    | .fixed => .fin ((roundEven (|x| * 10 ^ f.prec) : ℚ) / 10 ^ f.prec)
    | .sci => .fin (((sciParts f.prec |x|).1 : ℚ) / 10 ^ f.prec * 10 ^ (sciParts f.prec |x|).2)
  | .inf _ => .inf false
  | .nan => .nan

open Classical in
/-- The printed value. -/
noncomputable def NumFmt.value (f : NumFmt) (x : XReal) : XRat := if x.isNeg then (f.magnitude x).neg else f.magnitude x

/-- Is the value a number? -/
def XReal.isFin : XReal → Prop
  | .fin _ => True
  | _ => False

theorem readMagnitude_body (f : NumFmt) (x : XReal) (k : Nat) (h : k = 0 ∨ x.isFin) :
    readMagnitude (List.replicate k '0' ++ f.body x) = some (f.magnitude x) := by
  cases x with
  | fin x =>
    unfold NumFmt.body NumFmt.magnitude
    cases hk : f.kind with
    | fixed => exact readMagnitude_fixed _ _ _
    | sci => exact readMagnitude_sci _ _ _ _
  | inf b =>
    rcases h with rfl | h
    · rfl
    · exact absurd h id
  | nan =>
    rcases h with rfl | h
    · rfl
    · exact absurd h id

theorem zeros_body_head (f : NumFmt) (x : XReal) (k : Nat) : ∃ c r, List.replicate k '0' ++ f.body x = c :: r ∧
    c ≠ '-' ∧ c ≠ '+' := by
  cases k with
  | succ k => exact ⟨'0', _, rfl, by decide, by decide⟩
  | zero =>
    cases x with
    | fin x =>
      unfold NumFmt.body
      cases hk : f.kind with
      | fixed =>
        obtain ⟨c, r, h, hd⟩ := fixedPoint_head f.prec (roundEven (|x| * 10 ^ f.prec))
        exact ⟨c, r, h, digit_ne hd rfl, digit_ne hd rfl⟩
      | sci =>
        obtain ⟨c, r, h, hd⟩ := fixedPoint_head f.prec (sciParts f.prec |x|).1
        exact ⟨c, r ++ exponentText (sciParts f.prec |x|).2, by simp [h], digit_ne hd rfl, digit_ne hd rfl⟩
    | inf b => exact ⟨'i', _, rfl, by decide, by decide⟩
    | nan => exact ⟨'n', _, rfl, by decide, by decide⟩

theorem readFloat_bare (f : NumFmt) (x : XReal) (h : f.left = true ∨ f.zero = false ∨ x.isFin) :
    readFloat (f.bare x) = some (f.value x) := by
  unfold NumFmt.bare NumFmt.value
  set k := (if f.left then 0 else if f.zero then f.width - (f.sign x ++ f.body x).length else 0) with hk
  have hk' : k = 0 ∨ x.isFin := by
    rcases h with h | h | h
    · exact .inl (by rw [hk, if_pos h])
    · refine .inl ?_
      rw [hk]
      split_ifs <;> simp_all
    · exact .inr h
  have hm := readMagnitude_body f x k hk'
  obtain ⟨c, r, hc, h1, h2⟩ := zeros_body_head f x k
  rw [List.append_assoc, hc]
  rw [hc] at hm
  rcases sign_cases f x with ⟨hn, e⟩ | ⟨hn, e⟩ | ⟨hn, e⟩ | ⟨hn, e⟩ <;> rw [e]
  · rw [if_pos hn]
    change (readMagnitude (c :: r)).map XRat.neg = _
    rw [hm]
    rfl
  · rw [if_neg hn]
    exact hm
  · rw [if_neg hn]
    change readFloat (c :: r) = _
    unfold readFloat
    split
    · next e => simp only [List.cons.injEq] at e; exact absurd e.1 h1
    · next e => simp only [List.cons.injEq] at e; exact absurd e.1 h2
    · exact hm
  · rw [if_neg hn]
    change readFloat (c :: r) = _
    unfold readFloat
    split
    · next e => simp only [List.cons.injEq] at e; exact absurd e.1 h1
    · next e => simp only [List.cons.injEq] at e; exact absurd e.1 h2
    · exact hm

open Classical in
theorem value_printed (f : NumFmt) (x : XReal) : PrintedAs f (f.value x) x := by
  unfold NumFmt.value
  cases x with
  | nan =>
    rw [if_neg (by simp [XReal.isNeg])]
    exact trivial
  | inf b =>
    cases b with
    | true => rw [if_pos (by simp [XReal.isNeg])]; exact rfl
    | false => rw [if_neg (by simp [XReal.isNeg])]; exact rfl
  | fin x =>
    have hsig : ∀ m : ℚ, (f.magnitude (.fin x) = .fin m) → ∀ b : ℝ, |(m : ℝ) - (|x| : ℝ)| ≤ b →
        ∃ q : ℚ, (if (XReal.fin x).isNeg then (f.magnitude (.fin x)).neg else f.magnitude (.fin x)) = XRat.fin q ∧
          |(q : ℝ) - x| ≤ b := by
      intro m hm b hb
      rw [hm]
      by_cases hn : x < 0
      · refine ⟨-m, if_pos hn, ?_⟩
        rw [abs_of_neg hn] at hb
        push_cast
        rw [← abs_neg]
        convert hb using 2
        ring
      · refine ⟨m, if_neg hn, ?_⟩
        rw [abs_of_nonneg (not_lt.1 hn)] at hb
        exact hb
    cases hk : f.kind with
    | fixed =>
      have hm : f.magnitude (.fin x) = .fin ((roundEven (|x| * 10 ^ f.prec) : ℚ) / 10 ^ f.prec) := by
        unfold NumFmt.magnitude
        simp only [hk]
      have hp : (0 : ℝ) < 10 ^ f.prec := by positivity
      obtain ⟨q, h1, h2⟩ := hsig _ hm (1 / (2 * 10 ^ f.prec)) (by
        have := roundEven_error (x := |x| * 10 ^ f.prec) (by positivity)
        push_cast
        have e : (roundEven (|x| * 10 ^ f.prec) : ℝ) / 10 ^ f.prec - |x| =
            ((roundEven (|x| * 10 ^ f.prec) : ℝ) - |x| * 10 ^ f.prec) / 10 ^ f.prec := by field_simp
        rw [e, abs_div, abs_of_pos hp, div_le_div_iff₀ hp (by positivity)]
        nlinarith)
      rw [h1]
      unfold PrintedAs
      simp only [hk]
      exact h2
    | sci =>
      have hm : f.magnitude (.fin x) =
          .fin (((sciParts f.prec |x|).1 : ℚ) / 10 ^ f.prec * 10 ^ (sciParts f.prec |x|).2) := by
        unfold NumFmt.magnitude
        simp only [hk]
      obtain ⟨q, h1, h2⟩ := hsig _ hm (|x| / (2 * 10 ^ f.prec)) (by
        have := sciParts_error f.prec (abs_nonneg x)
        push_cast
        exact this)
      rw [h1]
      unfold PrintedAs
      simp only [hk]
      exact h2

/-- Every table printed in one of the formats is read back; empty lines do not matter. -/
theorem readFloats_lines (f : NumFmt) (header : List String) (hh : ∀ l ∈ header, CommentLine l.toList)
    (rows : List (List XReal)) (h0 : f.left = true ∨ f.zero = false ∨ ∀ r ∈ rows, ∀ x ∈ r, x.isFin) :
    ∃ table, readFloats (f.file header rows) = some table ∧
      List.Forall₂ (List.Forall₂ (PrintedAs f)) table (rows.filter (fun r => !r.isEmpty)) := by
  refine ⟨(rows.filter (fun r => !r.isEmpty)).map (fun r => r.map f.value), ?_, ?_⟩
  · have hw := table_words2 f.print f.bare (print_bare f) (fun x => bareF_noSep f x ' ' rfl (by decide))
      (fun x h => body_ne_nil f x (List.append_eq_nil_iff.1 h).2) (fun x => bareF_noSep f x '\n' rfl (by decide))
      (fun x => bareF_noSep f x '#' rfl (by decide)) header hh rows
    have hm : ∀ ls : List (List Char), ls.mapM (fun l => (textWords l).mapM readFloat) =
        (ls.map textWords).mapM (fun ws => ws.mapM readFloat) := by
      intro ls
      induction ls with
      | nil => rfl
      | cons l ls ih => simp only [List.mapM_cons, List.map_cons, ih]
    unfold readFloats NumFmt.file
    rw [hm, hw]
    clear hw hm
    replace h0 : f.left = true ∨ f.zero = false ∨ ∀ r ∈ rows.filter (fun r => !r.isEmpty), ∀ x ∈ r, x.isFin := by
      rcases h0 with h | h | h
      · exact .inl h
      · exact .inr (.inl h)
      · exact .inr (.inr fun r hr => h r (List.mem_filter.1 hr).1)
    generalize rows.filter (fun r => !r.isEmpty) = rows at h0 ⊢
    have hrow : ∀ r : List XReal, (f.left = true ∨ f.zero = false ∨ ∀ x ∈ r, x.isFin) →
        (r.map f.bare).mapM readFloat = some (r.map f.value) := by
      intro r hr
      induction r with
      | nil => rfl
      | cons x r ih =>
        have hx : f.left = true ∨ f.zero = false ∨ x.isFin := by
          rcases hr with h | h | h
          · exact .inl h
          · exact .inr (.inl h)
          · exact .inr (.inr (h x (by simp)))
        have hr' : f.left = true ∨ f.zero = false ∨ ∀ x ∈ r, x.isFin := by
          rcases hr with h | h | h
          · exact .inl h
          · exact .inr (.inl h)
          · exact .inr (.inr fun x hx => h x (by simp [hx]))
        rw [List.map_cons, List.mapM_cons, readFloat_bare f x hx, ih hr']
        rfl
    induction rows with
    | nil => rfl
    | cons r rows ih =>
      have h1 : f.left = true ∨ f.zero = false ∨ ∀ x ∈ r, x.isFin := by
        rcases h0 with h | h | h
        · exact .inl h
        · exact .inr (.inl h)
        · exact .inr (.inr (h r (by simp)))
      have h2 : f.left = true ∨ f.zero = false ∨ ∀ r ∈ rows, ∀ x ∈ r, x.isFin := by
        rcases h0 with h | h | h
        · exact .inl h
        · exact .inr (.inl h)
        · exact .inr (.inr fun r hr => h r (by simp [hr]))
      rw [List.map_cons, List.mapM_cons, hrow r h1, ih h2]
      rfl
  · rw [List.forall₂_map_left_iff, List.forall₂_same]
    intro r _
    rw [List.forall₂_map_left_iff, List.forall₂_same]
    intro x _
    exact value_printed f x

/-- **C145.** Every table printed in one of the formats is read back: numbers up to half of the last printed digit,
infinities and nan as such (not with the flag `0`, which fills them with zeros). -/
theorem readFloats_file (f : NumFmt) (header : List String) (hh : ∀ l ∈ header, CommentLine l.toList)
    (rows : List (List XReal)) (hr : ∀ r ∈ rows, r ≠ [])
    (h0 : f.left = true ∨ f.zero = false ∨ ∀ r ∈ rows, ∀ x ∈ r, x.isFin) :
    ∃ table, readFloats (f.file header rows) = some table ∧ List.Forall₂ (List.Forall₂ (PrintedAs f)) table rows := by
  have h := readFloats_lines f header hh rows h0
  rwa [List.filter_eq_self.2 (fun r hr' => by simp [hr r hr'])] at h

/-! ### Format strings -/

theorem fmtDigits_toDigits (n : Nat) : fmtDigits (Nat.toDigits 10 n) = n := by
  have h := readNat_toDigits n
  unfold readNat at h
  split_ifs at h
  exact Option.some.inj h

theorem toDigits_head (n : Nat) (h : n ≠ 0) : (Nat.toDigits 10 n).head? ≠ some '0' := by
  induction n using Nat.strongRecOn with
  | ind n ih =>
    by_cases hn : n < 10
    · interval_cases n
      · exact absurd rfl h
      all_goals decide
    · rw [Nat.toDigits_of_base_le (by decide) (by omega)]
      have hq : n / 10 ≠ 0 := by omega
      have := ih (n / 10) (by omega) hq
      cases hd : Nat.toDigits 10 (n / 10) with
      | nil => exact absurd hd Nat.toDigits_ne_nil
      | cons c r =>
        rw [hd] at this
        simpa using this

/-- **C145.** Format strings are understood as in C: flags, width, precision and kind. -/
theorem parseFmt_text (flags : List Char) (f : NumFmt) (hf : FlagsOf flags f) : parseFmt (fmtText flags f) = some f := by
  obtain ⟨h0, h1, h2, h3, h4⟩ := hf
  have hflag : ∀ c ∈ flags, decide (c ∈ ['-', '+', ' ', '0']) = true := fun c hc => decide_eq_true (h0 c hc)
  set tail : List Char := [match f.kind with | .fixed => 'f' | .sci => 'e'] with ht
  have hk : tail = ['f'] ∨ tail = ['e'] := by
    rw [ht]
    cases f.kind
    · exact .inl rfl
    · exact .inr rfl
  set wd : List Char := if f.width = 0 then [] else Nat.toDigits 10 f.width with hwd
  have hwdig : ∀ c ∈ wd, Char.isDigit c = true := by
    intro c hc
    rw [hwd] at hc
    split_ifs at hc
    · cases hc
    · exact digit_of_mem_toDigits _ c hc
  have hwval : fmtDigits wd = f.width := by
    rw [hwd]
    split_ifs with h
    · rw [h]; rfl
    · exact fmtDigits_toDigits _
  have hrest : ∀ r, (wd ++ '.' :: r).takeWhile (fun c => decide (c ∈ ['-', '+', ' ', '0'])) = [] ∧
      (wd ++ '.' :: r).dropWhile (fun c => decide (c ∈ ['-', '+', ' ', '0'])) = wd ++ '.' :: r := by
    intro r
    have hcons : ∃ c t, wd ++ '.' :: r = c :: t ∧ decide (c ∈ ['-', '+', ' ', '0']) = false := by
      cases hw : wd with
      | nil => exact ⟨'.', r, rfl, by decide⟩
      | cons c t =>
        refine ⟨c, t ++ '.' :: r, rfl, ?_⟩
        have hd := hwdig c (by rw [hw]; simp)
        have hw0 : f.width ≠ 0 := by
          intro h
          rw [hwd, if_pos h] at hw
          cases hw
        have hz := toDigits_head f.width hw0
        rw [hwd, if_neg hw0] at hw
        rw [hw] at hz
        simp only [List.head?_cons, ne_eq, Option.some.injEq] at hz
        have e1 : c ≠ '-' := digit_ne hd rfl
        have e2 : c ≠ '+' := digit_ne hd rfl
        have e3 : c ≠ ' ' := digit_ne hd rfl
        simp [e1, e2, e3, hz]
    obtain ⟨c, t, e, hc⟩ := hcons
    rw [e, List.takeWhile_cons_of_neg (by simpa using hc), List.dropWhile_cons_of_neg (by simpa using hc)]
    exact ⟨rfl, rfl⟩
  have hpdig : ∀ c ∈ Nat.toDigits 10 f.prec, Char.isDigit c = true := digit_of_mem_toDigits _
  have htl : tail.takeWhile Char.isDigit = [] ∧ tail.dropWhile Char.isDigit = tail := by
    rcases hk with h | h <;> rw [h] <;> exact ⟨by decide, by decide⟩
  have htext : fmtText flags f = '%' :: (flags ++ (wd ++ '.' :: (Nat.toDigits 10 f.prec ++ tail))) := by
    unfold fmtText
    simp only [List.cons_append, List.append_assoc]
    rfl
  rw [htext]
  unfold parseFmt
  simp only [List.takeWhile_append_of_pos hflag, List.dropWhile_append_of_pos hflag, hrest, List.append_nil]
  rw [List.takeWhile_append_of_pos hwdig, List.dropWhile_append_of_pos hwdig,
    List.takeWhile_cons_of_neg (by decide), List.dropWhile_cons_of_neg (by decide)]
  simp only [List.append_nil]
  rw [List.takeWhile_append_of_pos hpdig, List.dropWhile_append_of_pos hpdig, htl.1, htl.2, List.append_nil, hwval,
    fmtDigits_toDigits]
  have b1 : decide ('-' ∈ flags) = f.left := by rw [Bool.eq_iff_iff, h1]; simp
  have b2 : decide ('+' ∈ flags) = f.plus := by rw [Bool.eq_iff_iff, h2]; simp
  have b3 : decide (' ' ∈ flags) = f.space := by rw [Bool.eq_iff_iff, h3]; simp
  have b4 : decide ('0' ∈ flags) = f.zero := by rw [Bool.eq_iff_iff, h4]; simp
  rw [b1, b2, b3, b4, ht]
  obtain ⟨l, pl, sp, z, w, p, k⟩ := f
  cases k <;> rfl

/-- **C145.** The format used if none is given is the one of `Model/Text.lean` with 14 characters and 9 decimals. -/
theorem print_default (w p : Nat) (x : XReal) : (NumFmt.mk false false false false w p .fixed).print x = fmtX w p x := by
  unfold NumFmt.print fmtX padLeft
  have h : (NumFmt.mk false false false false w p .fixed).sign x ++ (NumFmt.mk false false false false w p .fixed).body x =
      bareX p x := by
    unfold NumFmt.sign NumFmt.body bareX
    cases x with
    | fin x =>
      unfold fixedSigned
      by_cases hx : x < 0
      · simp [XReal.isNeg, hx, abs_of_neg hx]
      · simp [XReal.isNeg, hx, abs_of_nonneg (not_lt.1 hx)]
    | inf b => cases b <;> simp [XReal.isNeg]
    | nan => simp [XReal.isNeg]
  simp only [Bool.false_eq_true, if_false, List.append_assoc, h]

theorem file_default (w p : Nat) (fields : List String) (constants : List (String × String)) (rows : List (List XReal)) :
    (NumFmt.mk false false false false w p .fixed).file (initHeader fields constants) rows =
      seriesTextX w p fields constants rows := by
  unfold NumFmt.file seriesTextX
  congr 1
  refine List.flatMap_congr fun r _ => ?_
  rw [List.map_congr_left fun x _ => print_default w p x]

/-- **C145.** Nothing is cut off: an entry is as wide as given, or as wide as the number needs. -/
theorem print_length (f : NumFmt) (x : XReal) : (f.print x).length = max f.width ((f.sign x).length + (f.body x).length) := by
  unfold NumFmt.print
  simp only
  split_ifs <;> simp only [List.length_append, List.length_replicate] <;> omega

/-- Negation for the flag `0`: an infinite value, e.g. of an empty bin, is filled with zeros and cannot be read. -/
theorem zero_flag_inf : ∃ f : NumFmt, parseFmt "%010.3f".toList = some f ∧ f.print (.inf false) = "0000000inf".toList ∧
    readFloats (f.file [] [[.fin 0, .inf false]]) = none := by
  refine ⟨⟨false, false, false, true, 10, 3, .fixed⟩, by decide +kernel, ?_, ?_⟩
  · simp only [NumFmt.print, NumFmt.sign, XReal.isNeg, NumFmt.body]
    simp only [Bool.false_eq_true, if_false, if_true]
    decide +kernel
  · have h1 : (NumFmt.mk false false false true 10 3 .fixed).print (.fin 0) = "000000.000".toList := by
      simp only [NumFmt.print, NumFmt.sign, XReal.isNeg, NumFmt.body, lt_irrefl, abs_zero, zero_mul]
      have : roundEven (0 : ℝ) = 0 := by simpa using roundEven_natCast (F := ℝ) 0
      rw [this]
      simp only [Bool.false_eq_true, if_false, if_true]
      decide +kernel
    have h2 : (NumFmt.mk false false false true 10 3 .fixed).print (.inf false) = "0000000inf".toList := by
      simp only [NumFmt.print, NumFmt.sign, XReal.isNeg, NumFmt.body]
      simp only [Bool.false_eq_true, if_false, if_true]
      decide +kernel
    unfold NumFmt.file
    simp only [List.flatMap_cons, List.flatMap_nil, List.map_cons, List.map_nil, h1, h2]
    decide +kernel

/-! ### Examples -/

example : parseFmt "%14.9f".toList = some ⟨false, false, false, false, 14, 9, .fixed⟩ := by decide +kernel
example : parseFmt "%-+12.3e".toList = some ⟨true, true, false, false, 12, 3, .sci⟩ := by decide +kernel
example : parseFmt "%f".toList = some ⟨false, false, false, false, 0, 6, .fixed⟩ := by decide +kernel
example : parseFmt "%5.e".toList = some ⟨false, false, false, false, 5, 0, .sci⟩ := by decide +kernel
example : parseFmt "14.9f".toList = none := by decide +kernel
example : parseFmt "%d".toList = none := by decide +kernel
example : FlagsOf "-+".toList ⟨true, true, false, false, 12, 3, .sci⟩ := by unfold FlagsOf; decide +kernel

example : readFloat "+1.500e-03".toList = some (.fin (3 / 2000)) := by decide +kernel
example : readFloat "-0012.5".toList = some (.fin (-25 / 2)) := by decide +kernel
example : readFloat "-inf".toList = some (.inf true) := by decide +kernel
example : readFloat "1e".toList = none := by decide +kernel

/-- 9.996 with three digits in scientific notation is 1.00e+01: the mantissa is carried over. -/
theorem sciParts_carry : sciParts 2 (9.996 : ℝ) = (100, 1) := by
  have hl : Int.log 10 (9.996 : ℝ) = 0 := by
    have h1 : (0 : ℤ) ≤ Int.log 10 (9.996 : ℝ) := by
      rw [← Int.zpow_le_iff_le_log (by decide) (by norm_num)]
      norm_num
    have h2 : Int.log 10 (9.996 : ℝ) < 1 := by
      rw [← Int.lt_zpow_iff_log_lt (by decide) (by norm_num)]
      norm_num
    omega
  have hr : roundEven ((9.996 : ℝ) / 10 ^ ((0 : ℤ) - (2 : ℕ))) = 1000 := by
    have h1 : (9.996 : ℝ) / 10 ^ ((0 : ℤ) - (2 : ℕ)) = 999.6 := by norm_num
    have hf : ⌊(999.6 : ℝ)⌋₊ = 999 := by
      rw [Nat.floor_eq_iff (by norm_num)]
      norm_num
    rw [h1, roundEven]
    simp only [hf]
    norm_num
  unfold sciParts
  rw [if_neg (by norm_num), hl]
  simp only [hr]
  norm_num

example : (NumFmt.mk true true false false 12 2 .sci).print (.fin (-9.996)) = "-1.00e+01   ".toList := by
  have h : |(-9.996 : ℝ)| = 9.996 := by norm_num
  have hn : (-9.996 : ℝ) < 0 := by norm_num
  simp only [NumFmt.print, NumFmt.sign, XReal.isNeg, NumFmt.body, h, hn, sciParts_carry, if_true]
  decide +kernel

/-- Numbers that are not negative have a plus sign with the flag `+`, whatever the other flags, a space with the flag
for spaces only, and nothing otherwise; negative numbers have a minus sign. -/
theorem sign_flags (x : XReal) (l p s z : Bool) (width prec : Nat) (k : FmtKind) :
    (x.isNeg → (NumFmt.mk l p s z width prec k).sign x = ['-']) ∧
    (¬ x.isNeg → (NumFmt.mk l p s z width prec k).sign x = match p, s with
      | true, _ => ['+']
      | false, true => [' ']
      | false, false => []) := by
  refine ⟨fun h => by simp [NumFmt.sign, h], fun h => ?_⟩
  cases p <;> cases s <;> simp [NumFmt.sign, h]

/-- A plus sign has precedence over a space. -/
example : (NumFmt.mk false true true false 0 1 .fixed).sign (.fin 1) = ['+'] := by
  have : ¬ (1 : ℝ) < 0 := by norm_num
  simp [NumFmt.sign, XReal.isNeg, this]

example : (NumFmt.mk false false true false 0 1 .fixed).sign (.fin 1) = [' '] := by
  have : ¬ (1 : ℝ) < 0 := by norm_num
  simp [NumFmt.sign, XReal.isNeg, this]

end Bdld
