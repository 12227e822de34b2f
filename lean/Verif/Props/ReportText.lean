import Verif.Model.ReportText
import Verif.Model.Console
import Verif.Props.Printf
import Verif.Props.Report
import Verif.Props.ConsoleRun
import Verif.Spec.ReportText

/-
C147: the numbers of the report about birth-death.
-/

namespace Bdld

open Spec

/-! ### Digits -/

theorem stripZeros_append (l : List Char) : ∃ k, l = stripZeros l ++ List.replicate k '0' := by
  refine ⟨(l.reverse.takeWhile (· = '0')).length, ?_⟩
  have h1 : l.reverse.takeWhile (· = '0') = List.replicate (l.reverse.takeWhile (· = '0')).length '0' :=
    List.eq_replicate_of_mem (fun c hc => by simpa using List.mem_takeWhile_imp hc)
  have h2 := congrArg List.reverse (List.takeWhile_append_dropWhile (p := (· = '0')) (l := l.reverse))
  rw [List.reverse_append, List.reverse_reverse] at h2
  conv_lhs => rw [← h2]
  rw [stripZeros]
  congr 1
  conv_lhs => rw [h1]
  rw [List.reverse_replicate]

theorem mem_stripZeros {l : List Char} {c : Char} (h : c ∈ stripZeros l) : c ∈ l := by
  obtain ⟨k, hk⟩ := stripZeros_append l
  rw [hk]
  exact List.mem_append_left _ h

theorem ofDigitChars_zeros (l : List Char) (k : Nat) :
    Nat.ofDigitChars 10 (l ++ List.replicate k '0') 0 = Nat.ofDigitChars 10 l 0 * 10 ^ k := by
  rw [Nat.ofDigitChars_append, Nat.ofDigitChars_replicate_zero, Nat.mul_comm]

/-- Digits without the zeros at the end: the value is a multiple by a power of ten. -/
theorem stripZeros_value (m : Nat) : ∃ k, (Nat.toDigits 10 m).length = (stripZeros (Nat.toDigits 10 m)).length + k ∧
    m = Nat.ofDigitChars 10 (stripZeros (Nat.toDigits 10 m)) 0 * 10 ^ k := by
  obtain ⟨k, hk⟩ := stripZeros_append (Nat.toDigits 10 m)
  refine ⟨k, ?_, ?_⟩
  · conv_lhs => rw [hk]
    simp
  · rw [← ofDigitChars_zeros, ← hk]
    exact (Nat.ofDigitChars_ten_toDigits).symm

theorem toDigits_length_eq {n m : Nat} (h1 : 10 ^ n ≤ m) (h2 : m < 10 ^ (n + 1)) : (Nat.toDigits 10 m).length = n + 1 := by
  have a := (Nat.length_toDigits_le_iff (b := 10) (n := m) (by decide) (Nat.succ_pos n)).2 h2
  rcases Nat.eq_zero_or_pos n with rfl | hn
  · have : 0 < (Nat.toDigits 10 m).length := List.length_pos_of_ne_nil Nat.toDigits_ne_nil
    omega
  · have b : ¬ (Nat.toDigits 10 m).length ≤ n := fun h =>
      absurd ((Nat.length_toDigits_le_iff (b := 10) (by decide) hn).1 h) (by omega)
    omega

/-! ### Reading the text -/

theorem readUnsigned_point (a b : List Char) (ha : a ≠ []) (hb : b ≠ []) (da : ∀ c ∈ a, c.isDigit = true)
    (db : ∀ c ∈ b, c.isDigit = true) :
    readUnsigned (a ++ '.' :: b) = some ((Nat.ofDigitChars 10 (a ++ b) 0 : ℚ) / 10 ^ b.length) := by
  have hd : ∀ c ∈ a, (decide (c ≠ '.')) = true := fun c hc => decide_eq_true (digit_ne (da c hc) rfl)
  unfold readUnsigned
  rw [List.span_eq_takeWhile_dropWhile, List.takeWhile_append_of_pos hd, List.dropWhile_append_of_pos hd]
  simp only [ne_eq, not_true_eq_false, decide_false, Bool.false_eq_true, not_false_eq_true, List.takeWhile_cons_of_neg,
      List.append_nil, List.dropWhile_cons_of_neg]
  rw [readNat_eq a ha da, readNat_eq b hb db]
  show some _ = some _
  congr 1
  rw [Nat.ofDigitChars_append, Nat.ofDigitChars_eq_ofDigitChars_zero (l := b) (init := Nat.ofDigitChars 10 a 0)]
  push_cast
  field_simp

theorem readMagnitude_plain {u : List Char} {q : ℚ} (hu : readUnsigned u = some q)
    (hd : ∀ c ∈ u, c.isDigit = true ∨ c = '.') (h0 : u.head?.any Char.isDigit = true) :
    readMagnitude u = some (.fin q) := by
  have he : ∀ x ∈ u, decide (x ≠ 'e') = true := fun x hx => by
    rcases hd x hx with h | rfl
    · exact decide_eq_true (digit_ne h rfl)
    · decide
  unfold readMagnitude
  split
  · exact absurd h0 (by decide)
  · exact absurd h0 (by decide)
  · rw [List.span_eq_takeWhile_dropWhile, List.takeWhile_eq_self_iff.2 he, List.dropWhile_eq_nil_iff.2 he]
    simp only [hu]
    rfl

theorem readMagnitude_exp {u : List Char} {q : ℚ} (hu : readUnsigned u = some q)
    (hd : ∀ c ∈ u, c.isDigit = true ∨ c = '.') (h0 : u.head?.any Char.isDigit = true) (e : ℤ) :
    readMagnitude (u ++ exponentText e) = some (.fin (q * 10 ^ e)) := by
  have he : ∀ x ∈ u, decide (x ≠ 'e') = true := fun x hx => by
    rcases hd x hx with h | rfl
    · exact decide_eq_true (digit_ne h rfl)
    · decide
  cases u with
  | nil => exact absurd h0 (by decide)
  | cons c r =>
    have hc : c.isDigit = true := h0
    unfold readMagnitude
    split
    · next e => simp only [List.cons_append, List.cons.injEq] at e; rw [e.1] at hc; exact absurd hc (by decide)
    · next e => simp only [List.cons_append, List.cons.injEq] at e; rw [e.1] at hc; exact absurd hc (by decide)
    · rw [List.span_eq_takeWhile_dropWhile, List.takeWhile_append_of_pos he, List.dropWhile_append_of_pos he]
      simp only [exponentText, ne_eq, not_true_eq_false, decide_false, Bool.false_eq_true, not_false_eq_true,
        List.takeWhile_cons_of_neg, List.append_nil, List.dropWhile_cons_of_neg, hu, readExponent_text]
      rfl

/-- The number with `p` significant digits nearest to `x`. -/
def generalValue (p : Nat) (x : ℚ) : ℚ := (sciParts (p - 1) x).1 / 10 ^ (p - 1) * 10 ^ (sciParts (p - 1) x).2

theorem scaled_value (D k n : Nat) (e : ℤ) :
    ((D * 10 ^ k : ℕ) : ℚ) / 10 ^ n * 10 ^ e = D * 10 ^ ((k : ℤ) - n + e) := by
  rw [zpow_add₀ (by norm_num), zpow_sub₀ (by norm_num), zpow_natCast, zpow_natCast]
  push_cast
  ring

theorem scaled_div (D n : Nat) {z : ℤ} (h : z = -(n : ℤ)) : (D : ℚ) / 10 ^ n = D * 10 ^ z := by
  rw [h, zpow_neg, zpow_natCast, div_eq_mul_inv]

/-- **C147.** The text is that of the nearest number with `p` significant digits. -/
theorem read_general {p : Nat} (hp : 0 < p) {x : ℚ} (hx : 0 ≤ x) :
    readMagnitude (generalText p x) = some (.fin (generalValue p x)) := by
  rcases hx.eq_or_lt with rfl | hx
  · rw [generalText, if_pos rfl, generalValue, sciParts, if_pos rfl]
    have : readMagnitude ['0', '.', '0'] = some (.fin 0) := by decide +kernel
    rw [this]
    norm_num
  obtain ⟨n, rfl⟩ : ∃ n, p = n + 1 := ⟨p - 1, by omega⟩
  rw [generalText, if_neg hx.ne', generalValue]
  simp only [Nat.add_sub_cancel]
  obtain ⟨h1, h2⟩ := sciParts_normal n hx
  generalize (sciParts n x).1 = m at h1 h2 ⊢
  generalize (sciParts n x).2 = e
  obtain ⟨k, hk, hm⟩ := stripZeros_value m
  have hdig : ∀ c ∈ stripZeros (Nat.toDigits 10 m), c.isDigit = true := fun c hc =>
    digit_of_mem_toDigits _ c (mem_stripZeros hc)
  rw [toDigits_length_eq h1 h2] at hk
  have hne : stripZeros (Nat.toDigits 10 m) ≠ [] := by
    intro h0
    rw [h0] at hm
    have : m = 0 := by simpa [Nat.ofDigitChars] using hm
    have := Nat.pow_pos (n := n) (show 0 < 10 by decide)
    omega
  generalize stripZeros (Nat.toDigits 10 m) = ds at hdig hne hk hm
  have hd0 : ds.head?.any Char.isDigit = true := by
    cases ds with
    | nil => exact absurd rfl hne
    | cons c r => exact hdig c (by simp)
  have hs : 0 < ds.length := List.length_pos_of_ne_nil hne
  have hval : (m : ℚ) / 10 ^ n * 10 ^ e = (Nat.ofDigitChars 10 ds 0 : ℚ) * 10 ^ ((k : ℤ) - n + e) := by
    conv_lhs => rw [hm]
    exact scaled_value _ k n e
  have hzero : ∀ j, ∀ c ∈ List.replicate j '0', c.isDigit = true := fun j c hc => by
    rw [List.eq_of_mem_replicate hc]; rfl
  split_ifs with c1 c2
  · -- scientific
    have hu : readUnsigned (mantissaText ds) = some ((m : ℚ) / 10 ^ n) := by
      have hmv : (m : ℚ) / 10 ^ n = (Nat.ofDigitChars 10 ds 0 : ℚ) / 10 ^ (ds.length - 1) := by
        have e1 := scaled_value (Nat.ofDigitChars 10 ds 0) k n 0
        rw [zpow_zero, mul_one, ← hm] at e1
        rw [e1]
        exact (scaled_div _ _ (by omega)).symm
      rw [hmv]
      cases ds with
      | nil => exact absurd rfl hne
      | cons c r =>
        cases r with
        | nil =>
          show readUnsigned [c] = _
          have hc : c.isDigit = true := hdig c (by simp)
          unfold readUnsigned
          have hall : ∀ x ∈ [c], decide (x ≠ '.') = true := fun x hx => by
            rw [List.mem_singleton.1 hx]; exact decide_eq_true (digit_ne hc rfl)
          rw [List.span_eq_takeWhile_dropWhile, List.takeWhile_eq_self_iff.2 hall, List.dropWhile_eq_nil_iff.2 hall]
          simp only
          rw [readNat_eq _ (by simp) (by simpa using hc)]
          simp
        | cons c' r =>
          have := readUnsigned_point [c] (c' :: r) (by simp) (by simp) (fun a ha => hdig a (by simp at ha; simp [ha]))
            (fun a ha => hdig a (List.mem_cons_of_mem _ ha))
          simpa [mantissaText] using this
    refine readMagnitude_exp hu ?_ ?_ e
    · intro c hc
      cases ds with
      | nil => exact absurd hc (by simp [mantissaText])
      | cons a r =>
        cases r with
        | nil => exact Or.inl (hdig c hc)
        | cons b r =>
          rcases List.mem_cons.1 hc with rfl | hc
          · exact Or.inl (hdig _ (by simp))
          · rcases List.mem_cons.1 hc with rfl | hc
            · exact Or.inr rfl
            · exact Or.inl (hdig _ (List.mem_cons_of_mem _ hc))
    · cases ds with
      | nil => exact absurd rfl hne
      | cons a r => cases r <;> exact hdig a (by simp)
  · -- smaller than 1
    have hu := readUnsigned_point ['0'] (List.replicate (-(e + 1)).toNat '0' ++ ds) (by simp) (by simp [hne]) (by simp)
      (fun c hc => (List.mem_append.1 hc).elim (hzero _ c) (hdig c))
    refine (readMagnitude_plain (hu.trans (congrArg some ?_)) ?_ rfl)
    · rw [hval, show ['0'] ++ (List.replicate (-(e + 1)).toNat '0' ++ ds) = List.replicate ((-(e + 1)).toNat + 1) '0' ++ ds by
        rw [← List.append_assoc]; rfl, Nat.ofDigitChars_append, Nat.ofDigitChars_replicate_zero, Nat.mul_zero]
      refine scaled_div _ _ ?_
      rw [List.length_append, List.length_replicate]
      omega
    · intro c hc
      rcases List.mem_cons.1 hc with rfl | h
      · left; rfl
      · rcases List.mem_cons.1 h with rfl | h
        · exact Or.inr rfl
        · exact Or.inl ((List.mem_append.1 h).elim (hzero _ c) (hdig c))
  · -- at least 1
    push Not at c1 c2
    unfold pointAfter
    split_ifs with c3
    · have hu := readUnsigned_point (ds.take (e + 1).toNat) (ds.drop (e + 1).toNat)
        (by intro h; have := congrArg List.length h; rw [List.length_take, List.length_nil] at this; omega)
        (by intro h; have := congrArg List.length h; rw [List.length_drop, List.length_nil] at this; omega)
        (fun c hc => hdig c (List.mem_of_mem_take hc)) (fun c hc => hdig c (List.mem_of_mem_drop hc))
      refine (readMagnitude_plain (hu.trans (congrArg some ?_)) ?_ ?_)
      · rw [hval, List.take_append_drop]
        refine scaled_div _ _ ?_
        rw [List.length_drop]
        omega
      · intro c hc
        rcases List.mem_append.1 hc with h | h
        · exact Or.inl (hdig c (List.mem_of_mem_take h))
        · rcases List.mem_cons.1 h with rfl | h
          · exact Or.inr rfl
          · exact Or.inl (hdig c (List.mem_of_mem_drop h))
      · obtain ⟨j, hj⟩ : ∃ j, (e + 1).toNat = j + 1 := ⟨(e + 1).toNat - 1, by omega⟩
        rw [hj]
        cases ds with
        | nil => exact absurd rfl hne
        | cons a r => exact hdig a (by simp)
    · have hu := readUnsigned_point (ds ++ List.replicate ((e + 1).toNat - ds.length) '0') ['0'] (by simp [hne]) (by simp)
        (fun c hc => (List.mem_append.1 hc).elim (hdig c) (hzero _ c)) (by simp)
      refine (readMagnitude_plain (hu.trans (congrArg some ?_)) ?_ ?_)
      · rw [hval, List.append_assoc, show List.replicate ((e + 1).toNat - ds.length) '0' ++ ['0'] =
          List.replicate ((e + 1).toNat - ds.length + 1) '0' from List.replicate_succ'.symm, ofDigitChars_zeros]
        have := scaled_value (Nat.ofDigitChars 10 ds 0) ((e + 1).toNat - ds.length + 1) 1 0
        rw [zpow_zero, mul_one] at this
        rw [List.length_singleton, this]
        congr 2
        omega
      · intro c hc
        rcases List.mem_append.1 hc with h | h
        · exact Or.inl ((List.mem_append.1 h).elim (hdig c) (hzero _ c))
        · rcases List.mem_cons.1 h with rfl | h
          · exact Or.inr rfl
          · left; rw [List.mem_singleton.1 h]; rfl
      · cases ds with
        | nil => exact absurd rfl hne
        | cons a r => exact hdig a (by simp)

/-! ### The printed number -/

/-- **C147.** Half of the last digit. -/
theorem generalValue_error (p : Nat) {x : ℚ} (hx : 0 ≤ x) : |generalValue p x - x| ≤ x / (2 * 10 ^ (p - 1)) :=
  sciParts_error (p - 1) hx

theorem generalValue_zero (p : Nat) : generalValue p 0 = 0 := by
  rw [generalValue, sciParts, if_pos rfl]
  simp

theorem generalValue_pos (p : Nat) {x : ℚ} (hx : 0 < x) : 0 < generalValue p x := by
  have h : 0 < (sciParts (p - 1) x).1 := lt_of_lt_of_le (Nat.pow_pos (by decide)) (sciParts_normal (p - 1) hx).1
  have : (0 : ℚ) < ((sciParts (p - 1) x).1 : ℚ) := by exact_mod_cast h
  unfold generalValue
  positivity

/-- The printed number is between the powers of ten around the number. -/
theorem generalValue_range (p : Nat) {x : ℚ} (hx : 0 < x) :
    10 ^ Int.log 10 x ≤ generalValue p x ∧ generalValue p x ≤ 10 ^ (Int.log 10 x + 1) := by
  have h1 : ((10 : ℕ) : ℚ) ^ Int.log 10 x ≤ x := Int.zpow_log_le_self (by decide) hx
  have h2 : x < ((10 : ℕ) : ℚ) ^ (Int.log 10 x + 1) := Int.lt_zpow_succ_log_self (by decide) x
  push_cast at h1 h2
  unfold generalValue
  rw [sciParts_value _ hx]
  generalize p - 1 = n
  have hpos : (0 : ℚ) < 10 ^ (Int.log 10 x - (n : ℤ)) := by positivity
  have e1 : (10 : ℚ) ^ Int.log 10 x = ((10 ^ n : ℕ) : ℚ) * 10 ^ (Int.log 10 x - (n : ℤ)) := by
    push_cast
    rw [← zpow_natCast, ← zpow_add₀ (by norm_num)]
    congr 1
    ring
  have e2 : (10 : ℚ) ^ (Int.log 10 x + 1) = ((10 ^ (n + 1) : ℕ) : ℚ) * 10 ^ (Int.log 10 x - (n : ℤ)) := by
    push_cast
    rw [← zpow_natCast, ← zpow_add₀ (by norm_num)]
    congr 1
    push_cast
    ring
  have m1 := roundEven_mono ((le_div_iff₀ hpos).2 (e1 ▸ h1))
  have m2 := roundEven_mono ((div_le_iff₀ hpos).2 (e2 ▸ h2.le))
  rw [roundEven_natCast] at m1 m2
  rw [e1, e2]
  exact ⟨mul_le_mul_of_nonneg_right (by exact_mod_cast m1) hpos.le, mul_le_mul_of_nonneg_right (by exact_mod_cast m2) hpos.le⟩

/-- **C147.** Larger numbers are not printed as smaller ones. -/
theorem generalValue_mono (p : Nat) {x y : ℚ} (hx : 0 ≤ x) (h : x ≤ y) : generalValue p x ≤ generalValue p y := by
  rcases hx.eq_or_lt with rfl | hx
  · rw [generalValue_zero]
    rcases h.eq_or_lt with rfl | h
    · rw [generalValue_zero]
    · exact (generalValue_pos p h).le
  have hy := hx.trans_le h
  have hl : Int.log 10 x ≤ Int.log 10 y := Int.log_mono_right hx h
  rcases hl.eq_or_lt with he | hlt
  · unfold generalValue
    rw [sciParts_value _ hx, sciParts_value _ hy, he]
    refine mul_le_mul_of_nonneg_right ?_ (by positivity)
    exact_mod_cast roundEven_mono (div_le_div_of_nonneg_right h (by positivity))
  · refine (generalValue_range p hx).2.trans (le_trans ?_ (generalValue_range p hy).1)
    exact zpow_le_zpow_right₀ (by norm_num) (by omega)

theorem general_text_inj {p : Nat} (hp : 0 < p) {x y : ℚ} (hx : 0 ≤ x) (hy : 0 ≤ y) (h : generalText p x = generalText p y) :
    generalValue p x = generalValue p y := by
  have h1 := read_general hp hx
  rw [h, read_general hp hy] at h1
  injection h1 with h1
  injection h1 with h1
  exact h1.symm

/-- The text starts with a digit. -/
theorem general_head {p : Nat} (hp : 0 < p) {x : ℚ} (hx : 0 ≤ x) : readFloat (generalText p x) = readMagnitude (generalText p x) := by
  have key : ∀ l : List Char, l.head? ≠ some '-' → l.head? ≠ some '+' → readFloat l = readMagnitude l := by
    intro l h1 h2
    unfold readFloat
    split
    · exact absurd rfl h1
    · exact absurd rfl h2
    · rfl
  have hr := read_general hp hx
  refine key _ ?_ ?_ <;> intro h0 <;> cases hl : generalText p x with
  | nil => rw [hl] at h0; cases h0
  | cons c r =>
    rw [hl] at h0 hr
    injection h0 with h0
    subst h0
    have hbad : ∀ c : Char, c.isDigit = false → c ≠ '.' → c ≠ 'e' → c ≠ 'i' → c ≠ 'n' → ∀ r q, readMagnitude (c :: r) ≠ some q := by
      intro c hd hp he hi hn r q
      unfold readMagnitude
      split
      · next e => injection e with e; exact absurd e hi
      · next e => injection e with e; exact absurd e hn
      · rw [List.span_eq_takeWhile_dropWhile, List.takeWhile_cons_of_pos (by simp [he]), List.dropWhile_cons_of_pos (by simp [he])]
        have hu : ∀ t, readUnsigned (c :: t) = none := by
          intro t
          have hN : ∀ t, readNat (c :: t) = none := fun t => by
            rw [readNat, if_neg]
            simp [hd]
          unfold readUnsigned
          rw [List.span_eq_takeWhile_dropWhile, List.takeWhile_cons_of_pos (by simp [hp]), List.dropWhile_cons_of_pos (by simp [hp])]
          split
          · next e => injection e with e1 e2; rw [← e1, hN]; rfl
          · next e => injection e with e1 e2; rw [← e1, hN]; rfl
        split
        · next e => injection e with e1 e2; rw [← e1, hu]; simp
        · next e => injection e with e1 e2; rw [← e1, hu]; simp
    exact hbad _ (by decide) (by decide) (by decide) (by decide) (by decide) r _ hr

theorem generalText_zero_iff {p : Nat} (hp : 0 < p) {x : ℚ} (hx : 0 ≤ x) : generalText p x = ['0', '.', '0'] ↔ x = 0 := by
  constructor
  · intro h
    by_contra hne
    have := general_text_inj hp hx le_rfl (h.trans (by rw [generalText, if_pos rfl]))
    rw [generalValue_zero] at this
    exact absurd this (generalValue_pos p (lt_of_le_of_ne hx (Ne.symm hne))).ne'
  · rintro rfl
    rw [generalText, if_pos rfl]

/-- **C147.** The text of a quotient. -/
theorem digits4_shows (factor part whole : Nat) (hf : factor ≠ 0) :
    ShowsQuotient factor part whole (digits4Text (quotientOrNan (factor * part) whole)) := by
  unfold quotientOrNan
  by_cases hw : whole = 0
  · rw [if_pos hw]
    exact ⟨⟨fun _ => hw, fun _ => rfl⟩, fun h => absurd hw h, ⟨fun h => absurd h (by decide), fun h => absurd hw h.1⟩⟩
  · rw [if_neg hw]
    have hx : (0 : ℚ) ≤ ((factor * part : ℕ) : ℚ) / whole := by positivity
    have hl : (digits4Text (some (((factor * part : ℕ) : ℚ) / whole))).toList = generalText 4 (((factor * part : ℕ) : ℚ) / whole) := by
      simp [digits4Text]
    refine ⟨⟨fun h => ?_, fun h => absurd h hw⟩, fun _ => ⟨_, by rw [hl, general_head (by decide) hx, read_general (by decide) hx], ?_⟩, ?_⟩
    · have h1 := read_general (p := 4) (by decide) hx
      rw [← hl, h] at h1
      exact absurd h1 (by simp [readMagnitude])
    · have := generalValue_error 4 hx
      push_cast at this ⊢
      refine this.trans (le_of_eq ?_)
      norm_num
    · have hz := generalText_zero_iff (p := 4) (by decide) hx
      rw [← hl] at hz
      have e1 : digits4Text (some (((factor * part : ℕ) : ℚ) / whole)) = "0.0" ↔
          (digits4Text (some (((factor * part : ℕ) : ℚ) / whole))).toList = ['0', '.', '0'] :=
        ⟨fun h => by rw [h]; rfl, fun h => String.toList_injective (h.trans rfl)⟩
      have hwq : (whole : ℚ) ≠ 0 := by exact_mod_cast hw
      rw [e1, hz, div_eq_zero_iff, or_iff_left hwq, Nat.cast_eq_zero, mul_eq_zero, or_iff_right hf]
      exact ⟨fun h => ⟨hw, h⟩, fun h => h.2⟩

/-- **C147.** With less than 20000 attempts 100.0 % are printed only if all were successful. -/
theorem hundred_percent_partial (part whole : Nat) (h0 : whole ≠ 0) (h : part ≤ whole) (hw : whole < 20000) :
    digits4Text (quotientOrNan (100 * part) whole) = "100.0" ↔ part = whole := by
  unfold quotientOrNan
  rw [if_neg h0]
  have hwq : (0 : ℚ) < whole := by exact_mod_cast Nat.pos_of_ne_zero h0
  constructor
  · intro he
    by_contra hne
    have hx : (0 : ℚ) ≤ ((100 * part : ℕ) : ℚ) / whole := by positivity
    have hle : ((100 * part : ℕ) : ℚ) / whole ≤ 100 * 19998 / 19999 := by
      rw [div_le_div_iff₀ hwq (by norm_num)]
      have : 100 * part * 19999 ≤ 100 * 19998 * whole := by omega
      exact_mod_cast this
    have hm := generalValue_mono 4 hx hle
    have ht : generalText 4 (((100 * part : ℕ) : ℚ) / whole) = generalText 4 100 := by
      have := congrArg String.toList he
      simp only [digits4Text, String.toList_ofList] at this
      rw [this]
      decide +kernel
    rw [general_text_inj (by decide) hx (by norm_num) ht] at hm
    exact absurd hm (by decide +kernel)
  · rintro rfl
    rw [Nat.cast_mul, mul_div_assoc, div_self hwq.ne', mul_one]
    decide +kernel

/-- **C147.** 99996 of 100000 attempts are printed as 100.0 %. -/
theorem hundred_percent_false : digits4Text (quotientOrNan (100 * 99996) 100000) = "100.0" := by decide +kernel

/-- **C147.** A percentage needs an exponent only below 0.0001. -/
theorem percentage_fixed {x : ℚ} (h1 : 1 / 10000 ≤ x) (h2 : x ≤ 100) : 'e' ∉ generalText 4 x := by
  have hx : 0 < x := lt_of_lt_of_le (by norm_num) h1
  rw [generalText, if_neg hx.ne']
  simp only [Nat.add_one_sub_one]
  have hlo : (-4 : ℤ) ≤ Int.log 10 x := by
    rw [← Int.zpow_le_iff_le_log (by decide) hx]
    norm_num
    linarith
  have hhi : Int.log 10 x ≤ 2 := by
    have := Int.log_mono_right (b := 10) hx h2
    refine this.trans ?_
    decide +kernel
  have he : -4 ≤ (sciParts 3 x).2 ∧ (sciParts 3 x).2 ≤ 2 := by
    have hv := generalValue_mono 4 hx.le h2
    have h100 : generalValue 4 100 = 100 := by decide +kernel
    rw [h100, generalValue] at hv
    have hn := (sciParts_normal 3 hx).1
    constructor
    · unfold sciParts
      rw [if_neg hx.ne']
      simp only
      split_ifs <;> simp only <;> omega
    · by_contra hgt
      have hge : (10 : ℚ) ^ (3 : ℤ) ≤ 10 ^ (sciParts 3 x).2 := zpow_le_zpow_right₀ (by norm_num) (by omega)
      have hnq : (1000 : ℚ) ≤ (sciParts 3 x).1 := by exact_mod_cast hn
      norm_num at hge hv
      nlinarith
  have hd : ∀ c ∈ stripZeros (Nat.toDigits 10 (sciParts 3 x).1), c ≠ 'e' := fun c hc =>
    digit_ne (digit_of_mem_toDigits _ c (mem_stripZeros hc)) rfl
  rw [if_neg (by push Not; constructor <;> norm_num <;> omega)]
  intro hmem
  split_ifs at hmem with c1
  · simp only [List.mem_cons, List.mem_append, List.mem_replicate] at hmem
    rcases hmem with h | h | ⟨_, h⟩ | h
    · exact absurd h (by decide)
    · exact absurd h (by decide)
    · exact absurd h (by decide)
    · exact hd _ h rfl
  · unfold pointAfter at hmem
    split_ifs at hmem
    · rcases List.mem_append.1 hmem with h | h
      · exact hd _ (List.mem_of_mem_take h) rfl
      · rcases List.mem_cons.1 h with h | h
        · exact absurd h (by decide)
        · exact hd _ (List.mem_of_mem_drop h) rfl
    · simp only [List.mem_cons, List.mem_append, List.mem_replicate] at hmem
      rcases hmem with (h | ⟨_, h⟩) | h | h | h
      · exact hd _ h rfl
      · exact absurd h (by decide)
      · exact absurd h (by decide)
      · exact absurd h (by decide)
      · exact absurd h (by simp)

/-! ### Reports of a run -/

/-- **C147.** Every report of a finished run shows the counters and their quotients with four significant digits. -/
theorem report_printed {R : Type} {w : World R} {file : Option (List Section)} {a : AnySim R} {config : Input ℝ}
    {n : Nat} {s0 : Sim a.d R} (sh : Shows) (hsh : sh.digits4 = digits4Text) (hr : FinishedRun w file a config n s0)
    (hops : w.bdOps.Lawful) (o : Dict (OptVal ℝ)) (ho : config.birthDeath = some o)
    (hf : strOption o "stats-filename" = "") (t : Nat) (ht : t ∈ reportSteps o n) : ∃ b k r q,
      ["After " ++ Nat.repr t ++ " time steps:",
        "Birth events: " ++ Nat.repr (hr.counters t).dupCount ++ "/" ++ Nat.repr (hr.counters t).dupAttempts ++ " (" ++ b ++ "%)",
        "Death events: " ++ Nat.repr (hr.counters t).killCount ++ "/" ++ Nat.repr (hr.counters t).killAttempts ++ " (" ++ k ++ "%)",
        "Ratio birth/death: " ++ r ++ " (succesful) / " ++ q ++ " (attemps)", ""] <:+: (mainP sh w file).out ∧
      ShowsQuotient 100 (hr.counters t).dupCount (hr.counters t).dupAttempts b ∧
      ShowsQuotient 100 (hr.counters t).killCount (hr.counters t).killAttempts k ∧
      ShowsQuotient 1 (hr.counters t).dupCount (hr.counters t).killCount r ∧
      ShowsQuotient 1 (hr.counters t).dupAttempts (hr.counters t).killAttempts q := by
  have h1 := digits4_shows 1 (hr.counters t).dupCount (hr.counters t).killCount (by decide)
  have h2 := digits4_shows 1 (hr.counters t).dupAttempts (hr.counters t).killAttempts (by decide)
  rw [Nat.one_mul] at h1 h2
  refine ⟨_, _, _, _, ?_, digits4_shows 100 _ _ (by decide), digits4_shows 100 _ _ (by decide), h1, h2⟩
  rw [finished_output sh hr hops]
  have key : ∀ l, l <:+: runLines sh n hr.counters o ∨ l <:+: finalLines sh n hr.counters o →
      l <:+: screen sh (potentialText sh w config.potential) config a.cfg n hr.counters := by
    intro l hl
    unfold screen
    rw [ho]
    simp only [ifGiven]
    rcases hl with h | h
    · refine h.trans ?_
      exact ⟨["Starting bdld code v0.3.2\n\n"] ++ setupLines sh (potentialText sh w config.potential) config a.cfg ++
        ["Setup finished, now running for " ++ Nat.repr n ++ " steps"],
        ["Simulation finished, performing final actions"] ++ finalLines sh n hr.counters o ++ ["Finished without errors"],
        by simp only [List.append_assoc]⟩
    · exact h.trans ⟨_, ["Finished without errors"], rfl⟩
  have hone : ["After " ++ Nat.repr t ++ " time steps:",
        "Birth events: " ++ Nat.repr (hr.counters t).dupCount ++ "/" ++ Nat.repr (hr.counters t).dupAttempts ++ " (" ++
          digits4Text (quotientOrNan (100 * (hr.counters t).dupCount) (hr.counters t).dupAttempts) ++ "%)",
        "Death events: " ++ Nat.repr (hr.counters t).killCount ++ "/" ++ Nat.repr (hr.counters t).killAttempts ++ " (" ++
          digits4Text (quotientOrNan (100 * (hr.counters t).killCount) (hr.counters t).killAttempts) ++ "%)",
        "Ratio birth/death: " ++ digits4Text (quotientOrNan (hr.counters t).dupCount (hr.counters t).killCount) ++
          " (succesful) / " ++ digits4Text (quotientOrNan (hr.counters t).dupAttempts (hr.counters t).killAttempts) ++
          " (attemps)", ""] = statsLines sh o t (hr.counters t) := by
    unfold statsLines
    rw [if_pos hf, hsh]
  rw [hone]
  refine key _ ?_
  unfold reportSteps at ht
  unfold runLines finalLines
  by_cases hs : natOption o "stats-stride" 0 = 0
  · rw [if_pos hs] at ht
    rw [if_pos hs, if_pos hs, List.mem_singleton.1 ht]
    exact Or.inr List.infix_rfl
  · left
    rw [if_neg hs]
    obtain ⟨x, y, hxy⟩ := List.append_of_mem (show t ∈ reportSteps o n by unfold reportSteps; exact ht)
    rw [hxy, List.flatMap_append, List.flatMap_cons]
    exact ⟨_, _, by rw [List.append_assoc]⟩

example : generalText 4 (200 / 3) = "66.67".toList := by decide +kernel
example : generalText 4 100 = "100.0".toList := by decide +kernel
example : generalText 4 1000 = "1e+03".toList := by decide +kernel
example : generalText 4 1234 = "1.234e+03".toList := by decide +kernel
example : generalText 4 (1 / 8) = "0.125".toList := by decide +kernel
example : generalText 4 (1 / 3000) = "0.0003333".toList := by decide +kernel
example : generalText 4 (1 / 30000) = "3.333e-05".toList := by decide +kernel
example : generalText 4 (99996 / 100000) = "1.0".toList := by decide +kernel
example : generalText 1 5 = "5e+00".toList := by decide +kernel
example : digits4Text (quotientOrNan 5 0) = "nan" := rfl
example : ShowsQuotient 100 2 3 "66.67" := by
  have h := digits4_shows 100 2 3 (by decide)
  rwa [show digits4Text (quotientOrNan (100 * 2) 3) = "66.67" by decide +kernel] at h

end Bdld
