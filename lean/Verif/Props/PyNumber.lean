import Verif.Model.PyNumber
import Verif.Spec.PyNumber
import Verif.Lemmas.ConfigText
import Mathlib.Data.List.TakeWhile
import Mathlib.Tactic.IntervalCases
import Mathlib.Tactic.Ring

/-
C121: which texts are read as numbers, and as which.
-/

namespace Bdld
open Spec

/-! ### White space -/

theorem strip_decomp (s : List Char) : Stripped pySpace s (strip s) := by
  refine ⟨s.takeWhile pySpace, ((lstrip s).reverse.takeWhile pySpace).reverse, ?_, ?_, ?_⟩
  · have h1 : s = s.takeWhile pySpace ++ lstrip s := (List.takeWhile_append_dropWhile).symm
    have h2 : lstrip s = strip s ++ ((lstrip s).reverse.takeWhile pySpace).reverse := by
      conv_lhs => rw [← List.reverse_reverse (lstrip s), ← List.takeWhile_append_dropWhile (p := pySpace) (l := (lstrip s).reverse)]
      rw [List.reverse_append]
      rfl
    rw [List.append_assoc, ← h2]
    exact h1
  · exact fun c hc => List.mem_takeWhile_imp hc
  · intro c hc
    rw [List.mem_reverse] at hc
    exact List.mem_takeWhile_imp hc

theorem dropWhile_all {p : Char → Bool} {a l : List Char} (h : ∀ c ∈ a, p c = true) : (a ++ l).dropWhile p = l.dropWhile p := by
  rw [List.dropWhile_append_of_pos h]

theorem strip_stripped {s t : List Char} (h : Stripped pySpace s t) (ht : ∀ c ∈ t, pySpace c = false) : strip s = t := by
  obtain ⟨a, b, rfl, ha, hb⟩ := h
  cases t with
  | nil =>
    have : lstrip (a ++ [] ++ b) = [] := by
      rw [lstrip, List.append_nil, dropWhile_all ha]
      have := dropWhile_all (l := []) hb
      simpa using this
    rw [strip, this]
    rfl
  | cons c t =>
    have h1 : lstrip (a ++ (c :: t) ++ b) = (c :: t) ++ b := by
      rw [lstrip, List.append_assoc, dropWhile_all ha, List.cons_append, List.dropWhile_cons_of_neg (by simp [ht c List.mem_cons_self])]
    rw [strip, h1, rstrip, List.reverse_append, dropWhile_all fun c hc => hb c (List.mem_reverse.1 hc)]
    cases hr : (c :: t).reverse with
    | nil => exact absurd hr (by simp)
    | cons x r =>
      have hx : x ∈ c :: t := by rw [← List.mem_reverse, hr]; exact List.mem_cons_self
      rw [List.dropWhile_cons_of_neg (by simp [ht x hx]), ← hr, List.reverse_reverse]

/-! ### Digits -/

theorem digitOf_iff (c : Char) (d : Nat) : digitOf c = some d ↔ d < 10 ∧ c = Nat.digitChar d := by
  constructor
  · intro h
    unfold digitOf at h
    split at h
    · rename_i hc
      obtain rfl := Option.some.inj h
      refine ⟨by omega, ?_⟩
      apply Char.ext
      apply UInt32.toNat_inj.1
      change c.toNat = (Nat.digitChar (c.toNat - 48)).toNat
      generalize c.toNat = n at hc
      obtain ⟨h1, h2⟩ := hc
      interval_cases n <;> rfl
    · cases h
  · rintro ⟨h, rfl⟩
    interval_cases d <;> rfl

theorem digitChar_ne {d : Nat} (h : d < 10) : Nat.digitChar d ≠ '_' ∧ Nat.digitChar d ≠ '+' ∧ Nat.digitChar d ≠ '-' ∧ Nat.digitChar d ≠ '.' ∧
    Nat.digitChar d ≠ 'e' ∧ Nat.digitChar d ≠ 'E' ∧ pySpace (Nat.digitChar d) = false := by
  interval_cases d <;> decide

theorem splitAll_ne (sep : Char) (l : List Char) : splitAll sep l ≠ [] := by
  cases l with
  | nil => simp [splitAll]
  | cons c l =>
    rw [splitAll]
    split
    · simp
    · split <;> simp

theorem splitAll_sep (sep : Char) (l : List Char) : splitAll sep (sep :: l) = [] :: splitAll sep l := by
  rw [splitAll]
  cases h : splitAll sep l with
  | nil => exact absurd h (splitAll_ne sep l)
  | cons w ws => simp

theorem splitAll_other {sep c : Char} (h : c ≠ sep) (l : List Char) :
    ∃ w ws, splitAll sep l = w :: ws ∧ splitAll sep (c :: l) = (c :: w) :: ws := by
  cases hl : splitAll sep l with
  | nil => exact absurd hl (splitAll_ne sep l)
  | cons w ws => exact ⟨w, ws, rfl, by rw [splitAll, hl]; simp [h]⟩

theorem digitGroups_of {t : List Char} {ds : List Nat} (h : DigitText t ds) : digitGroups t = some ds := by
  have key : [] ∉ splitAll '_' t ∧ (splitAll '_' t).flatten.mapM digitOf = some ds := by
    induction h with
    | @one d hd =>
      obtain ⟨w, ws, h1, h2⟩ := splitAll_other (digitChar_ne hd).1 []
      rw [h2]
      cases h1
      refine ⟨by simp, ?_⟩
      simp [(digitOf_iff _ d).2 ⟨hd, rfl⟩]
    | @cons d t ds hd _ ih =>
      obtain ⟨w, ws, h1, h2⟩ := splitAll_other (digitChar_ne hd).1 t
      rw [h1] at ih
      rw [h2]
      refine ⟨fun h => ?_, ?_⟩
      · rcases List.mem_cons.1 h with h | h
        · cases h
        · exact ih.1 (List.mem_cons_of_mem _ h)
      · have := ih.2
        rw [List.flatten_cons] at this ⊢
        rw [List.cons_append, List.mapM_cons, (digitOf_iff _ d).2 ⟨hd, rfl⟩, this]
        rfl
    | @under d t ds hd _ ih =>
      obtain ⟨w, ws, h1, h2⟩ := splitAll_other (digitChar_ne hd).1 ('_' :: t)
      rw [splitAll_sep] at h1
      cases h1
      rw [h2]
      refine ⟨fun h => ?_, ?_⟩
      · rcases List.mem_cons.1 h with h | h
        · cases h
        · exact ih.1 h
      · rw [List.flatten_cons, List.cons_append, List.nil_append, List.mapM_cons, (digitOf_iff _ d).2 ⟨hd, rfl⟩, ih.2]
        rfl
  rw [digitGroups]
  simp only [key.1, if_false, key.2]

theorem digitText_of (n : Nat) : ∀ (t : List Char) (ds : List Nat), t.length ≤ n → [] ∉ splitAll '_' t →
    (splitAll '_' t).flatten.mapM digitOf = some ds → DigitText t ds := by
  induction n with
  | zero =>
    intro t ds hl h1 h2
    obtain rfl := List.length_eq_zero_iff.1 (Nat.le_zero.1 hl)
    exact absurd (by simp [splitAll]) h1
  | succ n ih =>
    intro t ds hl h1 h2
    cases t with
    | nil => exact absurd (by simp [splitAll]) h1
    | cons c t =>
      by_cases hc : c = '_'
      · subst hc
        rw [splitAll_sep] at h1
        exact absurd List.mem_cons_self h1
      · obtain ⟨w, ws, e1, e2⟩ := splitAll_other hc t
        rw [e2] at h1 h2
        rw [List.flatten_cons, List.cons_append, List.mapM_cons] at h2
        cases hd : digitOf c with
        | none => rw [hd] at h2; cases h2
        | some d =>
          obtain ⟨hd10, rfl⟩ := (digitOf_iff c d).1 hd
          rw [hd] at h2
          cases hr : (w ++ ws.flatten).mapM digitOf with
          | none => rw [hr] at h2; cases h2
          | some ds' =>
            rw [hr] at h2
            obtain rfl : d :: ds' = ds := by
              simpa using h2
            have hws : [] ∉ ws := fun h => h1 (List.mem_cons_of_mem _ h)
            simp only [List.length_cons] at hl
            by_cases hw : w = []
            · subst hw
              cases t with
              | nil =>
                cases e1
                obtain rfl : ds' = [] := by simpa using hr.symm
                exact .one hd10
              | cons x t =>
                by_cases hx : x = '_'
                · subst hx
                  rw [splitAll_sep] at e1
                  obtain rfl := (List.cons.inj e1).2
                  simp only [List.length_cons] at hl
                  exact .under hd10 (ih t ds' (by omega) hws hr)
                · obtain ⟨w', ws', _, e4⟩ := splitAll_other hx t
                  rw [e4] at e1
                  cases e1
            · refine .cons hd10 (ih t ds' (by omega) ?_ ?_)
              · rw [e1]
                intro h
                rcases List.mem_cons.1 h with h | h
                · exact hw h.symm
                · exact hws h
              · rw [e1, List.flatten_cons]
                exact hr

/-- Groups of digits. -/
theorem digitGroups_iff (t : List Char) (ds : List Nat) : digitGroups t = some ds ↔ DigitText t ds := by
  refine ⟨fun h => ?_, digitGroups_of⟩
  rw [digitGroups] at h
  split at h
  · cases h
  · rename_i h1
    exact digitText_of _ t ds le_rfl h1 h

theorem natValue_eq (ds : List Nat) : natValue ds = digitsValue ds := by
  unfold natValue digitsValue
  induction ds using List.reverseRecOn with
  | nil => rfl
  | append_singleton ds d ih =>
    rw [List.foldl_append, ih, List.reverse_append, List.reverse_singleton, List.singleton_append, Nat.ofDigits_cons]
    simp [Nat.add_comm]

theorem natValue_append (a b : List Nat) : natValue (a ++ b) = natValue a * 10 ^ b.length + natValue b := by
  rw [natValue_eq, natValue_eq, natValue_eq, digitsValue, List.reverse_append, Nat.ofDigits_append, List.length_reverse, digitsValue,
    digitsValue]
  ring

theorem digitText_head {t : List Char} {ds : List Nat} (h : DigitText t ds) : ∃ d t', d < 10 ∧ t = Nat.digitChar d :: t' := by
  cases h with
  | one h => exact ⟨_, _, h, rfl⟩
  | cons h _ => exact ⟨_, _, h, rfl⟩
  | under h _ => exact ⟨_, _, h, rfl⟩

theorem digitText_mem {t : List Char} {ds : List Nat} (h : DigitText t ds) : ∀ c ∈ t, c = '_' ∨ ∃ d < 10, c = Nat.digitChar d := by
  induction h with
  | one h =>
    intro c hc
    obtain rfl := List.mem_singleton.1 hc
    exact .inr ⟨_, h, rfl⟩
  | cons h _ ih =>
    intro c hc
    rcases List.mem_cons.1 hc with rfl | hc
    · exact .inr ⟨_, h, rfl⟩
    · exact ih c hc
  | under h _ ih =>
    intro c hc
    rcases List.mem_cons.1 hc with rfl | hc
    · exact .inr ⟨_, h, rfl⟩
    · rcases List.mem_cons.1 hc with rfl | hc
      · exact .inl rfl
      · exact ih c hc

theorem signOf_digit {c : Char} {t : List Char} (h1 : c ≠ '+') (h2 : c ≠ '-') : signOf (c :: t) = (false, c :: t) := by
  unfold signOf
  split
  · rename_i h; exact absurd (List.cons.inj h).1 h1
  · rename_i h; exact absurd (List.cons.inj h).1 h2
  · rfl

theorem signOf_sign {s : List Char} {neg : Bool} (hs : SignText s neg) {c : Char} {t : List Char} (h1 : c ≠ '+') (h2 : c ≠ '-') :
    signOf (s ++ c :: t) = (neg, c :: t) := by
  cases hs with
  | none => exact signOf_digit h1 h2
  | plus => rfl
  | minus => rfl

theorem signOf_inv (t : List Char) : ∃ s, SignText s (signOf t).1 ∧ t = s ++ (signOf t).2 := by
  unfold signOf
  split
  · exact ⟨_, .plus, rfl⟩
  · exact ⟨_, .minus, rfl⟩
  · exact ⟨_, .none, rfl⟩

/-- Integers. -/
theorem signedDigits_iff (t : List Char) (i : Int) : signedDigits t = some i ↔ IntegerText t i := by
  constructor
  · intro h
    obtain ⟨s, hs, ht⟩ := signOf_inv t
    rw [signedDigits] at h
    cases hd : digitGroups (signOf t).2 with
    | none => rw [hd] at h; cases h
    | some ds =>
      rw [hd] at h
      have := Option.some.inj h
      have hm := IntegerText.mk hs ((digitGroups_iff _ _).1 hd)
      rw [← ht] at hm
      rw [← this]
      convert hm using 1
      simp only [natValue_eq, signed]
  · rintro ⟨hs, ht⟩
    rename_i s t neg ds
    obtain ⟨d, t', hd, rfl⟩ := digitText_head ht
    have hn := digitChar_ne hd
    rw [signedDigits, signOf_sign hs hn.2.1 hn.2.2.1]
    dsimp only
    rw [digitGroups_of ht, Option.map_some, natValue_eq, signed]

theorem integerText_space {t : List Char} {i : Int} (h : IntegerText t i) : ∀ c ∈ t, pySpace c = false := by
  obtain ⟨hs, ht⟩ := h
  intro c hc
  rcases List.mem_append.1 hc with hc | hc
  · cases hs with
    | none => cases hc
    | plus => obtain rfl := List.mem_singleton.1 hc; decide
    | minus => obtain rfl := List.mem_singleton.1 hc; decide
  · rcases digitText_mem ht c hc with rfl | ⟨d, hd, rfl⟩
    · decide
    · exact (digitChar_ne hd).2.2.2.2.2.2

/-- **C121.** `int()` reads exactly the texts of integers, with white space around them, and gives their value. -/
theorem pyInt_iff (s : List Char) (i : Int) : pyInt s = some i ↔ ∃ t, Stripped pySpace s t ∧ IntegerText t i := by
  rw [pyInt, signedDigits_iff]
  constructor
  · exact fun h => ⟨_, strip_decomp s, h⟩
  · rintro ⟨t, h1, h2⟩
    rw [strip_stripped h1 (integerText_space h2)]
    exact h2

/-! ### Decimal numbers -/

theorem splitFirst_none {p : Char → Bool} {l : List Char} (h : ∀ c ∈ l, p c = false) : splitFirst p l = none := by
  have : l.span (fun c => !p c) = (l, []) := by
    rw [List.span_eq_takeWhile_dropWhile, Prod.mk.injEq]
    exact ⟨List.takeWhile_eq_self_iff.2 (by simpa using h), List.dropWhile_eq_nil_iff.2 (by simpa using h)⟩
  rw [splitFirst, this]

theorem splitFirst_some {p : Char → Bool} {a b : List Char} {c : Char} (h : ∀ x ∈ a, p x = false) (hc : p c = true) :
    splitFirst p (a ++ c :: b) = some (a, b) := by
  have : (a ++ c :: b).span (fun c => !p c) = (a, c :: b) := by
    rw [List.span_eq_takeWhile_dropWhile, Prod.mk.injEq]
    have h' : ∀ x ∈ a, (!p x) = true := by simpa using h
    rw [List.takeWhile_append_of_pos h', List.dropWhile_append_of_pos h', List.takeWhile_cons_of_neg (by simp [hc]),
      List.dropWhile_cons_of_neg (by simp [hc])]
    simp
  rw [splitFirst, this]

theorem splitFirst_inv {p : Char → Bool} {l a b : List Char} (h : splitFirst p l = some (a, b)) :
    ∃ c, p c = true ∧ l = a ++ c :: b := by
  rw [splitFirst, List.span_eq_takeWhile_dropWhile] at h
  have hl := (List.takeWhile_append_dropWhile (p := fun c => !p c) (l := l)).symm
  cases hd : l.dropWhile (fun c => !p c) with
  | nil => rw [hd] at h; cases h
  | cons c r =>
    rw [hd] at h hl
    cases h
    refine ⟨c, ?_, hl⟩
    have := List.head_dropWhile_not (fun c => !p c) (l := l) (by rw [hd]; simp)
    simpa [hd] using this

theorem digitText_no {t : List Char} {ds : List Nat} (h : DigitText t ds) : ∀ c ∈ t, c ≠ '.' ∧ c ≠ 'e' ∧ c ≠ 'E' ∧ pySpace c = false := by
  intro c hc
  rcases digitText_mem h c hc with rfl | ⟨d, hd, rfl⟩
  · decide
  · exact ⟨(digitChar_ne hd).2.2.2.1, (digitChar_ne hd).2.2.2.2⟩

theorem digitText_ne {t : List Char} {ds : List Nat} (h : DigitText t ds) : t ≠ [] := by
  cases h <;> simp

theorem someDigits_of {t : List Char} {ds : List Nat} (h : DigitText t ds) : someDigits t = some ds := by
  rw [someDigits, if_neg (digitText_ne h), digitGroups_of h]

/-- Mantissas. -/
theorem mantissaOf_iff (t : List Char) (x : ℚ) : mantissaOf t = some x ↔ MantissaText t x := by
  constructor
  · intro h
    rw [mantissaOf] at h
    split at h
    · cases hd : digitGroups t with
      | none => rw [hd] at h; cases h
      | some ds =>
        rw [hd] at h
        obtain rfl := Option.some.inj h
        simp only [natValue_eq]
        exact .int ((digitGroups_iff _ _).1 hd)
    · rename_i a b hs
      obtain ⟨c, hc, rfl⟩ := splitFirst_inv hs
      obtain rfl : c = '.' := by simpa using hc
      split at h
      · cases h
      · rename_i hab
        by_cases ha : a = []
        · subst ha
          have hb : b ≠ [] := fun hb => hab ⟨rfl, hb⟩
          cases hd : digitGroups b with
          | none => rw [someDigits, if_pos rfl, someDigits, if_neg hb, hd] at h; cases h
          | some ds =>
            rw [someDigits, if_pos rfl, someDigits, if_neg hb, hd] at h
            obtain rfl := Option.some.inj h
            rw [natValue_eq]
            exact .left ((digitGroups_iff _ _).1 hd)
        · cases hd : digitGroups a with
          | none => rw [someDigits, if_neg ha, hd] at h; cases h
          | some ds =>
            by_cases hb : b = []
            · subst hb
              rw [someDigits, if_neg ha, hd, someDigits, if_pos rfl] at h
              obtain rfl := Option.some.inj h
              simp only [List.append_nil, List.length_nil, pow_zero, div_one, natValue_eq]
              exact .right ((digitGroups_iff _ _).1 hd)
            · cases hd' : digitGroups b with
              | none => rw [someDigits, if_neg ha, hd, someDigits, if_neg hb, hd'] at h; cases h
              | some ds' =>
                rw [someDigits, if_neg ha, hd, someDigits, if_neg hb, hd'] at h
                obtain rfl := Option.some.inj h
                rw [natValue_append, natValue_eq, natValue_eq, Nat.cast_add, Nat.cast_mul, Nat.cast_pow, add_div,
                  Nat.cast_ofNat, mul_div_cancel_right₀ _ (by positivity)]
                exact .both ((digitGroups_iff _ _).1 hd) ((digitGroups_iff _ _).1 hd')
  · intro h
    rw [mantissaOf]
    cases h with
    | int h =>
      rw [splitFirst_none (by simpa using fun c hc => (digitText_no h c hc).1)]
      simp only [digitGroups_of h, Option.map_some, natValue_eq]
    | right h =>
      rw [splitFirst_some (by simpa using fun c hc => (digitText_no h c hc).1) (by decide)]
      simp only [digitText_ne h, false_and, if_false, someDigits_of h]
      simp [someDigits, natValue_eq]
    | left h =>
      rw [show ∀ t : List Char, '.' :: t = [] ++ '.' :: t from fun _ => rfl, splitFirst_some (by simp) (by decide)]
      simp only [digitText_ne h, and_false, if_false, someDigits_of h]
      simp [someDigits, natValue_eq]
    | both h h' =>
      rw [splitFirst_some (by simpa using fun c hc => (digitText_no h c hc).1) (by decide)]
      simp only [digitText_ne h, false_and, if_false, someDigits_of h, someDigits_of h']
      simp only [Option.bind_eq_bind, Option.bind_some, Option.pure_def, Option.some.injEq]
      rw [natValue_append, natValue_eq, natValue_eq, Nat.cast_add, Nat.cast_mul, Nat.cast_pow, add_div,
        Nat.cast_ofNat, mul_div_cancel_right₀ _ (by positivity)]

theorem mantissa_mem {t : List Char} {x : ℚ} (h : MantissaText t x) : ∀ c ∈ t, c ≠ 'e' ∧ c ≠ 'E' ∧ pySpace c = false := by
  intro c hc
  cases h with
  | int h => exact (digitText_no h c hc).2
  | right h =>
    rcases List.mem_append.1 hc with hc | hc
    · exact (digitText_no h c hc).2
    · obtain rfl := List.mem_singleton.1 hc; decide
  | left h =>
    rcases List.mem_cons.1 hc with rfl | hc
    · decide
    · exact (digitText_no h c hc).2
  | both h h' =>
    rcases List.mem_append.1 hc with hc | hc
    · exact (digitText_no h c hc).2
    · rcases List.mem_cons.1 hc with rfl | hc
      · decide
      · exact (digitText_no h' c hc).2

theorem mantissa_head {t : List Char} {x : ℚ} (h : MantissaText t x) : ∃ c r, t = c :: r ∧ c ≠ '+' ∧ c ≠ '-' := by
  cases h with
  | int h => obtain ⟨d, r, hd, rfl⟩ := digitText_head h; exact ⟨_, _, rfl, (digitChar_ne hd).2.1, (digitChar_ne hd).2.2.1⟩
  | right h => obtain ⟨d, r, hd, rfl⟩ := digitText_head h; exact ⟨_, _, rfl, (digitChar_ne hd).2.1, (digitChar_ne hd).2.2.1⟩
  | left h => exact ⟨_, _, rfl, by decide, by decide⟩
  | both h _ => obtain ⟨d, r, hd, rfl⟩ := digitText_head h; exact ⟨_, _, rfl, (digitChar_ne hd).2.1, (digitChar_ne hd).2.2.1⟩

/-- Numbers without sign. -/
theorem decimalOf_iff (t : List Char) (x : ℚ) : decimalOf t = some x ↔ UnsignedText t x := by
  constructor
  · intro h
    rw [decimalOf] at h
    split at h
    · exact .plain ((mantissaOf_iff _ _).1 h)
    · rename_i m e hs
      obtain ⟨c, hc, rfl⟩ := splitFirst_inv hs
      cases hm : mantissaOf m with
      | none => rw [hm] at h; cases h
      | some y =>
        cases he : signedDigits e with
        | none => rw [hm, he] at h; cases h
        | some k =>
          rw [hm, he] at h
          obtain rfl := Option.some.inj h
          exact .exponent ((mantissaOf_iff _ _).1 hm) (by simpa using hc) ((signedDigits_iff _ _).1 he)
  · intro h
    rw [decimalOf]
    cases h with
    | plain h =>
      rw [splitFirst_none fun c hc => by have := mantissa_mem h c hc; simp [this.1, this.2.1]]
      exact (mantissaOf_iff _ _).2 h
    | exponent h hc he =>
      rw [splitFirst_some (fun c hc => by have := mantissa_mem h c hc; simp [this.1, this.2.1]) (by simpa using hc)]
      simp only [(mantissaOf_iff _ _).2 h, (signedDigits_iff _ _).2 he]
      rfl

theorem unsigned_mem {t : List Char} {x : ℚ} (h : UnsignedText t x) : ∀ c ∈ t, pySpace c = false := by
  intro c hc
  cases h with
  | plain h => exact (mantissa_mem h c hc).2.2
  | exponent h hc' he =>
    rcases List.mem_append.1 hc with hc | hc
    · exact (mantissa_mem h c hc).2.2
    · rcases List.mem_cons.1 hc with rfl | hc
      · rcases hc' with rfl | rfl <;> decide
      · exact integerText_space he c hc

theorem unsigned_head {t : List Char} {x : ℚ} (h : UnsignedText t x) : ∃ c r, t = c :: r ∧ c ≠ '+' ∧ c ≠ '-' := by
  cases h with
  | plain h => exact mantissa_head h
  | exponent h _ _ => obtain ⟨c, r, rfl, h'⟩ := mantissa_head h; exact ⟨c, _, rfl, h'⟩

theorem sign_mem {s : List Char} {neg : Bool} (h : SignText s neg) : ∀ c ∈ s, pySpace c = false := by
  intro c hc
  cases h with
  | none => cases hc
  | plus => obtain rfl := List.mem_singleton.1 hc; decide
  | minus => obtain rfl := List.mem_singleton.1 hc; decide

/-- **C121.** `float()` reads exactly the texts of decimal numbers, with white space around them, as finite numbers, and gives their
value. -/
theorem pyFloat_iff (s : List Char) (q : ℚ) : pyFloat s = some (.num q) ↔ ∃ t, Stripped pySpace s t ∧ DecimalText t q := by
  constructor
  · intro h
    refine ⟨_, strip_decomp s, ?_⟩
    obtain ⟨g, hg, ht⟩ := signOf_inv (strip s)
    rw [pyFloat] at h
    cases hd : decimalOf (signOf (strip s)).2 with
    | none =>
      simp only [hd] at h
      split at h
      · cases h
      · split at h <;> cases h
    | some x =>
      simp only [hd] at h
      have h := FloatVal.num.inj (Option.some.inj h)
      have := DecimalText.mk hg ((decimalOf_iff _ _).1 hd)
      rw [← ht] at this
      rw [← h]
      exact this
  · rintro ⟨t, h1, ⟨hg, hu⟩⟩
    have hsp := strip_stripped h1 fun c hc => (List.mem_append.1 hc).elim (sign_mem hg c) (unsigned_mem hu c)
    rw [pyFloat, hsp]
    obtain ⟨c, r, rfl, h2, h3⟩ := unsigned_head hu
    simp only [signOf_sign hg h2 h3, (decimalOf_iff _ _).2 hu]
    rfl

/-! ### Infinity and nan -/

theorem toLower_space {c : Char} (h : pySpace c = true) : c.toLower = c := by
  unfold Char.toLower
  split
  · rename_i h'
    exfalso
    have h1 : 65 ≤ c.toNat ∧ c.toNat ≤ 90 := by
      simp only [ge_iff_le] at h'
      exact h'
    simp only [pySpace, Bool.or_eq_true, Bool.and_eq_true, decide_eq_true_eq, beq_iff_eq] at h
    omega
  · rfl

theorem anyCase_mem {t : List Char} {w : String} (h : AnyCase t w) (hw : ∀ c ∈ w.toList, pySpace c = false) : ∀ c ∈ t, pySpace c = false := by
  intro c hc
  by_contra hs
  rw [Bool.not_eq_false] at hs
  have : c ∈ w.toList := by
    rw [← h, List.mem_map]
    exact ⟨c, hc, toLower_space hs⟩
  rw [hw c this] at hs
  cases hs

theorem unsigned_lower {t : List Char} {x : ℚ} (h : UnsignedText t x) : ∃ c r, t = c :: r ∧ c.toLower ≠ 'i' ∧ c.toLower ≠ 'n' := by
  have hd : ∀ d < 10, (Nat.digitChar d).toLower ≠ 'i' ∧ (Nat.digitChar d).toLower ≠ 'n' := by decide
  have hm : ∀ {t x}, MantissaText t x → ∃ c r, t = c :: r ∧ c.toLower ≠ 'i' ∧ c.toLower ≠ 'n' := by
    intro t x h
    cases h with
    | int h => obtain ⟨d, r, h1, rfl⟩ := digitText_head h; exact ⟨_, _, rfl, hd d h1⟩
    | right h => obtain ⟨d, r, h1, rfl⟩ := digitText_head h; exact ⟨_, _, rfl, hd d h1⟩
    | left h => exact ⟨_, _, rfl, by decide, by decide⟩
    | both h _ => obtain ⟨d, r, h1, rfl⟩ := digitText_head h; exact ⟨_, _, rfl, hd d h1⟩
  cases h with
  | plain h => exact hm h
  | exponent h _ _ => obtain ⟨c, r, rfl, h'⟩ := hm h; exact ⟨c, _, rfl, h'⟩

theorem pyFloat_word {s g t : List Char} {neg : Bool} {w : String} (h : Stripped pySpace s (g ++ t))
    (hg : SignText g neg) (ht : AnyCase t w) (hw : w.toList.head? = some 'i' ∨ w.toList.head? = some 'n')
    (hsp : ∀ c ∈ w.toList, pySpace c = false) :
    decimalOf (signOf (strip s)).2 = none ∧ signOf (strip s) = (neg, t) ∧ lower t = w := by
  have e1 := strip_stripped h fun c hc => (List.mem_append.1 hc).elim (sign_mem hg c) (anyCase_mem ht hsp c)
  have e3 : lower t = w := by
    have := congrArg String.ofList ht
    rwa [String.ofList_toList] at this
  unfold AnyCase at ht
  rw [← ht] at hw
  cases t with
  | nil => simp at hw
  | cons c r =>
    have hc : c.toLower = 'i' ∨ c.toLower = 'n' := by simpa using hw
    have h1 : c ≠ '+' := by rintro rfl; revert hc; decide
    have h2 : c ≠ '-' := by rintro rfl; revert hc; decide
    have e2 := signOf_sign hg (t := r) h1 h2
    rw [e1, e2]
    refine ⟨?_, rfl, e3⟩
    cases hd : decimalOf (c :: r) with
    | none => rfl
    | some x =>
      obtain ⟨c', r', h3, h4⟩ := unsigned_lower ((decimalOf_iff _ _).1 hd)
      cases h3
      exact absurd hc (not_or.2 h4)

theorem lower_anyCase {t : List Char} {w : String} (h : lower t = w) : AnyCase t w := by
  rw [← h, AnyCase, lower, String.toList_ofList]

/-- **C121.** `float()` gives an infinite number for the words `inf` and `infinity` with any letter case, with or without sign, and for
nothing else. -/
theorem pyFloat_inf (s : List Char) (neg : Bool) : pyFloat s = some (.inf neg) ↔
    ∃ g t, Stripped pySpace s (g ++ t) ∧ SignText g neg ∧ (AnyCase t "inf" ∨ AnyCase t "infinity") := by
  constructor
  · intro h
    obtain ⟨g, hg, ht⟩ := signOf_inv (strip s)
    rw [pyFloat] at h
    have hs := strip_decomp s
    rw [ht] at hs
    split at h
    · cases h
    · split at h
      · rename_i hl
        cases h
        exact ⟨g, _, hs, hg, hl.imp lower_anyCase lower_anyCase⟩
      · split at h <;> cases h
  · rintro ⟨g, t, hs, hg, ht⟩
    have : decimalOf (signOf (strip s)).2 = none ∧ signOf (strip s) = (neg, t) ∧ (lower t = "inf" ∨ lower t = "infinity") := by
      rcases ht with ht | ht
      · obtain ⟨h1, h2, h3⟩ := pyFloat_word hs hg ht (.inl (by decide)) (by decide)
        exact ⟨h1, h2, .inl h3⟩
      · obtain ⟨h1, h2, h3⟩ := pyFloat_word hs hg ht (.inl (by decide)) (by decide)
        exact ⟨h1, h2, .inr h3⟩
    obtain ⟨h1, h2, h3⟩ := this
    rw [h2] at h1
    simp only [pyFloat, h2, h1, if_pos h3]

/-- **C121.** `float()` gives `nan` for the word `nan` with any letter case, with or without sign, and for nothing else. -/
theorem pyFloat_nan (s : List Char) : pyFloat s = some .nan ↔ ∃ g t neg, Stripped pySpace s (g ++ t) ∧ SignText g neg ∧ AnyCase t "nan" := by
  constructor
  · intro h
    obtain ⟨g, hg, ht⟩ := signOf_inv (strip s)
    rw [pyFloat] at h
    have hs := strip_decomp s
    rw [ht] at hs
    split at h
    · cases h
    · split at h
      · cases h
      · split at h
        · rename_i hl
          exact ⟨g, _, _, hs, hg, lower_anyCase hl⟩
        · cases h
  · rintro ⟨g, t, neg, hs, hg, ht⟩
    obtain ⟨h1, h2, h3⟩ := pyFloat_word hs hg ht (.inr (by decide)) (by decide)
    rw [h2] at h1
    simp only [pyFloat, h2, h1, h3]
    rw [if_neg (by decide), if_pos trivial]

/-- **C121.** All other texts raise `ValueError`. -/
theorem pyFloat_none (s : List Char) : pyFloat s = none ↔ (∀ t q, Stripped pySpace s t → ¬ DecimalText t q) ∧
    ∀ g t neg, Stripped pySpace s (g ++ t) → SignText g neg → ¬ AnyCase t "inf" ∧ ¬ AnyCase t "infinity" ∧ ¬ AnyCase t "nan" := by
  constructor
  · intro h
    refine ⟨fun t q h1 h2 => ?_, fun g t neg h1 h2 => ⟨fun h3 => ?_, fun h3 => ?_, fun h3 => ?_⟩⟩
    · rw [(pyFloat_iff s q).2 ⟨t, h1, h2⟩] at h; cases h
    · rw [(pyFloat_inf s neg).2 ⟨g, t, h1, h2, .inl h3⟩] at h; cases h
    · rw [(pyFloat_inf s neg).2 ⟨g, t, h1, h2, .inr h3⟩] at h; cases h
    · rw [(pyFloat_nan s).2 ⟨g, t, neg, h1, h2, h3⟩] at h; cases h
  · rintro ⟨h1, h2⟩
    cases h : pyFloat s with
    | none => rfl
    | some v =>
      cases v with
      | num q => obtain ⟨t, h3, h4⟩ := (pyFloat_iff s q).1 h; exact absurd h4 (h1 t q h3)
      | inf neg =>
        obtain ⟨g, t, h3, h4, h5⟩ := (pyFloat_inf s neg).1 h
        exact (h5.elim (h2 g t neg h3 h4).1 (h2 g t neg h3 h4).2.1).elim
      | nan => obtain ⟨g, t, neg, h3, h4, h5⟩ := (pyFloat_nan s).1 h; exact absurd h5 (h2 g t neg h3 h4).2.2

/-- A word in mixed letters. -/
example : pyFloat " -InFinitY".toList = some (.inf true) :=
  (pyFloat_inf _ _).2 ⟨['-'], "InFinitY".toList, ⟨[' '], [], by decide, by decide, by decide⟩, .minus, .inr (by unfold AnyCase; decide)⟩

end Bdld
