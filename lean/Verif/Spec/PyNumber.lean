import Mathlib.Algebra.Order.Field.Rat
import Mathlib.Data.Nat.Digits.Defs

/-
Texts of numbers and their values, independent of how they are read: the grammar in the documentation of Python.
-/

namespace Bdld.Spec

/-- The text between white space. -/
def Stripped (space : Char → Bool) (s t : List Char) : Prop :=
  ∃ a b, s = a ++ t ++ b ∧ (∀ c ∈ a, space c = true) ∧ ∀ c ∈ b, space c = true

/-- Digits, with single underscores between some of them. -/
inductive DigitText : List Char → List Nat → Prop
  | one {d} : d < 10 → DigitText [Nat.digitChar d] [d]
  | cons {d t ds} : d < 10 → DigitText t ds → DigitText (Nat.digitChar d :: t) (d :: ds)
  | under {d t ds} : d < 10 → DigitText t ds → DigitText (Nat.digitChar d :: '_' :: t) (d :: ds)

/-- Value of the digits. -/
def digitsValue (ds : List Nat) : Nat := Nat.ofDigits 10 ds.reverse

/-- A sign; the number is negative for `-`. -/
inductive SignText : List Char → Bool → Prop
  | none : SignText [] false
  | plus : SignText ['+'] false
  | minus : SignText ['-'] true

/-- The number with this sign. -/
def signed {F : Type} [Neg F] (neg : Bool) (x : F) : F := if neg then -x else x

/-- Integer. -/
inductive IntegerText : List Char → Int → Prop
  | mk {s t neg ds} : SignText s neg → DigitText t ds → IntegerText (s ++ t) (signed neg (digitsValue ds : Int))

/-- Digits before and after the point; one of them can be missing, and without digits after it also the point. -/
inductive MantissaText : List Char → ℚ → Prop
  | int {t ds} : DigitText t ds → MantissaText t (digitsValue ds)
  | right {t ds} : DigitText t ds → MantissaText (t ++ ['.']) (digitsValue ds)
  | left {t ds} : DigitText t ds → MantissaText ('.' :: t) (digitsValue ds / 10 ^ ds.length)
  | both {t ds t' ds'} : DigitText t ds → DigitText t' ds' →
      MantissaText (t ++ '.' :: t') (digitsValue ds + digitsValue ds' / 10 ^ ds'.length)

/-- Number with an optional exponent. -/
inductive UnsignedText : List Char → ℚ → Prop
  | plain {t x} : MantissaText t x → UnsignedText t x
  | exponent {t x c e k} : MantissaText t x → (c = 'e' ∨ c = 'E') → IntegerText e k → UnsignedText (t ++ c :: e) (x * 10 ^ k)

/-- Decimal number. -/
inductive DecimalText : List Char → ℚ → Prop
  | mk {s t neg x} : SignText s neg → UnsignedText t x → DecimalText (s ++ t) (signed neg x)

/-- A word in any mixture of capital and small letters. -/
def AnyCase (t : List Char) (word : String) : Prop := t.map Char.toLower = word.toList

end Bdld.Spec
