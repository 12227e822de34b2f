import Verif.Spec.TextExt
import Verif.Model.Printf

/-
Reading numbers with sign and exponent.
-/

namespace Bdld.Spec

/-- An integer with an optional sign. -/
def readExponent : List Char → Option ℤ
  | '+' :: r => (readNat r).map (fun n => (n : ℤ))
  | '-' :: r => (readNat r).map (fun n => -(n : ℤ))
  | r => (readNat r).map (fun n => (n : ℤ))

/-- A decimal number, perhaps with an exponent, or `inf` or `nan`. -/
def readMagnitude (l : List Char) : Option XRat :=
  match l with
  | ['i', 'n', 'f'] => some (.inf false)
  | ['n', 'a', 'n'] => some .nan
  | l =>
    match l.span (· ≠ 'e') with
    | (a, []) => (readUnsigned a).map .fin
    | (a, _ :: b) => do
      let m ← readUnsigned a
      let e ← readExponent b
      return .fin (m * 10 ^ e)

/-- The same with minus sign. -/
def XRat.neg : XRat → XRat
  | .fin q => .fin (-q)
  | .inf b => .inf (!b)
  | .nan => .nan

/-- With an optional sign. -/
def readFloat : List Char → Option XRat
  | '-' :: r => (readMagnitude r).map XRat.neg
  | '+' :: r => readMagnitude r
  | r => readMagnitude r

/-- The table of a file. -/
def readFloats (text : List Char) : Option (List (List XRat)) :=
  ((textLines text).filter (fun l => !isComment l)).mapM (fun l => (textWords l).mapM readFloat)

/-- Half of the last digit in fixed point formats, and half of the last digit of the mantissa in scientific ones. -/
def PrintedAs (f : NumFmt) : XRat → XReal → Prop
  | .fin q, .fin x =>
    match f.kind with
    | .fixed => |(q : ℝ) - x| ≤ 1 / (2 * 10 ^ f.prec)
    | .sci => |(q : ℝ) - x| ≤ |x| / (2 * 10 ^ f.prec)
  | .inf a, .inf b => a = b
  | .nan, .nan => True
  | _, _ => False

/-- A format as text: the flags in any order, the width if it is not 0, and the precision. -/
def fmtText (flags : List Char) (f : NumFmt) : List Char :=
  '%' :: flags ++ (if f.width = 0 then [] else Nat.toDigits 10 f.width) ++ '.' :: Nat.toDigits 10 f.prec ++
    [match f.kind with | .fixed => 'f' | .sci => 'e']

/-- The flags of a format, in any order, also repeated. -/
def FlagsOf (flags : List Char) (f : NumFmt) : Prop :=
  (∀ c ∈ flags, c ∈ ['-', '+', ' ', '0']) ∧ (f.left = true ↔ '-' ∈ flags) ∧ (f.plus = true ↔ '+' ∈ flags) ∧
    (f.space = true ↔ ' ' ∈ flags) ∧ (f.zero = true ↔ '0' ∈ flags)

end Bdld.Spec
