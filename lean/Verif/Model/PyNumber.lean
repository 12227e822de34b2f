import Mathlib.Algebra.Order.Field.Rat
import Verif.Model.ConfigText

/-
The builtin functions `int()` and `float()` of Python for strings, as called in `bdld/inputparser.py:81-96` (through
`section.getint`, `section.getfloat`, and for the values of lists). Numbers are exact: rounding to a double, the sign of zero, and digits
other than ASCII are not modelled. Without laws.
-/

namespace Bdld

/-- `str.split(sep)` for a single character. -/
def splitAll (sep : Char) : List Char → List (List Char)
  | [] => [[]]
  | c :: l =>
    match splitAll sep l with
    | [] => [[c]]
    | w :: ws => if c = sep then [] :: w :: ws else (c :: w) :: ws

/-- Value of a digit. -/
def digitOf (c : Char) : Option Nat := if 48 ≤ c.toNat ∧ c.toNat ≤ 57 then some (c.toNat - 48) else none

/-- Digits; underscores are allowed between them. -/
def digitGroups (t : List Char) : Option (List Nat) :=
  let parts := splitAll '_' t
  if [] ∈ parts then none else parts.flatten.mapM digitOf

/-- Number with the given digits. -/
def natValue (ds : List Nat) : Nat := ds.foldl (fun n d => 10 * n + d) 0

/-- The sign and the rest of the text. -/
def signOf : List Char → Bool × List Char
  | '+' :: r => (false, r)
  | '-' :: r => (true, r)
  | r => (false, r)

/-- A sign and digits. -/
def signedDigits (t : List Char) : Option Int :=
  (digitGroups (signOf t).2).map fun ds => if (signOf t).1 then -(natValue ds : Int) else natValue ds

/-- `int(s)`. -/
def pyInt (s : List Char) : Option Int := signedDigits (strip s)

/-- The parts before and after the first character with the given property. -/
def splitFirst (p : Char → Bool) (l : List Char) : Option (List Char × List Char) :=
  match l.span (fun c => !p c) with
  | (_, []) => none
  | (a, _ :: b) => some (a, b)

/-- Digits that may be missing. -/
def someDigits (t : List Char) : Option (List Nat) := if t = [] then some [] else digitGroups t

/-- Digits with an optional decimal point. -/
def mantissaOf (t : List Char) : Option ℚ :=
  match splitFirst (· = '.') t with
  | none => (digitGroups t).map fun ds => (natValue ds : ℚ)
  | some (a, b) =>
    if a = [] ∧ b = [] then none
    else do
      let da ← someDigits a
      let db ← someDigits b
      return (natValue (da ++ db) : ℚ) / 10 ^ db.length

/-- Mantissa and exponent. -/
def decimalOf (t : List Char) : Option ℚ :=
  match splitFirst (fun c => c = 'e' || c = 'E') t with
  | none => mantissaOf t
  | some (m, e) => do
    let x ← mantissaOf m
    let k ← signedDigits e
    return x * 10 ^ k

/-- Results of `float`. -/
inductive FloatVal where
  | num (q : ℚ)
  | inf (neg : Bool)
  | nan
deriving DecidableEq

/-- `float(s)`. -/
def pyFloat (s : List Char) : Option FloatVal :=
  let sr := signOf (strip s)
  match decimalOf sr.2 with
  | some q => some (.num (if sr.1 then -q else q))
  | none =>
    if lower sr.2 = "inf" ∨ lower sr.2 = "infinity" then some (.inf sr.1)
    else if lower sr.2 = "nan" then some .nan
    else none

/-- The finite numbers among them. -/
def FloatVal.finite : FloatVal → Option ℚ
  | .num q => some q
  | _ => none

/-- Conversion of the texts of the input file to the numbers of the model. Infinities and `nan` are no numbers of the model and are
treated like other texts that are not numbers. -/
def textConv {F : Type} (ofRat : ℚ → F) : Conv F where
  toFloat s := ((pyFloat s.toList).bind FloatVal.finite).map ofRat
  toInt s := pyInt s.toList

end Bdld
