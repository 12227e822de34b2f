import Verif.Model.Printf

/-
The format `{x:.4}` of the report about birth-death, `birth_death.py:379-391`.

`format(x, ".p")` of Python prints `p` significant digits without zeros at the end, in fixed point notation with at least one digit
after the point, or in scientific notation if the exponent is smaller than -4 or not smaller than `p - 1` (`format_float_short` of
CPython with `Py_DTSF_ADD_DOT_0`). Numbers are exact and not negative here.
-/

namespace Bdld

/-- Digits without the zeros at the end. -/
def stripZeros (l : List Char) : List Char := (l.reverse.dropWhile (· = '0')).reverse

/-- A point after the first `k` digits, with zeros for missing digits and at least one digit behind the point. -/
def pointAfter (k : Nat) (ds : List Char) : List Char :=
  if k < ds.length then ds.take k ++ '.' :: ds.drop k
  else ds ++ List.replicate (k - ds.length) '0' ++ ['.', '0']

/-- One digit before the point, which is left out if there are no more. -/
def mantissaText : List Char → List Char
  | [] => []
  | [c] => [c]
  | c :: r => c :: '.' :: r

/-- `format(x, ".p")` for `0 ≤ x` and `0 < p`. -/
def generalText (p : Nat) (x : ℚ) : List Char :=
  if x = 0 then ['0', '.', '0']
  else
    let m := sciParts (p - 1) x
    let ds := stripZeros (Nat.toDigits 10 m.1)
    let decpt := m.2 + 1
    if decpt ≤ -4 ∨ (p : ℤ) - 1 < decpt then mantissaText ds ++ exponentText m.2
    else if decpt ≤ 0 then '0' :: '.' :: (List.replicate (-decpt).toNat '0' ++ ds)
    else pointAfter decpt.toNat ds

/-- `{x:.4}` of a quotient, with `np.nan` for a division by zero. -/
def digits4Text : Option ℚ → String
  | none => "nan"
  | some q => String.ofList (generalText 4 q)

end Bdld
