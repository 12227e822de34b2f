import Mathlib.Algebra.Order.Floor.Semiring
import Mathlib.Order.WithBot
import Mathlib.Algebra.Order.Archimedean.Real.Basic
import Verif.Model.Headers
import Verif.Model.Report

/-
Model of the text of the output files: `np.savetxt` with the formats of the code, called in `trajectory_action.py:122-129`,
`delta_f_action.py:131-139`, `particle_distribution.py:128-136`, `birth_death.py:354-361`, `grid.py:192-212` and
`write_2d_sliced_to_file` (`bdld/helpers/misc.py:126-149`).

`"%14.9f" % x` prints the decimal number with 9 digits that is nearest to the double `x`, ties to even, padded with spaces to 14
characters; infinity is `inf`. Numbers are exact here, so that there is no negative zero. Formats given by the user are modelled if
they have the form `%w.pf`.
-/

namespace Bdld

section
variable {F : Type} [Field F] [LinearOrder F] [FloorSemiring F]

/-- The integer nearest to a non-negative number, ties to even. -/
def roundEven (x : F) : Nat :=
  let n := ⌊x⌋₊
  if x - n < 1 / 2 then n else if 1 / 2 < x - n then n + 1 else if n % 2 = 0 then n else n + 1

/-- Digits with leading zeros. -/
def paddedDigits (p n : Nat) : List Char :=
  List.replicate (p - (Nat.toDigits 10 n).length) '0' ++ Nat.toDigits 10 n

/-- The decimal number `n / 10 ^ p`. -/
def fixedPoint (p n : Nat) : List Char :=
  Nat.toDigits 10 (n / 10 ^ p) ++ if p = 0 then [] else '.' :: paddedDigits p (n % 10 ^ p)

/-- Padding with spaces on the left. -/
def padLeft (w : Nat) (l : List Char) : List Char := List.replicate (w - l.length) ' ' ++ l

/-- `"%w.pf" % x` without padding. -/
def fixedSigned (p : Nat) (x : F) : List Char :=
  if x < 0 then '-' :: fixedPoint p (roundEven (-x * 10 ^ p)) else fixedPoint p (roundEven (x * 10 ^ p))

/-- `"%w.pf" % x`. -/
def fmtFixed (w p : Nat) : WithTop F → List Char
  | some x => padLeft w (fixedSigned p x)
  | none => padLeft w ['i', 'n', 'f']

/-- A row of `np.savetxt` with one format for all columns and `delimiter=" "`, with its newline. -/
def savetxtRow (w p : Nat) (row : List (WithTop F)) : List Char :=
  [' '].intercalate (row.map (fmtFixed w p)) ++ ['\n']

/-- `np.savetxt` without header. -/
def savetxt (w p : Nat) (rows : List (List (WithTop F))) : List Char := rows.flatMap (savetxtRow w p)

/-- Lines of a header, each with its newline. -/
def headerText (header : List String) : List Char := header.flatMap (fun l => l.toList ++ ['\n'])

/-- A line of a histogram or FES file. -/
def GridLine.text (w p : Nat) : GridLine (WithTop F) → List Char
  | .header s => s.toList ++ ['\n']
  | .row values => savetxtRow w p values
  | .blank => ['\n']

end

/-- A row of `np.savetxt` with `fmt="%d"`, `birth_death.py:354-361`. -/
def savetxtInts (row : List Nat) : List Char := [' '].intercalate (row.map (Nat.toDigits 10)) ++ ['\n']

/-! ### Whole files -/

/-- A row of finite numbers. -/
def finiteRow (r : List ℝ) : List (WithTop ℝ) := r.map WithTop.some

/-- Text of the file of one walker, `trajectory_action.py:56-66` and `122-129`. -/
noncomputable def trajText (w p : Nat) (fields : List String) (momentum : Bool) (i : Nat) (rows : List (List ℝ)) : List Char :=
  headerText (initHeader (trajFields fields momentum i) []) ++ savetxt w p (rows.map finiteRow)

/-- Text of the file of a grid with the given values, `grid.py:180-212`; `none` without file. -/
noncomputable def gridText (w p : Nat) (axes : List (List ℝ)) (data : Nd (WithTop ℝ)) (header : List String) :
    Except PyErr (Option (List Char)) := do
  let lines ← gridFile (axes.map finiteRow) data.flat data.shape header
  return lines.map (fun ls => ls.flatMap (GridLine.text w p))

/-- Text of a time series, `delta_f_action.py:80-85` and `131-139`, `particle_distribution.py:69-75` and `128-136`. -/
noncomputable def seriesText (w p : Nat) (fields : List String) (constants : List (String × String)) (rows : List (List ℝ)) : List Char :=
  headerText (initHeader fields constants) ++ savetxt w p (rows.map finiteRow)

/-- Text of the statistics file, `birth_death.py:318-332` and `354-361`; what goes to the screen is left out. -/
def statsText (constants : List (String × String)) (out : List StatsOutput) : List Char :=
  headerText (initHeader statsFields constants) ++ out.flatMap (fun l => match l with
    | .line v => savetxtInts v
    | .report .. => [])

end Bdld
