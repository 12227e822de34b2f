import Mathlib.Data.Int.Log
import Verif.Model.DeltaFText

/-
Number formats given by the user: the option `fmt` of the actions (`trajectory_action.py:58`, `histogram_action.py:80`,
`fes_action.py:92`, `delta_f_action.py:92`, `particle_distribution.py:81`), which `np.savetxt` uses with the operator `%` of
Python.

Modelled are formats for one number, `%[flags][width][.precision]f` and `…e`, with the flags `-`, `+`, space and `0`.
`np.savetxt` repeats such a format for every column with the delimiter between them.
-/

namespace Bdld

/-- Fixed point or scientific. -/
inductive FmtKind where
  | fixed
  | sci
deriving DecidableEq, Repr

/-- A format. -/
structure NumFmt where
  left : Bool
  plus : Bool
  space : Bool
  zero : Bool
  width : Nat
  prec : Nat
  kind : FmtKind
deriving DecidableEq, Repr

/-- Value of digits; 0 for no digit. -/
def fmtDigits (l : List Char) : Nat := l.foldl (fun n c => 10 * n + (c.toNat - '0'.toNat)) 0

/-- The format string; the precision is 6 if none is given, and 0 for a dot without digits. -/
def parseFmt : List Char → Option NumFmt
  | '%' :: r =>
    let flags := r.takeWhile (fun c => c ∈ ['-', '+', ' ', '0'])
    let r := r.dropWhile (fun c => c ∈ ['-', '+', ' ', '0'])
    let width := fmtDigits (r.takeWhile Char.isDigit)
    let r := r.dropWhile Char.isDigit
    let p := match r with
      | '.' :: r => (fmtDigits (r.takeWhile Char.isDigit), r.dropWhile Char.isDigit)
      | r => (6, r)
    let mk := fun kind => some ⟨decide ('-' ∈ flags), decide ('+' ∈ flags), decide (' ' ∈ flags), decide ('0' ∈ flags),
      width, p.1, kind⟩
    match p.2 with
    | ['f'] => mk .fixed
    | ['e'] => mk .sci
    | _ => none
  | _ => none

/-- The format of an action: `write_fmt or "%14.9f"`. -/
def formatOf (o : Dict (OptVal ℝ)) : Option NumFmt :=
  match o.get? "fmt" with
  | some (.base (.str s)) => if s = "" then parseFmt "%14.9f".toList else parseFmt s.toList
  | _ => parseFmt "%14.9f".toList

section
variable {F : Type} [Field F] [LinearOrder F] [FloorSemiring F]

/-- Mantissa, as an integer with `p` decimals, and exponent of a positive number: `p + 1` digits, ties to even. -/
def sciParts (p : Nat) (x : F) : Nat × ℤ :=
  if x = 0 then (0, 0)
  else
    let e := Int.log 10 x
    let m := roundEven (x / 10 ^ (e - p))
    if m = 10 ^ (p + 1) then (10 ^ p, e + 1) else (m, e)

end

noncomputable section

/-- The exponent: a sign and at least two digits. -/
def exponentText (e : ℤ) : List Char := 'e' :: (if e < 0 then '-' else '+') :: paddedDigits 2 e.natAbs

/-- Digits of the absolute value. -/
def NumFmt.body (f : NumFmt) : XReal → List Char
  | .fin x =>
    match f.kind with
    | .fixed => fixedPoint f.prec (roundEven (|x| * 10 ^ f.prec))
    | .sci => fixedPoint f.prec (sciParts f.prec |x|).1 ++ exponentText (sciParts f.prec |x|).2
  | .inf _ => ['i', 'n', 'f']
  | .nan => ['n', 'a', 'n']

/-- Is a minus sign printed? -/
def XReal.isNeg : XReal → Prop
  | .fin x => x < 0
  | .inf neg => neg = true
  | .nan => False

open Classical in
/-- The sign. -/
def NumFmt.sign (f : NumFmt) (x : XReal) : List Char :=
  if x.isNeg then ['-'] else if f.plus then ['+'] else if f.space then [' '] else []

/-- `fmt % x`. -/
def NumFmt.print (f : NumFmt) (x : XReal) : List Char :=
  let n := f.width - (f.sign x ++ f.body x).length
  if f.left then f.sign x ++ f.body x ++ List.replicate n ' '
  else if f.zero then f.sign x ++ List.replicate n '0' ++ f.body x
  else List.replicate n ' ' ++ f.sign x ++ f.body x

/-- A file with header and table. -/
def NumFmt.file (f : NumFmt) (header : List String) (rows : List (List XReal)) : List Char :=
  headerText header ++ rows.flatMap (fun r => [' '].intercalate (r.map f.print) ++ ['\n'])

/-- A value of the FES. -/
def XReal.ofTop : WithTop ℝ → XReal
  | some x => .fin x
  | none => .inf false

/-- A line of the file of a grid. -/
def NumFmt.gridLine (f : NumFmt) : GridLine (WithTop ℝ) → List Char
  | .header s => s.toList ++ ['\n']
  | .row values => [' '].intercalate (values.map (fun v => f.print (.ofTop v))) ++ ['\n']
  | .blank => ['\n']

/-- Text of the file of a grid, `grid.py:180-212`; `none` without file. -/
def NumFmt.gridText (f : NumFmt) (axes : List (List ℝ)) (data : Nd (WithTop ℝ)) (header : List String) :
    Except PyErr (Option (List Char)) := do
  let lines ← gridFile (axes.map finiteRow) data.flat data.shape header
  return lines.map (fun ls => ls.flatMap f.gridLine)

/-- A file of an action with the options `o`; `none` for formats that are not modelled. -/
def formattedFile (o : Dict (OptVal ℝ)) (header : List String) (rows : List (List XReal)) : Option (List Char) :=
  (formatOf o).map (fun f => f.file header rows)

end

end Bdld
