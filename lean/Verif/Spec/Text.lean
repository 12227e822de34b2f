import Mathlib.Data.List.Basic
import Mathlib.Data.Rat.Cast.Order
import Mathlib.Algebra.Order.Field.Rat
import Mathlib.Order.WithBot
import Mathlib.Data.Real.Basic

/-
Reading tables of numbers from text: what `np.loadtxt` or PLUMED see in a file. Independent of how the text is made.
-/

namespace Bdld.Spec

/-- The parts of a text between separators; empty parts are left out. -/
def piecesFrom (sep : Char) : List Char → List Char → List (List Char)
  | cur, [] => if cur = [] then [] else [cur]
  | cur, c :: cs =>
    if c = sep then (if cur = [] then [] else [cur]) ++ piecesFrom sep [] cs else piecesFrom sep (cur ++ [c]) cs

def pieces (sep : Char) (text : List Char) : List (List Char) := piecesFrom sep [] text

/-- Lines of a file that are not empty. -/
def textLines (text : List Char) : List (List Char) := pieces '\n' text

/-- Words of a line. -/
def textWords (line : List Char) : List (List Char) := pieces ' ' line

/-- A natural number from digits; at least one digit is needed. -/
def readNat (l : List Char) : Option Nat :=
  if l ≠ [] ∧ l.all Char.isDigit then some (l.foldl (fun n c => 10 * n + (c.toNat - '0'.toNat)) 0) else none

/-- Digits, or digits with a decimal point between them. -/
def readUnsigned (l : List Char) : Option ℚ :=
  match l.span (· ≠ '.') with
  | (a, []) => (readNat a).map (fun n => (n : ℚ))
  | (a, _ :: b) => do
    let n ← readNat a
    let m ← readNat b
    return n + m / 10 ^ b.length

/-- A decimal number with an optional sign, or `inf`. -/
def readNumber (l : List Char) : Option (WithTop ℚ) :=
  match l with
  | '-' :: r => (readUnsigned r).map (fun q => ((-q : ℚ) : WithTop ℚ))
  | ['i', 'n', 'f'] => some ⊤
  | r => (readUnsigned r).map (fun q => ((q : ℚ) : WithTop ℚ))

/-- Lines that are comments. -/
def isComment (line : List Char) : Bool := line.head? == some '#'

/-- The table of a file; `none` if something is not a number. -/
def readTable (text : List Char) : Option (List (List (WithTop ℚ))) :=
  ((textLines text).filter (fun l => !isComment l)).mapM (fun l => (textWords l).mapM readNumber)

/-- A number read from a file differs from the number at most by half of the last printed digit; infinite values are read as such. -/
def Printed (p : Nat) : WithTop ℚ → WithTop ℝ → Prop
  | some q, some x => |(q : ℝ) - x| ≤ 1 / (2 * 10 ^ p)
  | none, none => True
  | _, _ => False

/-- The same for tables. -/
def PrintedTable (p : Nat) (read : List (List (WithTop ℚ))) (rows : List (List (WithTop ℝ))) : Prop :=
  List.Forall₂ (List.Forall₂ (Printed p)) read rows

/-- A line that readers skip. -/
def CommentLine (l : List Char) : Prop := l.head? = some '#' ∧ '\n' ∉ l

/-- The table of a file of natural numbers. -/
def readNats (text : List Char) : Option (List (List Nat)) :=
  ((textLines text).filter (fun l => !isComment l)).mapM (fun l => (textWords l).mapM readNat)

end Bdld.Spec
