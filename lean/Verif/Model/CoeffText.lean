import Verif.Model.PyNumber

/-
The text of a coefficient file: `file_data = np.genfromtxt(filename)`, `bdld/potential/polynomial.py:99`. Modelled after `genfromtxt` of
numpy with its default settings (comments start with `#`, columns are separated by white space, numbers by `float()`, anything else is
`nan`). The file is given as its lines without the line ends. numpy is not part of the repository. Without laws.
-/

namespace Bdld

/-- `LineSplitter`: the part before a comment, split at white space. -/
def coeffWords (line : List Char) : List (List Char) := pyWords (line.takeWhile (· ≠ '#'))

/-- `StringConverter._loose_call`: `float()`, and `nan` if it raises. -/
def looseFloat (word : List Char) : FloatVal := (pyFloat word).getD .nan

/-- `np.genfromtxt(filename)`: lines without columns are left out; `ValueError` if not all other lines have as many columns as the
first one of them. (Tables with a single row or column become one-dimensional, see `coefficientsFromFile`.) -/
def genfromtxt (lines : List (List Char)) : Except PyErr (List (List FloatVal)) :=
  let rows := (lines.map coeffWords).filter (· ≠ [])
  if rows.all (fun r => r.length == (rows.headD []).length) then .ok (rows.map (·.map looseFloat)) else .error .valueError

/-- A table with numbers, as far as they are numbers of the model. -/
def TableOf (rows : List (List FloatVal)) (table : List (List ℝ)) : Prop :=
  List.Forall₂ (List.Forall₂ (fun v (x : ℝ) => ∀ q : ℚ, v = .num q → x = q)) rows table

/-- The coefficient files of the world are texts read by `np.genfromtxt`. -/
def World.ReadsText {R : Type} (w : World R) (files : String → Option (List (List Char))) : Prop :=
  ∀ name, match files name with
    | none => w.coeffFile name = none
    | some lines => ∀ rows, genfromtxt lines = .ok rows → ∃ table, w.coeffFile name = some table ∧ TableOf rows table

end Bdld
