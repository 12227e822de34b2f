import Verif.Model.Py

/-
Model of the class `PlumedHeader` (`bdld/helpers/plumed_header.py`) and of `make_ordinal`
(`bdld/helpers/misc.py:152-167`), both from `dist/bdld-0.3.2.tar.gz`. Strings are lists of characters. Line ends are
those after Python's universal newline translation. The values of constants are the strings `str(value)`.
-/

namespace Bdld

abbrev Txt := List Char

/-- `str.isspace` of one character. -/
def pySpace (c : Char) : Bool :=
  let n := c.toNat
  (9 ≤ n && n ≤ 13) || (28 ≤ n && n ≤ 32) || n == 0x85 || n == 0xa0 || n == 0x1680 ||
    (0x2000 ≤ n && n ≤ 0x200a) || n == 0x2028 || n == 0x2029 || n == 0x202f || n == 0x205f || n == 0x3000

/-- `s.split()`: the maximal parts without white space. `acc` is the current part in reverse order. -/
def pyWordsAux : Txt → Txt → List Txt
  | acc, [] => if acc = [] then [] else [acc.reverse]
  | acc, c :: s =>
    if pySpace c then (if acc = [] then pyWordsAux [] s else acc.reverse :: pyWordsAux [] s)
    else pyWordsAux (c :: acc) s

def pyWords (s : Txt) : List Txt := pyWordsAux [] s

/-- `s.lstrip(chars)`. -/
def pyLstrip (p : Char → Bool) (s : Txt) : Txt := s.dropWhile p

/-- `s.rstrip(chars)`. -/
def pyRstrip (p : Char → Bool) (s : Txt) : Txt := (s.reverse.dropWhile p).reverse

/-- Lines yielded by `for line in f`, with the newline at the end. -/
def pyLines : Txt → List Txt
  | [] => []
  | c :: s =>
    if c = '\n' then [c] :: pyLines s
    else match pyLines s with
      | [] => [[c]]
      | l :: ls => (c :: l) :: ls

/-- Attributes of a `PlumedHeader`, `plumed_header.py:18-28`; `constants` is a dictionary in order of insertion. -/
structure PlHeader where
  fields : List Txt
  constants : List (Txt × Txt)
  delim : Txt
deriving DecidableEq, Repr

/-- `PlumedHeader.__init__`, `plumed_header.py:18-28`: an empty delimiter is replaced. -/
def PlHeader.new (fields : List Txt) (constants : List (Txt × Txt)) (delim : Txt) : PlHeader :=
  ⟨fields, constants, if delim = [] then "#!".toList else delim⟩

/-- `sep.join(parts)`. -/
def pyJoin (sep : Txt) : List Txt → Txt
  | [] => []
  | [a] => a
  | a :: b :: l => a ++ sep ++ pyJoin sep (b :: l)

/-- The line with the fields, `plumed_header.py:36`. -/
def PlHeader.fieldLine (h : PlHeader) : Txt := h.delim ++ " FIELDS ".toList ++ pyJoin [' '] h.fields

/-- The line of a constant, `plumed_header.py:38`. -/
def PlHeader.setLine (h : PlHeader) (c : Txt × Txt) : Txt := h.delim ++ " SET ".toList ++ c.1 ++ [' '] ++ c.2

/-- `PlumedHeader.__repr__`, `plumed_header.py:30-39`. -/
def PlHeader.repr (h : PlHeader) : Txt := pyJoin ['\n'] (h.fieldLine :: h.constants.map h.setLine)

/-- `d[key] = value`: an existing key keeps its place. -/
def dictSet (d : List (Txt × Txt)) (k v : Txt) : List (Txt × Txt) :=
  if d.any (fun e => e.1 = k) then d.map (fun e => if e.1 = k then (k, v) else e) else d ++ [(k, v)]

/-- `line.lstrip(delim).rstrip("\n").strip()`, `plumed_header.py:59`. -/
def cleanLine (delim line : Txt) : Txt :=
  pyRstrip pySpace (pyLstrip pySpace (pyRstrip (· = '\n') (pyLstrip (fun c => decide (c ∈ delim)) line)))

/-- One line of constants, `plumed_header.py:70-73`: fewer than two words after `SET` raise `ValueError`. -/
def parseConstant (d : List (Txt × Txt)) (line : Txt) : Except PyErr (List (Txt × Txt)) :=
  if "SET".toList.isPrefixOf line then
    match ((pyWords line).drop 1).take 2 with
    | [name, val] => .ok (dictSet d name val)
    | _ => .error .valueError
  else .ok d

/-- `PlumedHeader.parse_file`, `plumed_header.py:41-73`, for the content of the file. Note that the constants of the
object are kept. -/
def PlHeader.parse (h : PlHeader) (content delim : Txt) : Except PyErr PlHeader := do
  let delim := if delim = [] then h.delim else delim
  let header := ((pyLines content).filter (fun l => delim.isPrefixOf l)).map (cleanLine delim)
  match header with
  | [] => .error .valueError
  | first :: rest =>
    if "FIELDS".toList.isPrefixOf first then do
      let constants ← rest.foldlM parseConstant h.constants
      return { h with fields := (pyWords first).drop 1, constants := constants }
    else .error .valueError

/-- `PlumedHeader.set_constant`, `plumed_header.py:75-82`. -/
def PlHeader.setConstant (h : PlHeader) (name val : Txt) : PlHeader :=
  { h with constants := dictSet h.constants name val }

/-- `PlumedHeader.add_field`, `plumed_header.py:84-90`. -/
def PlHeader.addField (h : PlHeader) (name : Txt) : PlHeader := { h with fields := h.fields ++ [name] }

/-- `make_ordinal`, `misc.py:152-167`; `%` of Python is `Int.emod` for positive divisors, the index of the list is at
most 4. -/
def makeOrdinal (n : Int) : String :=
  let suffix := ["th", "st", "nd", "rd", "th"].getD (min (n % 10) 4).toNat ""
  let suffix := if 11 ≤ n % 100 ∧ n % 100 ≤ 13 then "th" else suffix
  toString n ++ suffix

end Bdld
