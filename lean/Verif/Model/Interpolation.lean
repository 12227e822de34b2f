import Verif.Model.InputParser

/-
Interpolation of values by `configparser.ConfigParser()` as created in `bdld/inputparser.py:156`. The
default interpolation is `configparser.BasicInterpolation` of the Python standard library: in a value `%%`
stands for a percent sign and `%(name)s` for the value of another key. Modelled after the library, which is
not part of the repository.
-/

namespace Bdld

/-- Match of the regular expression `%\(([^)]+)\)s` after the `%(`: name of the key and remaining string. -/
def matchKey (rest : List Char) : Option (String × List Char) :=
  match rest.span (· ≠ ')') with
  | ([], _) => none
  | (name, ')' :: 's' :: rest') => some (String.ofList name, rest')
  | _ => none

/-- Loop of `BasicInterpolation._interpolate_some`; `rec` handles the values of other keys. The first
argument bounds the number of characters. `optionxform` turns the name of keys into lower case. -/
def interpLoop (map : String → Option (List Char)) (rec : List Char → Except PyErr (List Char)) :
    Nat → List Char → Except PyErr (List Char)
  | _, [] => .ok []
  | 0, _ :: _ => .ok []
  | n + 1, '%' :: '%' :: rest => do return '%' :: (← interpLoop map rec n rest)
  | n + 1, '%' :: '(' :: rest =>
    match matchKey rest with
    | none => .error .interpolationError
    | some (name, rest') =>
      match map (String.ofList (name.toList.map Char.toLower)) with
      | none => .error .interpolationError
      | some v => do
        let w ← (if '%' ∈ v then rec v else .ok v)
        return w ++ (← interpLoop map rec n rest')
  | _ + 1, '%' :: _ => .error .interpolationError
  | n + 1, c :: rest => do return c :: (← interpLoop map rec n rest)

/-- `BasicInterpolation._interpolate_some` with `depth` levels of references left. -/
def interpDepth (map : String → Option (List Char)) : Nat → List Char → Except PyErr (List Char)
  | 0, _ => .error .interpolationError
  | depth + 1, v => interpLoop map (interpDepth map depth) v.length v

/-- `BasicInterpolation.before_get`: the maximal depth is 10. -/
def interpolate (map : String → Option (List Char)) (v : List Char) : Except PyErr (List Char) :=
  interpDepth map 10 v

/-- Section as written in the input file: `section.get(key)` interpolates with the other values. -/
def Section.ofRaw (name : String) (raw : Dict String) : Section :=
  ⟨name, raw.map (fun p => (p.1, (interpolate (fun k => (raw.get? k).map String.toList) p.2.toList).map
    String.ofList))⟩

end Bdld
