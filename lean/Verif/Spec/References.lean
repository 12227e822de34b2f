import Verif.Model.Interpolation

/-
Specification for C129: values of the input file that refer to other options.
-/

namespace Bdld.Spec

/-- The text of a reference to another option. -/
def refText (name : List Char) : List Char := '%' :: '(' :: (name ++ [')', 's'])

/-- The option meant by a name: names of options are not case sensitive. -/
def optionNamed (map : String → Option (List Char)) (name : List Char) : Option (List Char) :=
  map (String.ofList (name.map Char.toLower))

/-- `Resolves map n v w`: the text `v` stands for `w`. Two percent signs stand for one, references stand for the values of the
options, which may contain references themselves; at most `n` of the options passed through on the way have percent signs. -/
inductive Resolves (map : String → Option (List Char)) : Nat → List Char → List Char → Prop
  | nil {n : Nat} : Resolves map n [] []
  | char {n : Nat} {c : Char} {v w : List Char} (hc : c ≠ '%') (h : Resolves map n v w) : Resolves map n (c :: v) (c :: w)
  | percent {n : Nat} {v w : List Char} (h : Resolves map n v w) : Resolves map n ('%' :: '%' :: v) ('%' :: w)
  | plain {n : Nat} {name x v w : List Char} (h1 : name ≠ []) (h2 : ')' ∉ name) (h3 : optionNamed map name = some x)
    (h4 : '%' ∉ x) (h : Resolves map n v w) : Resolves map n (refText name ++ v) (x ++ w)
  | nested {n : Nat} {name x y v w : List Char} (h1 : name ≠ []) (h2 : ')' ∉ name) (h3 : optionNamed map name = some x)
    (h4 : '%' ∈ x) (h5 : Resolves map n x y) (h : Resolves map (n + 1) v w) : Resolves map (n + 1) (refText name ++ v) (y ++ w)

end Bdld.Spec
