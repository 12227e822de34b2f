import Verif.Spec.PyNumber

/-
Coefficient files as documented: comments, and rows with exponents, coefficient, and further columns. Independent of how they are read.
-/

namespace Bdld.Spec

/-- A text with these words, separated by white space. -/
inductive SpacedWords (space : Char → Bool) : List Char → List (List Char) → Prop
  | blank {s} : (∀ c ∈ s, space c = true) → SpacedWords space s []
  | last {s w} : (∀ c ∈ s, space c = true) → w ≠ [] → (∀ c ∈ w, space c = false) → SpacedWords space (s ++ w) [w]
  | cons {s w b t ws} : (∀ c ∈ s, space c = true) → w ≠ [] → (∀ c ∈ w, space c = false) → space b = true →
      SpacedWords space t ws → SpacedWords space (s ++ w ++ b :: t) (w :: ws)

/-- A line with these words, followed by a comment or not. -/
def LineWords (space : Char → Bool) (line : List Char) (words : List (List Char)) : Prop :=
  ∃ body comment, line = body ++ comment ∧ '#' ∉ body ∧ (comment = [] ∨ comment.head? = some '#') ∧ SpacedWords space body words

/-- The words of a row: exponents, coefficient, and `extra` further columns. -/
def RowWords {d : Nat} (extra : Nat) (words : List (List Char)) (p : (Fin d → Nat) × ℚ) : Prop :=
  ∃ es c rest, words = es ++ c :: rest ∧ rest.length = extra ∧ es.length = d ∧
    (∀ (k : Fin d) t, es[k.val]? = some t → DecimalText t (p.1 k)) ∧ DecimalText c p.2

/-- A file with these monomials: one row for each, with the same number of columns, between lines that are empty or comments. -/
inductive CoeffLines (space : Char → Bool) {d : Nat} (extra : Nat) : List (List Char) → List ((Fin d → Nat) × ℚ) → Prop
  | nil : CoeffLines space extra [] []
  | comment {line lines l} : LineWords space line [] → CoeffLines space extra lines l → CoeffLines space extra (line :: lines) l
  | row {line words p lines l} : LineWords space line words → RowWords extra words p → CoeffLines space extra lines l →
      CoeffLines space extra (line :: lines) (p :: l)

end Bdld.Spec
