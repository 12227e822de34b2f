import Verif.Spec.Printf

/-
Specification of the numbers of the report about birth-death.
-/

namespace Bdld.Spec

/-- The text of `factor * part / whole` with four significant digits: `nan` without a whole, 0 only for no part. -/
structure ShowsQuotient (factor part whole : Nat) (text : String) : Prop where
  nan : text = "nan" ↔ whole = 0
  value : whole ≠ 0 → ∃ v, readFloat text.toList = some (.fin v) ∧
    |v - factor * part / whole| ≤ factor * part / whole / 2000
  zero : text = "0.0" ↔ whole ≠ 0 ∧ part = 0

end Bdld.Spec
