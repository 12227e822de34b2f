/-
Python and numpy semantics used by the model: exceptions, truthiness defaults,
floor division, negative indices and slices.
-/

namespace Bdld

/-- Python exceptions that the modelled code can raise, as values.
`optionError`, `sectionError` are the custom classes of `bdld/inputparser.py:28-39`,
`noSectionError` is `configparser.NoSectionError`, `interpolationError` stands for the subclasses of
`configparser.InterpolationError`, `configError` for the other subclasses of `configparser.Error`. Messages are dropped except for the
key and section names. -/
inductive PyErr where
  | valueError
  | typeError
  | keyError (key : String)
  | indexError
  | zeroDivisionError
  | notImplementedError
  | unboundLocalError
  | optionError (key sec : String)
  | sectionError (sec : String)
  | noSectionError (sec : String)
  | fileNotFoundError
  | interpolationError
  | configError
  | eofError
deriving DecidableEq, Repr

/-- Python's `x or default` for an optional number: `None` and `0` are falsy. -/
def pyOrNat (x : Option Nat) (dflt : Nat) : Nat :=
  match x with
  | none => dflt
  | some 0 => dflt
  | some (n + 1) => n + 1

/-- Python truthiness of an optional non-negative number (`if x:`). -/
def truthyNat (x : Option Nat) : Bool :=
  match x with
  | none => false
  | some 0 => false
  | some (_ + 1) => true

/-- Python `a // b` (rounds towards minus infinity). -/
def pyDiv (a b : Int) : Int := Int.fdiv a b

/-- Python `a % b` (result has the sign of `b`). -/
def pyMod (a b : Int) : Int := Int.fmod a b

/-- Bound of a slice `l[i:]` / `l[:i]` for positive step and length `n`: negative values count from
the end, everything is clamped to `0..n`. -/
def sliceBound (n : Nat) (i : Int) : Nat :=
  if i < 0 then (i + n).toNat else min i.toNat n

/-- `l[start:stop:step]` along the first axis of an array (`stop = none` is an omitted bound).
A step of zero raises `ValueError`; negative steps do not occur in the modelled code (all strides are
positive) and are mapped to the same error. -/
def pySlice {α : Type _} (l : List α) (start : Int) (stop : Option Int) (step : Int) :
    Except PyErr (List α) :=
  if step ≤ 0 then .error .valueError
  else
    let lo := sliceBound l.length start
    let hi := match stop with
      | none => l.length
      | some s => sliceBound l.length s
    .ok (((List.range hi).filter (fun i => decide (lo ≤ i) && (i - lo) % step.toNat == 0)).filterMap
      (fun i => l[i]?))

/-- `l[i] = v` along the first axis, with Python's negative indices; out of range raises
`IndexError`. -/
def pySetItem {α : Type _} (l : List α) (i : Int) (v : α) : Except PyErr (List α) :=
  if 0 ≤ i ∧ i < l.length then .ok (l.set i.toNat v)
  else if i < 0 ∧ 0 ≤ i + l.length then .ok (l.set (i + l.length).toNat v)
  else .error .indexError

end Bdld
