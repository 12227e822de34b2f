import Verif.Model.InputParser
import Mathlib.Data.List.Forall2

/-
Specification of parsed options. Independent of the parser.
-/

namespace Bdld.Spec

/-- The key occurs in the dictionary or section. -/
def HasKey {V : Type} (d : Dict V) (key : String) : Prop := ∃ v, (key, v) ∈ d

/-- The value has the expected type. -/
def HasBaseType {F : Type} : BaseType → BaseVal F → Prop
  | .str, .str _ => True
  | .float, .float _ => True
  | .int, .int _ => True
  | .bool, .bool _ => True
  | _, _ => False

/-- The value has the expected type. -/
def HasType {F : Type} : KeyType → OptVal F → Prop
  | .base t, .base v => HasBaseType t v
  | .list t, .list l => l ≠ [] ∧ ∀ v ∈ l, HasBaseType t v
  | _, _ => False

/-- A number greater than zero. -/
def Positive {F : Type} [Zero F] [LT F] : BaseVal F → Prop
  | .float x => 0 < x
  | .int i => 0 < i
  | .bool b => b = true
  | .str _ => False

/-- A number greater than or equal to zero. -/
def Nonneg {F : Type} [Zero F] [LE F] : BaseVal F → Prop
  | .float x => 0 ≤ x
  | .int i => 0 ≤ i
  | .bool _ => True
  | .str _ => False

/-- The values `vals` are the values of the keys `pre1suf`, `pre2suf`, ... up to the first missing one. -/
def Numbered {V : Type} (get : String → Option V) (pre suf : String) (vals : List V) : Prop :=
  (∀ i < vals.length, get (pre ++ Nat.repr (i + 1) ++ suf) = vals[i]?) ∧
    get (pre ++ Nat.repr (vals.length + 1) ++ suf) = none

end Bdld.Spec

namespace Bdld.Spec

/-- The string `s` is a sequence of comma separated `parts`. -/
def CommaSeparated (s : String) (parts : List String) : Prop :=
  s.toList = List.intercalate [','] (parts.map String.toList) ∧ parts ≠ [] ∧ ∀ p ∈ parts, ',' ∉ p.toList

/-- The string denotes the value as an element of a list. -/
def DenotesElem {F : Type} (c : Conv F) : BaseType → String → BaseVal F → Prop
  | .str, s, v => v = .str s
  | .float, s, v => ∃ x, c.toFloat s = some x ∧ v = .float x
  | .int, s, v => ∃ i, c.toInt s = some i ∧ v = .int i
  | .bool, s, v => v = .bool (decide (s ≠ ""))

/-- The words for true and false. -/
def boolWords : Bool → List String
  | true => ["1", "yes", "true", "on"]
  | false => ["0", "no", "false", "off"]

/-- The string is one of the words, in upper or lower case. -/
def BoolText (s : String) (b : Bool) : Prop := ∃ w ∈ boolWords b, s.toList.map Char.toLower = w.toList

/-- The string denotes the value for an option of the given type. -/
def Denotes {F : Type} (c : Conv F) : KeyType → String → OptVal F → Prop
  | .base .bool, s, v => ∃ b, BoolText s b ∧ v = .base (.bool b)
  | .base t, s, v => ∃ w, DenotesElem c t s w ∧ v = .base w
  | .list t, s, v => ∃ parts l, CommaSeparated s parts ∧ List.Forall₂ (DenotesElem c t) parts l ∧ v = .list l

/-- Requirement on the value of an option. -/
abbrev Require (F : Type) := Option (OptVal F) → Prop

/-- The option is an integer with the given property. -/
def IsInt {F : Type} (P : Int → Prop) : Require F := fun v => ∃ i, v = some (.base (.int i)) ∧ P i

/-- The option is a float with the given property. -/
def IsFloat {F : Type} (P : F → Prop) : Require F := fun v => ∃ x, v = some (.base (.float x)) ∧ P x

/-- The option is a bool. -/
def IsBool {F : Type} : Require F := fun v => ∃ b, v = some (.base (.bool b))

/-- The option is a string with the given property. -/
def IsStr {F : Type} (P : String → Prop) : Require F := fun v => ∃ s, v = some (.base (.str s)) ∧ P s

/-- The option is a non-empty list of floats with the given property. -/
def IsFloats {F : Type} (P : F → Prop) : Require F :=
  fun v => ∃ l, v = some (.list (l.map .float)) ∧ l ≠ [] ∧ ∀ x ∈ l, P x

/-- The option is a non-empty list of integers with the given property. -/
def IsInts {F : Type} (P : Int → Prop) : Require F :=
  fun v => ∃ l, v = some (.list (l.map .int)) ∧ l ≠ [] ∧ ∀ x ∈ l, P x

/-- The option is `None` or meets the requirement. -/
def NoneOr {F : Type} (r : Require F) : Require F := fun v => v = some .none ∨ r v

/-- No requirement. -/
def anything {α : Type} : α → Prop := fun _ => True

end Bdld.Spec

namespace Bdld.Spec

/-- Key `pre1suf`, `pre2suf`, ... -/
def IsNumbered (pre suf key : String) : Prop := ∃ n, key = pre ++ Nat.repr n ++ suf

/-- The options of every section that are documented to have a meaning. -/
def Known (sec key : String) : Prop :=
  match sec with
  | "ld" => key ∈ ["type", "timestep", "n_steps", "seed", "kt", "friction"]
  | "potential" => key ∈ ["type", "n_dim", "coeffs", "coeffs-file", "min", "max", "scaling-factor",
      "boundary-condition"]
  | "particles" => key ∈ ["number", "mass", "seed", "initial-distribution", "fractions"] ∨
      IsNumbered "pos" "" key
  | "birth-death" => key ∈ ["stride", "correction-variant", "approximation-variant", "exponential-factor",
      "recalculate-probabilities", "stats-stride", "stats-filename", "seed", "kernel-bandwidth"]
  | "trajectories" => key ∈ ["filename", "stride", "momentum", "write-stride", "fmt"]
  | "histogram" => key ∈ ["stride", "reset", "filename", "write-stride", "fmt", "min", "max", "bins"]
  | "fes" => key ∈ ["kt", "stride", "filename", "write-stride", "fmt", "plot-stride", "plot-filename",
      "plot-domain", "plot-title"]
  | "delta-f" | "particle-distribution" => key ∈ ["stride", "filename", "write-stride", "fmt"] ∨
      IsNumbered "state" "-min" key ∨ IsNumbered "state" "-max" key
  | _ => False

/-- The sections differ at most in unknown options. -/
def SameKnown (s s' : Section) : Prop :=
  s.name = s'.name ∧ ∀ key, Known s.name key → s.entries.get? key = s'.entries.get? key

/-- The known sections. -/
def sections : List String :=
  ["ld", "potential", "particles", "birth-death", "trajectories", "histogram", "fes", "delta-f",
   "particle-distribution"]

/-- The input files contain the same known sections, which differ at most in unknown options. -/
def SameInput (cfg cfg' : List Section) : Prop :=
  ∀ name ∈ sections, Option.Rel SameKnown (findSection cfg name) (findSection cfg' name)

section
variable {F : Type} [Zero F] [LT F] [LE F]

/-- Parsed options of `[ld]`. -/
structure ValidLd (d : Dict (OptVal F)) : Prop where
  type : IsStr (fun s => s = "overdamped" ∨ s = "bussi-parinello") (d.get? "type")
  timestep : IsFloat (0 ≤ ·) (d.get? "timestep")
  nSteps : IsInt (0 < ·) (d.get? "n_steps")
  seed : NoneOr (IsInt anything) (d.get? "seed")
  kt : d.get? "type" = some (.base (.str "bussi-parinello")) → IsFloat (0 < ·) (d.get? "kt")
  friction : d.get? "type" = some (.base (.str "bussi-parinello")) → IsFloat (0 ≤ ·) (d.get? "friction")

/-- Parsed options of `[potential]`. -/
structure ValidPotential (d : Dict (OptVal F)) : Prop where
  type : IsStr (fun s => s = "polynomial" ∨ s = "mueller-brown") (d.get? "type")
  bound : NoneOr (IsStr anything) (d.get? "boundary-condition")
  nDim : IsInt anything (d.get? "n_dim")
  dimPos : d.get? "type" = some (.base (.str "polynomial")) → IsInt (0 < ·) (d.get? "n_dim")
  oneDim : d.get? "type" = some (.base (.str "polynomial")) → d.get? "n_dim" = some (.base (.int 1)) →
    NoneOr (IsFloats anything) (d.get? "coeffs") ∧ IsFloat anything (d.get? "min") ∧
      IsFloat anything (d.get? "max")
  moreDim : d.get? "type" = some (.base (.str "polynomial")) → d.get? "n_dim" ≠ some (.base (.int 1)) →
    IsStr anything (d.get? "coeffs-file") ∧ IsFloats anything (d.get? "min") ∧
      IsFloats anything (d.get? "max")
  scaling : d.get? "type" = some (.base (.str "mueller-brown")) →
    NoneOr (IsFloat anything) (d.get? "scaling-factor")

/-- Parsed options of `[particles]`. -/
structure ValidParticles (d : Dict (OptVal F)) : Prop where
  number : IsInt (0 < ·) (d.get? "number")
  mass : IsFloat (0 < ·) (d.get? "mass")
  seed : NoneOr (IsInt anything) (d.get? "seed")
  dist : IsStr (fun s => s = "random-global" ∨ s = "random-pos" ∨ s = "fractions-pos")
    (d.get? "initial-distribution")
  pos : ∀ vals, Numbered d.get? "pos" "" vals → ∀ v ∈ vals, IsFloats anything (some v)
  fractions : d.get? "initial-distribution" = some (.base (.str "fractions-pos")) →
    IsFloats anything (d.get? "fractions")

/-- Parsed options of `[birth-death]`. -/
structure ValidBirthDeath (oneDim : Bool) (d : Dict (OptVal F)) : Prop where
  stride : IsInt (0 < ·) (d.get? "stride")
  correction : NoneOr (IsStr anything) (d.get? "correction-variant")
  approximation : NoneOr (IsStr anything) (d.get? "approximation-variant")
  factor : NoneOr (IsFloat (0 < ·)) (d.get? "exponential-factor")
  recalc : IsBool (d.get? "recalculate-probabilities")
  statsStride : NoneOr (IsInt (0 < ·)) (d.get? "stats-stride")
  statsFilename : NoneOr (IsStr anything) (d.get? "stats-filename")
  seed : NoneOr (IsInt anything) (d.get? "seed")
  bandwidth : (if oneDim then IsFloat (0 < ·) else IsFloats (0 < ·)) (d.get? "kernel-bandwidth")

/-- The options common to the sections with output files. -/
structure ValidOutput (d : Dict (OptVal F)) : Prop where
  stride : NoneOr (IsInt (0 < ·)) (d.get? "stride")
  filename : NoneOr (IsStr anything) (d.get? "filename")
  writeStride : NoneOr (IsInt (0 < ·)) (d.get? "write-stride")
  fmt : NoneOr (IsStr anything) (d.get? "fmt")

/-- Parsed options of `[histogram]`. -/
structure ValidHistogram (oneDim : Bool) (d : Dict (OptVal F)) : Prop extends ValidOutput d where
  reset : NoneOr (IsInts (0 < ·)) (d.get? "reset")
  bins : (if oneDim then IsInt (0 < ·) else IsInts (0 < ·)) (d.get? "bins")
  min : (if oneDim then IsFloat anything else IsFloats anything) (d.get? "min")
  max : (if oneDim then IsFloat anything else IsFloats anything) (d.get? "max")

/-- Parsed options of `[fes]`. -/
structure ValidFes (d : Dict (OptVal F)) : Prop extends ValidOutput d where
  kt : IsFloat (0 < ·) (d.get? "kt")
  plotStride : NoneOr (IsInt anything) (d.get? "plot-stride")
  plotFilename : NoneOr (IsStr anything) (d.get? "plot-filename")
  plotDomain : NoneOr (IsFloats anything) (d.get? "plot-domain")
  plotTitle : NoneOr (IsStr anything) (d.get? "plot-title")

/-- Parsed options of `[delta-f]` and `[particle-distribution]`: at least one state, as many minima as
maxima. -/
structure ValidStates (d : Dict (OptVal F)) : Prop extends ValidOutput d where
  states : ∃ mins maxs, Numbered d.get? "state" "-min" mins ∧ Numbered d.get? "state" "-max" maxs ∧
    mins.length = maxs.length ∧ mins ≠ [] ∧ (∀ v ∈ mins, IsFloats anything (some v)) ∧
    ∀ v ∈ maxs, IsFloats anything (some v)

/-- Requirement for an optional section. -/
def IfPresent {V : Type} (P : V → Prop) (d : Option V) : Prop := ∀ v, d = some v → P v

/-- Input that passes the parser. -/
structure ValidInput (inp : Input F) : Prop where
  ld : ValidLd inp.ld
  potential : ValidPotential inp.potential
  particles : ValidParticles inp.particles
  birthDeath : IfPresent (ValidBirthDeath (isOneDim inp.potential)) inp.birthDeath
  trajectories : IfPresent (fun d => ValidOutput d ∧ NoneOr IsBool (d.get? "momentum")) inp.trajectories
  histogram : IfPresent (ValidHistogram (isOneDim inp.potential)) inp.histogram
  fes : IfPresent ValidFes inp.fes
  deltaF : IfPresent ValidStates inp.deltaF
  particleDistribution : IfPresent ValidStates inp.particleDistribution
  fesNeedsHistogram : inp.fes.isSome → inp.histogram.isSome
  deltaFNeedsFes : inp.deltaF.isSome → inp.fes.isSome

end

end Bdld.Spec
