import Verif.Spec.InputParser

/-
Which input files are accepted: conditions on the texts in the file. Independent of the parser.
-/

namespace Bdld.Spec

/-- The option is in the section, and its text has the property. -/
def Given (s : Section) (key : String) (P : String → Prop) : Prop := ∃ raw, s.entries.get? key = some (.ok raw) ∧ P raw

/-- The option is not in the section, or its text has the property. -/
def Perhaps (s : Section) (key : String) (P : String → Prop) : Prop := s.entries.get? key = none ∨ Given s key P

section
variable {F : Type} (c : Conv F)

/-- Any text. -/
def anyText : String → Prop := fun _ => True

/-- Text of a number with the given property. -/
def floatText (P : F → Prop) (raw : String) : Prop := ∃ x, c.toFloat raw = some x ∧ P x

/-- Text of an integer with the given property. -/
def intText (P : Int → Prop) (raw : String) : Prop := ∃ i, c.toInt raw = some i ∧ P i

/-- Text of true or false. -/
def boolText (raw : String) : Prop := ∃ b, BoolText raw b

/-- Numbers with the given property, separated by commas. -/
def floatsText (P : F → Prop) (raw : String) : Prop := ∃ parts, CommaSeparated raw parts ∧ ∀ p ∈ parts, floatText c P p

/-- Integers with the given property, separated by commas. -/
def intsText (P : Int → Prop) (raw : String) : Prop := ∃ parts, CommaSeparated raw parts ∧ ∀ p ∈ parts, intText c P p

variable [Zero F] [LT F] [LE F]

/-- Section `[ld]`. -/
structure LdText (s : Section) : Prop where
  type : Given s "type" fun t => t = "overdamped" ∨ t = "bussi-parinello"
  timestep : Given s "timestep" (floatText c (0 ≤ ·))
  nSteps : Given s "n_steps" (intText c (0 < ·))
  seed : Perhaps s "seed" (intText c anything)
  kt : Given s "type" (· = "bussi-parinello") → Given s "kt" (floatText c (0 < ·))
  friction : Given s "type" (· = "bussi-parinello") → Given s "friction" (floatText c (0 ≤ ·))

/-- Section `[potential]` of a polynomial in one dimension. -/
structure PolyText1 (s : Section) : Prop where
  coeffs : Perhaps s "coeffs" (floatsText c anything)
  min : Given s "min" (floatText c anything)
  max : Given s "max" (floatText c anything)

/-- Section `[potential]` of a polynomial in several dimensions. -/
structure PolyText2 (s : Section) : Prop where
  coeffsFile : Given s "coeffs-file" anyText
  min : Given s "min" (floatsText c anything)
  max : Given s "max" (floatsText c anything)

/-- The number of dimensions is given, and it is one. -/
def OneDimText (s : Section) : Prop := Given s "n_dim" (intText c (· = 1))

/-- Section `[potential]`. -/
structure PotentialText (s : Section) : Prop where
  type : Given s "type" fun t => t = "polynomial" ∨ t = "mueller-brown"
  bound : Perhaps s "boundary-condition" anyText
  nDim : Perhaps s "n_dim" (intText c anything)
  scaling : Given s "type" (· = "mueller-brown") → Perhaps s "scaling-factor" (floatText c anything)
  dimPos : Given s "type" (· = "polynomial") → Given s "n_dim" (intText c (0 < ·))
  one : Given s "type" (· = "polynomial") → OneDimText c s → PolyText1 c s
  more : Given s "type" (· = "polynomial") → ¬ OneDimText c s → PolyText2 c s

/-- Section `[particles]`. -/
structure ParticlesText (s : Section) : Prop where
  number : Given s "number" (intText c (0 < ·))
  mass : Perhaps s "mass" (floatText c (0 < ·))
  seed : Perhaps s "seed" (intText c anything)
  dist : Given s "initial-distribution" fun t => t = "random-global" ∨ t = "random-pos" ∨ t = "fractions-pos"
  pos : Given s "initial-distribution" (fun t => t = "random-pos" ∨ t = "fractions-pos") →
    ∃ texts : List String, Numbered s.entries.get? "pos" "" (texts.map .ok) ∧ ∀ t ∈ texts, floatsText c anything t
  fractions : Given s "initial-distribution" (· = "fractions-pos") → Given s "fractions" (floatsText c anything)

/-- Section `[birth-death]`. -/
structure BirthDeathText (oneDim : Prop) (s : Section) : Prop where
  stride : Given s "stride" (intText c (0 < ·))
  correction : Perhaps s "correction-variant" anyText
  approximation : Perhaps s "approximation-variant" anyText
  factor : Perhaps s "exponential-factor" (floatText c (0 < ·))
  recalc : Perhaps s "recalculate-probabilities" boolText
  statsStride : Perhaps s "stats-stride" (intText c (0 < ·))
  statsFilename : Perhaps s "stats-filename" anyText
  seed : Perhaps s "seed" (intText c anything)
  bandwidth1 : oneDim → Given s "kernel-bandwidth" (floatText c (0 < ·))
  bandwidth2 : ¬ oneDim → Given s "kernel-bandwidth" (floatsText c (0 < ·))

/-- Options of all sections with output files. -/
structure OutputText (s : Section) : Prop where
  stride : Perhaps s "stride" (intText c (0 < ·))
  filename : Perhaps s "filename" anyText
  writeStride : Perhaps s "write-stride" (intText c (0 < ·))
  fmt : Perhaps s "fmt" anyText

/-- Section `[trajectories]`. -/
structure TrajectoriesText (s : Section) : Prop extends OutputText c s where
  momentum : Perhaps s "momentum" boolText

/-- Section `[histogram]`. -/
structure HistogramText (oneDim : Prop) (s : Section) : Prop extends OutputText c s where
  reset : Perhaps s "reset" (intsText c (0 < ·))
  bins1 : oneDim → Given s "bins" (intText c (0 < ·))
  min1 : oneDim → Given s "min" (floatText c anything)
  max1 : oneDim → Given s "max" (floatText c anything)
  bins2 : ¬ oneDim → Given s "bins" (intsText c (0 < ·))
  min2 : ¬ oneDim → Given s "min" (floatsText c anything)
  max2 : ¬ oneDim → Given s "max" (floatsText c anything)

/-- Section `[fes]`. -/
structure FesText (s : Section) : Prop extends OutputText c s where
  kt : Given s "kt" (floatText c (0 < ·))
  plotStride : Perhaps s "plot-stride" (intText c anything)
  plotFilename : Perhaps s "plot-filename" anyText
  plotDomain : Perhaps s "plot-domain" (floatsText c anything)
  plotTitle : Perhaps s "plot-title" anyText

/-- Sections `[delta-f]` and `[particle-distribution]`. -/
structure StatesText (s : Section) : Prop extends OutputText c s where
  states : ∃ mins maxs : List String, Numbered s.entries.get? "state" "-min" (mins.map .ok) ∧
    Numbered s.entries.get? "state" "-max" (maxs.map .ok) ∧ mins.length = maxs.length ∧ mins ≠ [] ∧
    (∀ t ∈ mins, floatsText c anything t) ∧ ∀ t ∈ maxs, floatsText c anything t

/-- Input file: three sections are required, the others optional, the FES needs the histogram, and delta F the FES. -/
structure InputText (cfg : List Section) : Prop where
  ld : ∃ s, findSection cfg "ld" = some s ∧ LdText c s
  potential : ∃ s, findSection cfg "potential" = some s ∧ PotentialText c s ∧
    (∀ t, findSection cfg "birth-death" = some t → BirthDeathText c (OneDimText c s) t) ∧
    ∀ t, findSection cfg "histogram" = some t → HistogramText c (OneDimText c s) t
  particles : ∃ s, findSection cfg "particles" = some s ∧ ParticlesText c s
  trajectories : ∀ t, findSection cfg "trajectories" = some t → TrajectoriesText c t
  fes : ∀ t, findSection cfg "fes" = some t → (findSection cfg "histogram").isSome ∧ FesText c t
  deltaF : ∀ t, findSection cfg "delta-f" = some t → (findSection cfg "fes").isSome ∧ StatesText c t
  particleDistribution : ∀ t, findSection cfg "particle-distribution" = some t → StatesText c t

end

end Bdld.Spec
