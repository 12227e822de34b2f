import Verif.Spec.InputText

/-
What can be wrong with an input file, per section and option: the conditions on the texts of C117, one by one.
Independent of the parser.
-/

namespace Bdld.Spec

/-- Conditions on a section, each belonging to an option. -/
abbrev Rules := List (String × (Section → Prop))

/-- Text with one property or the other, depending on `p`. -/
def ifText (p : Prop) (P Q : String → Prop) (t : String) : Prop := (p → P t) ∧ (¬ p → Q t)

section
variable {F : Type} (c : Conv F) [Zero F] [LT F] [LE F]

/-- Section `[ld]`. -/
def ldRules : Rules :=
  [("type", fun s => Given s "type" fun t => t = "overdamped" ∨ t = "bussi-parinello"),
   ("timestep", fun s => Given s "timestep" (floatText c (0 ≤ ·))),
   ("n_steps", fun s => Given s "n_steps" (intText c (0 < ·))),
   ("seed", fun s => Perhaps s "seed" (intText c anything)),
   ("kt", fun s => Given s "type" (· = "bussi-parinello") → Given s "kt" (floatText c (0 < ·))),
   ("friction", fun s => Given s "type" (· = "bussi-parinello") → Given s "friction" (floatText c (0 ≤ ·)))]

/-- Section `[potential]`. -/
def potentialRules : Rules :=
  [("type", fun s => Given s "type" fun t => t = "polynomial" ∨ t = "mueller-brown"),
   ("n_dim", fun s => (Given s "type" (· = "polynomial") → Given s "n_dim" (intText c (0 < ·))) ∧
      Perhaps s "n_dim" (intText c anything)),
   ("scaling-factor", fun s => Given s "type" (· = "mueller-brown") → Perhaps s "scaling-factor" (floatText c anything)),
   ("coeffs-file", fun s => Given s "type" (· = "polynomial") → ¬ OneDimText c s → Given s "coeffs-file" anyText),
   ("min", fun s => Given s "type" (· = "polynomial") →
      Given s "min" (ifText (OneDimText c s) (floatText c anything) (floatsText c anything))),
   ("max", fun s => Given s "type" (· = "polynomial") →
      Given s "max" (ifText (OneDimText c s) (floatText c anything) (floatsText c anything)))]

/-- Section `[particles]`. -/
def particlesRules : Rules :=
  [("number", fun s => Given s "number" (intText c (0 < ·))),
   ("mass", fun s => Perhaps s "mass" (floatText c (0 < ·))),
   ("seed", fun s => Perhaps s "seed" (intText c anything)),
   ("initial-distribution", fun s => Given s "initial-distribution" fun t =>
      t = "random-global" ∨ t = "random-pos" ∨ t = "fractions-pos"),
   ("fractions", fun s => Given s "initial-distribution" (· = "fractions-pos") →
      Given s "fractions" (floatsText c anything))]

/-- Section `[birth-death]`. -/
def birthDeathRules (oneDim : Prop) : Rules :=
  [("stride", fun s => Given s "stride" (intText c (0 < ·))),
   ("exponential-factor", fun s => Perhaps s "exponential-factor" (floatText c (0 < ·))),
   ("recalculate-probabilities", fun s => Perhaps s "recalculate-probabilities" boolText),
   ("stats-stride", fun s => Perhaps s "stats-stride" (intText c (0 < ·))),
   ("seed", fun s => Perhaps s "seed" (intText c anything)),
   ("kernel-bandwidth", fun s => Given s "kernel-bandwidth" (ifText oneDim (floatText c (0 < ·)) (floatsText c (0 < ·))))]

/-- Strides, in all sections with output files. -/
def outputRules : Rules :=
  [("stride", fun s => Perhaps s "stride" (intText c (0 < ·))),
   ("write-stride", fun s => Perhaps s "write-stride" (intText c (0 < ·)))]

/-- Section `[trajectories]`. -/
def trajectoriesRules : Rules := outputRules c ++ [("momentum", fun s => Perhaps s "momentum" boolText)]

/-- Section `[histogram]`. -/
def histogramRules (oneDim : Prop) : Rules := outputRules c ++
  [("reset", fun s => Perhaps s "reset" (intsText c (0 < ·))),
   ("bins", fun s => Given s "bins" (ifText oneDim (intText c (0 < ·)) (intsText c (0 < ·)))),
   ("min", fun s => Given s "min" (ifText oneDim (floatText c anything) (floatsText c anything))),
   ("max", fun s => Given s "max" (ifText oneDim (floatText c anything) (floatsText c anything)))]

/-- Section `[fes]`. -/
def fesRules : Rules := outputRules c ++
  [("kt", fun s => Given s "kt" (floatText c (0 < ·))),
   ("plot-stride", fun s => Perhaps s "plot-stride" (intText c anything))]

/-- Sections `[delta-f]` and `[particle-distribution]`: as many lower as upper limits, and at least one. -/
def statesRules : Rules := outputRules c ++
  [("statex-min", fun s => ∀ mins maxs : List String, Numbered s.entries.get? "state" "-min" (mins.map .ok) →
      Numbered s.entries.get? "state" "-max" (maxs.map .ok) → mins.length = maxs.length),
   ("statex-min / statex-max", fun s => s.entries.get? "state1-min" ≠ none)]

/-- The dimension is one according to `n_dim` in `[potential]`. -/
def OneDimFile (cfg : List Section) : Prop := ∃ s, findSection cfg "potential" = some s ∧ OneDimText c s

/-- Conditions of all sections. -/
def rulesOf (cfg : List Section) : List (String × Rules) :=
  [("ld", ldRules c), ("potential", potentialRules c), ("particles", particlesRules c),
   ("birth-death", birthDeathRules c (OneDimFile c cfg)), ("trajectories", trajectoriesRules c),
   ("histogram", histogramRules c (OneDimFile c cfg)), ("fes", fesRules c), ("delta-f", statesRules c),
   ("particle-distribution", statesRules c)]

/-- Dimension of the potential. -/
def FileDim (cfg : List Section) (d : Nat) : Prop :=
  ∃ s, findSection cfg "potential" = some s ∧
    ((Given s "type" (· = "polynomial") ∧ Given s "n_dim" (intText c (· = (d : Int)))) ∨ (Given s "type" (· = "mueller-brown") ∧ d = 2))

/-- The file is the cause of the exception: a missing section, an option that violates its condition, a number of
kernel bandwidths that is not the dimension, a histogram without trajectories. -/
inductive Cause (cfg : List Section) : PyErr → Prop
  | missing {name : String} (hn : name ∈ ["ld", "potential", "particles"]) (h : findSection cfg name = none) :
    Cause cfg (.sectionError name)
  | option {sec key : String} {s : Section} {l : Rules} {r : Section → Prop} (hs : findSection cfg sec = some s)
    (hl : (sec, l) ∈ rulesOf c cfg) (hr : (key, r) ∈ l) (h : ¬ r s) : Cause cfg (.optionError key sec)
  | bandwidth {s : Section} {d : Nat} (hd : FileDim c cfg d) (hs : findSection cfg "birth-death" = some s)
    (h : Given s "kernel-bandwidth" fun t => ∃ parts, CommaSeparated t parts ∧ parts.length ≠ d) :
    Cause cfg (.optionError "kernel-bandwidth" "birth-death")
  | trajectories (hh : findSection cfg "histogram" ≠ none) (ht : findSection cfg "trajectories" = none) :
    Cause cfg (.keyError "trajectories")

end

/-- The text contains the word. -/
def Mentions (text word : String) : Prop := ∃ pre post, text = pre ++ word ++ post

/-- Names that a message about the exception should contain: the file, the section and the option. -/
def namesIn (infile : String) : PyErr → List String
  | .fileNotFoundError => [infile]
  | .sectionError sec => [infile, sec]
  | .optionError key sec => [infile, sec, key]
  | .keyError sec => [sec]
  | _ => []

end Bdld.Spec
