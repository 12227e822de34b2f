import Verif.Model.Main

/-
Specification for C128: options with their documented default values, and input files with an option added.
-/

namespace Bdld.Spec

/-- The input file with the line `key: value` in the section `name`. -/
def withOption (cfg : List Section) (name key value : String) : List Section :=
  cfg.map fun s => if s.name = name then ⟨s.name, s.entries.set key (.ok value)⟩ else s

/-- The texts that denote the default of an option of the given section, which is part of the section `s`.
`docs/*.rst`; the default of `scaling-factor`, `momentum` and `recalculate-probabilities` is given in the
documentation of the classes. -/
inductive DocumentedDefault (c : Conv ℝ) (s : Section) : (name key value : String) → Prop
  | mass {v : String} (h : c.toFloat v = some 1) : DocumentedDefault c s "particles" "mass" v
  | scaling {v : String} (h : c.toFloat v = some 1) : DocumentedDefault c s "potential" "scaling-factor" v
  | recalculate {v : String} (h : toBool v = some false) :
    DocumentedDefault c s "birth-death" "recalculate-probabilities" v
  | factor {v : String} (h : c.toFloat v = some 1) : DocumentedDefault c s "birth-death" "exponential-factor" v
  | correction {v : String} (h : v = "original" ∨ v = "orig") :
    DocumentedDefault c s "birth-death" "correction-variant" v
  /-- unless the old name of the option is used -/
  | approximation {v : String} (h : v = "original" ∨ v = "orig") (ho : s.entries.get? "correction-variant" = none) :
    DocumentedDefault c s "birth-death" "approximation-variant" v
  | trajStride {v : String} (h : c.toInt v = some 1) : DocumentedDefault c s "trajectories" "stride" v
  | trajWrite {v : String} (h : c.toInt v = some 100) : DocumentedDefault c s "trajectories" "write-stride" v
  | momentum {v : String} (h : toBool v = some false) : DocumentedDefault c s "trajectories" "momentum" v
  | histStride {v : String} (h : c.toInt v = some 1) : DocumentedDefault c s "histogram" "stride" v
  /-- with stride and filename -/
  | seriesWrite {name v t f : String} {k : Int} (hn : name = "delta-f" ∨ name = "particle-distribution") (hk : 0 < k)
    (hs : s.entries.get? "stride" = some (.ok t)) (ht : c.toInt t = some k)
    (hf : s.entries.get? "filename" = some (.ok f)) (hf' : f ≠ "") (h : c.toInt v = some (100 * k)) :
    DocumentedDefault c s name "write-stride" v

end Bdld.Spec
