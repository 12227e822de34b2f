import Verif.Model.InputParser

/-
The documented syntax of input files (`docs/input.rst`) as a description of texts, independent of the reader.
-/

namespace Bdld.Spec

/-- Spaces and tabs. -/
def White (l : List Char) : Prop := ∀ c ∈ l, c = ' ' ∨ c = '\t'

/-- Visible ASCII character. -/
def Visible (c : Char) : Prop := 33 ≤ c.toNat ∧ c.toNat ≤ 126

/-- The text starts and ends with visible characters. -/
def Trimmed (l : List Char) : Prop := (∀ c, l.head? = some c → Visible c) ∧ ∀ c, l.getLast? = some c → Visible c

/-- Empty line. -/
def CfgBlank (l : List Char) : Prop := White l

/-- Comment: the first visible character is `#` or `;`. -/
def CfgComment (l : List Char) : Prop := ∃ s c rest, l = s ++ c :: rest ∧ White s ∧ (c = '#' ∨ c = ';')

/-- `[name]`. -/
def CfgHeader (name : String) (l : List Char) : Prop :=
  ∃ s, l = '[' :: name.toList ++ ']' :: s ∧ White s ∧ name ≠ "" ∧ ']' ∉ name.toList

/-- Name of an option as written in the file. -/
structure OptionName (k : List Char) : Prop where
  nonempty : k ≠ []
  trimmed : Trimmed k
  delim : '=' ∉ k ∧ ':' ∉ k
  start : ∀ c, k.head? = some c → c ≠ '#' ∧ c ≠ ';' ∧ c ≠ '['

/-- `option: value` or `option = value`; capital letters in the name of the option have no meaning. -/
def OptionLine (key value : String) (l : List Char) : Prop :=
  ∃ k s1 d s2 s3, l = k ++ s1 ++ d :: (s2 ++ value.toList ++ s3) ∧ OptionName k ∧ key = String.ofList (k.map Char.toLower) ∧
    White s1 ∧ White s2 ∧ White s3 ∧ (d = ':' ∨ d = '=') ∧ Trimmed value.toList

/-- Lines with the given options in this order, and any number of comments and empty lines. -/
inductive OptionLines : List (String × String) → List (List Char) → Prop
  | nil : OptionLines [] []
  | blank {l os ls} : CfgBlank l → OptionLines os ls → OptionLines os (l :: ls)
  | comment {l os ls} : CfgComment l → OptionLines os ls → OptionLines os (l :: ls)
  | option {k v l os ls} : OptionLine k v l → OptionLines os ls → OptionLines ((k, v) :: os) (l :: ls)

/-- Section of an input file with its options. -/
structure Block where
  name : String
  options : List (String × String)

/-- Lines with the given sections in this order, and any number of comments and empty lines. -/
inductive Layout : List Block → List (List Char) → Prop
  | nil : Layout [] []
  | blank {l bs ls} : CfgBlank l → Layout bs ls → Layout bs (l :: ls)
  | comment {l bs ls} : CfgComment l → Layout bs ls → Layout bs (l :: ls)
  | block {b h ls bs rest} : CfgHeader b.name h → OptionLines b.options ls → Layout bs rest → Layout (b :: bs) (h :: ls ++ rest)

/-- No section except for `DEFAULT` occurs twice, and no option occurs twice in a section. -/
structure Distinct (bs : List Block) : Prop where
  sections : ((bs.filter (fun b => b.name ≠ "DEFAULT")).map (·.name)).Nodup
  options : ∀ b ∈ bs, b.name ≠ "DEFAULT" → (b.options.map (·.1)).Nodup
  defaults : (((bs.filter (fun b => b.name = "DEFAULT")).flatMap (·.options)).map (·.1)).Nodup

/-- The section is in the file. -/
def HasSection (bs : List Block) (name : String) : Prop := name ≠ "DEFAULT" ∧ ∃ b ∈ bs, b.name = name

/-- Option of the section itself. -/
def Own (bs : List Block) (name key value : String) : Prop := ∃ b ∈ bs, b.name = name ∧ (key, value) ∈ b.options

/-- The option has this value for the section: its own value, or else the one of the section `DEFAULT`. -/
def Written (bs : List Block) (name key value : String) : Prop :=
  Own bs name key value ∨ (∀ v, ¬ Own bs name key v) ∧ Own bs "DEFAULT" key value

end Bdld.Spec
