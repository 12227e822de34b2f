import Mathlib.Data.List.Basic

/-
Command lines of the program.
-/

namespace Bdld.Spec

/-- `--log-level` or an abbreviation of it. -/
def LevelName (n : List Char) : Prop := 3 ≤ n.length ∧ n <+: "--log-level".toList

/-- `--help` or an abbreviation of it. -/
def HelpName (n : List Char) : Prop := 3 ≤ n.length ∧ n <+: "--help".toList

/-- Digits with at most one dot, which is not the last character. -/
def Unsigned (s : List Char) : Prop :=
  ∃ a b : List Char, (∀ c ∈ a, c.isDigit) ∧ (∀ c ∈ b, c.isDigit) ∧ b ≠ [] ∧ (s = b ∨ s = a ++ '.' :: b)

/-- An argument that cannot be an option: it does not begin with a dash, or is only a dash, or a negative number, or
contains a space (and does not look like one of the options). -/
def Plain (s : List Char) : Prop :=
  s.head? ≠ some '-' ∨ s = ['-'] ∨ (∃ r, Unsigned r ∧ (s = '-' :: r ∨ s = '-' :: r ++ ['\n'])) ∨
    (' ' ∈ s ∧ ¬ ['-', 'h'] <+: s ∧
      ¬ (['-', '-'] <+: s ∧ (s.takeWhile (· ≠ '=') <+: "--log-level".toList ∨ s.takeWhile (· ≠ '=') <+: "--help".toList)))

/-- Arguments that set the log level one after the other to the given values. -/
inductive Levels : List (List Char) → List (List Char) → Prop
  | nil : Levels [] []
  | next {n v : List Char} {args vs : List (List Char)} (hn : LevelName n) (hv : Plain v) (h : Levels args vs) :
      Levels (n :: v :: args) (v :: vs)
  | explicit {n v : List Char} {args vs : List (List Char)} (hn : LevelName n) (h : Levels args vs) :
      Levels ((n ++ '=' :: v) :: args) (v :: vs)

/-- A valid command line: the name of the input file, with any options before and after it; a name after `--` can begin
with a dash. The last level counts. -/
inductive CommandLine : List (List Char) → List Char → List Char → Prop
  | file {a b va vb : List (List Char)} {s : List Char} (ha : Levels a va) (hb : Levels b vb) (hs : Plain s) :
      CommandLine (a ++ s :: b) s ((va ++ vb).getLastD "warning".toList)
  | before {a va : List (List Char)} {s : List Char} (ha : Levels a va) :
      CommandLine (a ++ [['-', '-'], s]) s (va.getLastD "warning".toList)
  | after {a va : List (List Char)} {s : List Char} (ha : Levels a va) (hs : Plain s) :
      CommandLine (a ++ [s, ['-', '-']]) s (va.getLastD "warning".toList)

end Bdld.Spec
