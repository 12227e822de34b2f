import Verif.Model.Log
import Verif.Model.ConfigText

/-
The command line: `bdld/main.py:44-55`, and what `argparse` of Python 3.11 does for this parser (one positional
argument `input`, the options `--log-level` and, added by argparse, `-h` and `--help`).

Arguments are lists of characters. Digits in the test for negative numbers are those of ASCII.
-/

namespace Bdld

/-- The two options. -/
inductive CliOption where
  | help
  | logLevel
deriving DecidableEq, Repr

/-- `self._option_string_actions`. -/
def cliOptions : List (List Char × CliOption) :=
  [(['-', 'h'], .help), (['-', '-', 'h', 'e', 'l', 'p'], .help),
    (['-', '-', 'l', 'o', 'g', '-', 'l', 'e', 'v', 'e', 'l'], .logLevel)]

/-- What `_parse_optional` returns for an option: the action, whether it was written with a single dash, the
separator (`None`, `''` or `'='`; `true` stands for `'='`), and the explicit argument. -/
structure OptTuple where
  action : Option CliOption
  short : Bool
  sep : Bool
  explicit : Option (List Char)
deriving DecidableEq, Repr

/-- `s.partition('=')`: the part before the first `=`, and the part after it if there is one. -/
def partitionEq (s : List Char) : List Char × Option (List Char) :=
  (s.takeWhile (· ≠ '='), if '=' ∈ s then some ((s.dropWhile (· ≠ '=')).drop 1) else none)

/-- `'^-\d+$|^-\d*\.\d+$'`; `$` also matches before a newline at the end. -/
def negativeNumber (s : List Char) : Bool :=
  let s := if s.getLast? = some '\n' then s.dropLast else s
  match s with
  | '-' :: r =>
    let a := r.takeWhile Char.isDigit
    match r.dropWhile Char.isDigit with
    | [] => !a.isEmpty
    | '.' :: b => !b.isEmpty && b.all Char.isDigit
    | _ => false
  | _ => false

/-- `_get_option_tuples` for an argument of at least two characters that begins with a dash. -/
def getOptionTuples (s : List Char) : List OptTuple :=
  match s with
  | '-' :: '-' :: _ =>
    let p := partitionEq s
    (cliOptions.filter (fun o => p.1.isPrefixOf o.1)).map (fun o => ⟨some o.2, false, p.2.isSome, p.2⟩)
  | '-' :: c :: r =>
    cliOptions.filterMap (fun o =>
      if o.1 = ['-', c] then some ⟨some o.2, true, false, some r⟩
      else if s.isPrefixOf o.1 then some ⟨some o.2, false, false, none⟩
      else none)
  | _ => []

/-- `_parse_optional`; `none` is the error of an ambiguous option, `some none` an argument that is no option. -/
def cliOptional (s : List Char) : Option (Option OptTuple) :=
  if s.head? ≠ some '-' then some none
  else
    match cliOptions.lookup s with
    | some a => some (some ⟨some a, decide (s = ['-', 'h']), false, none⟩)
    | none =>
      if s.length = 1 then some none
      else
        match (partitionEq s).2, cliOptions.lookup (partitionEq s).1 with
        | some v, some a => some (some ⟨some a, decide ((partitionEq s).1 = ['-', 'h']), true, some v⟩)
        | _, _ =>
          match getOptionTuples s with
          | _ :: _ :: _ => none
          | [t] => some (some t)
          | [] =>
            if negativeNumber s then some none
            else if ' ' ∈ s then some none
            else some (some ⟨none, false, false, none⟩)

/-- What happens at an option: help is printed, `ArgumentError`, an unknown argument is collected, or the log level is
set to an explicit value or to the next argument. -/
inductive OptEvent where
  | help
  | error
  | extra
  | level (v : Option (List Char))
deriving DecidableEq, Repr

/-- Several single-dash options in one argument, the loop of `consume_optional`, for `-h` with an explicit argument. An
unknown letter is collected as an extra argument, but then help is printed for the letters before. -/
def helpCluster (sep : Bool) : List Char → OptEvent
  | [] => .error
  | c :: r =>
    if sep ∨ c = '-' then .error
    else if c = 'h' then
      match r with
      | [] => .help
      | '=' :: [] => .error
      | '=' :: r' => helpCluster true r'
      | r => helpCluster false r
    else .help

/-- First part of `consume_optional`. -/
def OptTuple.event (t : OptTuple) : OptEvent :=
  match t.action, t.explicit with
  | none, _ => .extra
  | some .help, none => .help
  | some .help, some v => if t.short then helpCluster t.sep v else .error
  | some .logLevel, v => .level v

/-- Characters of the pattern of argparse: `A`, `-` and `O`. -/
inductive CliTok where
  | arg (s : List Char)
  | sep
  | opt (e : OptEvent)
deriving DecidableEq, Repr

/-- The pattern of the arguments; `none` is the error of an ambiguous option. -/
def cliTokens : List (List Char) → Option (List CliTok)
  | [] => some []
  | s :: r =>
    if s = ['-', '-'] then some (.sep :: r.map .arg)
    else
      match cliOptional s with
      | none => none
      | some none => (cliTokens r).map (.arg s :: ·)
      | some (some t) => (cliTokens r).map (.opt t.event :: ·)

/-- Result of `cliargs.parse_args()`: the two values, exit with code 0 after the help text, or exit with code 2 after
a message. -/
inductive CliResult where
  | run (input level : List Char)
  | help
  | usage
deriving DecidableEq, Repr

/-- The loop of `_parse_known_args` and the checks after it: `input` is the file if it was already found, `extras` whether
arguments are left. The pattern of the positional argument takes a separator before or after it. -/
def parseTokens : List CliTok → Option (List Char) → List Char → Bool → CliResult
  | [], none, _, _ => .usage
  | [], some i, level, extras => if extras then .usage else .run i level
  | .arg s :: .sep :: r, none, level, extras => parseTokens r (some s) level extras
  | .arg s :: r, none, level, extras => parseTokens r (some s) level extras
  | .arg _ :: r, some i, level, _ => parseTokens r (some i) level true
  | .sep :: .arg s :: r, none, level, extras => parseTokens r (some s) level extras
  | .sep :: r, i, level, _ => parseTokens r i level true
  | .opt .help :: _, _, _, _ => .help
  | .opt .error :: _, _, _, _ => .usage
  | .opt .extra :: r, i, level, _ => parseTokens r i level true
  | .opt (.level (some v)) :: r, i, _, extras => parseTokens r i v extras
  | .opt (.level none) :: .arg v :: r, i, _, extras => parseTokens r i v extras
  | .opt (.level none) :: _, _, _, _ => .usage

/-- `cliargs.parse_args()`, `main.py:44-53`. -/
def parseCommandLine (args : List (List Char)) : CliResult :=
  match cliTokens args with
  | none => .usage
  | some toks => parseTokens toks none "warning".toList false

/-- End of the whole program. -/
inductive ProgramEnd (α : Type) where
  /-- usage message on the error stream and `sys.exit(2)` -/
  | usage
  /-- help text and `sys.exit(0)` -/
  | help
  /-- the command line was understood; `level` is handed to `init_logger` -/
  | main (level : List Char) (o : Outcome α)

/-- Exit code of the process; the interpreter ends with code 1 after an exception. -/
def ProgramEnd.code {α : Type} : ProgramEnd α → Nat
  | .usage => 2
  | .help => 0
  | .main _ .exit1 => 1
  | .main _ (.uncaught _) => 1
  | .main _ (.finished _) => 0

/-- `main()`, `main.py:31-137`; `files` gives the lines of the input file, if it exists. -/
noncomputable def mainCommand {R : Type} (w : World R) (files : List Char → Option (List (List Char)))
    (args : List (List Char)) : ProgramEnd (AnySim R) :=
  match parseCommandLine args with
  | .usage => .usage
  | .help => .help
  | .run input level => .main level (mainText w (files input))

end Bdld
