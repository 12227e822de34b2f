import Verif.Model.Main

/-
Log messages of the program: `init_logger` (`bdld/main.py:392-412`) and the calls of `log.error`,
`logging.warning` and `logging.info` (`main.py:62`, 65, 99-103, 106, `actions/fes_action.py:76-79`,
`actions/histogram_action.py:112`).

A record is handed to the handler of the root logger if its level is at least that of the root logger
(`logging` of the Python standard library: the logger "bdld" has no level of its own). The line that is written to
the standard error stream contains the date before the text given here. The end of the messages of `OptionError`
(what is wrong with the value) is a parameter.
-/

namespace Bdld

/-- A call of the logging functions. -/
structure LogRecord where
  level : Nat
  logger : String
  text : String
deriving DecidableEq, Repr

/-- `logging.DEBUG` and so on. -/
def levelDebug : Nat := 10
def levelInfo : Nat := 20
def levelWarning : Nat := 30
def levelError : Nat := 40
def levelCritical : Nat := 50

/-- `levels.get(level_str.lower())`, `main.py:397-405`. -/
def levelOf (s : String) : Option Nat :=
  [("critical", levelCritical), ("error", levelError), ("warn", levelWarning), ("warning", levelWarning),
    ("info", levelInfo), ("debug", levelDebug)].lookup (String.ofList (s.toList.map Char.toLower))

/-- Level of the root logger after `logging.basicConfig(level=log_level)`, `main.py:410`: `None` leaves the
initial level, which is WARNING. -/
def rootLevel (s : String) : Nat := (levelOf s).getD levelWarning

/-- Records that reach the handler. -/
def shown (level : String) (l : List LogRecord) : List LogRecord :=
  l.filter (fun r => decide (rootLevel level ≤ r.level))

/-- Name of a level in the output, `%(levelname)s`. -/
def levelName (n : Nat) : String :=
  if n = levelCritical then "CRITICAL" else if n = levelError then "ERROR" else if n = levelWarning then "WARNING"
  else if n = levelInfo then "INFO" else "DEBUG"

/-- The line without date, `main.py:408`. -/
def LogRecord.line (r : LogRecord) : String := " - " ++ r.logger ++ " - " ++ levelName r.level ++ ": " ++ r.text

/-- `str(e)` of `OptionError`, `inputparser.py:31-32`; `detail` is the message. -/
def optionText (detail : String → String → String) (key sec : String) : String :=
  "Option '" ++ key ++ "' in section [" ++ sec ++ "]: " ++ detail key sec

/-- Messages of the handlers in `main.py:61-66`. -/
def inputMessage (detail : String → String → String) (infile : String) : PyErr → String
  | .fileNotFoundError => "Input file '" ++ infile ++ "' could not be found"
  | .optionError key sec => "Input file '" ++ infile ++ "': " ++ optionText detail key sec
  | .sectionError sec => "Input file '" ++ infile ++ "': " ++ "No section '" ++ sec ++ "' found, but it is required"
  | _ => ""

/-- Messages of the handlers in `main.py:98-107`; there is no space between "input" and "but". -/
def setupMessage (detail : String → String → String) (infile : String) : PyErr → String
  | .keyError key => "Error: An action was specified that requires the '" ++ key ++
      "' section in inputbut it was not found"
  | .optionError key sec => "Input file '" ++ infile ++ "': " ++ optionText detail key sec
  | _ => ""

/-- `log.error`. -/
def errorRecord (text : String) : LogRecord := ⟨levelError, "bdld", text⟩

/-- `logging.warning` of `FesAction.__init__`, `fes_action.py:74-79`. -/
def fesWarning {d : Nat} (c : SimCfg d) : List LogRecord :=
  match c.fes, c.hist with
  | some f, some h =>
    if truthyNat f.stride && f.stride.getD 0 % h.1.updateStride != 0 then
      [⟨levelWarning, "root", "The FES stride is no multiple of the Histogram update stride. " ++
        "Set a matching write-stride for the [trajectories]"⟩]
    else []
  | _, _ => []

/-- `logging.info` of `HistogramAction.run` in the steps up to `n`, `histogram_action.py:111-112`. -/
def resetInfo {d : Nat} (c : SimCfg d) (n : Nat) : List LogRecord :=
  match c.hist with
  | some h => ((List.range n).map (· + 1)).filterMap (fun step =>
      if step ∈ h.1.reset then some ⟨levelInfo, "root", "Reset of histogram at step " ++ Nat.repr step⟩ else none)
  | none => []

/-- All records of a run of `main`, in order. `none` if it ends with an exception that is not caught (records before
it are not described). In the set-up only the last optional actions follow the FES, and they do not raise exceptions
that are caught, so the warning is never followed by an error. -/
noncomputable def mainLog {R : Type} (detail : String → String → String) (infile : String) (w : World R)
    (file : Option (List Section)) : Option (List LogRecord) :=
  match parseAll 1 w.conv file with
  | .error e => if caughtInput e then some [errorRecord (inputMessage detail infile e)] else none
  | .ok config =>
    match setupRequired w config with
    | .error _ => none
    | .ok r =>
      match setupOptional w config r.cfg r.sim with
      | .error e => if caughtSetup e then some [errorRecord (setupMessage detail infile e)] else none
      | .ok x =>
        match (config.ld.getItem "n_steps").bind OptVal.asInt with
        | .error _ => none
        | .ok n =>
          match simulate w x.1 n.toNat x.2 with
          | .error _ => none
          | .ok _ => some (fesWarning x.1 ++ resetInfo x.1 n.toNat)

end Bdld
