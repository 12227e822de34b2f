import Verif.Model.Py

/-
Model of `bdld/inputparser.py`. A section of the input file is a finite map from keys to strings. Reading
the file and splitting it into sections is done by Python's `configparser`, see `Model/ConfigText.lean` and
`Model/Interpolation.lean`. Law-free: numbers are any type with decidable
comparison with zero, `float()` and `int()` are arbitrary partial functions of strings.
-/

namespace Bdld

/-! ### Values -/

/-- A value of one of the builtin types, `inputparser.py:24`. -/
inductive BaseVal (F : Type) where
  | str (s : String)
  | float (x : F)
  | int (i : Int)
  | bool (b : Bool)
deriving DecidableEq, Repr

/-- Values of options, `inputparser.py:25`. -/
inductive OptVal (F : Type) where
  | none
  | base (v : BaseVal F)
  | list (l : List (BaseVal F))
deriving DecidableEq, Repr

/-- Builtin types. -/
inductive BaseType where
  | str
  | float
  | int
  | bool
deriving DecidableEq, Repr

/-- Expected type of an option: a builtin type or a list with a builtin type as only element. -/
inductive KeyType where
  | base (t : BaseType)
  | list (t : BaseType)
deriving DecidableEq, Repr

/-- Python dictionary: keys in order of insertion. -/
abbrev Dict (V : Type) := List (String × V)

/-- `d.get(key)`. -/
def Dict.get? {V : Type} (d : Dict V) (key : String) : Option V := d.lookup key

/-- `d[key] = v`. -/
def Dict.set {V : Type} : Dict V → String → V → Dict V
  | [], key, v => [(key, v)]
  | (k, w) :: d, key, v => if k = key then (k, v) :: d else (k, w) :: Dict.set d key v

/-- `d[key]`. -/
def Dict.getItem {V : Type} (d : Dict V) (key : String) : Except PyErr V :=
  match d.get? key with
  | some v => .ok v
  | none => .error (.keyError key)

/-- `configparser.SectionProxy`: name and, for every key, the result of `section.get(key)`, which is an error
if the interpolation of the value fails. Keys of the `[DEFAULT]` section are included. -/
structure Section where
  name : String
  entries : Dict (Except PyErr String)

/-- `float(s)` and `int(s)`; `none` stands for `ValueError`. -/
structure Conv (F : Type) where
  toFloat : String → Option F
  toInt : String → Option Int

/-- `configparser`'s conversion to bool: `RawConfigParser.BOOLEAN_STATES` with ignored case. -/
def toBool (s : String) : Option Bool :=
  let l := String.ofList (s.toList.map Char.toLower)
  if l ∈ ["1", "yes", "true", "on"] then some true
  else if l ∈ ["0", "no", "false", "off"] then some false
  else none

/-- `s.split(",")` on characters. -/
def splitComma : List Char → List (List Char)
  | [] => [[]]
  | c :: l =>
    match splitComma l with
    | [] => [[c]]
    | w :: ws => if c = ',' then [] :: w :: ws else (c :: w) :: ws

/-- `s.split(",")`. -/
def pySplit (s : String) : List String := (splitComma s.toList).map String.ofList

/-- `raise ValueError` for failed conversions. -/
def orValueError {α : Type} : Option α → Except PyErr α
  | some a => .ok a
  | none => .error .valueError

/-- `self.keytype[0](x)`: calling a builtin type with a string. `bool(x)` is true for non-empty strings. -/
def callType {F : Type} (c : Conv F) (t : BaseType) (x : String) : Except PyErr (BaseVal F) :=
  match t with
  | .str => .ok (.str x)
  | .float => do return .float (← orValueError (c.toFloat x))
  | .int => do return .int (← orValueError (c.toInt x))
  | .bool => .ok (.bool (decide (x ≠ "")))

/-! ### Conditions -/

/-- `Condition`, `inputparser.py:42-47`: the function may raise. -/
abbrev Condition (F : Type) := OptVal F → Except PyErr Bool

/-- Comparison of a builtin value with a number: strings raise `TypeError`, `True` and `False` count as 1 and
0. -/
def cmpNum {F : Type} (f : F → Bool) (g : Int → Bool) : BaseVal F → Except PyErr Bool
  | .str _ => .error .typeError
  | .float x => .ok (f x)
  | .int i => .ok (g i)
  | .bool b => .ok (g (if b then 1 else 0))

/-- Python's `all(f(x) for x in l)`: stops at the first false value. -/
def allM {α : Type} (f : α → Except PyErr Bool) : List α → Except PyErr Bool
  | [] => .ok true
  | a :: l =>
    match f a with
    | .error e => .error e
    | .ok false => .ok false
    | .ok true => allM f l

section
variable {F : Type} [Zero F] [LT F] [LE F] [DecidableLT F] [DecidableLE F]

/-- `x > 0` for a builtin value. -/
def gtZero : BaseVal F → Except PyErr Bool := cmpNum (fun x => decide (x > 0)) (fun i => decide (i > 0))

/-- `Input.positive`, `inputparser.py:119`. -/
def positive : Condition F
  | .base v => gtZero v
  | _ => .error .typeError

/-- `Input.all_positive`, `inputparser.py:120-122`. Iterating over the empty string gives `True`, over other
builtin values an error. -/
def allPositive : Condition F
  | .list l => allM gtZero l
  | .base (.str s) => if s = "" then .ok true else .error .typeError
  | _ => .error .typeError

/-- `Input.positive_or_zero`, `inputparser.py:123`. -/
def positiveOrZero : Condition F
  | .base v => cmpNum (fun x => decide (x ≥ 0)) (fun i => decide (i ≥ 0)) v
  | _ => .error .typeError

end

/-- Bitwise `&` of Python integers. -/
def pyAnd (a b : Int) : Int :=
  match a, b with
  | .ofNat m, .ofNat n => .ofNat (m &&& n)
  | .ofNat m, .negSucc n => .ofNat (m - (m &&& n))
  | .negSucc m, .ofNat n => .ofNat (n - (n &&& m))
  | .negSucc m, .negSucc n => .negSucc (m ||| n)

/-- `x > 0 & x < 4` of `inputparser.py:124`: `&` binds stronger than the comparisons, so this is the chained
comparison `x > (0 & x) < 4`. -/
def atMost3dimInt (x : Int) : Bool := decide (x > pyAnd 0 x) && decide (pyAnd 0 x < 4)

/-- `Input.at_most_3dim`, `inputparser.py:124`; only used for integers. -/
def atMost3dim {F : Type} : Condition F
  | .base (.int x) => .ok (atMost3dimInt x)
  | .base (.bool b) => .ok (atMost3dimInt (if b then 1 else 0))
  | _ => .error .typeError

/-- `lambda x: x in variants`, `inputparser.py:257-260`. -/
def oneOf {F : Type} (variants : List String) : Condition F
  | .base (.str s) => .ok (decide (s ∈ variants))
  | _ => .ok false

/-! ### Options -/

/-- `InputOption`, `inputparser.py:50-72`. -/
structure InputOption (F : Type) where
  key : String
  keytype : KeyType
  compulsory : Bool := false
  condition : Option (Condition F) := none
  default : OptVal F := .none

/-- Conversion of the string, `inputparser.py:85-103`. Only `ValueError` of the scalar conversions is turned
into `OptionError`; lists are converted outside of the `try` block. -/
def InputOption.convert {F : Type} (c : Conv F) (o : InputOption F) (sec : String)
    (raw : Except PyErr String) : Except PyErr (OptVal F) :=
  match o.keytype with
  | .base .str => do return .base (.str (← raw))
  | .base .float => do
    let s ← raw
    match c.toFloat s with
    | some x => return .base (.float x)
    | none => throw (.optionError o.key sec)
  | .base .int => do
    let s ← raw
    match c.toInt s with
    | some x => return .base (.int x)
    | none => throw (.optionError o.key sec)
  | .base .bool => do
    let s ← raw
    match toBool s with
    | some x => return .base (.bool x)
    | none => throw (.optionError o.key sec)
  | .list t => do
    let s ← raw
    let l ← (pySplit s).mapM (callType c t)
    return .list l

/-- `InputOption.parse`, `inputparser.py:74-107`. -/
def InputOption.parse {F : Type} (c : Conv F) (o : InputOption F) (s : Section) : Except PyErr (OptVal F) :=
  match s.entries.get? o.key with
  | none => if o.compulsory then .error (.optionError o.key s.name) else .ok o.default
  | some raw =>
    match o.convert c s.name raw with
    | .error e => .error e
    | .ok v =>
      match o.condition with
      | none => .ok v
      | some f =>
        match f v with
        | .error e => .error e
        | .ok true => .ok v
        | .ok false => .error (.optionError o.key s.name)

/-- Loop of `Input.parse_section`, `inputparser.py:384-387`. -/
def parseLoop {F : Type} (c : Conv F) (s : Section) :
    List (InputOption F) → Dict (OptVal F) → Except PyErr (Dict (OptVal F))
  | [], d => .ok d
  | o :: os, d =>
    match o.parse c s with
    | .error e => .error e
    | .ok v => parseLoop c s os (d.set o.key v)

/-- `Input.parse_section`, `inputparser.py:374-387`. -/
def parseSection {F : Type} (c : Conv F) (s : Section) (options : List (InputOption F)) :
    Except PyErr (Dict (OptVal F)) := parseLoop c s options []

/-! ### Numbered options -/

/-- `f"{prefix}{counter}{suffix}"`. -/
def numKey (pre suf : String) (n : Nat) : String := pre ++ Nat.repr n ++ suf

/-- Loop of `get_all_numbered_values`, `inputparser.py:402-410`; `get` is `section[key]` with `none` for
`KeyError`. The first argument bounds the number of iterations (it is never reached, `numbered_values`). -/
def numberedLoop {V : Type} (get : String → Option (Except PyErr V)) (pre suf : String) :
    Nat → Nat → List V → Except PyErr (List V)
  | 0, _, res => .ok res
  | fuel + 1, counter, res =>
    match get (numKey pre suf counter) with
    | none => .ok res
    | some (.error e) => .error e
    | some (.ok v) => numberedLoop get pre suf fuel (counter + 1) (res ++ [v])

/-- `get_all_numbered_values`, `inputparser.py:391-410`, for a section. -/
def numberedSection (s : Section) (pre suf : String) : Except PyErr (List String) :=
  numberedLoop (fun k => s.entries.get? k) pre suf (s.entries.length + 1) 1 []

/-- `get_all_numbered_values`, `inputparser.py:391-410`, for a dictionary of parsed options. -/
def numberedDict {V : Type} (d : Dict V) (pre suf : String) : Except PyErr (List V) :=
  numberedLoop (fun k => (d.get? k).map .ok) pre suf (d.length + 1) 1 []

/-- `numbered_state_options`, `inputparser.py:413-442`. -/
def numberedStateOptions {F : Type} (s : Section) : Except PyErr (List (InputOption F)) := do
  let mins ← numberedSection s "state" "-min"
  let maxs ← numberedSection s "state" "-max"
  if mins.length ≠ maxs.length then throw (.optionError "statex-min" s.name)
  let options : List (InputOption F) := (List.range mins.length).flatMap (fun i =>
    [{ key := numKey "state" "-min" (i + 1), keytype := .list .float, compulsory := true },
     { key := numKey "state" "-max" (i + 1), keytype := .list .float, compulsory := true }])
  if options = [] then throw (.optionError "statex-min / statex-max" s.name)
  return options

/-! ### Ranges of states -/

/-- Element of the lists passed to `min_max_to_ranges`: a list of numbers or a number. -/
inductive Item (F : Type) where
  | num (x : F)
  | lst (l : List F)
deriving DecidableEq, Repr

/-- `len(x)`: `TypeError` for numbers. -/
def Item.len {F : Type} : Item F → Except PyErr Nat
  | .num _ => .error .typeError
  | .lst l => .ok l.length

/-- Loop of `min_max_to_ranges`, `inputparser.py:470-472`. The chained comparison
`len(min_list[i]) != len(max_list[i]) != n_dim` evaluates the operands from left to right; the third one is
a number already. -/
def checkDims {F : Type} (nDim : Nat) : List (Item F) → List (Item F) → Except PyErr Unit
  | m :: mins, x :: maxs => do
    let a ← m.len
    let b ← x.len
    if a ≠ b ∧ b ≠ nDim then throw .valueError
    checkDims nDim mins maxs
  | _, _ => .ok ()

/-- The `try` block of `min_max_to_ranges`, `inputparser.py:468-472`. -/
def checkAllDims {F : Type} (mins maxs : List (Item F)) : Except PyErr Unit :=
  match mins with
  | [] => .error .indexError
  | m :: _ => do
    let n ← m.len
    checkDims n mins maxs

/-- `zip` of the coordinates of an element that has been checked or wrapped to be a list. -/
def Item.toList {F : Type} : Item F → List F
  | .num x => [x]
  | .lst l => l

/-- `min_max_to_ranges`, `inputparser.py:445-480`. In the `except TypeError` branch `float(x)` raises
`TypeError` for lists. -/
def minMaxToRanges {F : Type} (mins maxs : List (Item F)) : Except PyErr (List (List (F × F))) :=
  if mins.length ≠ maxs.length then .error .valueError
  else match checkAllDims mins maxs with
    | .ok () => .ok (List.zipWith (fun m x => m.toList.zip x.toList) mins maxs)
    | .error .typeError =>
      if (mins ++ maxs).all (fun i => match i with | .num _ => true | .lst _ => false) then
        .ok (List.zipWith (fun m x => m.toList.zip x.toList) mins maxs)
      else .error .typeError
    | .error e => .error e

/-! ### Sections -/

section
variable {F : Type} [Zero F] [LT F] [LE F] [DecidableLT F] [DecidableLE F]

/-- Scalar option. -/
def opt (key : String) (t : BaseType) (compulsory : Bool) (condition : Option (Condition F) := none)
    (default : OptVal F := .none) : InputOption F :=
  { key := key, keytype := .base t, compulsory := compulsory, condition := condition, default := default }

/-- List option. -/
def optList (key : String) (t : BaseType) (compulsory : Bool) (condition : Option (Condition F) := none) :
    InputOption F :=
  { key := key, keytype := .list t, compulsory := compulsory, condition := condition }

/-- Options of `[ld]` for the given type, `inputparser.py:184-202`. -/
def ldOptions (ldType : OptVal F) (sec : String) : Except PyErr (List (InputOption F)) :=
  let options := [opt "type" .str false, opt "timestep" .float true (some positiveOrZero),
    opt "n_steps" .int true (some positive), opt "seed" .int false]
  match ldType with
  | .base (.str "bussi-parinello") =>
    .ok (options ++ [opt "kt" .float true (some positive), opt "friction" .float true (some positiveOrZero)])
  | .base (.str "overdamped") => .ok options
  | _ => .error (.optionError "type" sec)

/-- `Input.parse_ld`, `inputparser.py:180-203`. -/
def parseLd (c : Conv F) (s : Section) : Except PyErr (Dict (OptVal F)) := do
  let ldType ← (opt "type" .str false).parse c s
  let options ← ldOptions ldType s.name
  parseSection c s options

/-- Options of a polynomial potential for the given number of dimensions, `inputparser.py:212-227`. -/
def polyOptions (nDim : OptVal F) : List (InputOption F) :=
  match nDim with
  | .base (.int 1) =>
    [opt "type" .str true, opt "n_dim" .int true (some atMost3dim), optList "coeffs" .float false,
     opt "min" .float true, opt "max" .float true]
  | _ =>
    [opt "type" .str true, opt "n_dim" .int true (some atMost3dim), opt "coeffs-file" .str true,
     optList "min" .float true, optList "max" .float true]

/-- Options of `[potential]`, `inputparser.py:207-240`. -/
def potentialOptions (c : Conv F) (s : Section) : Except PyErr (List (InputOption F)) := do
  let potType ← (opt "type" .str true).parse c s
  let options ← (match potType with
    | .base (.str "polynomial") => do
      let nDim ← (opt "n_dim" .int true (some atMost3dim)).parse c s
      return polyOptions nDim
    | .base (.str "mueller-brown") =>
      return [opt "type" .str true, opt "scaling-factor" .float false,
        opt "n_dim" .int false none (.base (.int 2))]
    | _ => throw (.optionError "type" s.name))
  return options ++ [opt "boundary-condition" .str false]

/-- `Input.parse_potential`, `inputparser.py:205-241`. -/
def parsePotential (c : Conv F) (s : Section) : Except PyErr (Dict (OptVal F)) := do
  let options ← potentialOptions c s
  parseSection c s options

/-- `initial_distribution_variants`, `inputparser.py:252-256`. -/
def initialDistributions : List String := ["random-global", "random-pos", "fractions-pos"]

/-- Options of `[particles]`, `inputparser.py:245-273`; `one` is the default mass 1.0. -/
def particlesOptions (one : F) (c : Conv F) (s : Section) : Except PyErr (List (InputOption F)) := do
  let distOption := opt "initial-distribution" .str true (some (oneOf initialDistributions))
  let dist ← distOption.parse c s
  let base := [opt "number" .int true (some positive),
    opt "mass" .float false (some positive) (.base (.float one)), opt "seed" .int false, distOption]
  let pos ← (match dist with
    | .base (.str "random-pos") | .base (.str "fractions-pos") => do
      let values ← numberedSection s "pos" ""
      return (List.range values.length).map (fun i => optList (numKey "pos" "" (i + 1)) .float true)
    | _ => return [])
  let fractions := (match dist with
    | .base (.str "fractions-pos") => [optList "fractions" .float true]
    | _ => [])
  return base ++ pos ++ fractions

/-- `Input.parse_particles`, `inputparser.py:243-275`. -/
def parseParticles (one : F) (c : Conv F) (s : Section) : Except PyErr (Dict (OptVal F)) := do
  let options ← particlesOptions one c s
  parseSection c s options

/-- Options of `[birth-death]`, `inputparser.py:279-297`; `oneDim`: `self.potential["n_dim"] == 1`. -/
def birthDeathOptions (oneDim : Bool) : List (InputOption F) :=
  [opt "stride" .int true (some positive), opt "correction-variant" .str false,
   opt "approximation-variant" .str false, opt "exponential-factor" .float false (some positive),
   opt "recalculate-probabilities" .bool false none (.base (.bool false)),
   opt "stats-stride" .int false (some positive), opt "stats-filename" .str false, opt "seed" .int false]
  ++ (if oneDim then [opt "kernel-bandwidth" .float true (some positive)]
      else [optList "kernel-bandwidth" .float true (some allPositive)])

/-- Options of `[trajectories]`, `inputparser.py:302-308`. -/
def trajectoriesOptions : List (InputOption F) :=
  [opt "filename" .str false, opt "stride" .int false (some positive), opt "momentum" .bool false,
   opt "write-stride" .int false (some positive), opt "fmt" .str false]

/-- Options of `[histogram]`, `inputparser.py:313-331`. -/
def histogramOptions (oneDim : Bool) : List (InputOption F) :=
  [opt "stride" .int false (some positive), optList "reset" .int false (some allPositive),
   opt "filename" .str false, opt "write-stride" .int false (some positive), opt "fmt" .str false]
  ++ (if oneDim then
      [opt "min" .float true, opt "max" .float true, opt "bins" .int true (some positive)]
    else
      [optList "min" .float true, optList "max" .float true, optList "bins" .int true (some allPositive)])

/-- Options of `[fes]`, `inputparser.py:338-348`. -/
def fesOptions : List (InputOption F) :=
  [opt "kt" .float true (some positive), opt "stride" .int false (some positive), opt "filename" .str false,
   opt "write-stride" .int false (some positive), opt "fmt" .str false, opt "plot-stride" .int false,
   opt "plot-filename" .str false, optList "plot-domain" .float false, opt "plot-title" .str false]

/-- Options of `[delta-f]` and `[particle-distribution]`, `inputparser.py:355-360` and 366-371. -/
def stateActionOptions (s : Section) : Except PyErr (List (InputOption F)) := do
  let states ← numberedStateOptions s
  return [opt "stride" .int false (some positive), opt "filename" .str false,
    opt "write-stride" .int false (some positive), opt "fmt" .str false] ++ states

/-- The dictionaries of `Input`, `inputparser.py:130-142`. -/
structure Input (F : Type) where
  ld : Dict (OptVal F)
  potential : Dict (OptVal F)
  particles : Dict (OptVal F)
  birthDeath : Option (Dict (OptVal F)) := none
  trajectories : Option (Dict (OptVal F)) := none
  histogram : Option (Dict (OptVal F)) := none
  fes : Option (Dict (OptVal F)) := none
  deltaF : Option (Dict (OptVal F)) := none
  particleDistribution : Option (Dict (OptVal F)) := none

/-- Section with the given name. -/
def findSection (cfg : List Section) (name : String) : Option Section := cfg.find? (fun s => s.name = name)

/-- Parsing of an optional section, e.g. `inputparser.py:167-168`. -/
def parseOptional (cfg : List Section) (name : String)
    (f : Section → Except PyErr (Dict (OptVal F))) : Except PyErr (Option (Dict (OptVal F))) :=
  match findSection cfg name with
  | none => .ok none
  | some s => do return some (← f s)

/-- The required sections, `inputparser.py:159-161`. -/
def requireSection (cfg : List Section) (name : String) : Except PyErr Section :=
  match findSection cfg name with
  | none => .error (.sectionError name)
  | some s => .ok s

/-- `self.potential["n_dim"] == 1`; the key is always present. -/
def isOneDim (potential : Dict (OptVal F)) : Bool :=
  match potential.get? "n_dim" with
  | some (.base (.int 1)) => true
  | _ => false

/-- `Input.__init__` and `Input.parse_all`, `inputparser.py:130-178`; `none` stands for a file that cannot be
opened. `if not self.histogram` also holds for an empty dictionary, but parsed dictionaries are never empty.
-/
def parseAll (one : F) (c : Conv F) (file : Option (List Section)) :
    Except PyErr (Input F) := do
  let cfg ← (match file with | none => throw .fileNotFoundError | some cfg => pure cfg)
  let sLd ← requireSection cfg "ld"
  let sPot ← requireSection cfg "potential"
  let sPart ← requireSection cfg "particles"
  let ld ← parseLd c sLd
  let potential ← parsePotential c sPot
  let particles ← parseParticles one c sPart
  let oneDim := isOneDim potential
  let birthDeath ← parseOptional cfg "birth-death" (fun s => parseSection c s (birthDeathOptions oneDim))
  let trajectories ← parseOptional cfg "trajectories" (fun s => parseSection c s trajectoriesOptions)
  let histogram ← parseOptional cfg "histogram" (fun s => parseSection c s (histogramOptions oneDim))
  let fes ← parseOptional cfg "fes" (fun s =>
    if histogram.isNone then throw (.noSectionError "histogram") else parseSection c s fesOptions)
  let deltaF ← parseOptional cfg "delta-f" (fun s =>
    if fes.isNone then throw (.noSectionError "fes")
    else do
      let options ← stateActionOptions s
      parseSection c s options)
  let particleDistribution ← parseOptional cfg "particle-distribution" (fun s => do
    let options ← stateActionOptions s
    parseSection c s options)
  return ⟨ld, potential, particles, birthDeath, trajectories, histogram, fes, deltaF, particleDistribution⟩

end

end Bdld
