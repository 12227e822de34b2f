import Verif.Model.Interpolation
import Verif.Model.Main
import Verif.Model.Header

/-
Reading the text of the input file: `infile = configparser.ConfigParser(); infile.read(self.filename)`,
`bdld/inputparser.py:156-157`. Modelled after `RawConfigParser._read` of the Python standard library with the default
settings (delimiters `=` and `:`, comment prefixes `#` and `;` for whole lines only, no inline comments, empty lines in
values, strict, section `DEFAULT`). The library is not part of the repository. The file is given as its lines without
the line ends; `str.lower` only for ASCII; names of sections are matched with `\[(?P<header>.+)\]` (older versions of
Python end the name at the first `]`). Without laws. `pySpace` is defined in `Model/Header.lean`.
-/

namespace Bdld

/-- `str.lstrip`. -/
def lstrip (l : List Char) : List Char := l.dropWhile pySpace

/-- `str.rstrip`. -/
def rstrip (l : List Char) : List Char := (l.reverse.dropWhile pySpace).reverse

/-- `str.strip`. -/
def strip (l : List Char) : List Char := rstrip (lstrip l)

/-- `str.lower` for ASCII. -/
def lower (l : List Char) : String := String.ofList (l.map Char.toLower)

/-- Local variables of `_read`: the sections with the lines of their values (the first one is `DEFAULT`, which is a
dictionary of its own in the library), `cursect`, `optname`, `indent_level`, and if a `ParsingError` is stored in `e`. -/
structure ReadState where
  sections : Dict (Dict (List (List Char)))
  cur : Option String
  opt : Option String
  indent : Nat
  failed : Bool

/-- State at the beginning. -/
def ReadState.init : ReadState := ⟨[("DEFAULT", [])], none, none, 0, false⟩

/-- Content of a section. -/
def ReadState.content (st : ReadState) (sec : String) : Dict (List (List Char)) := (st.sections.get? sec).getD []

/-- `cursect is not None and optname`: there is a value that can be continued. -/
def ReadState.open? (st : ReadState) : Option (String × String) :=
  match st.cur, st.opt with
  | some sec, some key => if key = "" then none else some (sec, key)
  | _, _ => none

/-- `cursect[optname].append(value)`. -/
def ReadState.append (st : ReadState) (sec key : String) (value : List Char) : ReadState :=
  let d := st.content sec
  { st with sections := st.sections.set sec (d.set key ((d.get? key).getD [] ++ [value])) }

/-- `SECTCRE.match(value)`: the name reaches to the last closing bracket and is not empty. -/
def sectionName : List Char → Option (List Char)
  | '[' :: rest =>
    match (rest.reverse.dropWhile (· ≠ ']')).tail.reverse with
    | [] => none
    | name => some name
  | _ => none

/-- `_optcre.match(value)`: the name of the option ends at the first delimiter. -/
def splitOption (value : List Char) : Option (List Char × List Char) :=
  match value.span (fun c => c ≠ '=' && c ≠ ':') with
  | (_, []) => none
  | (name, _ :: rest) => some (rstrip name, rest)

/-- A line that is neither empty, nor a comment, nor the continuation of a value. -/
def ReadState.newLine (st : ReadState) (value : List Char) : Except PyErr ReadState :=
  match sectionName value with
  | some n =>
    let name := String.ofList n
    if name = "DEFAULT" then .ok { st with cur := some name, opt := none }
    else if (st.sections.get? name).isSome then .error .configError
    else .ok { st with sections := st.sections ++ [(name, [])], cur := some name, opt := none }
  | none =>
    match st.cur with
    | none => .error .configError
    | some sec =>
      match splitOption value with
      | none => .ok { st with failed := true }
      | some (name, optval) =>
        let key := lower name
        if ((st.content sec).get? key).isSome then .error .configError
        else .ok { st with sections := st.sections.set sec ((st.content sec).set key [strip optval]), opt := some key,
                           failed := st.failed || decide (name = []) }

/-- Body of the loop over the lines. -/
def ReadState.line (st : ReadState) (line : List Char) : Except PyErr ReadState :=
  match strip line with
  | [] =>
    match st.open? with
    | some (sec, key) => .ok (st.append sec key [])
    | none => .ok st
  | c :: value =>
    if c = '#' ∨ c = ';' then .ok st
    else
      let level := (line.takeWhile pySpace).length
      match st.open? with
      | some (sec, key) =>
        if level > st.indent then .ok (st.append sec key (c :: value)) else { st with indent := level }.newLine (c :: value)
      | none => { st with indent := level }.newLine (c :: value)

/-- All lines. -/
def readLines : ReadState → List (List Char) → Except PyErr ReadState
  | st, [] => .ok st
  | st, l :: ls =>
    match st.line l with
    | .error e => .error e
    | .ok st' => readLines st' ls

/-- `_join_multiline_values`. -/
def joinLines (lines : List (List Char)) : String := String.ofList (rstrip (['\n'].intercalate lines))

/-- The values of a section: its own ones, and the default values of the other options. -/
def withDefaults (own defaults : Dict String) : Dict String := own ++ defaults.filter (fun p => (own.get? p.1).isNone)

/-- `infile.read(self.filename)`, `inputparser.py:156-157`, and the sections with the results of `section.get(key)`. -/
def readConfig (lines : List (List Char)) : Except PyErr (List Section) :=
  match readLines .init lines with
  | .error e => .error e
  | .ok st =>
    if st.failed then .error .configError
    else
      let values (d : Dict (List (List Char))) : Dict String := d.map fun p => (p.1, joinLines p.2)
      let defaults := values (st.content "DEFAULT")
      .ok ((st.sections.filter (fun p => p.1 ≠ "DEFAULT")).map fun p => Section.ofRaw p.1 (withDefaults (values p.2) defaults))

/-- `main`, `main.py:30-123`, for the text of the input file (`none` if it cannot be opened). -/
noncomputable def mainText {R : Type} (w : World R) (file : Option (List (List Char))) : Outcome (AnySim R) :=
  match file with
  | none => mainProgram w none
  | some lines =>
    match readConfig lines with
    | .error e => raise caughtInput e
    | .ok cfg => mainProgram w (some cfg)

end Bdld
