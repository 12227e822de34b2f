import Verif.Model.Langevin
import Verif.Model.InputParser
import Mathlib.Algebra.Order.Floor.Defs
import Mathlib.Data.List.Infix

/-
Model of `init_particles`, `bdld/main.py:181-219`. Law-free; the conversion `int()` of floats is a parameter
and instantiated with truncation in exact arithmetic (`pyTrunc`).
-/

namespace Bdld

/-- Methods of the generator used for the initial distribution. -/
structure InitRng (R F : Type) where
  /-- `rng.uniform(low, high)` -/
  uniform : F → F → R → F × R
  /-- index of the row returned by `rng.choice(a, axis=0)` for an array with the given positive number of
  rows -/
  choice : Nat → R → Nat × R

/-- numpy's contract. Rounding may give `high` itself. -/
structure InitRng.Lawful {R F : Type} [LE F] (ops : InitRng R F) : Prop where
  uniform_mem : ∀ lo hi r, lo ≤ hi → lo ≤ (ops.uniform lo hi r).1 ∧ (ops.uniform lo hi r).1 ≤ hi
  choice_lt : ∀ n r, 0 < n → (ops.choice n r).1 < n

/-- `int(x)` for a float in exact arithmetic: truncation towards zero. -/
def pyTrunc {F : Type} [Ring F] [LinearOrder F] [FloorRing F] (x : F) : Int := if 0 ≤ x then ⌊x⌋ else ⌈x⌉

/-- `[rng.uniform(start, end) for start, end in ld.pot.ranges]`, `main.py:194`. -/
def uniformPos {R F : Type} (ops : InitRng R F) : List (F × F) → R → List F × R
  | [], r => ([], r)
  | x :: xs, r =>
    let u := ops.uniform x.1 x.2 r
    let us := uniformPos ops xs u.2
    (u.1 :: us.1, us.2)

section
variable {F : Type} {d : Nat} {R S : Type} [Zero F]

/-- Loop of random-global, `main.py:193-195`. -/
def initGlobal (ops : InitRng R F) (c : LdCfg F d) (mass : F) :
    Nat → R → LdState F d S → Except PyErr (LdState F d S)
  | 0, _, s => .ok s
  | n + 1, r, s => do
    let u := uniformPos ops c.pot.ranges r
    let s' ← s.addParticle c u.1 mass (-1) false
    initGlobal ops c mass n u.2 s'

/-- `rng.choice(init_pos_choices, axis=0)`, `main.py:201`: lists of different lengths and an empty list raise
`ValueError`. -/
def chooseRow (ops : InitRng R F) (choices : List (List F)) (r : R) : Except PyErr (List F × R) :=
  if choices = [] ∨ ∃ p ∈ choices, p.length ≠ (choices.headD []).length then .error .valueError
  else
    let i := ops.choice choices.length r
    .ok (choices.getD i.1 [], i.2)

/-- Loop of random-pos, `main.py:200-201`. -/
def initChoice (ops : InitRng R F) (c : LdCfg F d) (mass : F) (choices : List (List F)) :
    Nat → R → LdState F d S → Except PyErr (LdState F d S)
  | 0, _, s => .ok s
  | n + 1, r, s => do
    let p ← chooseRow ops choices r
    let s' ← s.addParticle c p.1 mass (-1) false
    initChoice ops c mass choices n p.2 s'

/-- Numbers of particles per position, `main.py:205-209`. `trunc` is `int()`. For fractions that sum to zero
numpy's quotients are nan or infinite and `int()` raises `ValueError` or `OverflowError` (simplified to
`ValueError`). An empty list has no entry `counts[0]`. -/
def fractionCounts [Add F] [Mul F] [Div F] [IntCast F] [DecidableEq F] (trunc : F → Int)
    (fractions : List F) (number : Int) : Except PyErr (List Int) :=
  let total := fractions.sum
  if fractions = [] then .error .indexError
  else if total = 0 then .error .valueError
  else
    let counts := fractions.map (fun f => trunc (f / total * (number : F)))
    .ok ((counts.headD 0 + (number - counts.sum)) :: counts.tail)

/-- Inner loop of fractions-pos, `main.py:217-218`. -/
def addCopies (c : LdCfg F d) (mass : F) (pos : List F) :
    Nat → LdState F d S → Except PyErr (LdState F d S)
  | 0, s => .ok s
  | n + 1, s => do
    let s' ← s.addParticle c pos mass (-1) false
    addCopies c mass pos n s'

/-- Outer loop of fractions-pos, `main.py:216-218`; `range` of a negative number is empty. -/
def addAllCopies (c : LdCfg F d) (mass : F) :
    List (List F × Int) → LdState F d S → Except PyErr (LdState F d S)
  | [], s => .ok s
  | (pos, n) :: l, s => do
    let s' ← addCopies c mass pos n.toNat s
    addAllCopies c mass l s'

/-- fractions-pos, `main.py:202-218`. -/
def initFractions [Add F] [Mul F] [Div F] [IntCast F] [DecidableEq F] (trunc : F → Int)
    (c : LdCfg F d) (mass : F) (fractions : List F) (choices : List (List F)) (number : Int)
    (s : LdState F d S) : Except PyErr (LdState F d S) := do
  let counts ← fractionCounts trunc fractions number
  if choices.length ≠ counts.length then throw .valueError
  addAllCopies c mass (choices.zip counts) s

end

/-! ### Options -/

section
variable {F : Type}

/-- `sub in s`. -/
def pyContains (sub s : String) : Bool := decide (sub.toList <:+: s.toList)

/-- A float option; the parser makes sure of the type. -/
def OptVal.asFloat : OptVal F → Except PyErr F
  | .base (.float x) => .ok x
  | _ => .error .typeError

/-- An int option. -/
def OptVal.asInt : OptVal F → Except PyErr Int
  | .base (.int i) => .ok i
  | _ => .error .typeError

/-- An optional int option. -/
def OptVal.asOptInt : OptVal F → Except PyErr (Option Int)
  | .none => .ok Option.none
  | .base (.int i) => .ok (some i)
  | _ => .error .typeError

/-- A list of floats. -/
def OptVal.asFloats : OptVal F → Except PyErr (List F)
  | .list l => l.mapM (fun v => match v with
      | .float x => (.ok x : Except PyErr F)
      | _ => .error .typeError)
  | _ => .error .typeError

/-- `[pos for key, pos in options.items() if "pos" in key]`, `main.py:199`. -/
def posChoices (options : Dict (OptVal F)) : Except PyErr (List (List F)) :=
  (options.filter (fun kv => pyContains "pos" kv.1)).mapM (fun kv => kv.2.asFloats)

/-- `init_particles`, `main.py:181-219`. `seeded` is `np.random.default_rng`, which raises
`ValueError` for negative seeds. -/
def initParticles {d : Nat} {R S : Type} [Zero F] [Add F] [Mul F] [Div F] [IntCast F] [DecidableEq F]
    (trunc : F → Int) (ops : InitRng R F) (seeded : Option Int → Except PyErr R) (c : LdCfg F d)
    (options : Dict (OptVal F)) (s : LdState F d S) : Except PyErr (LdState F d S) := do
  let mass ← (← options.getItem "mass").asFloat
  let number ← (← options.getItem "number").asInt
  let dist ← options.getItem "initial-distribution"
  match dist with
  | .base (.str "random-global") =>
    let seed ← (← options.getItem "seed").asOptInt
    let rng ← seeded seed
    initGlobal ops c mass number.toNat rng s
  | .base (.str "random-pos") =>
    let seed ← (← options.getItem "seed").asOptInt
    let rng ← seeded seed
    let choices ← posChoices options
    initChoice ops c mass choices number.toNat rng s
  | .base (.str "fractions-pos") =>
    let fractions ← (← options.getItem "fractions").asFloats
    let values ← numberedDict options "pos" ""
    let choices ← values.mapM OptVal.asFloats
    initFractions trunc c mass fractions choices number s
  | _ => return s

end

end Bdld
