import Verif.Model.Main
import Verif.Spec.Polynomial

/-
Specification of what the options of an input file mean for the simulation. Independent of the set-up functions.
-/

namespace Bdld.Spec

noncomputable section

/-! ### Values of options -/

/-- The option has the given float as value. -/
def FloatOpt (o : Dict (OptVal ℝ)) (key : String) (x : ℝ) : Prop := o.get? key = some (.base (.float x))

/-- The option has the given integer as value. -/
def IntOpt (o : Dict (OptVal ℝ)) (key : String) (i : Int) : Prop := o.get? key = some (.base (.int i))

/-- The option has the given string as value. -/
def StrOpt (o : Dict (OptVal ℝ)) (key : String) (s : String) : Prop := o.get? key = some (.base (.str s))

/-- The option has the given list of floats as value. -/
def FloatsOpt (o : Dict (OptVal ℝ)) (key : String) (l : List ℝ) : Prop :=
  o.get? key = some (.list (l.map .float))

/-- The option has the given list of integers as value. -/
def IntsOpt (o : Dict (OptVal ℝ)) (key : String) (l : List Int) : Prop :=
  o.get? key = some (.list (l.map .int))

/-- Value of an optional positive integer option. -/
def natOption (o : Dict (OptVal ℝ)) (key : String) (default : Nat) : Nat :=
  match o.get? key with
  | some (.base (.int i)) => i.toNat
  | _ => default

/-- Value of an optional switch; off if it is not given. -/
def flagOption (o : Dict (OptVal ℝ)) (key : String) : Bool :=
  match o.get? key with
  | some (.base (.bool b)) => b
  | _ => false

/-- A (non-empty) file name is given. -/
def hasFilename (o : Dict (OptVal ℝ)) : Bool :=
  match o.get? "filename" with
  | some (.base (.str s)) => decide (s ≠ "")
  | _ => false

/-- Value of a float option; 0 if there is none. -/
def floatOf (o : Dict (OptVal ℝ)) (key : String) : ℝ :=
  match o.get? key with
  | some (.base (.float x)) => x
  | _ => 0

/-- Value of a string option; empty if there is none. -/
def strOption (o : Dict (OptVal ℝ)) (key : String) : String :=
  match o.get? key with
  | some (.base (.str s)) => s
  | _ => ""

/-- Value of an integer option; 0 if there is none. -/
def intOption (o : Dict (OptVal ℝ)) (key : String) : Int :=
  match o.get? key with
  | some (.base (.int i)) => i
  | _ => 0

/-- Options of `[fes]` with which the plots work: no plots, or two limits (if any) and a file name with a known
extension (or none), which must not have an extension if plots are made during the simulation. With a terminal any
name will do, because the user is asked for another one. -/
def Plottable (formats : List String) (terminal : Bool) (o : Dict (OptVal ℝ)) : Prop :=
  strOption o "plot-filename" = "" ∨
    ((∀ l, o.get? "plot-domain" = some (.list l) → l.length = 2) ∧
      (terminal = true ∨ (saveable formats (strOption o "plot-filename") = true ∧
        (intOption o "plot-stride" = 0 ∨ fileExtension (strOption o "plot-filename").toList = []))))

/-! ### Potential -/

/-- The polynomial in one variable with the given coefficients, lowest order first. -/
def poly1 (cs : List ℝ) (x : ℝ) : ℝ := ∑ i ∈ Finset.range cs.length, cs.getD i 0 * x ^ i

/-- The row of a coefficient file for a monomial: its exponents, then its coefficient. -/
def fileRow {d : Nat} (p : (Fin d → Nat) × ℝ) : List ℝ := (List.ofFn fun k => (p.1 k : ℝ)) ++ [p.2]

/-- The rows of a coefficient file stand for these monomials: exponents and coefficient, followed by any further columns. -/
def RowsOf {d : Nat} (rows : List (List ℝ)) (l : List ((Fin d → Nat) × ℝ)) : Prop :=
  List.Forall₂ (fun row p => ∃ extra, row = fileRow p ++ extra) rows l

/-- The sum of the monomials. -/
def polyOfRows {d : Nat} (l : List ((Fin d → Nat) × ℝ)) (x : Fin d → ℝ) : ℝ :=
  (l.map (fun p => p.2 * monomial p.1 x)).sum

/-- The force is minus the gradient of the energy. -/
def Conservative {d : Nat} (energy : (Fin d → ℝ) → ℝ) (force : (Fin d → ℝ) → Fin d → ℝ) : Prop :=
  ∀ x, HasFDerivAt energy
    (∑ k, (-force x k) • ContinuousLinearMap.proj (R := ℝ) (φ := fun _ : Fin d => ℝ) k) x

/-- The factor given by the option `scaling-factor`; 1 if it is missing or 0. -/
def scalingOf (o : Dict (OptVal ℝ)) : ℝ :=
  match o.get? "scaling-factor" with
  | some (.base (.float s)) => if s = 0 then 1 else s
  | _ => 1

/-- The boundary condition that is asked for. -/
def bcOf (o : Dict (OptVal ℝ)) : Option BoundaryCondition :=
  match o.get? "boundary-condition" with
  | some (.base (.str "reflective")) => some .reflective
  | some (.base (.str "periodic")) => some .periodic
  | _ => none

/-! ### Generators -/

/-- The generator for the option `seed`: the one for this seed, or one from entropy if there is no seed. -/
def seededBy {R : Type} (w : World R) (user : RngUser) (o : Dict (OptVal ℝ)) : R :=
  match o.get? "seed" with
  | some (.base (.int i)) => w.fromSeed i.toNat
  | _ => w.entropy user

/-- Seeds that are given are not negative. -/
def SeedOk (o : Dict (OptVal ℝ)) : Prop := ∀ i, IntOpt o "seed" i → 0 ≤ i

/-- State of the generator before number `i` is drawn, if the numbers are drawn uniformly from the ranges in
turn. -/
def uniformState {R : Type} (ops : InitRng R ℝ) (ranges : List (ℝ × ℝ)) (r : R) : Nat → R
  | 0 => r
  | i + 1 =>
    let q := ranges.getD (i % ranges.length) (0, 0)
    (ops.uniform q.1 q.2 (uniformState ops ranges r i)).2

/-- Number `i` drawn uniformly from the ranges in turn. -/
def uniformNumber {R : Type} (ops : InitRng R ℝ) (ranges : List (ℝ × ℝ)) (r : R) (i : Nat) : ℝ :=
  let q := ranges.getD (i % ranges.length) (0, 0)
  (ops.uniform q.1 q.2 (uniformState ops ranges r i)).1

/-- Choice number `j` among `m` elements. -/
def chosen {R : Type} (ops : InitRng R ℝ) (m : Nat) (r : R) (j : Nat) : Nat :=
  (ops.choice m ((fun r => (ops.choice m r).2)^[j] r)).1

/-! ### Walkers -/

/-- A walker at rest. -/
def atRest {d : Nat} (c : LdCfg ℝ d) (mass : ℝ) (x : Fin d → ℝ) : LdParticle ℝ d where
  pos := x
  mom := fun _ => 0
  mass := mass
  energy := c.pot.energy x
  forces := c.pot.force x
  c2 := c.c2of mass

/-! ### Birth-death -/

/-- Names of the variants. -/
def variantNames : List (String × ApproxVariant) :=
  [("original", .orig), ("orig", .orig), ("additive", .add), ("add", .add), ("multiplicative", .mult),
   ("mult", .mult)]

/-- The name given for an option; an empty string counts as not given. -/
def labelOf (o : Dict (OptVal ℝ)) (key : String) : Option String :=
  match o.get? key with
  | some (.base (.str s)) => if s = "" then none else some s
  | _ => none

/-- The name that decides: `approximation-variant` before `correction-variant`. -/
def chosenLabel (o : Dict (OptVal ℝ)) : Option String :=
  (labelOf o "approximation-variant").or (labelOf o "correction-variant")

/-- All names that are given are known. -/
def KnownLabels (o : Dict (OptVal ℝ)) : Prop :=
  ∀ key ∈ ["correction-variant", "approximation-variant"], ∀ s, labelOf o key = some s →
    (variantNames.lookup s).isSome

/-- The variant of the rates. -/
def variantOf (o : Dict (OptVal ℝ)) : ApproxVariant :=
  match chosenLabel o with
  | none => .orig
  | some s => (variantNames.lookup s).getD .orig

/-- Bandwidth of the kernel in dimension `k`. -/
def bandwidthOf (o : Dict (OptVal ℝ)) (k : Nat) : ℝ :=
  match o.get? "kernel-bandwidth" with
  | some (.base (.float x)) => x
  | some (.list l) => match l[k]? with
    | some (.float x) => x
    | _ => 0
  | _ => 0

/-- Factor of the rates in the exponent; 1 if it is not given. -/
def factorOf (o : Dict (OptVal ℝ)) : ℝ :=
  match o.get? "exponential-factor" with
  | some (.base (.float x)) => x
  | _ => 1

/-- The generator of birth-death: for the given seed plus 1000; from entropy if there is no seed or the seed is
0. -/
def bdGenerator {R : Type} (w : World R) (o : Dict (OptVal ℝ)) : R :=
  match o.get? "seed" with
  | some (.base (.int i)) => if i = 0 then w.entropy .birthDeath else w.fromSeed (i + 1000).toNat
  | _ => w.entropy .birthDeath

/-- Thermal energy of the dynamics; 1 for overdamped dynamics. -/
def ktOf (ld : Dict (OptVal ℝ)) : ℝ :=
  if ld.get? "type" = some (.base (.str "bussi-parinello")) then floatOf ld "kt" else 1

end

end Bdld.Spec
