import Verif.Model.BirthDeath
import Verif.Model.Rates

/-
Model of `calc_betas` and of the acceptance probabilities for any kind of numbers, `bdld/actions/birth_death.py`: the operations are
those of the code in the order of the code. (With exact real numbers: `Model/Rates.lean`.)

Simplified: constants that are computed once (`heights`, `2 * bw**2`, `inv_kt`, the prefactor of `calc_kernel`) are parameters;
`squareform` takes the value of the pair with the smaller index first; the order of additions in `np.sum` and `np.mean` is an arbitrary
binary tree; the interpolation of the correction is an arbitrary function of the position.
-/

namespace Bdld

/-- Order in which a sum is evaluated. -/
inductive AddTree where
  | leaf (i : Nat)
  | node (l r : AddTree)

/-- Positions of the summands. -/
def AddTree.leaves : AddTree → List Nat
  | .leaf i => [i]
  | .node l r => l.leaves ++ r.leaves

/-- Value of a sum. -/
def AddTree.eval {F : Type} [Add F] (x : Nat → F) : AddTree → F
  | .leaf i => x i
  | .node l r => l.eval x + r.eval x

/-- Functions of numpy. `order n` is the order of additions in a sum of `n` numbers; `isInf` is `x == -np.inf`. -/
structure FloatFns (F : Type) where
  exp : F → F
  log : F → F
  abs : F → F
  le : F → F → Bool
  zero : F
  one : F
  ofNat : Nat → F
  isInf : F → Bool
  order : Nat → AddTree

/-- Constants. `height k` is `1 / (np.sqrt(2 * np.pi) * bw[k])`, `width k` is `2 * bw[k] ** 2`, `pref` is
`1 / ((2 * np.pi) ** (len(bw) / 2) * np.prod(bw))`, `invKt` is `1 / kt` (line 94), `dt` is `md_dt * stride` (line 91). -/
structure FloatRateCfg (F : Type) (d : Nat) where
  height : Fin d → F
  width : Fin d → F
  pref : F
  invKt : F
  dt : F
  rateFac : F
  variant : ApproxVariant
  approx : (Fin d → F) → F

section
variable {F : Type} [Add F] [Sub F] [Mul F] [Div F] [Neg F] [LT F] [DecidableLT F] {d : Nat}

/-- `np.sum`. -/
def sumF (f : FloatFns F) (l : List F) : F := (f.order l.length).eval (fun i => l.getD i f.zero)

/-- `np.mean`. -/
def meanF (f : FloatFns F) (l : List F) : F := sumF f l / f.ofNat l.length

/-- `np.prod`. -/
def prodF (f : FloatFns F) : List F → F
  | [] => f.one
  | x :: l => l.foldl (· * ·) x

/-- Gaussian in one direction, `birth_death.py:465-467` and 475-477: `heights[i] * np.exp(-dist / (2 * bw[i] ** 2))` with the squared
distance of `pdist`. -/
def gaussF (f : FloatFns F) (c : FloatRateCfg F d) (x y : Fin d → F) (k : Fin d) : F :=
  c.height k * f.exp (-((x k - y k) * (x k - y k)) / c.width k)

/-- Matrix of Gaussians, `birth_death.py:463-480`. (In one dimension the product has one factor.) -/
def gaussMatrixF (f : FloatFns F) (c : FloatRateCfg F d) {n : Nat} (pos : Fin n → Fin d → F) (i j : Fin n) : F :=
  if i = j then prodF f (List.ofFn c.height)
  else if i < j then prodF f (List.ofFn (gaussF f c (pos i) (pos j)))
  else prodF f (List.ofFn (gaussF f c (pos j) (pos i)))

/-- `calc_kernel` for one distance vector, `birth_death.py:397-410`. -/
def kernelF (f : FloatFns F) (c : FloatRateCfg F d) (dist : Fin d → F) : F :=
  c.pref * f.exp (-sumF f (List.ofFn fun k => dist k * dist k / c.width k))

/-- `walker_density`, `birth_death.py:413-481`. -/
def densityF (f : FloatFns F) (c : FloatRateCfg F d) {n : Nat} (pos : Fin n → Fin d → F) (j : Fin n) : F :=
  if n ≤ 10000 then meanF f (List.ofFn fun i => gaussMatrixF f c pos i j)
  else meanF f (List.ofFn fun i => kernelF f c (fun k => pos j k - pos i k))

/-- `beta -= np.mean(beta[beta != -np.inf])`. -/
def centreF (f : FloatFns F) {n : Nat} (b : Fin n → F) (i : Fin n) : F :=
  b i - meanF f ((List.ofFn b).filter (fun x => !f.isInf x))

/-- `BirthDeath.calc_betas`, `birth_death.py:222-244`. -/
def betasF (f : FloatFns F) (c : FloatRateCfg F d) {n : Nat} (pos : Fin n → Fin d → F) (ene : Fin n → F) : Fin n → F :=
  let beta0 := fun i => f.log (densityF f c pos i)
  match c.variant with
  | .mult => centreF f (fun i => beta0 i + c.approx (pos i))
  | .orig => centreF f (fun i => beta0 i + ene i * c.invKt)
  | .add =>
    let beta2 := centreF f (fun i => beta0 i + ene i * c.invKt)
    fun i => beta2 i + c.approx (pos i)

/-- `1 - np.exp(-np.abs(beta) * self.dt * self.rate_fac)`, `birth_death.py:178` and 207. -/
def probF (f : FloatFns F) (c : FloatRateCfg F d) (b : F) : F := f.one - f.exp (-f.abs b * c.dt * c.rateFac)

/-- The birth-death algorithm with these rates and probabilities. -/
def floatBdCfg {P : Type} (f : FloatFns F) (c : FloatRateCfg F d) (recalc : Bool) (pos : P → Fin d → F) (energy : P → F) :
    BdCfg P F F where
  calcBetas := fun ps => List.ofFn (fun i : Fin ps.length =>
    betasF f c (fun i : Fin ps.length => pos (ps.get i)) (fun i => energy (ps.get i)) i)
  gt0 := fun b => decide (f.zero < b)
  lt0 := fun b => decide (b < f.zero)
  accept := fun r b => f.le r (probF f c b)
  recalcProbs := recalc

end

end Bdld
