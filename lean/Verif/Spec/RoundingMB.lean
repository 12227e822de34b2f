import Verif.Spec.Rounding
import Verif.Model.FloatMuellerBrown
import Mathlib.Analysis.SpecialFunctions.Exp

/-
Contract of `np.exp` and of `** 2`, and error bounds of the Müller-Brown potential.
-/

namespace Bdld.Spec

noncomputable section

/-- Relative errors `er` of the exponential and `us` of squares, apart from underflow. -/
structure MBContract {F : Type} [Add F] [Sub F] [Mul F] [Div F] [Neg F] [LT F] (A : Rounding F) (f : MB.Fns F) where
  er : ℝ
  us : ℝ
  er_nonneg : 0 ≤ er
  us_nonneg : 0 ≤ us
  exp : ∀ a, A.fin a → Real.exp (A.val a) ≤ A.Ω →
    A.fin (f.exp a) ∧ |A.val (f.exp a) - Real.exp (A.val a)| ≤ er * Real.exp (A.val a) + A.η
  sq : ∀ a, A.fin a → A.val a ^ 2 ≤ A.Ω → A.fin (f.sq a) ∧ |A.val (f.sq a) - A.val a ^ 2| ≤ us * A.val a ^ 2 + A.η

/-- Bounds of a square. -/
def Bnd.sq (us η : ℝ) (b : Bnd) : Bnd := ⟨2 * b.mag * b.err + b.err ^ 2 + (us * (b.mag + b.err) ^ 2 + η), b.mag ^ 2⟩

/-- Largest value before rounding. -/
def Bnd.sqTop (b : Bnd) : ℝ := (b.mag + b.err) ^ 2

/-- Bounds of an exponential that is at most `T`. -/
def Bnd.expTo (er η T : ℝ) (b : Bnd) : Bnd := ⟨T * (2 * b.err + er * (1 + 2 * b.err)) + η, T⟩

/-- Largest value before rounding. -/
def Bnd.expTop (T : ℝ) (b : Bnd) : ℝ := T * (1 + 2 * b.err)

/-- Bounds of numbers that are added one after the other. -/
def Bnd.acc {ι : Type} (u : ℝ) (t : ι → Bnd) (l : List ι) (s : Bnd) : Bnd := l.foldl (fun s i => s.add u (t i)) s

/-- No overflow in these sums. -/
def Bnd.accFits {ι : Type} (u Ω : ℝ) (t : ι → Bnd) : List ι → Bnd → Prop
  | [], _ => True
  | i :: l, s => s.addTop (t i) ≤ Ω ∧ Bnd.accFits u Ω t l (s.add u (t i))

/-- Bounds of constants and of the coordinates; `T` are bounds of the four exponentials. -/
structure MBBnd where
  A : Fin 4 → Bnd
  a : Fin 4 → Bnd
  b : Fin 4 → Bnd
  c : Fin 4 → Bnd
  x0 : Fin 4 → Bnd
  y0 : Fin 4 → Bnd
  shift : Bnd
  two : Bnd
  x : Bnd
  y : Bnd
  T : Fin 4 → ℝ

section
variable (K : MBBnd) (u η er us : ℝ) (i : Fin 4)

def MBBnd.dx : Bnd := K.x.add u (K.x0 i)
def MBBnd.dy : Bnd := K.y.add u (K.y0 i)

/-- The three terms of the argument. -/
def MBBnd.argA : Bnd := (K.a i).mul u η ((K.dx u i).sq us η)
def MBBnd.argB : Bnd := ((K.b i).mul u η (K.dx u i)).mul u η (K.dy u i)
def MBBnd.argC : Bnd := (K.c i).mul u η ((K.dy u i).sq us η)
def MBBnd.arg : Bnd := ((K.argA u η us i).add u (K.argB u η i)).add u (K.argC u η us i)

def MBBnd.exp : Bnd := (K.arg u η us i).expTo er η (K.T i)

/-- A term of the energy. -/
def MBBnd.term : Bnd := (K.A i).mul u η (K.exp u η er us i)

/-- Derivatives of the argument. -/
def MBBnd.linX : Bnd := ((K.two.mul u η (K.a i)).mul u η (K.dx u i)).add u ((K.b i).mul u η (K.dy u i))
def MBBnd.linY : Bnd := ((K.b i).mul u η (K.dx u i)).add u ((K.two.mul u η (K.c i)).mul u η (K.dy u i))

/-- Terms of the forces. -/
def MBBnd.forceX : Bnd := ((K.A i).mul u η (K.linX u η i)).mul u η (K.exp u η er us i)
def MBBnd.forceY : Bnd := ((K.A i).mul u η (K.linY u η i)).mul u η (K.exp u η er us i)

/-- Energy and forces. -/
def MBBnd.sum : Bnd := Bnd.acc u (K.term u η er us) (List.finRange 4) (Bnd.exact 0)
def MBBnd.energy : Bnd := (K.sum u η er us).add u K.shift
def MBBnd.force (j : Fin 2) : Bnd :=
  Bnd.acc u (if j = 0 then K.forceX u η er us else K.forceY u η er us) (List.finRange 4) (Bnd.exact 0)

/-- No overflow, and errors of the arguments at most 1. -/
structure MBBnd.ExpFits (Ω : ℝ) : Prop where
  dx : K.x.addTop (K.x0 i) ≤ Ω
  dy : K.y.addTop (K.y0 i) ≤ Ω
  sqx : (K.dx u i).sqTop ≤ Ω
  sqy : (K.dy u i).sqTop ≤ Ω
  argA : (K.a i).mulTop ((K.dx u i).sq us η) ≤ Ω
  bx : (K.b i).mulTop (K.dx u i) ≤ Ω
  argB : ((K.b i).mul u η (K.dx u i)).mulTop (K.dy u i) ≤ Ω
  argC : (K.c i).mulTop ((K.dy u i).sq us η) ≤ Ω
  add1 : (K.argA u η us i).addTop (K.argB u η i) ≤ Ω
  add2 : ((K.argA u η us i).add u (K.argB u η i)).addTop (K.argC u η us i) ≤ Ω
  small : (K.arg u η us i).err ≤ 1
  exp : (K.arg u η us i).expTop (K.T i) ≤ Ω

/-- No overflow in the energy. -/
structure MBBnd.EnergyFits (Ω : ℝ) : Prop where
  exp : ∀ i, K.ExpFits u η us i Ω
  term : ∀ i, (K.A i).mulTop (K.exp u η er us i) ≤ Ω
  sum : Bnd.accFits u Ω (K.term u η er us) (List.finRange 4) (Bnd.exact 0)
  shift : (K.sum u η er us).addTop K.shift ≤ Ω

/-- No overflow in the forces. -/
structure MBBnd.ForceFits (Ω : ℝ) : Prop where
  exp : ∀ i, K.ExpFits u η us i Ω
  twoA : ∀ i, K.two.mulTop (K.a i) ≤ Ω
  twoC : ∀ i, K.two.mulTop (K.c i) ≤ Ω
  ax : ∀ i, (K.two.mul u η (K.a i)).mulTop (K.dx u i) ≤ Ω
  cy : ∀ i, (K.two.mul u η (K.c i)).mulTop (K.dy u i) ≤ Ω
  by' : ∀ i, (K.b i).mulTop (K.dy u i) ≤ Ω
  linX : ∀ i, ((K.two.mul u η (K.a i)).mul u η (K.dx u i)).addTop ((K.b i).mul u η (K.dy u i)) ≤ Ω
  linY : ∀ i, ((K.b i).mul u η (K.dx u i)).addTop ((K.two.mul u η (K.c i)).mul u η (K.dy u i)) ≤ Ω
  preX : ∀ i, (K.A i).mulTop (K.linX u η i) ≤ Ω
  preY : ∀ i, (K.A i).mulTop (K.linY u η i) ≤ Ω
  forceX : ∀ i, ((K.A i).mul u η (K.linX u η i)).mulTop (K.exp u η er us i) ≤ Ω
  forceY : ∀ i, ((K.A i).mul u η (K.linY u η i)).mulTop (K.exp u η er us i) ≤ Ω
  sumX : Bnd.accFits u Ω (K.forceX u η er us) (List.finRange 4) (Bnd.exact 0)
  sumY : Bnd.accFits u Ω (K.forceY u η er us) (List.finRange 4) (Bnd.exact 0)

end

end

end Bdld.Spec
