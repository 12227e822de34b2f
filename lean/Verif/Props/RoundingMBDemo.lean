import Verif.Props.RoundingMB

/-
C127: the Müller-Brown potential with 53 significant digits.
-/

namespace Bdld
open Spec

noncomputable section

theorem vec4 (p q r s : ℝ) : ![p, q, r, s] 0 = p ∧ ![p, q, r, s] 1 = q ∧ ![p, q, r, s] 2 = r ∧ ![p, q, r, s] 3 = s :=
  ⟨rfl, rfl, rfl, rfl⟩

/-- A constant rounded to 53 digits. -/
def lit53 (v : ℝ) : Num53 := ⟨round53 v⟩

/-- Its bounds. -/
def litBnd (v : ℝ) : Bnd := ⟨2⁻¹ ^ 53 * |v|, |v|⟩

theorem lit53_near (Ω v : ℝ) : Near (rounding53 Ω) (litBnd v) (lit53 v) v := ⟨trivial, round53_err v, le_rfl⟩

/-- Constants of the Müller-Brown potential rounded to 53 digits. -/
def mbConsts53 : MB.Consts Num53 where
  A := fun i => lit53 (MB.prefactors i)
  a := fun i => lit53 (MB.a i)
  b := fun i => lit53 (MB.b i)
  c := fun i => lit53 (MB.c i)
  x0 := fun i => lit53 (MB.x0 i)
  y0 := fun i => lit53 (MB.y0 i)
  shift := lit53 MB.potShift
  zero := ⟨0⟩
  two := lit53 2

/-- Correctly rounded exponential and square. -/
def mbFns53 : MB.Fns Num53 := ⟨fun a => ⟨round53 (Real.exp a.val)⟩, fun a => ⟨round53 (a.val ^ 2)⟩⟩

def mbContract53 (Ω : ℝ) : MBContract (rounding53 Ω) mbFns53 where
  er := 2⁻¹ ^ 53
  us := 2⁻¹ ^ 53
  er_nonneg := by positivity
  us_nonneg := by positivity
  exp := fun a _ _ => ⟨trivial, by
    have := round53_err (Real.exp a.val)
    rw [abs_of_pos (Real.exp_pos _)] at this
    change _ ≤ _ + 0
    rw [add_zero]
    exact this⟩
  sq := fun a _ _ => ⟨trivial, by
    have := round53_err (a.val ^ 2)
    rw [abs_of_nonneg (sq_nonneg a.val)] at this
    change _ ≤ _ + 0
    rw [add_zero]
    exact this⟩

/-- Bounds for coordinates up to `X` and `Y`, fourth exponential up to `T`. -/
def mbBnd53 (X Y T : ℝ) : MBBnd where
  A := fun i => litBnd (MB.prefactors i)
  a := fun i => litBnd (MB.a i)
  b := fun i => litBnd (MB.b i)
  c := fun i => litBnd (MB.c i)
  x0 := fun i => litBnd (MB.x0 i)
  y0 := fun i => litBnd (MB.y0 i)
  shift := litBnd MB.potShift
  two := litBnd 2
  x := Bnd.exact X
  y := Bnd.exact Y
  T := ![1, 1, 1, T]

theorem mbConsts53_near (Ω X Y T : ℝ) : NearConsts (rounding53 Ω) (mbBnd53 X Y T) mbConsts53 MB.prefactors where
  pre := fun _ => lit53_near Ω _
  a := fun _ => lit53_near Ω _
  b := fun _ => lit53_near Ω _
  c := fun _ => lit53_near Ω _
  x0 := fun _ => lit53_near Ω _
  y0 := fun _ => lit53_near Ω _
  shift := lit53_near Ω _
  zero := ⟨trivial, rfl⟩
  two := lit53_near Ω _

/-- The first three exponentials are at most 1. -/
theorem mb_exp_le_one (x y : ℝ) : MB.expTmp 0 x y ≤ 1 ∧ MB.expTmp 1 x y ≤ 1 ∧ MB.expTmp 2 x y ≤ 1 := by
  refine ⟨?_, ?_, mbThird_le ![x, y]⟩ <;>
  · unfold MB.expTmp
    refine Real.exp_le_one_iff.2 ?_
    simp only [MB.a, MB.b, MB.c, MB.x0, MB.y0, Matrix.cons_val_zero, Matrix.cons_val_one]
    nlinarith [sq_nonneg x, sq_nonneg y, sq_nonneg (x - 1), sq_nonneg (y - 1 / 2)]

/-- The fourth one in the ranges of the potential. -/
theorem mb_exp_four {x y : ℝ} (hx : -1.5 ≤ x ∧ x ≤ 1.5) (hy : -0.5 ≤ y ∧ y ≤ 2.5) : MB.expTmp 3 x y ≤ 8104 := by
  have h : (7 / 10) * (x - -1) ^ 2 + 6 / 10 * (x - -1) * (y - 1) + 7 / 10 * (y - 1) ^ 2 ≤ 9 := by
    obtain ⟨h1, h2⟩ := hx
    obtain ⟨h3, h4⟩ := hy
    have a1 : (x + 1) ^ 2 ≤ 6.25 := by nlinarith
    have a2 : (y - 1) ^ 2 ≤ 2.25 := by nlinarith
    nlinarith [sq_nonneg (x + 1 - (y - 1))]
  have h9 : Real.exp 9 ≤ 8104 := by
    rw [show (9 : ℝ) = (9 : ℕ) * 1 by norm_num, Real.exp_nat_mul]
    refine (pow_le_pow_left₀ (Real.exp_pos 1).le Real.exp_one_lt_d9.le 9).trans ?_
    norm_num
  exact (Real.exp_le_exp.2 h).trans h9

set_option maxHeartbeats 1600000 in
theorem mbFits53 : (mbBnd53 1.5 2.5 8104).EnergyFits (2⁻¹ ^ 53) 0 (2⁻¹ ^ 53) (2⁻¹ ^ 53) 1e300 where
  exp := by
    intro i
    constructor <;> fin_cases i <;>
      norm_num [MBBnd.dx, MBBnd.dy, MBBnd.argA, MBBnd.argB, MBBnd.argC, MBBnd.arg, mbBnd53, litBnd, Bnd.exact, Bnd.add, Bnd.mul, Bnd.sq,
        Bnd.addTop, Bnd.mulTop, Bnd.sqTop, Bnd.expTop, MB.a, MB.b, MB.c, MB.x0, MB.y0, abs_of_pos, abs_of_neg, vec4]
  term := by
    intro i
    fin_cases i <;>
      norm_num [MBBnd.exp, MBBnd.dx, MBBnd.dy, MBBnd.argA, MBBnd.argB, MBBnd.argC, MBBnd.arg, mbBnd53, litBnd, Bnd.exact, Bnd.add, Bnd.mul,
        Bnd.sq, Bnd.mulTop, Bnd.expTo, MB.a, MB.b, MB.c, MB.x0, MB.y0, MB.prefactors, abs_of_pos, abs_of_neg, vec4]
  sum := by
    rw [MB.finRange4]
    norm_num [Bnd.accFits, MBBnd.term, MBBnd.exp, MBBnd.dx, MBBnd.dy, MBBnd.argA, MBBnd.argB, MBBnd.argC, MBBnd.arg, mbBnd53, litBnd,
      Bnd.exact, Bnd.add, Bnd.mul, Bnd.addTop,
        Bnd.sq, Bnd.expTo, MB.a, MB.b, MB.c, MB.x0, MB.y0, MB.prefactors, abs_of_pos, abs_of_neg, vec4]
  shift := by
    unfold MBBnd.sum
    rw [MB.finRange4]
    norm_num [Bnd.acc, MBBnd.term, MBBnd.exp, MBBnd.dx, MBBnd.dy, MBBnd.argA, MBBnd.argB, MBBnd.argC, MBBnd.arg, mbBnd53, litBnd,
      Bnd.exact, Bnd.add, Bnd.mul, Bnd.addTop,
        Bnd.sq, Bnd.expTo, MB.a, MB.b, MB.c, MB.x0, MB.y0, MB.prefactors, MB.potShift, abs_of_pos, abs_of_neg, vec4]

/-- **C127.** In the ranges of the potential the energy computed with 53 digits, from constants rounded to 53 digits, is exact up
to 4e-9. -/
theorem mb_energy_53 (pos : Fin 2 → Num53) (hx : -1.5 ≤ (pos 0).val ∧ (pos 0).val ≤ 1.5)
    (hy : -0.5 ≤ (pos 1).val ∧ (pos 1).val ≤ 2.5) :
    |(MB.energyF mbFns53 mbConsts53 pos).val - MB.energy MB.prefactors (fun k => (pos k).val)| ≤ 4e-9 := by
  have hT : ∀ i, MB.expTmp i (pos 0).val (pos 1).val ≤ (mbBnd53 1.5 2.5 8104).T i := by
    obtain ⟨h0, h1, h2⟩ := mb_exp_le_one (pos 0).val (pos 1).val
    intro i
    fin_cases i
    · exact h0
    · exact h1
    · exact h2
    · exact mb_exp_four hx hy
  have h := mb_energy_near (mbContract53 1e300) (mbConsts53_near 1e300 1.5 2.5 8104) mbFits53 (pos := pos)
    (pos' := fun k => (pos k).val) (near_exact (A := rounding53 1e300) trivial (abs_le.2 hx))
    (near_exact (A := rounding53 1e300) trivial (abs_le.2 ⟨le_trans (by norm_num) hy.1, hy.2⟩)) hT
  refine h.2.1.trans ?_
  change ((mbBnd53 1.5 2.5 8104).energy (2⁻¹ ^ 53) 0 (2⁻¹ ^ 53) (2⁻¹ ^ 53)).err ≤ _
  unfold MBBnd.energy MBBnd.sum
  rw [MB.finRange4]
  norm_num [Bnd.acc, MBBnd.term, MBBnd.exp, MBBnd.dx, MBBnd.dy, MBBnd.argA, MBBnd.argB, MBBnd.argC, MBBnd.arg, mbBnd53, litBnd,
    Bnd.exact, Bnd.add, Bnd.mul,
    Bnd.sq, Bnd.expTo, MB.a, MB.b, MB.c, MB.x0, MB.y0, MB.prefactors, MB.potShift, abs_of_pos, abs_of_neg, vec4]

end
end Bdld
