import Verif.Props.RoundingMBDemo

/-
C127: forces of the Müller-Brown potential with 53 significant digits.
-/

namespace Bdld
open Spec

noncomputable section

local macro "mb_num" : tactic => `(tactic| norm_num [Bnd.acc, Bnd.accFits, MBBnd.forceX, MBBnd.forceY, MBBnd.linX, MBBnd.linY, MBBnd.exp,
  MBBnd.dx, MBBnd.dy, MBBnd.argA, MBBnd.argB, MBBnd.argC, MBBnd.arg, mbBnd53, litBnd, Bnd.exact, Bnd.add, Bnd.mul,
  Bnd.sq, Bnd.expTo, Bnd.addTop, Bnd.mulTop, Bnd.sqTop, Bnd.expTop, MB.a, MB.b, MB.c, MB.x0, MB.y0, MB.prefactors, abs_of_pos, abs_of_neg, vec4])

set_option maxHeartbeats 1600000 in
theorem mbForceFits53 : (mbBnd53 1.5 2.5 8104).ForceFits (2⁻¹ ^ 53) 0 (2⁻¹ ^ 53) (2⁻¹ ^ 53) 1e300 where
  exp := mbFits53.exp
  twoA := by intro i; fin_cases i <;> mb_num
  twoC := by intro i; fin_cases i <;> mb_num
  ax := by intro i; fin_cases i <;> mb_num
  cy := by intro i; fin_cases i <;> mb_num
  by' := by intro i; fin_cases i <;> mb_num
  linX := by intro i; fin_cases i <;> mb_num
  linY := by intro i; fin_cases i <;> mb_num
  preX := by intro i; fin_cases i <;> mb_num
  preY := by intro i; fin_cases i <;> mb_num
  forceX := by intro i; fin_cases i <;> mb_num
  forceY := by intro i; fin_cases i <;> mb_num
  sumX := by rw [MB.finRange4]; mb_num
  sumY := by rw [MB.finRange4]; mb_num

theorem mb_force_53_err (j : Fin 2) : ((mbBnd53 1.5 2.5 8104).force (2⁻¹ ^ 53) 0 (2⁻¹ ^ 53) (2⁻¹ ^ 53) j).err ≤ 3e-8 := by
  unfold MBBnd.force
  rw [MB.finRange4]
  fin_cases j <;> mb_num

/-- **C127.** In the ranges of the potential the forces computed with 53 digits, from constants rounded to 53 digits, are exact up
to 3e-8. -/
theorem mb_force_53 (pos : Fin 2 → Num53) (hx : -1.5 ≤ (pos 0).val ∧ (pos 0).val ≤ 1.5)
    (hy : -0.5 ≤ (pos 1).val ∧ (pos 1).val ≤ 2.5) (j : Fin 2) :
    |(MB.forceF mbFns53 mbConsts53 pos j).val - MB.force MB.prefactors (fun k => (pos k).val) j| ≤ 3e-8 := by
  have hT : ∀ i, MB.expTmp i (pos 0).val (pos 1).val ≤ (mbBnd53 1.5 2.5 8104).T i := by
    obtain ⟨h0, h1, h2⟩ := mb_exp_le_one (pos 0).val (pos 1).val
    intro i
    fin_cases i
    · exact h0
    · exact h1
    · exact h2
    · exact mb_exp_four hx hy
  have h := mb_force_near (mbContract53 1e300) (mbConsts53_near 1e300 1.5 2.5 8104) mbForceFits53 (pos := pos)
    (pos' := fun k => (pos k).val) (near_exact (A := rounding53 1e300) trivial (abs_le.2 hx))
    (near_exact (A := rounding53 1e300) trivial (abs_le.2 ⟨le_trans (by norm_num) hy.1, hy.2⟩)) hT j
  refine h.2.1.trans ?_
  exact mb_force_53_err j

/-- Bounds for positions between -1.4 and 1.4 with errors up to 0.1. -/
def mbLdBnd : LdBnd where
  dt := Bnd.exact 0.005
  half := Bnd.exact 1
  c1 := Bnd.exact 1
  c2 := Bnd.exact 0
  noiseFactor := Bnd.exact 0.11
  noise := Bnd.exact 10
  mass := 1
  X := 1.4
  P := 0
  Φ := 1e6
  L := 3e7
  φ := 3e-8
  E := 0.1

theorem mb_exp_box {p : Fin 2 → ℝ} (hp : ∀ j, |p j| ≤ 1.5) (i : Fin 4) : MB.expTmp i (p 0) (p 1) ≤ (mbBnd53 1.5 2.5 8104).T i := by
  obtain ⟨h0, h1, h2⟩ := mb_exp_le_one (p 0) (p 1)
  fin_cases i
  · exact h0
  · exact h1
  · exact h2
  · have h : (7 / 10) * (p 0 - -1) ^ 2 + 6 / 10 * (p 0 - -1) * (p 1 - 1) + 7 / 10 * (p 1 - 1) ^ 2 ≤ 9 := by
      obtain ⟨h1, h2⟩ := abs_le.1 (hp 0)
      obtain ⟨h3, h4⟩ := abs_le.1 (hp 1)
      have a1 := mul_nonneg (sub_nonneg.2 h1) (sub_nonneg.2 h2)
      have a2 := mul_nonneg (sub_nonneg.2 h3) (sub_nonneg.2 h4)
      have a3 := mul_nonneg (sub_nonneg.2 h1) (sub_nonneg.2 h4)
      have a4 := mul_nonneg (sub_nonneg.2 h2) (sub_nonneg.2 h3)
      linarith
    have h9 : Real.exp 9 ≤ 8104 := by
      rw [show (9 : ℝ) = (9 : ℕ) * 1 by norm_num, Real.exp_nat_mul]
      refine (pow_le_pow_left₀ (Real.exp_pos 1).le Real.exp_one_lt_d9.le 9).trans ?_
      norm_num
    exact (Real.exp_le_exp.2 h).trans h9

/-- The hypotheses of C109 about the forces hold with these bounds. -/
theorem mb_force_demo (e : ℝ) (x : Fin 2 → Num53) (y : Fin 2 → ℝ) (he : e ≤ mbLdBnd.E)
    (hxy : ∀ j, Near (rounding53 1e300) ⟨e, mbLdBnd.X⟩ (x j) (y j)) (j : Fin 2) :
    Near (rounding53 1e300) (mbLdBnd.force e) (MB.forceF mbFns53 mbConsts53 x j) (MB.force MB.prefactors y j) := by
  refine mb_nearCfg_force (mbContract53 1e300) (mbConsts53_near 1e300 1.5 2.5 8104) mbForceFits53 (B := mbLdBnd)
    ⟨rfl, by norm_num [mbBnd53, mbLdBnd, Bnd.exact]⟩ ⟨rfl, by norm_num [mbBnd53, mbLdBnd, Bnd.exact]⟩ ?_ ?_ mb_force_53_err ?_ e x y he hxy j
  · intro p hp
    exact mb_exp_box fun j => (hp j).trans (by norm_num [mbLdBnd])
  · intro j
    unfold mbForceLip
    rw [Fin.sum_univ_four]
    fin_cases j <;> norm_num [mbLin, mbArgLip, mbDx, mbDy, mbLdBnd, mbBnd53, MB.a, MB.b, MB.c, MB.x0, MB.y0, MB.prefactors, vec4, abs_of_pos, abs_of_neg]
  · intro j
    unfold mbForceMax
    rw [Fin.sum_univ_four]
    fin_cases j <;> norm_num [mbLin, mbDx, mbDy, mbLdBnd, mbBnd53, MB.a, MB.b, MB.c, MB.x0, MB.y0, MB.prefactors, vec4, abs_of_pos, abs_of_neg]

end
end Bdld
