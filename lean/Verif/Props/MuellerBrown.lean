import Verif.Model.MuellerBrown
import Verif.Spec.MuellerBrown
import Verif.Lemmas.Polynomial
import Mathlib.Analysis.SpecialFunctions.ExpDeriv
import Mathlib.Data.List.FinRange
import Mathlib.Tactic.FinCases
import Mathlib.Tactic.NormNum
import Mathlib.Tactic.FieldSimp

/-
C32, C33, C34: the Müller-Brown potential (exact real arithmetic).
-/

namespace Bdld
open Spec MB

namespace MB

theorem finRange4 : List.finRange 4 = [0, 1, 2, 3] := by decide

theorem energy_eq (A : Fin 4 → ℝ) (pos : Fin 2 → ℝ) :
    energy A pos = ∑ i, A i * expTmp i (pos 0) (pos 1) + potShift := by
  unfold energy
  rw [finRange4]
  simp only [List.foldl_cons, List.foldl_nil, Fin.sum_univ_four]
  ring

theorem force_zero (A : Fin 4 → ℝ) (pos : Fin 2 → ℝ) :
    force A pos 0 = ∑ i, -A i * (2 * a i * (pos 0 - x0 i) + b i * (pos 1 - y0 i)) * expTmp i (pos 0) (pos 1) := by
  unfold force
  rw [finRange4]
  simp only [List.foldl_cons, List.foldl_nil, Fin.sum_univ_four, Matrix.cons_val_zero]
  ring

theorem force_one (A : Fin 4 → ℝ) (pos : Fin 2 → ℝ) :
    force A pos 1 = ∑ i, -A i * (b i * (pos 0 - x0 i) + 2 * c i * (pos 1 - y0 i)) * expTmp i (pos 0) (pos 1) := by
  unfold force
  rw [finRange4]
  simp only [List.foldl_cons, List.foldl_nil, Fin.sum_univ_four, Matrix.cons_val_one, Matrix.cons_val_fin_one]
  ring

theorem expTmp_deriv_x (i : Fin 4) (x y : ℝ) :
    HasDerivAt (fun t => expTmp i t y) ((2 * a i * (x - x0 i) + b i * (y - y0 i)) * expTmp i x y) x := by
  unfold expTmp
  have h : HasDerivAt (fun t => a i * (t - x0 i) ^ 2 + b i * (t - x0 i) * (y - y0 i) + c i * (y - y0 i) ^ 2)
      (a i * (2 * (x - x0 i)) + b i * (y - y0 i)) x := by
    have h1 : HasDerivAt (fun t : ℝ => t - x0 i) 1 x := (hasDerivAt_id x).sub_const _
    have h2 := (h1.fun_pow 2).const_mul (a i)
    have h3 := (h1.const_mul (b i)).mul_const (y - y0 i)
    have h4 := (h2.fun_add h3).add_const (c i * (y - y0 i) ^ 2)
    exact h4.congr_deriv (by simp)
  exact h.exp.congr_deriv (by ring)

theorem expTmp_deriv_y (i : Fin 4) (x y : ℝ) :
    HasDerivAt (fun t => expTmp i x t) ((b i * (x - x0 i) + 2 * c i * (y - y0 i)) * expTmp i x y) y := by
  unfold expTmp
  have h : HasDerivAt (fun t => a i * (x - x0 i) ^ 2 + b i * (x - x0 i) * (t - y0 i) + c i * (t - y0 i) ^ 2)
      (b i * (x - x0 i) + c i * (2 * (y - y0 i))) y := by
    have h1 : HasDerivAt (fun t : ℝ => t - y0 i) 1 y := (hasDerivAt_id y).sub_const _
    have h2 := (h1.fun_pow 2).const_mul (c i)
    have h3 := (h1.const_mul (b i * (x - x0 i))).const_add (a i * (x - x0 i) ^ 2)
    have h4 := h3.fun_add h2
    exact h4.congr_deriv (by simp)
  exact h.exp.congr_deriv (by ring)

theorem energy_differentiable (A : Fin 4 → ℝ) : Differentiable ℝ (energy A) := by
  have h : energy A = fun pos => ∑ i, A i * expTmp i (pos 0) (pos 1) + potShift := funext (energy_eq A)
  rw [h]
  apply Differentiable.add_const
  apply Differentiable.fun_sum
  intro i _
  apply Differentiable.const_mul
  unfold expTmp
  have hx : Differentiable ℝ (fun pos : Fin 2 → ℝ => pos 0) := differentiable_apply 0
  have hy : Differentiable ℝ (fun pos : Fin 2 → ℝ => pos 1) := differentiable_apply 1
  exact ((((hx.sub_const _).pow 2).const_mul _).add ((((hx.sub_const _).const_mul _)).mul (hy.sub_const _))
    |>.add (((hy.sub_const _).pow 2).const_mul _)).exp

end MB

/-! ### Force and evaluate (C32) -/

/-- **C32.** `evaluate` returns the same energy and force as the separate functions, for every value of the
module variable `A`. -/
theorem mb_evaluate (A : Fin 4 → ℝ) (pos : Fin 2 → ℝ) : MB.evaluate A pos = (MB.energy A pos, MB.force A pos) := by
  unfold MB.evaluate MB.energy MB.force
  rw [MB.finRange4]
  simp only [List.foldl_cons, List.foldl_nil]

/-- **C32.** The force is minus the gradient of the energy, for every value of the module variable `A` (every
scaling): partial derivatives and total derivative. -/
theorem mb_force (A : Fin 4 → ℝ) (pos : Fin 2 → ℝ) :
    (∀ k, HasDerivAt (fun t => MB.energy A (Function.update pos k t)) (-MB.force A pos k) (pos k)) ∧
    HasFDerivAt (MB.energy A)
      (∑ k, (-MB.force A pos k) • ContinuousLinearMap.proj (R := ℝ) (φ := fun _ : Fin 2 => ℝ) k) pos := by
  have hk : ∀ k, HasDerivAt (fun t => MB.energy A (Function.update pos k t)) (-MB.force A pos k) (pos k) := by
    intro k
    simp only [MB.energy_eq]
    fin_cases k
    · have h1 : ∀ t, Function.update pos (0 : Fin 2) t 1 = pos 1 := fun t => by simp
      show HasDerivAt (fun t => ∑ i, A i * expTmp i (Function.update pos 0 t 0) (Function.update pos 0 t 1) + potShift)
        (-MB.force A pos 0) (pos 0)
      simp only [h1, Function.update_self]
      rw [MB.force_zero, ← Finset.sum_neg_distrib]
      apply HasDerivAt.add_const
      apply HasDerivAt.fun_sum
      intro i _
      exact ((MB.expTmp_deriv_x i (pos 0) (pos 1)).const_mul (A i)).congr_deriv (by ring)
    · have h1 : ∀ t, Function.update pos (1 : Fin 2) t 0 = pos 0 := fun t => by simp
      show HasDerivAt (fun t => ∑ i, A i * expTmp i (Function.update pos 1 t 0) (Function.update pos 1 t 1) + potShift)
        (-MB.force A pos 1) (pos 1)
      simp only [h1, Function.update_self]
      rw [MB.force_one, ← Finset.sum_neg_distrib]
      apply HasDerivAt.add_const
      apply HasDerivAt.fun_sum
      intro i _
      exact ((MB.expTmp_deriv_y i (pos 0) (pos 1)).const_mul (A i)).congr_deriv (by ring)
  exact ⟨hk, hasFDerivAt_of_partials _ pos _ (MB.energy_differentiable A).differentiableAt hk⟩

/-! ### Documented formula (C33) -/

/-- The exponential of the third term, whose prefactor deviates. -/
noncomputable def mbThird (pos : Fin 2 → ℝ) : ℝ := MB.expTmp 2 (pos 0) (pos 1)

theorem mbThird_le (pos : Fin 2 → ℝ) : mbThird pos ≤ 1 := by
  unfold mbThird MB.expTmp
  apply Real.exp_le_one_iff.2
  simp [MB.a, MB.b, MB.c, MB.x0, MB.y0]
  nlinarith [sq_nonneg (pos 0 - -1 / 2 - (pos 1 - 3 / 2)), sq_nonneg (pos 0 - -1 / 2 + (pos 1 - 3 / 2)),
    sq_nonneg (pos 0 - -1 / 2), sq_nonneg (pos 1 - 3 / 2)]

/-- **C33.** The energy deviates from the documented formula plus the constant `pot_shift` exactly by -5 times
the third exponential, which is between 0 and 5 in absolute value and largest at (-0.5, 1.5). (Missing for C33:
the deviation is not constant, see `mb_doc_false`.) -/
theorem mb_doc_partial (pos : Fin 2 → ℝ) :
    MB.energy MB.prefactors pos = muellerBrownDoc (pos 0) (pos 1) + MB.potShift - 5 * mbThird pos ∧
    0 < mbThird pos ∧ mbThird pos ≤ 1 := by
  refine ⟨?_, Real.exp_pos _, mbThird_le pos⟩
  rw [MB.energy_eq, Fin.sum_univ_four]
  unfold mbThird muellerBrownDoc MB.expTmp
  simp only [MB.prefactors, MB.a, MB.b, MB.c, MB.x0, MB.y0, Matrix.cons_val_zero, Matrix.cons_val_one, Matrix.cons_val]
  have e0 : -1 * (pos 0 - 1) ^ 2 + 0 * (pos 0 - 1) * (pos 1 - 0) + -10 * (pos 1 - 0) ^ 2 =
    -(pos 0 - 1) ^ 2 - 10 * pos 1 ^ 2 := by ring
  have e1 : -1 * (pos 0 - 0) ^ 2 + 0 * (pos 0 - 0) * (pos 1 - 1 / 2) + -10 * (pos 1 - 1 / 2) ^ 2 =
    -pos 0 ^ 2 - 10 * (pos 1 - 1 / 2) ^ 2 := by ring
  have e2 : -13 / 2 * (pos 0 - -1 / 2) ^ 2 + 11 * (pos 0 - -1 / 2) * (pos 1 - 3 / 2) + -13 / 2 * (pos 1 - 3 / 2) ^ 2 =
    -(13 / 2) * (pos 0 + 1 / 2) ^ 2 + 11 * (pos 0 + 1 / 2) * (pos 1 - 3 / 2) - 13 / 2 * (pos 1 - 3 / 2) ^ 2 := by ring
  have e3 : 7 / 10 * (pos 0 - -1) ^ 2 + 6 / 10 * (pos 0 - -1) * (pos 1 - 1) + 7 / 10 * (pos 1 - 1) ^ 2 =
    7 / 10 * (pos 0 + 1) ^ 2 + 6 / 10 * (pos 0 + 1) * (pos 1 - 1) + 7 / 10 * (pos 1 - 1) ^ 2 := by ring
  rw [e0, e1, e2, e3]
  ring

/-- **C33 is false:** the code uses the prefactor -175 instead of the documented -170, so the energy is not
the documented one up to a constant. -/
theorem mb_doc_false : ¬ ∃ const : ℝ, ∀ pos : Fin 2 → ℝ,
    MB.energy MB.prefactors pos = muellerBrownDoc (pos 0) (pos 1) + const := by
  rintro ⟨const, h⟩
  have h1 := h ![-1 / 2, 3 / 2]
  have h2 := h ![1 / 2, 3 / 2]
  rw [(mb_doc_partial _).1] at h1 h2
  have h3 : mbThird ![-1 / 2, 3 / 2] = 1 := by
    simp [mbThird, MB.expTmp, MB.a, MB.b, MB.c, MB.x0, MB.y0]
  have h4 : mbThird ![1 / 2, 3 / 2] < 1 := by
    unfold mbThird MB.expTmp
    apply Real.exp_lt_one_iff.2
    simp [MB.a, MB.b, MB.c, MB.x0, MB.y0]
    norm_num
  linarith

/-! ### Scaling (C34) -/

/-- The module variable after potentials with the given scaling factors were created one after the other. -/
noncomputable def mbCreateAll (scalings : List (Option ℝ)) : Fin 4 → ℝ := scalings.foldl MB.create MB.prefactors

/-- What a scaling argument multiplies the prefactors with: 1 for `None` and for 0. -/
noncomputable def mbFactor (s : Option ℝ) : ℝ := if s.getD 0 = 0 then 1 else s.getD 0

theorem mbCreateAll_eq (scalings : List (Option ℝ)) (i : Fin 4) :
    mbCreateAll scalings i = MB.prefactors i * (scalings.map mbFactor).prod := by
  unfold mbCreateAll
  suffices h : ∀ A : Fin 4 → ℝ, scalings.foldl MB.create A i = A i * (scalings.map mbFactor).prod from h _
  induction scalings with
  | nil => intro A; simp
  | cons s l ih =>
    intro A
    rw [List.foldl_cons, ih, List.map_cons, List.prod_cons, ← mul_assoc]
    congr 1
    cases s with
    | none => simp [MB.create, mbFactor]
    | some s =>
      by_cases hs : s = 0
      · simp [MB.create, mbFactor, hs]
      · simp [MB.create, mbFactor, hs]

/-- **C34.** Exact behaviour: after any sequence of created potentials, *every* potential (also those created
earlier) has the exponential part of the unscaled potential multiplied by the product of all non-zero scaling
factors given so far. -/
theorem mb_scaling_exact_partial (scalings : List (Option ℝ)) (pos : Fin 2 → ℝ) :
    MB.energy (mbCreateAll scalings) pos - MB.potShift =
      (scalings.map mbFactor).prod * (MB.energy MB.prefactors pos - MB.potShift) ∧
    ∀ k, MB.force (mbCreateAll scalings) pos k = (scalings.map mbFactor).prod * MB.force MB.prefactors pos k := by
  constructor
  · rw [MB.energy_eq, MB.energy_eq, add_sub_cancel_right, add_sub_cancel_right, Finset.mul_sum]
    apply Finset.sum_congr rfl
    intro i _
    rw [mbCreateAll_eq]
    ring
  · intro k
    fin_cases k
    · show MB.force _ pos 0 = _ * MB.force _ pos 0
      rw [MB.force_zero, MB.force_zero, Finset.mul_sum]
      apply Finset.sum_congr rfl
      intro i _
      rw [mbCreateAll_eq]
      ring
    · show MB.force _ pos 1 = _ * MB.force _ pos 1
      rw [MB.force_one, MB.force_one, Finset.mul_sum]
      apply Finset.sum_congr rfl
      intro i _
      rw [mbCreateAll_eq]
      ring

/-- **C34.** The property holds if a single potential is created in the process with a non-zero factor (as
`main` does) or without factor. (Missing for C34: several potentials, factor 0.) -/
theorem mb_scaling_partial (s : ℝ) (hs : s ≠ 0) (pos : Fin 2 → ℝ) :
    MB.energy (mbCreateAll [some s]) pos - MB.potShift = s * (MB.energy MB.prefactors pos - MB.potShift) ∧
    MB.energy (mbCreateAll [none]) pos = MB.energy MB.prefactors pos := by
  constructor
  · rw [(mb_scaling_exact_partial [some s] pos).1]
    simp [mbFactor, hs]
  · have := (mb_scaling_exact_partial [none] pos).1
    simp [mbFactor] at this
    linarith

example : (2 : ℝ) ≠ 0 := by norm_num

theorem mb_exp_part_ne : MB.energy MB.prefactors ![-1, 1] - MB.potShift < 0 := by
  rw [MB.energy_eq, add_sub_cancel_right, Fin.sum_univ_four]
  simp only [MB.prefactors, Matrix.cons_val_zero, Matrix.cons_val_one, Matrix.cons_val]
  have h0 : 0 < MB.expTmp 0 (-1) 1 := Real.exp_pos _
  have h1 : 0 < MB.expTmp 1 (-1) 1 := Real.exp_pos _
  have h2 : 1 / 2 ≤ MB.expTmp 2 (-1) 1 := by
    have e : MB.expTmp 2 (-1) 1 = Real.exp (-1 / 2) := by
      simp [MB.expTmp, MB.a, MB.b, MB.c, MB.x0, MB.y0]
      norm_num
    rw [e]
    have := Real.add_one_le_exp (-1 / 2 : ℝ)
    linarith
  have h3 : MB.expTmp 3 (-1) 1 = 1 := by
    simp [MB.expTmp, MB.a, MB.b, MB.c, MB.x0, MB.y0]
  rw [h3]
  linarith

/-- **C34 is false:** the second potential created with factor 2 has four times the exponential part (and
the first one changes as well), and a factor of 0 is ignored. -/
theorem mb_scaling_false :
    (¬ ∀ (before : List (Option ℝ)) (s : ℝ) (pos : Fin 2 → ℝ),
      MB.energy (mbCreateAll (before ++ [some s])) pos - MB.potShift =
        s * (MB.energy MB.prefactors pos - MB.potShift)) ∧
    (¬ ∀ (after : List (Option ℝ)) (s : ℝ) (pos : Fin 2 → ℝ), s ≠ 0 →
      MB.energy (mbCreateAll (some s :: after)) pos - MB.potShift =
        s * (MB.energy MB.prefactors pos - MB.potShift)) ∧
    (¬ ∀ (s : ℝ) (pos : Fin 2 → ℝ), MB.energy (mbCreateAll [some s]) pos - MB.potShift =
        s * (MB.energy MB.prefactors pos - MB.potShift)) := by
  have h0 := mb_exp_part_ne
  refine ⟨fun h => ?_, fun h => ?_, fun h => ?_⟩
  · have h1 := h [some 2] 2 ![-1, 1]
    rw [(mb_scaling_exact_partial _ _).1] at h1
    simp only [mbFactor, List.map_cons, List.map_nil, List.cons_append, List.nil_append, Option.getD_some,
      OfNat.ofNat_ne_zero, if_false, List.prod_cons, List.prod_nil] at h1
    linarith
  · have h1 := h [some 2] 2 ![-1, 1] (by norm_num)
    rw [(mb_scaling_exact_partial _ _).1] at h1
    simp only [mbFactor, List.map_cons, List.map_nil, Option.getD_some,
      OfNat.ofNat_ne_zero, if_false, List.prod_cons, List.prod_nil] at h1
    linarith
  · have h1 := h 0 ![-1, 1]
    rw [(mb_scaling_exact_partial _ _).1] at h1
    simp [mbFactor] at h1
    linarith

end Bdld
