import Verif.Model.Polynomial
import Verif.Spec.Polynomial
import Verif.Lemmas.Except
import Mathlib.Data.Fin.Tuple.Finset
import Mathlib.Algebra.BigOperators.Fin
import Mathlib.Algebra.BigOperators.Ring.Finset
import Mathlib.Analysis.Calculus.Deriv.Pi
import Mathlib.Analysis.Calculus.Deriv.Pow
import Mathlib.Analysis.Calculus.Deriv.Add
import Mathlib.Analysis.Calculus.Deriv.Mul
import Mathlib.Analysis.Calculus.Deriv.Comp
import Mathlib.Analysis.Calculus.ContDiff.Operations
import Mathlib.Tactic.NormNum
import Mathlib.Tactic.Ring

/-
Helper lemmas for `Props/Polynomial.lean`.
-/

namespace Bdld
open Spec

theorem horner_succ (n : Nat) (x : ℝ) (c : Nat → ℝ) :
    horner (n + 2) x c = c 0 + horner (n + 1) x (fun i => c (i + 1)) * x := by
  unfold horner
  simp only [Nat.add_sub_cancel]
  rw [show n + 2 - 1 = n + 1 by omega, List.range_succ, List.map_append, List.foldl_append]
  simp only [List.map_cons, List.map_nil, List.foldl_cons, List.foldl_nil]
  have h : (List.range n).map (fun i => c (n + 2 - (i + 2))) =
      (List.range n).map (fun i => c (n + 1 - (i + 2) + 1)) := by
    apply List.map_congr_left
    intro i hi
    have := List.mem_range.1 hi
    congr 1
    omega
  rw [h, show n + 2 - (n + 2) = 0 by omega]

theorem horner_eq (n : Nat) (hn : 0 < n) (x : ℝ) : ∀ c : Nat → ℝ,
    horner n x c = ∑ i ∈ Finset.range n, c i * x ^ i := by
  obtain ⟨m, rfl⟩ : ∃ m, n = m + 1 := ⟨n - 1, by omega⟩
  induction m with
  | zero => intro c; simp [horner]
  | succ m ih =>
    intro c
    rw [horner_succ, ih (by omega), Finset.sum_range_succ' _ (m + 1), Finset.sum_mul]
    rw [add_comm]
    congr 1
    · apply Finset.sum_congr rfl; intro i _; ring
    · simp

theorem sum_box_succ {d : Nat} (s : Fin (d + 1) → Nat) (f : (Fin (d + 1) → Nat) → ℝ) :
    ∑ e ∈ box s, f e = ∑ e ∈ box (Fin.tail s), ∑ i ∈ Finset.range (s 0), f (Fin.cons i e) := by
  rw [← Finset.sum_product']
  unfold box
  refine Finset.sum_nbij' (fun e => (Fin.tail e, e 0)) (fun p => Fin.cons p.2 p.1) ?_ ?_ ?_ ?_ ?_
  · intro e he
    have := Fin.mem_piFinset_iff_zero_tail.1 he
    exact Finset.mem_product.2 ⟨this.2, this.1⟩
  · intro p hp
    have := Finset.mem_product.1 hp
    exact Fin.mem_piFinset_iff_zero_tail.2 ⟨by simpa using this.2, by
      rw [Fin.tail_cons]; exact this.1⟩
  · intro e _; simp
  · intro p _; simp
  · intro e _; simp

theorem monomial_cons {d : Nat} (i : Nat) (e : Fin d → Nat) (x : Fin (d + 1) → ℝ) :
    monomial (Fin.cons i e : Fin (d + 1) → Nat) x = x 0 ^ i * monomial e (Fin.tail x) := by
  unfold monomial
  rw [Fin.prod_univ_succ]
  simp [Fin.tail]

theorem polyvalNd_eq : (d : Nat) → (x : Fin d → ℝ) → (a : NdArr d) → (∀ k, 0 < a.shape k) →
    polyvalNd d x a = polySum a.shape a.val x
  | 0, x, a, _ => by
    unfold polyvalNd polySum
    have : box a.shape = {Fin.elim0} := by
      ext e
      simp only [box, Finset.mem_singleton]
      exact ⟨fun _ => Subsingleton.elim _ _, fun _ => Fintype.mem_piFinset.2 (fun k => k.elim0)⟩
    rw [this]
    simp [monomial]
  | d + 1, x, a, h => by
    unfold polyvalNd
    rw [polyvalNd_eq d _ _ (fun k => h k.succ)]
    unfold polySum
    rw [sum_box_succ]
    apply Finset.sum_congr rfl
    intro e _
    dsimp only
    rw [horner_eq _ (h 0), Finset.sum_mul]
    apply Finset.sum_congr rfl
    intro i _
    rw [monomial_cons]
    ring

theorem monomial_update {d : Nat} (e : Fin d → Nat) (x : Fin d → ℝ) (k : Fin d) (t : ℝ) :
    monomial e (Function.update x k t) = t ^ e k * ∏ j ∈ Finset.univ.erase k, x j ^ e j := by
  unfold monomial
  rw [← Finset.mul_prod_erase Finset.univ _ (Finset.mem_univ k)]
  simp only [Function.update_self]
  congr 1
  apply Finset.prod_congr rfl
  intro j hj
  rw [Function.update_of_ne (Finset.ne_of_mem_erase hj)]

theorem monomial_split {d : Nat} (e : Fin d → Nat) (x : Fin d → ℝ) (k : Fin d) :
    monomial e x = x k ^ e k * ∏ j ∈ Finset.univ.erase k, x j ^ e j := by
  conv_lhs => rw [← Function.update_eq_self k x]
  exact monomial_update e x k (x k)

/-- Derivative of the polynomial along coordinate `k`. -/
theorem polySum_hasDerivAt {d : Nat} (s : Fin d → Nat) (c : (Fin d → Nat) → ℝ) (x : Fin d → ℝ) (k : Fin d) :
    HasDerivAt (fun t => polySum s c (Function.update x k t))
      (∑ e ∈ box s, c e * ((e k : ℝ) * x k ^ (e k - 1) * ∏ j ∈ Finset.univ.erase k, x j ^ e j)) (x k) := by
  unfold polySum
  apply HasDerivAt.fun_sum
  intro e _
  apply HasDerivAt.const_mul
  simp only [monomial_update]
  exact (hasDerivAt_pow (e k) (x k)).mul_const _

theorem polyder_shape_pos {d : Nat} (a : NdArr d) (h : ∀ k, 0 < a.shape k) (k j : Fin d) :
    0 < (polyder a k).shape j := by
  unfold polyder
  split
  · by_cases hj : j = k
    · subst hj; simp
    · simp [hj, h j]
  · by_cases hj : j = k
    · subst hj; simp; omega
    · simp [hj, h j]

/-- `polyder` gives the derivative of the polynomial along its axis. -/
theorem polyder_sum {d : Nat} (a : NdArr d) (x : Fin d → ℝ) (k : Fin d) :
    polySum (polyder a k).shape (polyder a k).val x =
      ∑ e ∈ box a.shape, a.val e * ((e k : ℝ) * x k ^ (e k - 1) * ∏ j ∈ Finset.univ.erase k, x j ^ e j) := by
  unfold polyder
  by_cases h1 : a.shape k ≤ 1
  · rw [if_pos h1]
    have h2 : polySum (Function.update a.shape k 1) (fun _ => 0) x = 0 := by simp [polySum]
    refine h2.trans ?_
    symm
    apply Finset.sum_eq_zero
    intro e he
    have h3 : e k < a.shape k := Finset.mem_range.1 (Fintype.mem_piFinset.1 he k)
    have h4 : e k = 0 := by omega
    simp [h4]
  · rw [if_neg h1]
    unfold polySum
    dsimp only
    apply Finset.sum_of_injOn (fun e => Function.update e k (e k + 1))
    · intro e1 _ e2 _ he
      dsimp only at he
      funext j
      have hj := congrFun he j
      by_cases hjk : j = k
      · subst hjk; simpa using hj
      · simpa [hjk] using hj
    · intro e he
      refine Fintype.mem_piFinset.2 fun j => ?_
      have hj := Finset.mem_range.1 (Fintype.mem_piFinset.1 he j)
      dsimp only
      by_cases hjk : j = k
      · subst hjk
        simp at hj ⊢
        omega
      · simpa [hjk] using hj
    · intro e he hne
      have h0 : e k = 0 := by
        by_contra h0
        apply hne
        refine ⟨Function.update e k (e k - 1), ?_, ?_⟩
        · refine Finset.mem_coe.2 (Fintype.mem_piFinset.2 fun j => ?_)
          have hj := Finset.mem_range.1 (Fintype.mem_piFinset.1 he j)
          by_cases hjk : j = k
          · subst hjk; simp; omega
          · simpa [hjk] using hj
        · dsimp only
          simp only [Function.update_self, Function.update_idem]
          rw [show e k - 1 + 1 = e k by omega, Function.update_eq_self]
      simp [h0]
    · intro e _
      rw [monomial_split e x k]
      simp only [Function.update_self, Nat.add_sub_cancel]
      have : ∏ j ∈ Finset.univ.erase k, x j ^ (Function.update e k (e k + 1) j) =
          ∏ j ∈ Finset.univ.erase k, x j ^ e j := by
        apply Finset.prod_congr rfl
        intro j hj
        rw [Function.update_of_ne (Finset.ne_of_mem_erase hj)]
      rw [this]
      ring

/-- A differentiable function whose partial derivatives are `g k` has the total derivative given by them. -/
theorem hasFDerivAt_of_partials {d : Nat} (f : (Fin d → ℝ) → ℝ) (x : Fin d → ℝ) (g : Fin d → ℝ)
    (hf : DifferentiableAt ℝ f x)
    (h : ∀ k, HasDerivAt (fun t => f (Function.update x k t)) (g k) (x k)) :
    HasFDerivAt f (∑ k, g k • ContinuousLinearMap.proj (R := ℝ) (φ := fun _ : Fin d => ℝ) k) x := by
  have h1 : ∀ k, fderiv ℝ f x (Pi.single k 1) = g k := by
    intro k
    have h2 : HasFDerivAt f (fderiv ℝ f x) (Function.update x k (x k)) := by
      rw [Function.update_eq_self]; exact hf.hasFDerivAt
    exact (h2.comp_hasDerivAt (x k) (hasDerivAt_update x k (x k))).unique (h k)
  have h3 : fderiv ℝ f x = ∑ k, g k • ContinuousLinearMap.proj (R := ℝ) (φ := fun _ : Fin d => ℝ) k := by
    ext v
    have hv : v = ∑ k, v k • (Pi.single k 1 : Fin d → ℝ) := by
      funext j
      simp [Finset.sum_apply, Pi.single_apply]
    conv_lhs => rw [hv]
    rw [map_sum]
    simp only [map_smul, h1, smul_eq_mul, _root_.sum_apply, _root_.smul_apply,
      ContinuousLinearMap.proj_apply]
    apply Finset.sum_congr rfl
    intro k _
    ring
  rw [← h3]
  exact hf.hasFDerivAt

theorem polySum_differentiable {d : Nat} (s : Fin d → Nat) (c : (Fin d → Nat) → ℝ) :
    Differentiable ℝ (polySum s c) := by
  unfold polySum monomial
  apply Differentiable.fun_sum
  intro e _
  apply Differentiable.const_mul
  have h : ContDiff ℝ 1 (fun y : Fin d → ℝ => ∏ k, y k ^ e k) :=
    contDiff_prod (fun k _ => (contDiff_apply ℝ ℝ k).pow _)
  exact h.differentiable (by norm_num)

end Bdld
