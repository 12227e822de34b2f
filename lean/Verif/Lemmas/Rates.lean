import Verif.Model.Rates
import Verif.Spec.Kernel
import Mathlib.Tactic.Ring
import Mathlib.Tactic.FieldSimp
import Mathlib.Tactic.Positivity
import Mathlib.Tactic.Linarith

/-
Helper lemmas on the condensed distance vector, the kernel and sums.
-/

namespace Bdld

theorem pdist_prefix_length {α : Type} (n : Nat) (f : Nat → Nat → α) (i : Nat) (h : i ≤ n) :
    ((List.range i).flatMap (fun i => (List.range (n - 1 - i)).map (fun k => f i (i + 1 + k)))).length
      + i * (i + 1) / 2 = n * i := by
  induction i with
  | zero => simp
  | succ i ih =>
    have ih := ih (by omega)
    rw [List.range_succ, List.flatMap_append, List.length_append]
    simp only [List.flatMap_cons, List.flatMap_nil, List.append_nil, List.length_map, List.length_range]
    have h1 : (i + 1) * (i + 1 + 1) / 2 = i * (i + 1) / 2 + (i + 1) := by
      rw [show (i + 1) * (i + 1 + 1) = i * (i + 1) + (i + 1) * 2 by ring, Nat.add_mul_div_right _ _ (by omega)]
    rw [h1, show n * (i + 1) = n * i + n from Nat.mul_succ n i]
    generalize i * (i + 1) / 2 = a at *
    generalize n * i = b at *
    omega

theorem pdist_length {α : Type} (n : Nat) (f : Nat → Nat → α) :
    (pdistList n f).length = n * (n - 1) / 2 := by
  have h := pdist_prefix_length n f n le_rfl
  unfold pdistList
  rcases n with _ | m
  · simp
  · have : (m + 1) * (m + 1 + 1) / 2 = (m + 1) * m / 2 + (m + 1) := by
      rw [show (m + 1) * (m + 1 + 1) = (m + 1) * m + (m + 1) * 2 by ring,
        Nat.add_mul_div_right _ _ (by omega)]
    have h2 : (m + 1) * m / 2 + (m + 1) * m / 2 = (m + 1) * m := by
      have := Nat.even_mul_succ_self m
      obtain ⟨r, hr⟩ := this
      rw [Nat.mul_comm] at hr
      omega
    have h3 : (m + 1) * (m + 1) = (m + 1) * m + (m + 1) := by ring
    simp only [Nat.add_sub_cancel] at *
    omega

theorem pdist_get {α : Type} (n : Nat) (f : Nat → Nat → α) (i j : Nat) (hij : i < j) (hj : j < n) :
    (pdistList n f)[condensedIndex n i j]? = some (f i j) := by
  have hlen := pdist_prefix_length n f i (by omega)
  have hr : List.range n = List.range i ++ (i :: (List.range (n - 1 - i)).map (fun k => i + 1 + k)) := by
    have : n = i + (1 + (n - 1 - i)) := by omega
    conv_lhs => rw [this, List.range_add, List.range_add]
    simp only [List.range_succ, List.range_zero, List.nil_append, List.map_cons, Nat.add_zero,
      List.map_map, List.cons_append, List.append_cancel_left_eq, List.cons.injEq, true_and]
    apply List.map_congr_left
    intro a _
    simp only [Function.comp]
    omega
  unfold pdistList
  rw [hr, List.flatMap_append, List.flatMap_cons]
  have hidx : condensedIndex n i j =
      ((List.range i).flatMap (fun i => (List.range (n - 1 - i)).map (fun k => f i (i + 1 + k)))).length
        + (j - i - 1) := by
    unfold condensedIndex; omega
  rw [hidx, List.getElem?_append_right (by omega), Nat.add_sub_cancel_left,
    List.getElem?_append_left (by simp; omega)]
  simp only [List.getElem?_map]
  rw [List.getElem?_range (by omega)]
  simp only [Option.map_some, Option.some.injEq]
  congr 1
  omega

/-- The matrix rebuilt from a symmetric function by `pdist` and `squareform`. -/
theorem squareform_pdist {α : Type} (n : Nat) (f : Nat → Nat → α) (g : α → ℝ) (i j : Fin n) (h : i ≠ j) :
    squareform n ((pdistList n f).map g) i j
      = g (f (min i.val j.val) (max i.val j.val)) := by
  unfold squareform
  rw [if_neg h]
  have h' : i.val ≠ j.val := fun e => h (Fin.ext e)
  have := pdist_get n f (min i.val j.val) (max i.val j.val) (by omega) (by omega)
  rw [List.getD_eq_getElem?_getD, List.getElem?_map, this]
  rfl

theorem posRow_val {n d : Nat} (pos : Fin n → Fin d → ℝ) (i : Fin n) : posRow pos i.val = pos i := by
  unfold posRow; rw [dif_pos i.isLt]

theorem sq_symm_posRow {n d : Nat} (pos : Fin n → Fin d → ℝ) (i j : Fin n) (k : Fin d) :
    (posRow pos (min i.val j.val) k - posRow pos (max i.val j.val) k) ^ 2 = (pos j k - pos i k) ^ 2 := by
  rcases le_total i.val j.val with h | h
  · rw [min_eq_left h, max_eq_right h, posRow_val, posRow_val]; ring
  · rw [min_eq_right h, max_eq_left h, posRow_val, posRow_val]

theorem calcKernel_eq {d : Nat} (bw x : Fin d → ℝ) : calcKernel bw x = Spec.kernel bw x := by
  unfold calcKernel Spec.kernel Spec.normalPdf
  rw [Finset.prod_mul_distrib, ← Real.exp_sum, Finset.sum_neg_distrib]
  congr 1
  rw [Finset.prod_div_distrib, Finset.prod_const_one, Finset.prod_mul_distrib, Finset.prod_const,
    Finset.card_univ, Fintype.card_fin, mul_comm]
  congr 2
  rw [Real.sqrt_eq_rpow, ← Real.rpow_natCast, ← Real.rpow_mul (by positivity)]
  congr 1
  ring

theorem kernel_symm {d : Nat} (bw x : Fin d → ℝ) : Spec.kernel bw (-x) = Spec.kernel bw x := by
  unfold Spec.kernel Spec.normalPdf
  simp

theorem kernel_pos {d : Nat} (bw x : Fin d → ℝ) (h : ∀ k, 0 < bw k) : 0 < Spec.kernel bw x := by
  unfold Spec.kernel Spec.normalPdf
  apply Finset.prod_pos
  intro k _
  have := h k
  positivity

theorem gaussMatrixN_eq {n d : Nat} (pos : Fin n → Fin d → ℝ) (bw : Fin d → ℝ) (i j : Fin n) :
    gaussMatrixN pos bw i j = Spec.kernel bw (pos j - pos i) := by
  unfold gaussMatrixN fillDiagonal
  by_cases h : i = j
  · rw [if_pos h, h]
    unfold Spec.kernel Spec.normalPdf
    simp [mul_comm]
  · rw [if_neg h]
    unfold squareform
    rw [if_neg h]
    have h' : i.val ≠ j.val := fun e => h (Fin.ext e)
    have hlt : condensedIndex n (min i.val j.val) (max i.val j.val) < n * (n - 1) / 2 := by
      have := pdist_get n (fun i j => (i, j)) (min i.val j.val) (max i.val j.val) (by omega) (by omega)
      have := List.getElem?_eq_some_iff.1 this
      obtain ⟨hl, -⟩ := this
      rwa [pdist_length] at hl
    rw [List.getD_eq_getElem?_getD, List.getElem?_map, List.getElem?_range hlt]
    simp only [Option.map_some, Option.getD_some]
    unfold Spec.kernel
    apply Finset.prod_congr rfl
    intro k _
    rw [List.getD_eq_getElem?_getD, List.getElem?_map, pdist_get n _ _ _ (by omega) (by omega)]
    simp only [Option.map_some, Option.getD_some, Spec.normalPdf, Pi.sub_apply]
    rw [sq_symm_posRow, mul_comm (bw k), neg_div]

theorem gaussMatrix1_eq {n : Nat} (pos : Fin n → Fin 1 → ℝ) (bw : Fin 1 → ℝ) (i j : Fin n) :
    gaussMatrix1 pos bw i j = Spec.kernel bw (pos j - pos i) := by
  have hf : firstOf bw = bw 0 := by simp [firstOf]
  unfold gaussMatrix1 fillDiagonal
  by_cases h : i = j
  · rw [if_pos h, h]
    unfold Spec.kernel Spec.normalPdf
    simp [mul_comm, hf]
  · rw [if_neg h, squareform_pdist n _ _ i j h]
    unfold Spec.kernel Spec.normalPdf
    simp only [Finset.univ_unique, Fin.default_eq_zero, Fin.isValue, Finset.sum_singleton,
      Finset.prod_singleton, Pi.sub_apply]
    rw [sq_symm_posRow, hf, mul_comm (bw 0), neg_div]

end Bdld
