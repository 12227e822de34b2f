import Verif.Lemmas.Grid
import Mathlib.Algebra.BigOperators.Ring.List
import Mathlib.Algebra.BigOperators.Group.List.Basic
import Mathlib.Algebra.Order.BigOperators.Group.List
import Mathlib.Algebra.Order.Field.Basic
import Mathlib.Algebra.Field.Rat
import Mathlib.Data.List.Induction
import Mathlib.Tactic.Linarith
import Mathlib.Tactic.FieldSimp
import Mathlib.Tactic.NormNum
import Mathlib.Tactic.Positivity

/-
Properties of the multidimensional trapezoidal rule (C50).
-/

namespace Bdld

/-- One dimension: the cells of the trapezoidal rule add up to the weights of the points. -/
theorem trapz_weights {F : Type} [Field F] [CharZero F] (n : Nat) (h : F) (f : Nat → F) :
    ((List.range (n - 1)).map (fun i => h * (f (i + 1) + f i) / 2)).sum
      = ((List.range n).map (fun c => Spec.trapWeight n c * h * f c)).sum := by
  rcases n with _ | n
  · simp
  rcases n with _ | n
  · simp [Spec.trapWeight]
  -- strip the weight of the last point
  have key : ∀ m : Nat, ((List.range (m + 1)).map (fun i => h * (f (i + 1) + f i) / 2)).sum
      = ((List.range (m + 1)).map (fun c => (if c = 0 then (1 / 2 : F) else 1) * h * f c)).sum
        + 1 / 2 * h * f (m + 1) := by
    intro m
    induction m with
    | zero => simp; ring
    | succ m ih =>
      rw [sum_range_succ, ih, sum_range_succ (m + 1), if_neg (by omega)]
      ring
  rw [show n + 1 + 1 - 1 = n + 1 by omega, key n, sum_range_succ (n + 1)]
  have e1 : (Spec.trapWeight (n + 1 + 1) (n + 1) : F) = 1 / 2 := by
    rw [Spec.trapWeight, if_neg (by omega), if_pos (by omega)]
  rw [e1]
  refine congrArg (· + _) (congrArg List.sum (List.map_congr_left ?_))
  intro c hc
  rw [List.mem_range] at hc
  have e2 : (Spec.trapWeight (n + 1 + 1) c : F) = if c = 0 then 1 / 2 else 1 := by
    rw [Spec.trapWeight, if_neg (by omega)]
    by_cases h0 : c = 0
    · rw [if_pos h0, if_pos (Or.inl h0)]
    · rw [if_neg h0, if_neg (by omega)]
  rw [e2]

theorem trapWeights_append {F : Type} [Field F] (s : List Nat) (n : Nat) (hs : List F) (h : F)
    (idx : List Nat) (c : Nat) (h1 : hs.length = s.length) (h2 : idx.length = s.length) :
    Spec.trapWeights (s ++ [n]) (hs ++ [h]) (idx ++ [c])
      = Spec.trapWeights s hs idx * (Spec.trapWeight n c * h) := by
  induction s generalizing hs idx with
  | nil =>
    have e1 := List.length_eq_zero_iff.mp h1
    have e2 := List.length_eq_zero_iff.mp h2
    subst e1 e2
    simp [Spec.trapWeights]
  | cons m s ih =>
    cases hs with
    | nil => simp at h1
    | cons k hs =>
      cases idx with
      | nil => simp at h2
      | cons i idx =>
        simp only [List.cons_append, Spec.trapWeights]
        rw [ih hs idx (by simpa using h1) (by simpa using h2)]
        ring

theorem ndTrapz_append {F : Type} [Field F] (a : NdFn F) (hs : List F) (h : F) :
    ndTrapz a (hs ++ [h]) = ndTrapz (trapzLast a h) hs := by
  unfold ndTrapz
  rw [List.reverse_append]
  rfl

/-- C50: `nd_trapz` is the product trapezoidal sum. -/
theorem nd_trapz_eq {F : Type} [Field F] [CharZero F] (a : NdFn F) (dx : List F)
    (h : dx.length = a.shape.length) : (ndTrapz a dx).val [] = Spec.trapSum a.shape dx a.val := by
  unfold Spec.trapSum
  rw [rowMajor_range]
  obtain ⟨s, f⟩ := a
  simp only at h ⊢
  induction s using List.reverseRecOn generalizing f dx with
  | nil =>
    have e1 := List.length_eq_zero_iff.mp h
    subst e1
    simp [ndTrapz, indices, Spec.trapWeights]
  | append_singleton s n ih =>
    rw [List.length_append, List.length_singleton] at h
    obtain ⟨hs, hl, rfl⟩ : ∃ hs hl, dx = hs ++ [hl] := by
      rcases List.eq_nil_or_concat dx with rfl | ⟨hs, hl, rfl⟩
      · simp at h
      · exact ⟨hs, hl, by simp⟩
    rw [List.length_append, List.length_singleton, Nat.add_right_cancel_iff] at h
    rw [ndTrapz_append]
    have e : trapzLast (⟨s ++ [n], f⟩ : NdFn F) hl = ⟨s, fun idx => ((List.range (n - 1)).map
        (fun i => hl * (f (idx ++ [i + 1]) + f (idx ++ [i])) / 2)).sum⟩ := by
      simp [trapzLast]
    rw [e, ih hs _ h, indices_append_single, sum_map_flatMap]
    congr 1
    apply List.map_congr_left
    intro idx hidx
    have hil := inShape_length _ _ ((mem_indices _ _).mp hidx)
    rw [trapz_weights n hl (fun c => f (idx ++ [c])), List.map_map, ← List.sum_map_mul_left]
    congr 1
    apply List.map_congr_left
    intro c _
    simp only [Function.comp_apply]
    rw [trapWeights_append s n hs hl idx c h hil]
    ring

/-- Two by three points. -/
example : (ndTrapz (⟨[2, 3], fun idx => (idx.getD 0 0 : ℚ) + 10 * (idx.getD 1 0 : ℚ)⟩ : NdFn ℚ) [2, 1]).val []
    = 42 := by
  norm_num [ndTrapz, trapzLast, List.range_succ]

/-- C50: linear in the data. -/
theorem nd_trapz_linear {F : Type} [Field F] [CharZero F] (s : List Nat) (f g : List Nat → F) (c : F)
    (dx : List F) (h : dx.length = s.length) :
    (ndTrapz ⟨s, fun idx => c * f idx + g idx⟩ dx).val []
      = c * (ndTrapz ⟨s, f⟩ dx).val [] + (ndTrapz ⟨s, g⟩ dx).val [] := by
  rw [nd_trapz_eq _ _ h, nd_trapz_eq _ _ h, nd_trapz_eq _ _ h]
  unfold Spec.trapSum
  rw [← List.sum_map_mul_left, ← List.sum_map_add]
  congr 1
  apply List.map_congr_left
  intro idx _
  ring

theorem sum_trapWeight {F : Type} [Field F] [CharZero F] (n : Nat) (hn : 1 ≤ n) (h : F) :
    ((List.range n).map (fun c => Spec.trapWeight n c * h)).sum = h * ((n : F) - 1) := by
  have := trapz_weights n h (fun _ => (1 : F))
  simp only [mul_one] at this
  rw [← this]
  obtain ⟨m, rfl⟩ : ∃ m, n = m + 1 := ⟨n - 1, by omega⟩
  simp
  ring

/-- C50: constant data gives the volume times the constant. -/
theorem nd_trapz_const {F : Type} [Field F] [CharZero F] (s : List Nat) (c : F) (dx : List F)
    (h : dx.length = s.length) (hs : ∀ n ∈ s, 1 ≤ n) :
    (ndTrapz ⟨s, fun _ => c⟩ dx).val []
      = (List.zipWith (fun (n : Nat) h => h * ((n : F) - 1)) s dx).prod * c := by
  rw [nd_trapz_eq _ _ h]
  unfold Spec.trapSum
  rw [rowMajor_range]
  rw [List.sum_map_mul_right]
  congr 1
  simp only at h ⊢
  induction s generalizing dx with
  | nil => simp [indices, Spec.trapWeights]
  | cons n s ih =>
    cases dx with
    | nil => simp at h
    | cons d dx =>
      rw [indices, sum_map_flatMap, List.zipWith_cons_cons, List.prod_cons,
        ← ih dx (by simpa using h) (fun k hk => hs k (by simp [hk])),
        ← sum_trapWeight n (hs n (by simp)) d, ← List.sum_map_mul_right]
      congr 1
      apply List.map_congr_left
      intro i _
      rw [List.map_map, ← List.sum_map_mul_left]
      congr 1

theorem trapWeights_reverse {F : Type} [Field F] (s : List Nat) (hs : List F)
    (idx : List Nat) (h1 : hs.length = s.length) (h2 : idx.length = s.length) :
    Spec.trapWeights s.reverse hs.reverse idx.reverse = Spec.trapWeights s hs idx := by
  induction s generalizing hs idx with
  | nil =>
    have e1 := List.length_eq_zero_iff.mp h1
    have e2 := List.length_eq_zero_iff.mp h2
    subst e1 e2
    rfl
  | cons m s ih =>
    cases hs with
    | nil => simp at h1
    | cons k hs =>
      cases idx with
      | nil => simp at h2
      | cons i idx =>
        simp only [List.length_cons, Nat.add_right_cancel_iff] at h1 h2
        rw [List.reverse_cons, List.reverse_cons, List.reverse_cons, trapWeights_append _ _ _ _ _ _
          (by simp [h1]) (by simp [h2]), ih hs idx h1 h2, Spec.trapWeights]
        ring

theorem sum_indices_swap {F : Type} [AddCommMonoid F] (n : Nat) (s : List Nat) (f : Nat → List Nat → F) :
    ((List.range n).map (fun i => ((indices s).map (f i)).sum)).sum
      = ((indices s).map (fun idx => ((List.range n).map (fun i => f i idx)).sum)).sum := by
  induction n with
  | zero => simp
  | succ n ih =>
    rw [sum_range_succ, ih, ← List.sum_map_add]
    congr 1
    apply List.map_congr_left
    intro idx _
    rw [sum_range_succ]

theorem sum_indices_reverse {F : Type} [AddCommMonoid F] (s : List Nat) (f : List Nat → F) :
    ((indices s.reverse).map f).sum = ((indices s).map (fun idx => f idx.reverse)).sum := by
  induction s generalizing f with
  | nil => rfl
  | cons n s ih =>
    rw [List.reverse_cons, indices_append_single, sum_map_flatMap, indices, sum_map_flatMap]
    have e : ∀ idx : List Nat, (List.map f ((List.range n).map (fun c => idx ++ [c]))).sum
        = (fun idx => ((List.range n).map (fun c => f (idx ++ [c]))).sum) idx := by
      intro idx
      rw [List.map_map]
      rfl
    simp only [e]
    rw [ih, ← sum_indices_swap n s (fun c idx => f (idx.reverse ++ [c]))]
    congr 1
    apply List.map_congr_left
    intro i _
    rw [List.map_map]
    congr 1
    apply List.map_congr_left
    intro idx _
    simp

/-- C50: integrating the dimensions in the opposite order (first dimension first) gives the same value. -/
theorem nd_trapz_reverse {F : Type} [Field F] [CharZero F] (a : NdFn F) (dx : List F)
    (h : dx.length = a.shape.length) :
    (ndTrapz a.transpose dx.reverse).val [] = (ndTrapz a dx).val [] := by
  rw [nd_trapz_eq _ _ h, nd_trapz_eq _ _ (by simp [NdFn.transpose, h])]
  unfold Spec.trapSum
  rw [rowMajor_range, rowMajor_range, NdFn.transpose]
  simp only
  rw [sum_indices_reverse]
  congr 1
  apply List.map_congr_left
  intro idx hidx
  have hil := inShape_length _ _ ((mem_indices _ _).mp hidx)
  rw [trapWeights_reverse _ _ _ h hil, List.reverse_reverse]

/-- C50: exchanging the first two dimensions gives the same value. -/
theorem nd_trapz_swap {F : Type} [Field F] [CharZero F] (m n : Nat) (s : List Nat) (f : List Nat → F)
    (h k : F) (dx : List F) (hl : dx.length = s.length) :
    (ndTrapz ⟨n :: m :: s, fun idx => f (swap01 idx)⟩ (k :: h :: dx)).val []
      = (ndTrapz ⟨m :: n :: s, f⟩ (h :: k :: dx)).val [] := by
  rw [nd_trapz_eq _ _ (by simp [hl]), nd_trapz_eq _ _ (by simp [hl])]
  unfold Spec.trapSum
  rw [rowMajor_range, rowMajor_range]
  simp only [indices]
  rw [sum_map_flatMap, sum_map_flatMap]
  simp only [List.map_flatMap, List.map_map]
  have flat : ∀ (p : Nat) (g : Nat → List F),
      ((List.range p).flatMap g).sum = ((List.range p).map (fun i => (g i).sum)).sum := by
    intro p g
    have := sum_map_flatMap (List.range p) g id
    simpa using this
  simp only [flat]
  have comm : ∀ (p q : Nat) (g : Nat → Nat → F),
      ((List.range p).map (fun i => ((List.range q).map (fun j => g i j)).sum)).sum
        = ((List.range q).map (fun j => ((List.range p).map (fun i => g i j)).sum)).sum := by
    intro p q g
    induction p with
    | zero => simp
    | succ p ih =>
      rw [sum_range_succ, ih, ← List.sum_map_add]
      congr 1
      apply List.map_congr_left
      intro j _
      rw [sum_range_succ]
  rw [comm]
  congr 1
  apply List.map_congr_left
  intro i _
  congr 1
  apply List.map_congr_left
  intro j _
  congr 1
  apply List.map_congr_left
  intro idx _
  simp only [Function.comp_apply, swap01, Spec.trapWeights]
  ring

theorem trapWeights_nonneg {F : Type} [Field F] [LinearOrder F] [IsStrictOrderedRing F] (s : List Nat)
    (hs : List F) (idx : List Nat) (h0 : ∀ h ∈ hs, 0 ≤ h) : 0 ≤ Spec.trapWeights s hs idx := by
  induction s generalizing hs idx with
  | nil => simp [Spec.trapWeights]
  | cons n s ih =>
    cases hs with
    | nil => simp [Spec.trapWeights]
    | cons h hs =>
      cases idx with
      | nil => simp [Spec.trapWeights]
      | cons i idx =>
        rw [Spec.trapWeights]
        refine mul_nonneg (mul_nonneg ?_ (h0 h (by simp))) (ih hs idx (fun k hk => h0 k (by simp [hk])))
        unfold Spec.trapWeight
        split
        · exact le_rfl
        · split <;> norm_num

/-- C50: the integral of larger data is larger (for non-negative stepsizes). -/
theorem nd_trapz_mono {F : Type} [Field F] [LinearOrder F] [IsStrictOrderedRing F] (s : List Nat)
    (f g : List Nat → F) (dx : List F) (h : dx.length = s.length) (h0 : ∀ d ∈ dx, 0 ≤ d)
    (hfg : ∀ idx, inShape s idx = true → f idx ≤ g idx) :
    (ndTrapz ⟨s, f⟩ dx).val [] ≤ (ndTrapz ⟨s, g⟩ dx).val [] := by
  rw [nd_trapz_eq _ _ h, nd_trapz_eq _ _ h]
  unfold Spec.trapSum
  rw [rowMajor_range]
  apply List.sum_le_sum
  intro idx hidx
  exact mul_le_mul_of_nonneg_left (hfg idx ((mem_indices _ _).mp hidx)) (trapWeights_nonneg _ _ _ h0)

end Bdld
