import Verif.Props.RoundingRates

/-
C111, consistency: with exact real numbers the computed rates are the rates of `Model/Rates.lean`.
-/

namespace Bdld
open Spec

noncomputable section

/-- Functions without rounding errors, sums in any order. -/
def exactFns (order : Nat → AddTree) : FloatFns ℝ where
  exp := Real.exp
  log := Real.log
  abs := fun x => |x|
  le := fun x y => @decide (x ≤ y) (Classical.propDecidable _)
  zero := 0
  one := 1
  ofNat := fun n => n
  isInf := fun _ => false
  order := order

/-- Constants without rounding errors. -/
def exactRateCfg {d : Nat} (c : RateCfg d) (dt rateFac : ℝ) : FloatRateCfg ℝ d where
  height := fun k => 1 / (Real.sqrt (2 * Real.pi) * c.bw k)
  width := fun k => 2 * c.bw k ^ 2
  pref := 1 / ((2 * Real.pi) ^ ((d : ℝ) / 2) * ∏ k, c.bw k)
  invKt := 1 / c.kt
  dt := dt
  rateFac := rateFac
  variant := c.variant
  approx := c.approx

theorem tree_exact (x : Nat → ℝ) : ∀ t : AddTree, t.eval x = (t.leaves.map x).sum
  | .leaf i => by simp [AddTree.eval, AddTree.leaves]
  | .node l r => by
    rw [AddTree.eval, AddTree.leaves, List.map_append, List.sum_append, tree_exact x l, tree_exact x r]

variable {order : Nat → AddTree} (ho : ∀ n, 0 < n → (order n).leaves.Perm (List.range n))
include ho

theorem sum_exact {n : Nat} (hn : 0 < n) (v : Fin n → ℝ) : sumF (exactFns order) (List.ofFn v) = ∑ i, v i := by
  unfold sumF
  have hl : (List.ofFn v).length = n := by simp
  rw [hl]
  change AddTree.eval _ (order n) = _
  rw [tree_exact, ((ho n hn).map _).sum_eq, ← List.sum_ofFn]
  congr 1
  refine List.ext_getElem (by simp) fun i h1 h2 => ?_
  have : i < n := by simpa using h2
  simp [this]

theorem mean_exact {n : Nat} (hn : 0 < n) (v : Fin n → ℝ) : meanF (exactFns order) (List.ofFn v) = (∑ i, v i) / n := by
  unfold meanF
  rw [sum_exact ho hn]
  simp [exactFns]

omit ho in
theorem prod_exact {n : Nat} (v : Fin n → ℝ) : prodF (exactFns order) (List.ofFn v) = ∏ i, v i := by
  rw [← List.prod_ofFn]
  cases List.ofFn v with
  | nil => rfl
  | cons x l =>
    rw [List.prod_cons]
    unfold prodF
    dsimp only
    induction l generalizing x with
    | nil => simp
    | cons y l ih => rw [List.foldl_cons, ih, List.prod_cons, mul_assoc]

/-- The density. -/
theorem density_exact {n d : Nat} (hd : 0 < d) (c : RateCfg d) (dt rateFac : ℝ) (pos : Fin n → Fin d → ℝ) (j : Fin n) :
    densityF (exactFns order) (exactRateCfg c dt rateFac) pos j = kde c.bw pos (pos j) := by
  have hg : ∀ x y : Fin d → ℝ, prodF (exactFns order) (List.ofFn (gaussF (exactFns order) (exactRateCfg c dt rateFac) x y)) =
      kernel c.bw (x - y) := by
    intro x y
    rw [prod_exact]
    refine Finset.prod_congr rfl fun k _ => ?_
    simp only [gaussF, exactFns, exactRateCfg, normalPdf, Pi.sub_apply, neg_div]
    rw [mul_comm (Real.sqrt _), sq (x k - y k)]
  unfold densityF kde
  split
  · rw [mean_exact ho j.pos]
    congr 1
    refine Finset.sum_congr rfl fun i _ => ?_
    unfold gaussMatrixF
    split
    · next h =>
      rw [h, sub_self, prod_exact]
      refine Finset.prod_congr rfl fun k _ => ?_
      simp [exactRateCfg, normalPdf, mul_comm]
    · split
      · rw [hg, ← kernel_symm, neg_sub]
      · rw [hg]
  · rw [mean_exact ho j.pos]
    congr 1
    refine Finset.sum_congr rfl fun i _ => ?_
    rw [← calcKernel_eq]
    unfold kernelF calcKernel
    rw [sum_exact ho hd]
    simp only [exactFns, exactRateCfg, Pi.sub_apply, sq]

/-- **C111.** Without rounding errors, `calc_betas` in the form for any kind of numbers gives the rates of the exact model, for
every order of additions. -/
theorem rates_exact {n d : Nat} (hd : 0 < d) (c : RateCfg d) (hbw : ∀ k, 0 < c.bw k) (dt rateFac : ℝ) (pos : Fin n → Fin d → ℝ)
    (ene : Fin n → ℝ) (i : Fin n) :
    ((betasF (exactFns order) (exactRateCfg c dt rateFac) pos ene i : ℝ) : WithBot ℝ) = calcBetas c pos ene i ∧
      ∀ b : ℝ, probF (exactFns order) (exactRateCfg c dt rateFac) b = acceptProb dt rateFac b := by
  refine ⟨?_, fun b => rfl⟩
  rw [rates_eq c hbw]
  have hcen : ∀ v : Fin n → ℝ, centreF (exactFns order) v i = centred v i := by
    intro v
    unfold centreF centred
    have : (List.ofFn v).filter (fun x => !(exactFns order).isInf x) = List.ofFn v := by
      rw [List.filter_eq_self]
      intro x _
      rfl
    rw [this, mean_exact ho i.pos]
  have hlog : ∀ i, (exactFns order).log (densityF (exactFns order) (exactRateCfg c dt rateFac) pos i) =
      Real.log (kde c.bw pos (pos i)) := by
    intro i
    rw [density_exact ho hd]
    rfl
  unfold betasF rawRate
  simp only [hlog]
  cases hv : c.variant <;> simp [exactRateCfg, hv, div_eq_mul_inv, hcen]

end

end Bdld
