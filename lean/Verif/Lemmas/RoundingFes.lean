import Verif.Lemmas.RoundingRates
import Verif.Spec.RoundingFes
import Verif.Model.FloatFes
import Verif.Props.Fes

/-
Relative errors.
-/

set_option linter.unusedSectionVars false

namespace Bdld
open Spec

section
variable {F : Type} [Add F] [Sub F] [Mul F] [Div F] [Neg F] [LT F] {A : Rounding F}

theorem relNear_mono {ε δ : ℝ} {a : F} {x : ℝ} (h : RelNear A ε a x) (hx : 0 ≤ x) (he : ε ≤ δ) : RelNear A δ a x :=
  ⟨h.1, h.2.trans (mul_le_mul_of_nonneg_right he hx)⟩

/-- Relative error of a sum of nonnegative numbers in any order. -/
theorem tree_sum_rel {ε : ℝ} (hε : 0 ≤ ε) (x : Nat → F) (y : Nat → ℝ) : ∀ t : AddTree,
    (∀ i ∈ t.leaves, RelNear A ε (x i) (y i) ∧ 0 ≤ y i) →
    (1 + ε) * (1 + A.u) ^ (t.leaves.length - 1) * (t.leaves.map y).sum ≤ A.Ω →
    0 < t.leaves.length ∧ 0 ≤ (t.leaves.map y).sum ∧
      RelNear A ((1 + ε) * (1 + A.u) ^ (t.leaves.length - 1) - 1) (t.eval x) (t.leaves.map y).sum
  | .leaf i, h, _ => by
    have := h i (by simp [AddTree.leaves])
    refine ⟨by simp [AddTree.leaves], by simpa [AddTree.leaves] using this.2, ?_⟩
    simpa [AddTree.leaves, AddTree.eval] using this.1
  | .node l r, h, hΩ => by
    have hu := A.u_nonneg
    simp only [AddTree.leaves, List.length_append, List.map_append, List.sum_append, AddTree.eval] at hΩ h ⊢
    have hl : ∀ i ∈ l.leaves, RelNear A ε (x i) (y i) ∧ 0 ≤ y i := fun i hi => h i (List.mem_append_left _ hi)
    have hr : ∀ i ∈ r.leaves, RelNear A ε (x i) (y i) ∧ 0 ≤ y i := fun i hi => h i (List.mem_append_right _ hi)
    have hpos : ∀ t : AddTree, 0 < t.leaves.length := by
      intro t
      induction t with
      | leaf i => simp [AddTree.leaves]
      | node l r h1 h2 => simp only [AddTree.leaves, List.length_append]; omega
    have hlp := hpos l
    have hrp := hpos r
    have hsl : 0 ≤ (l.leaves.map y).sum := List.sum_nonneg (by
      intro z hz
      obtain ⟨i, hi, rfl⟩ := List.mem_map.1 hz
      exact (hl i hi).2)
    have hsr : 0 ≤ (r.leaves.map y).sum := List.sum_nonneg (by
      intro z hz
      obtain ⟨i, hi, rfl⟩ := List.mem_map.1 hz
      exact (hr i hi).2)
    have hpow : ∀ k k' : Nat, k ≤ k' → (1 + A.u) ^ k ≤ (1 + A.u) ^ k' := fun k k' hk => pow_le_pow_right₀ (by linarith) hk
    obtain ⟨k, hk⟩ : ∃ k, l.leaves.length + r.leaves.length = k + 2 := ⟨l.leaves.length + r.leaves.length - 2, by omega⟩
    rw [hk] at hΩ ⊢
    rw [show k + 2 - 1 = k + 1 by omega] at hΩ ⊢
    set sl := (l.leaves.map y).sum
    set sr := (r.leaves.map y).sum
    have h1ε : 0 ≤ 1 + ε := by linarith
    have top : ∀ (j : Nat) (s : ℝ), j ≤ k → 0 ≤ s → s ≤ sl + sr → (1 + ε) * (1 + A.u) ^ j * s ≤ A.Ω := by
      intro j s hj hs hs'
      refine le_trans (mul_le_mul (mul_le_mul_of_nonneg_left (hpow j (k + 1) (by omega)) h1ε) hs' hs (by positivity)) hΩ
    obtain ⟨_, _, l1⟩ := tree_sum_rel hε x y l hl (top _ _ (by omega) hsl (by linarith))
    obtain ⟨_, _, r1⟩ := tree_sum_rel hε x y r hr (top _ _ (by omega) hsr (by linarith))
    have l2 := relNear_mono l1 hsl (sub_le_sub_right (mul_le_mul_of_nonneg_left (hpow (l.leaves.length - 1) k (by omega)) h1ε) 1)
    have r2 := relNear_mono r1 hsr (sub_le_sub_right (mul_le_mul_of_nonneg_left (hpow (r.leaves.length - 1) k (by omega)) h1ε) 1)
    have hs : |A.val (l.eval x) + A.val (r.eval x) - (sl + sr)| ≤ ((1 + ε) * (1 + A.u) ^ k - 1) * (sl + sr) := by
      have e : A.val (l.eval x) + A.val (r.eval x) - (sl + sr) = (A.val (l.eval x) - sl) + (A.val (r.eval x) - sr) := by ring
      rw [e]
      have := abs_add_le (A.val (l.eval x) - sl) (A.val (r.eval x) - sr)
      nlinarith [l2.2, r2.2]
    have hv : |A.val (l.eval x) + A.val (r.eval x)| ≤ (1 + ε) * (1 + A.u) ^ k * (sl + sr) := by
      have := abs_add_le (sl + sr) (A.val (l.eval x) + A.val (r.eval x) - (sl + sr))
      rw [add_sub_cancel, abs_of_nonneg (add_nonneg hsl hsr)] at this
      nlinarith
    obtain ⟨f1, f2⟩ := A.add _ _ l1.1 r1.1 (hv.trans (top k _ le_rfl (add_nonneg hsl hsr) le_rfl))
    refine ⟨by omega, add_nonneg hsl hsr, f1, ?_⟩
    have e : A.val (l.eval x + r.eval x) - (sl + sr) = (A.val (l.eval x + r.eval x) - (A.val (l.eval x) + A.val (r.eval x))) +
        (A.val (l.eval x) + A.val (r.eval x) - (sl + sr)) := by ring
    rw [e]
    have h1 := abs_add_le (A.val (l.eval x + r.eval x) - (A.val (l.eval x) + A.val (r.eval x)))
      (A.val (l.eval x) + A.val (r.eval x) - (sl + sr))
    have h2 := mul_le_mul_of_nonneg_left hv hu
    rw [pow_succ]
    nlinarith

variable {f : FloatFns F} (hf : FesContract A f)
include hf

theorem relNear_sum {ε : ℝ} (hε : 0 ≤ ε) {l : List F} {l' : List ℝ} (h : List.Forall₂ (RelNear A ε) l l') (h0 : ∀ y ∈ l', 0 ≤ y)
    (hn : 0 < l.length) (hΩ : (1 + ε) * (1 + A.u) ^ (l.length - 1) * l'.sum ≤ A.Ω) :
    RelNear A ((1 + ε) * (1 + A.u) ^ (l.length - 1) - 1) (sumF f l) l'.sum := by
  have hp := hf.order l.length hn
  have hlen : (f.order l.length).leaves.length = l.length := by rw [hp.length_eq, List.length_range]
  have hsum : ((f.order l.length).leaves.map fun i => l'.getD i 0).sum = l'.sum := by
    rw [(hp.map _).sum_eq, h.length_eq]
    congr 1
    apply List.ext_getElem
    · simp
    · intro i h1 h2
      simp [List.getD_eq_getElem?_getD, List.getElem?_eq_getElem h2]
  have := tree_sum_rel hε (fun i => l.getD i f.zero) (fun i => l'.getD i 0) (f.order l.length) (by
    intro i hi
    have hi' : i < l.length := List.mem_range.1 (hp.mem_iff.1 hi)
    have hi2 : i < l'.length := h.length_eq ▸ hi'
    have := (List.forall₂_iff_get.1 h).2 i hi' hi2
    simp only [List.getD_eq_getElem?_getD, List.getElem?_eq_getElem hi', List.getElem?_eq_getElem hi2, Option.getD_some]
    exact ⟨this, h0 _ (List.getElem_mem hi2)⟩) (by rw [hsum, hlen]; exact hΩ)
  rw [hsum, hlen] at this
  exact this.2.2

/-- Probability of a bin. -/
theorem relNear_exp {b : Bnd} {a : F} {x : ℝ} (h : Near A b a x) (hb : b.err ≤ 1) (hR : b.mag + b.err ≤ hf.R) :
    RelNear A (2 * b.err + hf.er * (1 + 2 * b.err)) (f.exp a) (Real.exp x) := by
  obtain ⟨h1, h2⟩ := hf.exp a h.1 ((near_val h).trans hR)
  refine ⟨h1, ?_⟩
  have he0 : 0 ≤ b.err := (abs_nonneg _).trans h.2.1
  have hx := Real.exp_pos x
  set δ := A.val a - x with hδ
  have hva : A.val a = x + δ := by rw [hδ]; ring
  have h3 : |Real.exp δ - 1| ≤ 2 * b.err := by
    have h4 := Real.abs_exp_sub_one_le (x := δ) (h.2.1.trans hb)
    linarith [h.2.1]
  have h5 : |Real.exp (A.val a) - Real.exp x| ≤ 2 * b.err * Real.exp x := by
    rw [hva, Real.exp_add, show Real.exp x * Real.exp δ - Real.exp x = (Real.exp δ - 1) * Real.exp x by ring, abs_mul,
      abs_of_pos hx]
    exact mul_le_mul_of_nonneg_right h3 hx.le
  have h6 : Real.exp (A.val a) ≤ (1 + 2 * b.err) * Real.exp x := by linarith [(abs_le.1 h5).2]
  have e : A.val (f.exp a) - Real.exp x = (A.val (f.exp a) - Real.exp (A.val a)) + (Real.exp (A.val a) - Real.exp x) := by ring
  rw [e]
  have h7 := abs_add_le (A.val (f.exp a) - Real.exp (A.val a)) (Real.exp (A.val a) - Real.exp x)
  have h8 := mul_le_mul_of_nonneg_left h6 hf.er_nonneg
  linarith

omit hf in
/-- Quotient of probabilities. -/
theorem relNear_quot {ε : ℝ} (hε : 0 ≤ ε) (hε1 : ε < 1) {a b : F} {x y L : ℝ} (h : RelNear A ε a x) (h' : RelNear A ε b y)
    (hx : 0 < x) (hy : 0 < y) (hL : |Real.log (x / y)| ≤ L) (hΩ : Real.exp L * (1 + (ε + ε) / (1 - ε)) ≤ A.Ω) :
    RelNear A ((ε + ε) / (1 - ε) + A.u * (1 + (ε + ε) / (1 - ε)) + A.η * Real.exp L) (a / b) (x / y) := by
  set q := (ε + ε) / (1 - ε) with hq
  have hd : 0 < 1 - ε := by linarith
  have hq0 : 0 ≤ q := div_nonneg (by linarith) hd.le
  have hb : (1 - ε) * y ≤ A.val b := by nlinarith [(abs_le.1 h'.2).1]
  have hb0 : 0 < A.val b := lt_of_lt_of_le (mul_pos hd hy) hb
  have hr : 0 < x / y := div_pos hx hy
  have h1 : |A.val a / A.val b - x / y| ≤ q * (x / y) := by
    have e : A.val a / A.val b - x / y = ((A.val a - x) * y - x * (A.val b - y)) / (A.val b * y) := by
      field_simp
      ring
    rw [e, abs_div, abs_of_pos (mul_pos hb0 hy)]
    have h2 : |(A.val a - x) * y - x * (A.val b - y)| ≤ (ε + ε) * (x * y) := by
      have := abs_sub ((A.val a - x) * y) (x * (A.val b - y))
      rw [abs_mul, abs_mul, abs_of_pos hx, abs_of_pos hy] at this
      nlinarith [mul_le_mul_of_nonneg_right h.2 hy.le, mul_le_mul_of_nonneg_left h'.2 hx.le]
    have h3 : (1 - ε) * y * y ≤ A.val b * y := mul_le_mul_of_nonneg_right hb hy.le
    refine (div_le_div₀ (by positivity) h2 (by positivity) h3).trans (le_of_eq ?_)
    rw [hq]
    field_simp
  have hrL : x / y ≤ Real.exp L := by
    rw [← Real.exp_log hr]
    exact Real.exp_le_exp.2 ((le_abs_self _).trans hL)
  have hrl : 1 ≤ Real.exp L * (x / y) := by
    have : Real.exp (-L) ≤ x / y := by
      rw [← Real.exp_log hr]
      exact Real.exp_le_exp.2 (by linarith [(abs_le.1 hL).1])
    calc (1 : ℝ) = Real.exp L * Real.exp (-L) := by rw [← Real.exp_add]; simp
      _ ≤ _ := mul_le_mul_of_nonneg_left this (Real.exp_pos _).le
  have h4 : |A.val a / A.val b| ≤ (1 + q) * (x / y) := by
    have := abs_add_le (x / y) (A.val a / A.val b - x / y)
    rw [add_sub_cancel, abs_of_pos hr] at this
    linarith
  have h5 : |A.val a / A.val b| ≤ A.Ω := h4.trans (le_trans (by nlinarith) hΩ)
  obtain ⟨f1, f2⟩ := A.div a b h.1 h'.1 hb0.ne' h5
  refine ⟨f1, ?_⟩
  have e : A.val (a / b) - x / y = (A.val (a / b) - A.val a / A.val b) + (A.val a / A.val b - x / y) := by ring
  rw [e]
  have h6 := abs_add_le (A.val (a / b) - A.val a / A.val b) (A.val a / A.val b - x / y)
  have h7 := mul_le_mul_of_nonneg_left h4 A.u_nonneg
  have h8 := mul_le_mul_of_nonneg_left hrl A.η_nonneg
  nlinarith

/-- Logarithm of a number with relative error. -/
theorem relNear_log {ε : ℝ} (hε1 : ε < 1) {a : F} {x L : ℝ} (h : RelNear A ε a x) (hx : 0 < x) (hL : |Real.log x| ≤ L) :
    Near A ⟨ε / (1 - ε) + hf.lg * (L + ε / (1 - ε)), L⟩ (f.log a) (Real.log x) := by
  have hd : 0 < 1 - ε := by linarith
  have hε : 0 ≤ ε := by
    by_contra hc
    have := (abs_nonneg _).trans h.2
    nlinarith
  have ha : (1 - ε) * x ≤ A.val a := by nlinarith [(abs_le.1 h.2).1]
  have ha0 : 0 < A.val a := lt_of_lt_of_le (mul_pos hd hx) ha
  obtain ⟨h1, h2⟩ := hf.log a h.1 ha0
  have key : ∀ s t : ℝ, 0 < s → 0 < t → (1 - ε) * x ≤ s → |t - s| ≤ ε * x → Real.log t - Real.log s ≤ ε / (1 - ε) := by
    intro s t hs ht hls hst
    rw [← Real.log_div ht.ne' hs.ne']
    have g1 := Real.log_le_sub_one_of_pos (div_pos ht hs)
    have g2 : t / s - 1 = (t - s) / s := by field_simp
    rw [g2] at g1
    refine g1.trans ((div_le_div₀ (by positivity) ((le_abs_self _).trans hst) (by positivity) hls).trans (le_of_eq ?_))
    field_simp
  have h3 : |Real.log (A.val a) - Real.log x| ≤ ε / (1 - ε) := by
    rw [abs_sub_le_iff]
    refine ⟨key x (A.val a) hx ha0 (by nlinarith) h.2, key (A.val a) x ha0 hx ha ?_⟩
    rw [abs_sub_comm]
    exact h.2
  refine ⟨h1, ?_, hL⟩
  have e : A.val (f.log a) - Real.log x = (A.val (f.log a) - Real.log (A.val a)) + (Real.log (A.val a) - Real.log x) := by ring
  rw [e]
  have h4 := abs_add_le (A.val (f.log a) - Real.log (A.val a)) (Real.log (A.val a) - Real.log x)
  have h5 : |Real.log (A.val a)| ≤ L + ε / (1 - ε) := by
    have := abs_add_le (Real.log x) (Real.log (A.val a) - Real.log x)
    rw [add_sub_cancel] at this
    linarith
  have h6 := mul_le_mul_of_nonneg_left h5 hf.lg_nonneg
  dsimp only
  linarith

end

end Bdld
