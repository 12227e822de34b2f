import Verif.Props.RoundingFes
import Verif.Props.RoundingExact
import Verif.Props.RoundingDemo

/-
C116: errors of free energies with double precision, and the exact case.
-/

set_option linter.unusedSectionVars false

namespace Bdld
open Spec

noncomputable section

/-- Double precision (errors slightly rounded up): `kT` between 1e-100 and 1e100, and at most `exp 40` counts. -/
structure DoubleFes (B : FesBnd) : Prop where
  u : 0 ≤ B.u ∧ B.u ≤ 1.2e-16
  η : 0 ≤ B.η ∧ B.η ≤ 1e-200
  er : 0 ≤ B.er ∧ B.er ≤ 1e-15
  lg : 0 ≤ B.lg ∧ B.lg ≤ 1e-15
  k : 1e-100 ≤ B.k ∧ B.k ≤ 1e100
  L : B.L = 40

section
variable {B : FesBnd} (h : DoubleFes B)
include h

theorem double_k : 0 < B.k := lt_of_lt_of_le (by norm_num) h.k.1

theorem double_η : B.η ≤ 1e-100 * B.k := by
  have := h.k.1
  have := h.η.2
  norm_num at *
  linarith

theorem double_raw : 0 ≤ B.raw.err ∧ B.raw.err ≤ 5e-14 * B.k ∧ B.raw.mag = 40 * B.k := by
  have hk := double_k h
  have hη := double_η h
  obtain ⟨hu0, hu1⟩ := h.u
  obtain ⟨hl0, hl1⟩ := h.lg
  have hL := h.L
  have he : B.raw.err = B.k * (B.lg * 40) + B.u * (B.k * (40 + B.lg * 40)) + B.η := by
    simp only [FesBnd.raw, Bnd.mul, Bnd.exact, hL]; ring
  refine ⟨?_, ?_, by simp only [FesBnd.raw, Bnd.mul, Bnd.exact, hL]; ring⟩
  · rw [he]
    have := h.η.1
    positivity
  · rw [he]
    have g1 : B.k * (B.lg * 40) ≤ B.k * (1e-15 * 40) := mul_le_mul_of_nonneg_left (by linarith) hk.le
    have g2 : B.u * (B.k * (40 + B.lg * 40)) ≤ 1.2e-16 * (B.k * 41) :=
      mul_le_mul hu1 (mul_le_mul_of_nonneg_left (by linarith) hk.le) (by positivity) (by norm_num)
    norm_num at *
    linarith

theorem double_fes : 0 ≤ B.fes.err ∧ B.fes.err ≤ 1.2e-13 * B.k ∧ B.fes.mag = 80 * B.k := by
  have hk := double_k h
  obtain ⟨hu0, hu1⟩ := h.u
  obtain ⟨hr0, hr1, hr2⟩ := double_raw h
  have he : B.fes.err = B.raw.err + B.raw.err + B.u * (80 * B.k + B.raw.err + B.raw.err) := by
    simp only [FesBnd.fes, Bnd.add, hr2]; ring
  refine ⟨?_, ?_, by simp only [FesBnd.fes, Bnd.add, hr2]; ring⟩
  · rw [he]; positivity
  · rw [he]
    have g : B.u * (80 * B.k + B.raw.err + B.raw.err) ≤ 1.2e-16 * (81 * B.k) :=
      mul_le_mul hu1 (by norm_num at *; linarith) (by positivity) (by norm_num)
    norm_num at *
    linarith

theorem double_arg : 0 ≤ B.arg.err ∧ B.arg.err ≤ 1.4e-13 ∧ B.arg.mag = 80 := by
  have hk := double_k h
  obtain ⟨hu0, hu1⟩ := h.u
  obtain ⟨hη0, hη1⟩ := h.η
  obtain ⟨hf0, hf1, hf2⟩ := double_fes h
  have he : B.arg.err = B.fes.err / B.k + (B.u * (80 + B.fes.err / B.k) + B.η) := by
    simp only [FesBnd.arg, Bnd.div, hf2]
    field_simp
  have hq : B.fes.err / B.k ≤ 1.2e-13 := by rwa [div_le_iff₀ hk]
  have hq0 : 0 ≤ B.fes.err / B.k := by positivity
  refine ⟨by rw [he]; positivity, ?_, ?_⟩
  · rw [he]
    have g : B.u * (80 + B.fes.err / B.k) ≤ 1.2e-16 * 81 :=
      mul_le_mul hu1 (by norm_num at *; linarith) (by positivity) (by norm_num)
    norm_num at *
    linarith
  · simp only [FesBnd.arg, Bnd.div, hf2]
    field_simp

theorem double_prob : 0 ≤ B.prob ∧ B.prob ≤ 3e-13 := by
  obtain ⟨ha0, ha1, _⟩ := double_arg h
  obtain ⟨he0, he1⟩ := h.er
  unfold FesBnd.prob
  refine ⟨by positivity, ?_⟩
  have : B.er * (1 + 2 * B.arg.err) ≤ 1e-15 * 2 := mul_le_mul he1 (by norm_num at *; linarith) (by positivity) (by norm_num)
  norm_num at *
  linarith

theorem double_state (K : Nat) (hK : K ≤ 1000000) : 0 ≤ B.state K ∧ B.state K ≤ 2.5e-10 := by
  obtain ⟨hp0, hp1⟩ := double_prob h
  obtain ⟨hu0, hu1⟩ := h.u
  have h1 : (1 + B.u) ^ (K - 1) ≤ 1 + 2.4e-10 := by
    have g1 : (1 + B.u) ^ (K - 1) ≤ Real.exp (B.u * (K - 1 : Nat)) := by
      rw [mul_comm, Real.exp_nat_mul]
      exact pow_le_pow_left₀ (by linarith) (by linarith [Real.add_one_le_exp B.u]) _
    have g2 : B.u * ((K - 1 : Nat) : ℝ) ≤ 1.2e-10 := by
      have : ((K - 1 : Nat) : ℝ) ≤ 1000000 := by exact_mod_cast (by omega : K - 1 ≤ 1000000)
      have := mul_le_mul hu1 this (by positivity) (by norm_num)
      norm_num at *
      linarith
    have g0 : 0 ≤ B.u * ((K - 1 : Nat) : ℝ) := by positivity
    have g3 := Real.abs_exp_sub_one_le (x := B.u * ((K - 1 : Nat) : ℝ)) (by
      rw [abs_of_nonneg g0]
      norm_num at *
      linarith)
    rw [abs_of_nonneg g0] at g3
    have := (abs_le.1 g3).2
    norm_num at *
    linarith
  have h2 : 1 ≤ (1 + B.u) ^ (K - 1) := one_le_pow₀ (by linarith)
  unfold FesBnd.state
  constructor
  · nlinarith
  · have := mul_le_mul (by linarith : 1 + B.prob ≤ 1 + 3e-13) h1 (by linarith) (by norm_num)
    norm_num at *
    linarith

theorem double_quot (K : Nat) (hK : K ≤ 1000000) : 0 ≤ B.quot K ∧ B.quot K ≤ 5.1e-10 := by
  obtain ⟨h0, h1⟩ := double_state h K hK
  have hd : 0 < 1 - B.state K := by norm_num at *; linarith
  unfold FesBnd.quot
  refine ⟨by positivity, ?_⟩
  rw [div_le_iff₀ hd]
  norm_num at *
  linarith

theorem double_exp : Real.exp B.L ≤ 1e20 := by
  rw [h.L, show (40 : ℝ) = ((40 : Nat) : ℝ) * 1 by norm_num, Real.exp_nat_mul]
  calc Real.exp 1 ^ 40 ≤ 3 ^ 40 := pow_le_pow_left₀ (Real.exp_pos _).le (by linarith [Real.exp_one_lt_d9]) _
    _ ≤ 1e20 := by norm_num

theorem double_ratio (K : Nat) (hK : K ≤ 1000000) : 0 ≤ B.ratio K ∧ B.ratio K ≤ 6e-10 := by
  obtain ⟨h0, h1⟩ := double_quot h K hK
  obtain ⟨hu0, hu1⟩ := h.u
  obtain ⟨hη0, hη1⟩ := h.η
  have hex := double_exp h
  unfold FesBnd.ratio
  refine ⟨by positivity, ?_⟩
  have g1 : B.u * (1 + B.quot K) ≤ 1.2e-16 * 2 := mul_le_mul hu1 (by norm_num at *; linarith) (by positivity) (by norm_num)
  have g2 : B.η * Real.exp B.L ≤ 1e-200 * 1e20 := mul_le_mul hη1 hex (Real.exp_pos _).le (by norm_num)
  norm_num at *
  linarith

theorem double_log (K : Nat) (hK : K ≤ 1000000) : 0 ≤ (B.log K).err ∧ (B.log K).err ≤ 7e-10 ∧ (B.log K).mag = 40 := by
  obtain ⟨h0, h1⟩ := double_ratio h K hK
  obtain ⟨hl0, hl1⟩ := h.lg
  have hL := h.L
  have hd : 0 < 1 - B.ratio K := by norm_num at *; linarith
  have hq0 : 0 ≤ B.ratio K / (1 - B.ratio K) := by positivity
  have hq : B.ratio K / (1 - B.ratio K) ≤ 6.1e-10 := by
    rw [div_le_iff₀ hd]
    norm_num at *
    linarith
  simp only [FesBnd.log, hL]
  refine ⟨by positivity, ?_, trivial⟩
  have g : B.lg * (40 + B.ratio K / (1 - B.ratio K)) ≤ 1e-15 * 41 :=
    mul_le_mul hl1 (by norm_num at *; linarith) (by positivity) (by norm_num)
  norm_num at *
  linarith

/-- **C116.** With double precision, up to a million bins and up to `exp 40` counts the errors are at most 2e-13 kT for free energies and
1e-9 kT for free energy differences. -/
theorem double_errors (K : Nat) (hK : K ≤ 1000000) : B.fes.err ≤ 2e-13 * B.k ∧ (B.deltaF K).err ≤ 1e-9 * B.k := by
  have hk := double_k h
  have hη := double_η h
  obtain ⟨hu0, hu1⟩ := h.u
  obtain ⟨hf0, hf1, hf2⟩ := double_fes h
  obtain ⟨hl0, hl1, hl2⟩ := double_log h K hK
  constructor
  · norm_num at *
    linarith
  · have he : (B.deltaF K).err = B.k * (B.log K).err + (B.u * (B.k * (40 + (B.log K).err)) + B.η) := by
      simp only [FesBnd.deltaF, Bnd.mul, Bnd.exact, hl2]; ring
    rw [he]
    have g1 := mul_le_mul_of_nonneg_left hl1 hk.le
    have g2 : B.u * (B.k * (40 + (B.log K).err)) ≤ 1.2e-16 * (B.k * 41) :=
      mul_le_mul hu1 (mul_le_mul_of_nonneg_left (by norm_num at *; linarith) hk.le) (by positivity) (by norm_num)
    norm_num at *
    linarith

/-- Nothing overflows. -/
theorem double_fits (K : Nat) (hK : K ≤ 1000000) (R Ω : ℝ) (hR : 100 ≤ R) (hΩ : 1e200 ≤ Ω) : B.Fits K R Ω := by
  have hk := double_k h
  have hk1 := h.k.2
  obtain ⟨hl0, hl1⟩ := h.lg
  have hL := h.L
  obtain ⟨hr0, hr1, hr2⟩ := double_raw h
  obtain ⟨hf0, hf1, hf2⟩ := double_fes h
  obtain ⟨ha0, ha1, ha2⟩ := double_arg h
  obtain ⟨hs0, hs1⟩ := double_state h K hK
  obtain ⟨hq0, hq1⟩ := double_quot h K hK
  obtain ⟨ht0, ht1⟩ := double_ratio h K hK
  obtain ⟨hg0, hg1, hg2⟩ := double_log h K hK
  have hex := double_exp h
  refine { raw := ?_, fes := ?_, arg := ?_, small := ?_, range := ?_, state := ?_, state_lt := ?_, quot := ?_, ratio := ?_, deltaF := ?_ }
  · simp only [Bnd.mulTop, Bnd.exact, hL, add_zero]
    have := mul_le_mul hk1 (by linarith : 40 + B.lg * 40 ≤ 40 + 1e-15 * 40) (by positivity) (by norm_num)
    norm_num at *
    linarith
  · simp only [Bnd.addTop, hr2]
    norm_num at *
    linarith
  · simp only [Bnd.divTop, hf2]
    rw [div_le_iff₀ hk]
    have := mul_le_mul_of_nonneg_right hΩ hk.le
    norm_num at *
    linarith
  · norm_num at *
    linarith
  · rw [ha2]
    norm_num at *
    linarith
  · have h1 : (K : ℝ) ≤ 1000000 := by exact_mod_cast hK
    have := mul_le_mul (by linarith : 1 + B.state K ≤ 1 + 2.5e-10) h1 (by positivity) (by norm_num)
    norm_num at *
    linarith
  · norm_num at *
    linarith
  · have := mul_le_mul hex (by linarith : 1 + B.quot K ≤ 1 + 5.1e-10) (by positivity) (by norm_num)
    norm_num at *
    linarith
  · norm_num at *
    linarith
  · simp only [Bnd.mulTop, Bnd.exact, hg2, add_zero]
    have := mul_le_mul hk1 (by linarith : 40 + (B.log K).err ≤ 40 + 7e-10) (by positivity) (by norm_num)
    norm_num at *
    linarith

end

/-! ### Exact numbers -/

section
variable {order : Nat → AddTree} (ho : ∀ n, 0 < n → (order n).leaves.Perm (List.range n))

theorem fesValueF_exact (kt : ℝ) (n : Nat) : fesValueF (exactFns order) kt n = fesValue kt n := by
  unfold fesValueF fesValue
  split <;> rfl

/-- With exact numbers the computed FES is that of `Model/Fes.lean`. -/
theorem calculateFesF_exact (counts : Nd Nat) (kt : ℝ) (b : Bool) :
    calculateFesF (exactFns order) counts kt b = calculateFes counts kt b := by
  have : fesValueF (exactFns order) kt = fesValue kt := funext (fesValueF_exact kt)
  unfold calculateFesF calculateFes topSub
  rw [this]
  cases b
  · rfl
  · dsimp only
    rw [if_pos rfl, if_pos rfl]
    congr 1
    funext m
    cases m <;> rfl

include ho in
theorem sumF_exact (l : List ℝ) : sumF (exactFns order) l = l.sum := by
  rcases Nat.eq_zero_or_pos l.length with h | h
  · rw [List.eq_nil_of_length_eq_zero h]
    have : ∀ t : AddTree, t.eval (fun i => ([] : List ℝ).getD i (exactFns order).zero) = 0 := by
      intro t
      rw [tree_exact]
      simp [exactFns]
    rw [sumF, this]
    rfl
  · have := sum_exact ho h (fun i => l.get i)
    rw [List.ofFn_get] at this
    rw [this, ← List.sum_ofFn, List.ofFn_get]

include ho in
/-- With exact numbers the computed free energy differences are those of `Model/Fes.lean`, in any order of the additions. -/
theorem calculateDeltaFF_exact (fes : Nd (WithTop ℝ)) (kt : ℝ) (masks : List (List Bool)) :
    calculateDeltaFF (exactFns order) fes kt masks = calculateDeltaF fes kt masks := by
  have h1 : boltzmannF (exactFns order) kt = boltzmann kt := by
    funext x
    cases x <;> rfl
  have h2 : ∀ probs : List ℝ, maskedSumF (exactFns order) probs = maskedSum probs := by
    intro probs
    funext m
    unfold maskedSumF maskedSum
    rw [sumF_exact ho, selectMask_sum]
  unfold calculateDeltaFF calculateDeltaF
  rw [h1]
  simp only [h2]
  rfl

end

/-! ### Numbers with 53 digits -/

/-- Exponential and logarithm rounded to 53 digits. -/
def fns53_fes : FesContract (rounding53 1e300) fns53 where
  er := 2⁻¹ ^ 53
  lg := 2⁻¹ ^ 53
  R := 700
  N := 2 ^ 53
  er_nonneg := by norm_num
  lg_nonneg := by norm_num
  exp := by
    intro a _ _
    refine ⟨trivial, (round53_err _).trans ?_⟩
    rw [abs_of_pos (Real.exp_pos _)]
    exact le_rfl
  log := fun a _ _ => ⟨trivial, round53_err _⟩
  ofNat := fun n _ => ⟨trivial, rfl⟩
  zero := ⟨trivial, rfl⟩
  order := by
    intro n hn
    obtain ⟨m, rfl⟩ : ∃ m, n = m + 1 := ⟨n - 1, by omega⟩
    change (leftTree (m + 1)).leaves.Perm _
    rw [leftTree_leaves]

/-- Example: three bins with 2, 0 and 4 counts, kT = 1, states made of the first two bins and of the last two. -/
theorem demo_deltaF_rounding : ∃ a : Num53,
    (do let fes ← calculateFesF fns53 ⟨[3], [2, 0, 4]⟩ ⟨1⟩ true
        calculateDeltaFF fns53 fes ⟨1⟩ [[true, true, false], [false, true, true]]) = .ok [a] ∧ |a.val - -Real.log 2| ≤ 1e-9 := by
  have hd : DoubleFes (fesBnd fns53_fes ((rounding53 1e300).val ⟨1⟩) 40) :=
    ⟨by norm_num [fesBnd, rounding53], by norm_num [fesBnd, rounding53], by norm_num [fesBnd, fns53_fes], by norm_num [fesBnd, fns53_fes],
      by norm_num [fesBnd, rounding53], rfl⟩
  obtain ⟨l, l', h1, h2, h3⟩ := deltaF_rounding fns53_fes (kt := ⟨1⟩) trivial (by simp [rounding53]) ⟨[3], [2, 0, 4]⟩ (L := 40) (K := 2)
    (by decide +kernel) (by
      have := Real.add_one_le_exp (40 : ℝ)
      norm_num
      linarith) [true, true, false] [[false, true, true]] (by decide +kernel) (by decide +kernel) (by decide +kernel)
    (double_fits hd 2 (by norm_num) _ _ (by norm_num [fns53_fes]) (by norm_num [rounding53]))
  rw [deltaF_spec _ _ (by simp [rounding53]) _ (by decide +kernel) (by decide +kernel) (by decide +kernel)] at h2
  obtain rfl := Except.ok.inj h2
  cases h3 with
  | @cons a _ l _ ha hl =>
    cases hl
    refine ⟨a, h1, ?_⟩
    have h4 := (double_errors hd 2 (by norm_num)).2
    have h5 := ha.2.1
    have h6 : -(rounding53 1e300).val ⟨1⟩ * Real.log ((countsIn [2, 0, 4] [false, true, true] : ℝ) /
        countsIn [2, 0, 4] ([[true, true, false], [false, true, true]].headD [])) = -Real.log 2 := by
      norm_num [rounding53, countsIn]
    change |a.val - (-(rounding53 1e300).val ⟨1⟩ * Real.log ((countsIn [2, 0, 4] [false, true, true] : ℝ) /
        countsIn [2, 0, 4] ([[true, true, false], [false, true, true]].headD [])))| ≤ _ at h5
    rw [h6] at h5
    refine h5.trans (h4.trans ?_)
    norm_num [fesBnd, rounding53]

end

end Bdld
