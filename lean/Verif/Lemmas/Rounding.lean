import Verif.Spec.Rounding
import Mathlib.Data.Int.Log
import Mathlib.Algebra.Order.Round
import Mathlib.Analysis.SpecialFunctions.Pow.Real
import Mathlib.Tactic.Linarith
import Mathlib.Tactic.Positivity
import Mathlib.Tactic.FieldSimp

/-
Propagation of rounding errors, and numbers with 53 significant binary digits as an instance of the contract.
-/

namespace Bdld
open Spec

section
variable {F : Type} [Add F] [Sub F] [Mul F] [Div F] [Neg F] [LT F] {A : Rounding F}

theorem near_mono {b c : Bnd} {a : F} {x : ℝ} (h : Near A b a x) (he : b.err ≤ c.err) (hm : |x| ≤ c.mag) : Near A c a x :=
  ⟨h.1, h.2.1.trans he, hm⟩

theorem near_val {b : Bnd} {a : F} {x : ℝ} (h : Near A b a x) : |A.val a| ≤ b.mag + b.err := by
  have : |A.val a| ≤ |x| + |A.val a - x| := by
    have := abs_add_le x (A.val a - x)
    simpa using this
  linarith [h.2.1, h.2.2]

theorem near_exact {a : F} (h : A.fin a) {m : ℝ} (hm : |A.val a| ≤ m) : Near A (Bnd.exact m) a (A.val a) :=
  ⟨h, by simp [Bnd.exact], hm⟩

theorem near_add {b c : Bnd} {a a' : F} {x y : ℝ} (h : Near A b a x) (h' : Near A c a' y) (hΩ : b.addTop c ≤ A.Ω) :
    Near A (b.add A.u c) (a + a') (x + y) := by
  have hv : |A.val a + A.val a'| ≤ b.addTop c := by
    have := abs_add_le (A.val a) (A.val a')
    have h1 := near_val h
    have h2 := near_val h'
    unfold Bnd.addTop
    linarith
  obtain ⟨hf, he⟩ := A.add a a' h.1 h'.1 (hv.trans hΩ)
  refine ⟨hf, ?_, ?_⟩
  · have e : A.val (a + a') - (x + y) = (A.val (a + a') - (A.val a + A.val a')) + ((A.val a - x) + (A.val a' - y)) := by ring
    rw [e]
    have h1 := abs_add_le (A.val (a + a') - (A.val a + A.val a')) ((A.val a - x) + (A.val a' - y))
    have h2 := abs_add_le (A.val a - x) (A.val a' - y)
    have h3 := mul_le_mul_of_nonneg_left hv A.u_nonneg
    unfold Bnd.addTop at h3
    unfold Bnd.add
    dsimp only
    linarith [h.2.1, h'.2.1]
  · have := abs_add_le x y
    unfold Bnd.add
    dsimp only
    linarith [h.2.2, h'.2.2]

theorem near_mul {b c : Bnd} {a a' : F} {x y : ℝ} (h : Near A b a x) (h' : Near A c a' y) (hΩ : b.mulTop c ≤ A.Ω) :
    Near A (b.mul A.u A.η c) (a * a') (x * y) := by
  have hm1 : 0 ≤ b.mag := (abs_nonneg _).trans h.2.2
  have hm2 : 0 ≤ c.mag := (abs_nonneg _).trans h'.2.2
  have he1 : 0 ≤ b.err := (abs_nonneg _).trans h.2.1
  have he2 : 0 ≤ c.err := (abs_nonneg _).trans h'.2.1
  have hv : |A.val a * A.val a'| ≤ b.mulTop c := by
    rw [abs_mul]
    exact mul_le_mul (near_val h) (near_val h') (abs_nonneg _) (by linarith)
  obtain ⟨hf, he⟩ := A.mul a a' h.1 h'.1 (hv.trans hΩ)
  refine ⟨hf, ?_, ?_⟩
  · have e : A.val (a * a') - x * y = (A.val (a * a') - A.val a * A.val a') +
        (x * (A.val a' - y) + (y * (A.val a - x) + (A.val a - x) * (A.val a' - y))) := by ring
    rw [e]
    have h1 := abs_add_le (A.val (a * a') - A.val a * A.val a')
      (x * (A.val a' - y) + (y * (A.val a - x) + (A.val a - x) * (A.val a' - y)))
    have h2 := abs_add_le (x * (A.val a' - y)) (y * (A.val a - x) + (A.val a - x) * (A.val a' - y))
    have h3 := abs_add_le (y * (A.val a - x)) ((A.val a - x) * (A.val a' - y))
    have h4 : |x * (A.val a' - y)| ≤ b.mag * c.err := by
      rw [abs_mul]; exact mul_le_mul h.2.2 h'.2.1 (abs_nonneg _) hm1
    have h5 : |y * (A.val a - x)| ≤ c.mag * b.err := by
      rw [abs_mul]; exact mul_le_mul h'.2.2 h.2.1 (abs_nonneg _) hm2
    have h6 : |(A.val a - x) * (A.val a' - y)| ≤ b.err * c.err := by
      rw [abs_mul]; exact mul_le_mul h.2.1 h'.2.1 (abs_nonneg _) he1
    have h7 := mul_le_mul_of_nonneg_left hv A.u_nonneg
    unfold Bnd.mulTop at h7
    unfold Bnd.mul
    dsimp only
    linarith
  · rw [abs_mul]
    exact mul_le_mul h.2.2 h'.2.2 (abs_nonneg _) hm1

theorem near_div {b : Bnd} {a a' : F} {x y : ℝ} (h : Near A b a x) (h' : A.fin a') (hy : A.val a' = y) (hpos : 0 < y)
    (hΩ : b.divTop y ≤ A.Ω) : Near A (b.div A.u A.η y) (a / a') (x / y) := by
  have hv : |A.val a / A.val a'| ≤ b.divTop y := by
    rw [hy, abs_div, abs_of_pos hpos]
    exact div_le_div_of_nonneg_right (near_val h) hpos.le
  obtain ⟨hf, he⟩ := A.div a a' h.1 h' (by rw [hy]; exact hpos.ne') (hv.trans hΩ)
  refine ⟨hf, ?_, ?_⟩
  · rw [hy] at he hv
    have e : A.val (a / a') - x / y = (A.val (a / a') - A.val a / y) + (A.val a - x) / y := by ring
    rw [e]
    have h1 := abs_add_le (A.val (a / a') - A.val a / y) ((A.val a - x) / y)
    have h2 : |(A.val a - x) / y| ≤ b.err / y := by
      rw [abs_div, abs_of_pos hpos]
      exact div_le_div_of_nonneg_right h.2.1 hpos.le
    have h3 := mul_le_mul_of_nonneg_left hv A.u_nonneg
    unfold Bnd.divTop at h3
    unfold Bnd.div
    dsimp only
    linarith
  · rw [abs_div, abs_of_pos hpos]
    exact div_le_div_of_nonneg_right h.2.2 hpos.le

theorem near_neg {b : Bnd} {a : F} {x : ℝ} (h : Near A b a x) : Near A b (-a) (-x) := by
  obtain ⟨h1, h2⟩ := A.neg a h.1
  refine ⟨h1, ?_, by rw [abs_neg]; exact h.2.2⟩
  rw [h2, show -A.val a - -x = -(A.val a - x) by ring, abs_neg]
  exact h.2.1

end

/-! ### Instances -/

/-- Exact arithmetic. -/
def exactRounding (Ω : ℝ) : Rounding ℝ where
  fin := fun _ => True
  val := id
  u := 0
  η := 0
  Ω := Ω
  u_nonneg := le_rfl
  η_nonneg := le_rfl
  add := by simp
  sub := by simp
  mul := by simp
  div := by simp
  neg := by simp
  lt := by simp

noncomputable section

/-- Rounding to 53 significant binary digits. -/
def round53 (x : ℝ) : ℝ := round (x / (2 : ℝ) ^ (Int.log 2 |x| - 52)) * (2 : ℝ) ^ (Int.log 2 |x| - 52)

theorem round53_err (x : ℝ) : |round53 x - x| ≤ 2⁻¹ ^ 53 * |x| := by
  by_cases hx : x = 0
  · subst hx
    simp [round53]
  · have hpos : 0 < |x| := abs_pos.2 hx
    unfold round53
    set e : ℝ := (2 : ℝ) ^ (Int.log 2 |x| - 52) with he
    have hepos : 0 < e := by positivity
    have h1 : |(round (x / e) : ℝ) - x / e| ≤ 1 / 2 := by
      rw [abs_sub_comm]
      exact abs_sub_round _
    have h2 : (round (x / e) : ℝ) * e - x = ((round (x / e) : ℝ) - x / e) * e := by
      field_simp
    rw [h2, abs_mul, abs_of_pos hepos]
    have h3 : (2 : ℝ) ^ (Int.log 2 |x|) ≤ |x| := by
      have := Int.zpow_log_le_self (R := ℝ) (b := 2) (by norm_num) hpos
      exact_mod_cast this
    have h4 : e = (2 : ℝ) ^ (Int.log 2 |x|) * 2⁻¹ ^ 52 := by
      rw [he, zpow_sub₀ (by norm_num)]
      norm_num
      ring
    calc _ ≤ 1 / 2 * e := mul_le_mul_of_nonneg_right h1 hepos.le
      _ = 2⁻¹ ^ 53 * (2 : ℝ) ^ (Int.log 2 |x|) := by rw [h4]; ring
      _ ≤ _ := mul_le_mul_of_nonneg_left h3 (by positivity)

/-- Real numbers whose operations round to 53 digits, exponents without bounds. -/
structure Num53 where
  val : ℝ

instance : Add Num53 := ⟨fun a b => ⟨round53 (a.val + b.val)⟩⟩
instance : Sub Num53 := ⟨fun a b => ⟨round53 (a.val - b.val)⟩⟩
instance : Mul Num53 := ⟨fun a b => ⟨round53 (a.val * b.val)⟩⟩
instance : Div Num53 := ⟨fun a b => ⟨round53 (a.val / b.val)⟩⟩
instance : Neg Num53 := ⟨fun a => ⟨-a.val⟩⟩
instance : LT Num53 := ⟨fun a b => a.val < b.val⟩
instance : DecidableLT Num53 := fun _ _ => Classical.propDecidable _

/-- They meet the contract, for every bound `Ω`. -/
def rounding53 (Ω : ℝ) : Rounding Num53 where
  fin := fun _ => True
  val := Num53.val
  u := 2⁻¹ ^ 53
  η := 0
  Ω := Ω
  u_nonneg := by positivity
  η_nonneg := le_rfl
  add := fun a b _ _ _ => ⟨trivial, round53_err _⟩
  sub := fun a b _ _ _ => ⟨trivial, round53_err _⟩
  mul := fun a b _ _ _ => ⟨trivial, by rw [add_zero]; exact round53_err _⟩
  div := fun a b _ _ _ _ => ⟨trivial, by rw [add_zero]; exact round53_err _⟩
  neg := fun a _ => ⟨trivial, rfl⟩
  lt := fun a b _ _ => Iff.rfl

/-- Rounding does happen: 1 + 2^-60 becomes 1. -/
example : ((⟨1⟩ : Num53) + ⟨2⁻¹ ^ 60⟩).val = 1 := by
  change round53 (1 + 2⁻¹ ^ 60) = 1
  have h1 : |(1 : ℝ) + 2⁻¹ ^ 60| = 1 + 2⁻¹ ^ 60 := abs_of_pos (by positivity)
  have h2 : Int.log 2 ((1 : ℝ) + 2⁻¹ ^ 60) = 0 := by
    rw [Int.log_of_one_le_right _ (by norm_num)]
    have : ⌊(1 : ℝ) + 2⁻¹ ^ 60⌋₊ = 1 := by
      rw [Nat.floor_eq_iff (by positivity)]
      norm_num
    rw [this]
    simp
  unfold round53
  rw [h1, h2]
  have h3 : ((1 : ℝ) + 2⁻¹ ^ 60) / 2 ^ ((0 : ℤ) - 52) = ((2 ^ 52 : ℤ) : ℝ) + 2⁻¹ ^ 8 := by
    norm_num
  rw [h3, round_intCast_add]
  have h4 : round ((2⁻¹ : ℝ) ^ 8) = 0 := by
    rw [round_eq_zero_iff]
    norm_num
  rw [h4]
  norm_num

end

end Bdld
