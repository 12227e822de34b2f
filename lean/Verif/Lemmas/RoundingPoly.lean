import Verif.Model.FloatPolynomial
import Verif.Spec.RoundingPoly
import Verif.Lemmas.Rounding
import Verif.Lemmas.Polynomial

/-
Rounding errors of the evaluation of polynomials by Horner's scheme.
-/

namespace Bdld
open Spec

section
variable {F : Type} [Add F] [Sub F] [Mul F] [Div F] [Neg F] [LT F] {A : Rounding F}

/-- The number `a` approximates `x`, with relative error `θ - 1` of `C` and absolute error `τ`. -/
def HNear (A : Rounding F) (θ τ C : ℝ) (a : F) (x : ℝ) : Prop :=
  A.fin a ∧ |A.val a - x| ≤ (θ - 1) * C + τ ∧ |x| ≤ C

theorem hNear_val {θ τ C : ℝ} {a : F} {x : ℝ} (h : HNear A θ τ C a x) : |A.val a| ≤ θ * C + τ := by
  have h1 : |A.val a| ≤ |x| + |A.val a - x| := by
    have := abs_add_le x (A.val a - x)
    simpa using this
  linarith [h.2.1, h.2.2]

theorem hNear_mono {θ θ' τ τ' C : ℝ} {a : F} {x : ℝ} (h : HNear A θ τ C a x) (hθ : θ ≤ θ') (hτ : τ ≤ τ') :
    HNear A θ' τ' C a x := by
  refine ⟨h.1, h.2.1.trans ?_, h.2.2⟩
  have hC : 0 ≤ C := (abs_nonneg _).trans h.2.2
  nlinarith

theorem hNear_mul {θ τ C X : ℝ} {a b : F} {x : ℝ} (h : HNear A θ τ C a x) (hb : A.fin b) (hX : |A.val b| ≤ X)
    (hΩ : (θ * C + τ) * X ≤ A.Ω) : HNear A ((1 + A.u) * θ) ((1 + A.u) * X * τ + A.η) (C * X) (a * b) (x * A.val b) := by
  have hC : 0 ≤ C := (abs_nonneg _).trans h.2.2
  have hX0 : 0 ≤ X := (abs_nonneg _).trans hX
  have hv : |A.val a * A.val b| ≤ (θ * C + τ) * X := by
    rw [abs_mul]
    exact mul_le_mul (hNear_val h) hX (abs_nonneg _) ((abs_nonneg _).trans (hNear_val h))
  obtain ⟨hf, he⟩ := A.mul a b h.1 hb (hv.trans hΩ)
  refine ⟨hf, ?_, ?_⟩
  · have e : A.val (a * b) - x * A.val b = (A.val (a * b) - A.val a * A.val b) + (A.val a - x) * A.val b := by ring
    rw [e]
    have h1 := abs_add_le (A.val (a * b) - A.val a * A.val b) ((A.val a - x) * A.val b)
    have h2 : |(A.val a - x) * A.val b| ≤ ((θ - 1) * C + τ) * X := by
      rw [abs_mul]
      exact mul_le_mul h.2.1 hX (abs_nonneg _) ((abs_nonneg _).trans h.2.1)
    have h3 := mul_le_mul_of_nonneg_left hv A.u_nonneg
    nlinarith
  · rw [abs_mul]
    exact mul_le_mul h.2.2 hX (abs_nonneg _) hC

theorem hNear_add {θ τ τ' C C' : ℝ} {a b : F} {x y : ℝ} (h : HNear A θ τ C a x) (h' : HNear A θ τ' C' b y)
    (hΩ : θ * (C + C') + (τ + τ') ≤ A.Ω) :
    HNear A ((1 + A.u) * θ) ((1 + A.u) * (τ + τ')) (C + C') (a + b) (x + y) := by
  have hv : |A.val a + A.val b| ≤ θ * (C + C') + (τ + τ') := by
    have := abs_add_le (A.val a) (A.val b)
    linarith [hNear_val h, hNear_val h']
  obtain ⟨hf, he⟩ := A.add a b h.1 h'.1 (hv.trans hΩ)
  refine ⟨hf, ?_, (abs_add_le x y).trans (add_le_add h.2.2 h'.2.2)⟩
  have e : A.val (a + b) - (x + y) = (A.val (a + b) - (A.val a + A.val b)) + ((A.val a - x) + (A.val b - y)) := by ring
  rw [e]
  have h1 := abs_add_le (A.val (a + b) - (A.val a + A.val b)) ((A.val a - x) + (A.val b - y))
  have h2 := abs_add_le (A.val a - x) (A.val b - y)
  have h3 := mul_le_mul_of_nonneg_left hv A.u_nonneg
  nlinarith [h.2.1, h'.2.1]

omit [Sub F] [Div F] [Neg F] [LT F] in
theorem hornerF_succ (zero : F) (n : Nat) (x : F) (c : Nat → F) :
    hornerF zero (n + 2) x c = c 0 + hornerF zero (n + 1) x (fun i => c (i + 1)) * x := by
  unfold hornerF
  simp only [Nat.add_sub_cancel]
  rw [show n + 2 - 1 = n + 1 by omega, List.range_succ, List.map_append, List.foldl_append]
  simp only [List.map_cons, List.map_nil, List.foldl_cons, List.foldl_nil]
  have h : (List.range n).map (fun i => c (n + 2 - (i + 2))) =
      (List.range n).map (fun i => c (n + 1 - (i + 2) + 1)) := by
    apply List.map_congr_left
    intro i hi
    have := List.mem_range.1 hi
    congr 1
    omega
  rw [h, show n + 2 - (n + 2) = 0 by omega]

/-- Horner's scheme: two roundings per coefficient. -/
theorem hNear_horner {zero x : F} (h0 : A.fin zero ∧ A.val zero = 0) (hx : A.fin x) {X θ τ : ℝ} (hX : |A.val x| ≤ X)
    (hX1 : 1 ≤ X) (hθ : 1 ≤ θ) (hτ : 0 ≤ τ) (n : Nat) (hn : 0 < n) :
    ∀ (c : Nat → F) (c' C : Nat → ℝ), (∀ i < n, HNear A θ τ (C i) (c i) (c' i)) →
      (1 + A.u) ^ (2 * n) * θ * horner n X C + (1 + A.u) * (τ + A.η) * ∑ j ∈ Finset.range n, ((1 + A.u) ^ 2 * X) ^ j ≤ A.Ω →
      HNear A ((1 + A.u) ^ (2 * n) * θ) ((1 + A.u) * (τ + A.η) * ∑ j ∈ Finset.range n, ((1 + A.u) ^ 2 * X) ^ j)
        (horner n X C) (hornerF zero n x c) (horner n (A.val x) c') := by
  have hu := A.u_nonneg
  have hη := A.η_nonneg
  obtain ⟨m, rfl⟩ : ∃ m, n = m + 1 := ⟨n - 1, by omega⟩
  clear hn
  induction m with
  | zero =>
    intro c c' C hc hΩ
    have hC : 0 ≤ C 0 := (abs_nonneg _).trans (hc 0 (by omega)).2.2
    simp only [horner, hornerF, zero_add, Nat.sub_self, List.range_zero, List.map_nil, List.foldl_nil, mul_one,
      Finset.range_one, Finset.sum_singleton, pow_zero] at hΩ ⊢
    have hΩ0 : 0 ≤ A.Ω := le_trans (by positivity) hΩ
    have hz : HNear A θ A.η 0 (x * zero) 0 := by
      obtain ⟨hf, he⟩ := A.mul x zero hx h0.1 (by rw [h0.2]; simpa using hΩ0)
      rw [h0.2] at he
      exact ⟨hf, by simpa using he, by simp⟩
    have hle : (1 : ℝ) ≤ (1 + A.u) ^ 2 := one_le_pow₀ (by linarith)
    have h := hNear_add (hc 0 (by omega)) hz (by
      refine le_trans ?_ hΩ
      nlinarith [mul_le_mul_of_nonneg_right hle (mul_nonneg (by linarith : 0 ≤ θ) hC), mul_nonneg hu (add_nonneg hτ hη)])
    rw [add_zero, add_zero] at h
    refine hNear_mono h ?_ le_rfl
    nlinarith [mul_nonneg hu (by linarith : 0 ≤ θ)]
  | succ m ih =>
    intro c c' C hc hΩ
    have hCi : ∀ i < m + 2, 0 ≤ C i := fun i hi => (abs_nonneg _).trans (hc i hi).2.2
    have hR : 0 ≤ horner (m + 1) X (fun i => C (i + 1)) := by
      rw [horner_eq _ (by omega)]
      exact Finset.sum_nonneg fun i hi => mul_nonneg (hCi _ (by have := Finset.mem_range.1 hi; omega)) (by positivity)
    rw [hornerF_succ, horner_succ, horner_succ]
    rw [horner_succ] at hΩ
    set R := horner (m + 1) X (fun i => C (i + 1)) with hRdef
    set S := ∑ j ∈ Finset.range (m + 1), ((1 + A.u) ^ 2 * X) ^ j with hS
    have hS0 : 0 ≤ S := Finset.sum_nonneg fun i _ => by positivity
    have hsum : ∑ j ∈ Finset.range (m + 1 + 1), ((1 + A.u) ^ 2 * X) ^ j = 1 + (1 + A.u) ^ 2 * X * S := by
      rw [Finset.sum_range_succ', hS, Finset.mul_sum, pow_zero, add_comm]
      congr 1
      exact Finset.sum_congr rfl fun j _ => by ring
    rw [hsum] at hΩ ⊢
    set q := (1 + A.u) ^ (2 * (m + 1)) with hq
    have hpow : (1 + A.u) ^ (2 * (m + 1 + 1)) = (1 + A.u) * ((1 + A.u) * q) := by
      rw [hq]
      ring
    rw [hpow] at hΩ ⊢
    have hq1 : 1 ≤ q := one_le_pow₀ (by linarith)
    have hC0 := hCi 0 (by omega)
    have hv1 : (1 : ℝ) ≤ 1 + A.u := by linarith
    have hqθ : 0 ≤ q * θ := by positivity
    have hqθR : 0 ≤ q * θ * R := by positivity
    have hqθC : 0 ≤ q * θ * C 0 := by positivity
    have hT : 0 ≤ (1 + A.u) * (τ + A.η) * S := by positivity
    -- the largest intermediate result is the last one
    have key : (1 + A.u) * (q * θ) * (C 0 + R * X) + (τ + ((1 + A.u) * X * ((1 + A.u) * (τ + A.η) * S) + A.η)) ≤ A.Ω := by
      refine le_trans ?_ hΩ
      have a1 : (1 + A.u) * (q * θ) * (C 0 + R * X) ≤ (1 + A.u) * ((1 + A.u) * q) * θ * (C 0 + R * X) := by
        have : 0 ≤ A.u * ((1 + A.u) * (q * θ) * (C 0 + R * X)) := by positivity
        linarith
      have a2 : τ + ((1 + A.u) * X * ((1 + A.u) * (τ + A.η) * S) + A.η) ≤
          (1 + A.u) * (τ + A.η) * (1 + (1 + A.u) ^ 2 * X * S) := by
        have b1 : 0 ≤ A.u * (τ + A.η) := by positivity
        have b2 : 0 ≤ A.u * ((1 + A.u) * X * ((1 + A.u) * (τ + A.η) * S)) := by positivity
        linarith
      linarith
    have key2 : (q * θ * R + (1 + A.u) * (τ + A.η) * S) * X ≤ A.Ω := by
      refine le_trans ?_ key
      have a1 : q * θ * R * X ≤ (1 + A.u) * (q * θ) * (C 0 + R * X) := by
        have b1 : 0 ≤ q * θ * R * X := by positivity
        have b2 : 0 ≤ A.u * (q * θ * R * X) := by positivity
        have b3 : 0 ≤ (1 + A.u) * (q * θ * C 0) := by positivity
        linarith
      have a2 : (1 + A.u) * (τ + A.η) * S * X ≤ τ + ((1 + A.u) * X * ((1 + A.u) * (τ + A.η) * S) + A.η) := by
        have b1 : 0 ≤ A.u * (X * ((1 + A.u) * (τ + A.η) * S)) := by positivity
        linarith
      linarith
    have key3 : q * θ * R + (1 + A.u) * (τ + A.η) * S ≤ A.Ω := by
      refine le_trans ?_ key2
      exact le_mul_of_one_le_right (by positivity) hX1
    have hr := ih (fun i => c (i + 1)) (fun i => c' (i + 1)) (fun i => C (i + 1)) (fun i hi => hc (i + 1) (by omega)) key3
    have hp := hNear_mul hr hx hX key2
    have hc0 := hNear_mono (hc 0 (by omega)) (θ' := (1 + A.u) * (q * θ)) (τ' := τ) (by
      have b1 : θ ≤ q * θ := le_mul_of_one_le_left (by linarith) hq1
      have b2 : 0 ≤ A.u * (q * θ) := by positivity
      linarith) le_rfl
    have h := hNear_add hc0 hp key
    rw [show (1 + A.u) * ((1 + A.u) * q) * θ = (1 + A.u) * ((1 + A.u) * (q * θ)) by ring]
    refine hNear_mono h le_rfl (le_of_eq ?_)
    ring

/-! ### Several axes -/

theorem polySum_horner {d : Nat} (s : Fin (d + 1) → Nat) (h : 0 < s 0) (c : (Fin (d + 1) → Nat) → ℝ) (x : Fin (d + 1) → ℝ) :
    polySum s c x = polySum (Fin.tail s) (fun idx => horner (s 0) (x 0) (fun i => c (Fin.cons i idx))) (Fin.tail x) := by
  unfold polySum
  rw [sum_box_succ]
  apply Finset.sum_congr rfl
  intro e _
  dsimp only
  rw [horner_eq _ h, Finset.sum_mul]
  apply Finset.sum_congr rfl
  intro i _
  rw [monomial_cons]
  ring

theorem polySum_zero (s : Fin 0 → Nat) (c : (Fin 0 → Nat) → ℝ) (x : Fin 0 → ℝ) : polySum s c x = c Fin.elim0 := by
  unfold polySum
  have : box s = {Fin.elim0} := by
    ext e
    simp only [box, Finset.mem_singleton]
    exact ⟨fun _ => Subsingleton.elim _ _, fun _ => Fintype.mem_piFinset.2 (fun k => k.elim0)⟩
  rw [this]
  simp [monomial]

theorem mem_box {d : Nat} {s e : Fin d → Nat} : e ∈ box s ↔ ∀ k, e k < s k := by
  simp [box]

theorem growth_succ (u : ℝ) {d : Nat} (s : Fin (d + 1) → Nat) : growth u s = (1 + u) ^ (2 * s 0) * growth u (Fin.tail s) := by
  unfold growth
  rw [Fin.sum_univ_succ, mul_add, pow_add]
  rfl

theorem one_le_growth {u : ℝ} (hu : 0 ≤ u) {d : Nat} (s : Fin d → Nat) : 1 ≤ growth u s := one_le_pow₀ (by linarith)

theorem le_underflow {u η : ℝ} (hu : 0 ≤ u) (hη : 0 ≤ η) : (d : Nat) → (s : Fin d → Nat) → (∀ k, 0 < s k) → (X : Fin d → ℝ) →
    (∀ k, 0 ≤ X k) → (τ : ℝ) → 0 ≤ τ → τ ≤ underflow u η d s X τ
  | 0, _, _, _, _, _, _ => le_rfl
  | d + 1, s, hs, X, hX, τ, hτ => by
    unfold underflow
    have h0 := hX 0
    have h1 : (1 : ℝ) ≤ ∑ j ∈ Finset.range (s 0), ((1 + u) ^ 2 * X 0) ^ j := by
      have := Finset.single_le_sum (f := fun j => ((1 + u) ^ 2 * X 0) ^ j) (fun j _ => by positivity)
        (Finset.mem_range.2 (hs 0))
      simpa using this
    have h2 : τ ≤ (1 + u) * (τ + η) * ∑ j ∈ Finset.range (s 0), ((1 + u) ^ 2 * X 0) ^ j := by
      have a1 : τ ≤ (1 + u) * (τ + η) := by
        have : 0 ≤ u * (τ + η) := by positivity
        linarith
      exact a1.trans (le_mul_of_one_le_right (by positivity) h1)
    exact h2.trans (le_underflow hu hη d _ (fun k => hs k.succ) _ (fun k => hX k.succ) _ (hτ.trans h2))

theorem one_le_monomial {d : Nat} (e : Fin d → Nat) {X : Fin d → ℝ} (hX : ∀ k, 1 ≤ X k) : 1 ≤ monomial e X := by
  unfold monomial
  have : ∀ s : Finset (Fin d), 1 ≤ ∏ k ∈ s, X k ^ e k := by
    intro s
    induction s using Finset.induction_on with
    | empty => simp
    | insert k s hk ih =>
      rw [Finset.prod_insert hk]
      exact one_le_mul_of_one_le_of_one_le (one_le_pow₀ (hX k)) ih
  exact this _

theorem le_polySum {d : Nat} (s : Fin d → Nat) (C : (Fin d → Nat) → ℝ) (hC : ∀ e ∈ box s, 0 ≤ C e) {X : Fin d → ℝ}
    (hX : ∀ k, 1 ≤ X k) (e : Fin d → Nat) (he : e ∈ box s) : C e ≤ polySum s C X := by
  unfold polySum
  refine le_trans ?_ (Finset.single_le_sum (f := fun e => C e * monomial e X) ?_ he)
  · exact le_mul_of_one_le_right (hC e he) (one_le_monomial e hX)
  · intro i hi
    exact mul_nonneg (hC i hi) (zero_le_one.trans (one_le_monomial i hX))

/-- Evaluation of a polynomial in several variables. -/
theorem hNear_polyval {zero : F} (h0 : A.fin zero ∧ A.val zero = 0) : (d : Nat) → (x : Fin d → F) → (a : ArrF F d) →
    (∀ k, 0 < a.shape k) → (X : Fin d → ℝ) → (∀ k, A.fin (x k) ∧ |A.val (x k)| ≤ X k) → (∀ k, 1 ≤ X k) →
    (θ τ : ℝ) → 1 ≤ θ → 0 ≤ τ → (c C : (Fin d → Nat) → ℝ) → (∀ e ∈ box a.shape, HNear A θ τ (C e) (a.val e) (c e)) →
    growth A.u a.shape * θ * polySum a.shape C X + underflow A.u A.η d a.shape X τ ≤ A.Ω →
    HNear A (growth A.u a.shape * θ) (underflow A.u A.η d a.shape X τ) (polySum a.shape C X) (polyvalNdF zero d x a)
      (polySum a.shape c (fun k => A.val (x k)))
  | 0, x, a, _, X, _, _, θ, τ, _, _, c, C, hc, _ => by
    have h : growth A.u a.shape = 1 := by simp [growth]
    rw [polySum_zero, polySum_zero, h, one_mul]
    exact hc _ (mem_box.2 fun k => k.elim0)
  | d + 1, x, a, hs, X, hx, hX, θ, τ, hθ, hτ, c, C, hc, hΩ => by
    rw [growth_succ, polySum_horner _ (hs 0)] at hΩ ⊢
    rw [polySum_horner _ (hs 0)]
    unfold polyvalNdF
    unfold underflow at hΩ ⊢
    set C' : (Fin d → Nat) → ℝ := fun idx => horner (a.shape 0) (X 0) (fun i => C (Fin.cons i idx)) with hC'
    set τ' := (1 + A.u) * (τ + A.η) * ∑ j ∈ Finset.range (a.shape 0), ((1 + A.u) ^ 2 * X 0) ^ j with hτ'
    have hu := A.u_nonneg
    have hη := A.η_nonneg
    have hX0 : ∀ k, 0 ≤ X k := fun k => zero_le_one.trans (hX k)
    have hτ'0 : 0 ≤ τ' := by
      have := hX0 0
      exact mul_nonneg (by positivity) (Finset.sum_nonneg fun j _ => by positivity)
    have hcons : ∀ idx ∈ box (Fin.tail a.shape), ∀ i < a.shape 0, (Fin.cons i idx : Fin (d + 1) → Nat) ∈ box a.shape := by
      intro idx hidx i hi
      rw [mem_box] at hidx ⊢
      intro k
      refine Fin.cases ?_ (fun k => ?_) k
      · simpa using hi
      · simpa [Fin.tail] using hidx k
    have hC'0 : ∀ idx ∈ box (Fin.tail a.shape), 0 ≤ C' idx := by
      intro idx hidx
      rw [hC']
      dsimp only
      rw [horner_eq _ (hs 0)]
      have := hX0 0
      exact Finset.sum_nonneg fun i hi => mul_nonneg
        ((abs_nonneg _).trans (hc _ (hcons idx hidx i (Finset.mem_range.1 hi))).2.2) (by positivity)
    have hg := one_le_growth hu (Fin.tail a.shape)
    have hθ' : 1 ≤ (1 + A.u) ^ (2 * a.shape 0) * θ := one_le_mul_of_one_le_of_one_le (one_le_pow₀ (by linarith)) hθ
    have hrow : ∀ idx ∈ box (Fin.tail a.shape), HNear A ((1 + A.u) ^ (2 * a.shape 0) * θ) τ' (C' idx)
        (hornerF zero (a.shape 0) (x 0) (fun i => a.val (Fin.cons i idx)))
        (horner (a.shape 0) (A.val (x 0)) (fun i => c (Fin.cons i idx))) := by
      intro idx hidx
      refine hNear_horner h0 (hx 0).1 (hx 0).2 (hX 0) hθ hτ _ (hs 0) _ _ _ (fun i hi => hc _ (hcons idx hidx i hi)) ?_
      refine le_trans (add_le_add ?_ (le_underflow hu hη d _ (fun k => hs k.succ) (Fin.tail X) (fun k => hX0 k.succ) τ' hτ'0)) hΩ
      have h1 := le_polySum _ C' hC'0 (fun k => hX k.succ) idx hidx
      have h2 := hC'0 idx hidx
      calc (1 + A.u) ^ (2 * a.shape 0) * θ * C' idx
          ≤ (1 + A.u) ^ (2 * a.shape 0) * θ * polySum (Fin.tail a.shape) C' (Fin.tail X) :=
            mul_le_mul_of_nonneg_left h1 (by linarith)
        _ ≤ growth A.u (Fin.tail a.shape) * ((1 + A.u) ^ (2 * a.shape 0) * θ * polySum (Fin.tail a.shape) C' (Fin.tail X)) :=
            le_mul_of_one_le_left (mul_nonneg (by linarith) (h2.trans h1)) hg
        _ = _ := by ring
    have h := hNear_polyval h0 d (Fin.tail x)
      ⟨Fin.tail a.shape, fun idx => hornerF zero (a.shape 0) (x 0) (fun i => a.val (Fin.cons i idx))⟩ (fun k => hs k.succ)
      (Fin.tail X) (fun k => hx k.succ) (fun k => hX k.succ) _ τ' hθ' hτ'0
      (fun idx => horner (a.shape 0) (A.val (x 0)) (fun i => c (Fin.cons i idx))) C' hrow (by
        refine le_trans (le_of_eq ?_) hΩ
        ring)
    rw [show (1 + A.u) ^ (2 * a.shape 0) * growth A.u (Fin.tail a.shape) * θ =
      growth A.u (Fin.tail a.shape) * ((1 + A.u) ^ (2 * a.shape 0) * θ) by ring]
    exact h

/-! ### Derivatives -/

/-- The exact coefficients. -/
def ArrF.exact (A : Rounding F) {d : Nat} (a : ArrF F d) : NdArr d := ⟨a.shape, fun e => A.val (a.val e)⟩

theorem polyderF_shape (zero : F) (ofNat : Nat → F) {d : Nat} (a : ArrF F d) (k : Fin d) :
    (polyderF zero ofNat a k).shape = (polyder (a.exact A) k).shape := by
  unfold polyderF polyder ArrF.exact
  dsimp only
  split <;> rfl

theorem absPoly_der {d : Nat} (a : NdArr d) (k : Fin d) (X : Fin d → ℝ) :
    absPoly (polyder a k).shape (polyder a k).val X = absDer a.shape a.val k X := by
  have h := polyder_sum ⟨a.shape, fun e => |a.val e|⟩ X k
  unfold absDer absPoly
  rw [← h]
  unfold polyder
  dsimp only
  split
  · simp
  · dsimp only
    congr 1
    funext e
    rw [abs_mul, Nat.abs_cast]

/-- Computed coefficients of the derivative. -/
theorem hNear_der {zero : F} (h0 : A.fin zero ∧ A.val zero = 0) {ofNat : Nat → F} {d : Nat} (a : ArrF F d)
    (hfin : ∀ e ∈ box a.shape, A.fin (a.val e)) (k : Fin d) (hs : ∀ j, 0 < a.shape j)
    (hnat : ∀ n < a.shape k, A.fin (ofNat n) ∧ A.val (ofNat n) = n)
    (hΩ : ∀ e ∈ box (polyder (a.exact A) k).shape, |(polyder (a.exact A) k).val e| ≤ A.Ω) (hΩ0 : 0 ≤ A.Ω)
    (e : Fin d → Nat) (he : e ∈ box (polyder (a.exact A) k).shape) :
    HNear A (1 + A.u) A.η |(polyder (a.exact A) k).val e| ((polyderF zero ofNat a k).val e) ((polyder (a.exact A) k).val e) := by
  have hΩe := hΩ e he
  rw [mem_box] at he
  unfold polyderF
  unfold polyder at he hΩe ⊢
  unfold ArrF.exact at he hΩe ⊢
  dsimp only at he hΩe ⊢
  by_cases h1 : a.shape k ≤ 1
  · rw [if_pos h1] at he hΩe ⊢
    rw [if_pos h1]
    dsimp only at he hΩe ⊢
    have hf : A.fin (a.val (Function.update e k 0)) := by
      refine hfin _ (mem_box.2 fun j => ?_)
      by_cases hj : j = k
      · subst hj
        simpa using hs j
      · have := he j
        rw [Function.update_of_ne hj] at this ⊢
        exact this
    obtain ⟨h2, h3⟩ := A.mul _ zero hf h0.1 (by rw [h0.2]; simpa using hΩ0)
    rw [h0.2] at h3
    exact ⟨h2, by simpa using h3, by simp⟩
  · rw [if_neg h1] at he hΩe ⊢
    rw [if_neg h1]
    dsimp only at he hΩe ⊢
    have hk := he k
    rw [Function.update_self] at hk
    have hf : A.fin (a.val (Function.update e k (e k + 1))) := by
      refine hfin _ (mem_box.2 fun j => ?_)
      by_cases hj : j = k
      · subst hj
        rw [Function.update_self]
        omega
      · have := he j
        rw [Function.update_of_ne hj] at this ⊢
        exact this
    obtain ⟨n1, n2⟩ := hnat (e k + 1) (by omega)
    obtain ⟨h2, h3⟩ := A.mul _ _ n1 hf (by rw [n2]; exact hΩe)
    rw [n2] at h3
    refine ⟨h2, ?_, le_rfl⟩
    rw [show 1 + A.u - 1 = A.u by ring]
    exact h3

/-! ### Change of a polynomial -/

theorem monomial_lip {d : Nat} (e : Fin d → Nat) {x y X : Fin d → ℝ} {ε : ℝ} (hx : ∀ k, |x k| ≤ X k) (hy : ∀ k, |y k| ≤ X k)
    (hxy : ∀ k, |x k - y k| ≤ ε) : |monomial e x - monomial e y| ≤
      ε * ∑ k, (e k : ℝ) * X k ^ (e k - 1) * ∏ j ∈ Finset.univ.erase k, X j ^ e j := by
  have hX : ∀ k, 0 ≤ X k := fun k => (abs_nonneg _).trans (hx k)
  have hpow : ∀ (z : Fin d → ℝ), (∀ k, |z k| ≤ X k) → ∀ k, |z k ^ e k| ≤ X k ^ e k := fun z hz k => by
    rw [abs_pow]
    exact pow_le_pow_left₀ (abs_nonneg _) (hz k) _
  have hprod : ∀ s : Finset (Fin d), |∏ k ∈ s, x k ^ e k| ≤ ∏ k ∈ s, X k ^ e k := fun s => by
    rw [Finset.abs_prod]
    exact Finset.prod_le_prod (fun _ _ => abs_nonneg _) (fun k _ => hpow x hx k)
  have key : ∀ s : Finset (Fin d), |∏ k ∈ s, x k ^ e k - ∏ k ∈ s, y k ^ e k| ≤
      ε * ∑ k ∈ s, (e k : ℝ) * X k ^ (e k - 1) * ∏ j ∈ s.erase k, X j ^ e j := by
    intro s
    induction s using Finset.induction_on with
    | empty => simp
    | insert k s hk ih =>
      rw [Finset.prod_insert hk, Finset.prod_insert hk, Finset.sum_insert hk, Finset.erase_insert hk]
      have hsum : ∑ i ∈ s, (e i : ℝ) * X i ^ (e i - 1) * ∏ j ∈ (insert k s).erase i, X j ^ e j =
          X k ^ e k * ∑ i ∈ s, (e i : ℝ) * X i ^ (e i - 1) * ∏ j ∈ s.erase i, X j ^ e j := by
        rw [Finset.mul_sum]
        refine Finset.sum_congr rfl fun i hi => ?_
        have hne : k ≠ i := fun h => hk (h ▸ hi)
        rw [Finset.erase_insert_of_ne hne, Finset.prod_insert (fun h => hk (Finset.mem_of_mem_erase h))]
        ring
      rw [hsum]
      have e1 : x k ^ e k * ∏ i ∈ s, x i ^ e i - y k ^ e k * ∏ i ∈ s, y i ^ e i =
          (x k ^ e k - y k ^ e k) * ∏ i ∈ s, x i ^ e i + y k ^ e k * (∏ i ∈ s, x i ^ e i - ∏ i ∈ s, y i ^ e i) := by ring
      rw [e1]
      refine (abs_add_le _ _).trans ?_
      rw [abs_mul, abs_mul]
      have hp : |x k ^ e k - y k ^ e k| ≤ ε * ((e k : ℝ) * X k ^ (e k - 1)) := by
        refine (abs_pow_sub_pow_le _ _ _).trans ?_
        have h1 : max |x k| |y k| ^ (e k - 1) ≤ X k ^ (e k - 1) :=
          pow_le_pow_left₀ (le_max_of_le_left (abs_nonneg _)) (max_le (hx k) (hy k)) _
        have h2 : |x k - y k| * (e k : ℝ) ≤ ε * e k := mul_le_mul_of_nonneg_right (hxy k) (Nat.cast_nonneg _)
        rw [← mul_assoc]
        exact mul_le_mul h2 h1 (by positivity) (le_trans (by positivity) h2)
      have h1 := mul_le_mul hp (hprod s) (abs_nonneg _) ((abs_nonneg _).trans hp)
      have h2 := mul_le_mul (hpow y hy k) ih (abs_nonneg _) (pow_nonneg (hX k) _)
      refine (add_le_add h1 h2).trans (le_of_eq ?_)
      ring
  exact key Finset.univ

theorem polySum_lip {d : Nat} (s : Fin d → Nat) (c : (Fin d → Nat) → ℝ) {x y X : Fin d → ℝ} {ε : ℝ} (hx : ∀ k, |x k| ≤ X k)
    (hy : ∀ k, |y k| ≤ X k) (hxy : ∀ k, |x k - y k| ≤ ε) : |polySum s c x - polySum s c y| ≤ ε * ∑ k, absDer s c k X := by
  unfold polySum absDer
  rw [← Finset.sum_sub_distrib, Finset.sum_comm, Finset.mul_sum]
  refine (Finset.abs_sum_le_sum_abs _ _).trans (Finset.sum_le_sum fun e _ => ?_)
  rw [← mul_sub, abs_mul]
  refine (mul_le_mul_of_nonneg_left (monomial_lip e hx hy hxy) (abs_nonneg _)).trans (le_of_eq ?_)
  rw [← Finset.mul_sum]
  ring

theorem abs_polySum_le {d : Nat} (s : Fin d → Nat) (c : (Fin d → Nat) → ℝ) {x X : Fin d → ℝ} (hx : ∀ k, |x k| ≤ X k) :
    |polySum s c x| ≤ absPoly s c X := by
  unfold absPoly polySum
  refine (Finset.abs_sum_le_sum_abs _ _).trans (Finset.sum_le_sum fun e _ => ?_)
  rw [abs_mul]
  refine mul_le_mul_of_nonneg_left ?_ (abs_nonneg _)
  unfold monomial
  rw [Finset.abs_prod]
  refine Finset.prod_le_prod (fun _ _ => abs_nonneg _) fun k _ => ?_
  rw [abs_pow]
  exact pow_le_pow_left₀ (abs_nonneg _) (hx k) _

theorem absPoly_mono {d : Nat} (s : Fin d → Nat) (c : (Fin d → Nat) → ℝ) {X Y : Fin d → ℝ} (h0 : ∀ k, 0 ≤ X k)
    (h : ∀ k, X k ≤ Y k) : absPoly s c X ≤ absPoly s c Y := by
  unfold absPoly polySum
  refine Finset.sum_le_sum fun e _ => mul_le_mul_of_nonneg_left ?_ (abs_nonneg _)
  exact Finset.prod_le_prod (fun k _ => pow_nonneg (h0 k) _) fun k _ => pow_le_pow_left₀ (h0 k) (h k) _

end

end Bdld
