import Verif.Spec.RoundingRates
import Verif.Lemmas.Rounding
import Mathlib.Analysis.Complex.ExponentialBounds

/-
Rounding errors of sums, products, quotients, exponentials and logarithms.
-/

namespace Bdld
open Spec

section
variable {F : Type} [Add F] [Sub F] [Mul F] [Div F] [Neg F] [LT F] {A : Rounding F}

theorem near_sub {b c : Bnd} {a a' : F} {x y : ℝ} (h : Near A b a x) (h' : Near A c a' y) (hΩ : b.addTop c ≤ A.Ω) :
    Near A (b.add A.u c) (a - a') (x - y) := by
  have hv : |A.val a - A.val a'| ≤ b.addTop c := by
    have := abs_sub (A.val a) (A.val a')
    have h1 := near_val h
    have h2 := near_val h'
    unfold Bnd.addTop
    linarith
  obtain ⟨hf, he⟩ := A.sub a a' h.1 h'.1 (hv.trans hΩ)
  refine ⟨hf, ?_, ?_⟩
  · have e : A.val (a - a') - (x - y) = (A.val (a - a') - (A.val a - A.val a')) + ((A.val a - x) - (A.val a' - y)) := by ring
    rw [e]
    have h1 := abs_add_le (A.val (a - a') - (A.val a - A.val a')) ((A.val a - x) - (A.val a' - y))
    have h2 := abs_sub (A.val a - x) (A.val a' - y)
    have h3 := mul_le_mul_of_nonneg_left hv A.u_nonneg
    unfold Bnd.addTop at h3
    unfold Bnd.add
    dsimp only
    linarith [h.2.1, h'.2.1]
  · have := abs_sub x y
    unfold Bnd.add
    dsimp only
    linarith [h.2.2, h'.2.2]

theorem near_quot {b c : Bnd} {a a' : F} {x y lo : ℝ} (h : Near A b a x) (h' : Near A c a' y) (hlo : lo ≤ y) (hc : c.err < lo)
    (hΩ : b.quotTop c lo ≤ A.Ω) : Near A (b.quot A.u A.η c lo) (a / a') (x / y) := by
  have hm1 : 0 ≤ b.mag := (abs_nonneg _).trans h.2.2
  have he1 : 0 ≤ b.err := (abs_nonneg _).trans h.2.1
  have he2 : 0 ≤ c.err := (abs_nonneg _).trans h'.2.1
  have hlo0 : 0 < lo := he2.trans_lt hc
  have hy : 0 < y := hlo0.trans_le hlo
  have hd : 0 < lo - c.err := by linarith
  have ha' : lo - c.err ≤ A.val a' := by linarith [(abs_le.1 h'.2.1).1]
  have ha0 : 0 < A.val a' := hd.trans_le ha'
  have hv : |A.val a / A.val a'| ≤ b.quotTop c lo := by
    rw [abs_div, abs_of_pos ha0]
    exact div_le_div₀ (by linarith) (near_val h) hd ha'
  obtain ⟨hf, he⟩ := A.div a a' h.1 h'.1 ha0.ne' (hv.trans hΩ)
  refine ⟨hf, ?_, ?_⟩
  · have e : A.val (a / a') - x / y = (A.val (a / a') - A.val a / A.val a') +
        ((A.val a - x) / A.val a' + x * (y - A.val a') / (A.val a' * y)) := by
      field_simp
      ring
    rw [e]
    have h1 := abs_add_le (A.val (a / a') - A.val a / A.val a') ((A.val a - x) / A.val a' + x * (y - A.val a') / (A.val a' * y))
    have h2 := abs_add_le ((A.val a - x) / A.val a') (x * (y - A.val a') / (A.val a' * y))
    have h3 : |(A.val a - x) / A.val a'| ≤ b.err / (lo - c.err) := by
      rw [abs_div, abs_of_pos ha0]
      exact div_le_div₀ he1 h.2.1 hd ha'
    have h4 : |x * (y - A.val a') / (A.val a' * y)| ≤ b.mag * c.err / ((lo - c.err) * lo) := by
      rw [abs_div, abs_mul, abs_of_pos (mul_pos ha0 hy)]
      refine div_le_div₀ (mul_nonneg hm1 he2) (mul_le_mul h.2.2 ?_ (abs_nonneg _) hm1) (mul_pos hd hlo0)
        (mul_le_mul ha' hlo hlo0.le ha0.le)
      rw [abs_sub_comm]
      exact h'.2.1
    have h5 := mul_le_mul_of_nonneg_left hv A.u_nonneg
    unfold Bnd.quotTop at h5
    unfold Bnd.quot
    dsimp only
    linarith
  · rw [abs_div, abs_of_pos hy]
    exact div_le_div₀ hm1 h.2.2 hlo0 hlo

/-- Error of a sum in any order. -/
theorem tree_sum (x : Nat → F) (m : ℝ) : ∀ t : AddTree, (∀ i ∈ t.leaves, A.fin (x i) ∧ |A.val (x i)| ≤ m) →
    (1 + A.u) ^ (t.leaves.length - 1) * (t.leaves.length * m) ≤ A.Ω →
    0 < t.leaves.length ∧ A.fin (t.eval x) ∧ |A.val (t.eval x) - (t.leaves.map fun i => A.val (x i)).sum| ≤
      ((1 + A.u) ^ (t.leaves.length - 1) - 1) * (t.leaves.length * m) ∧
    |(t.leaves.map fun i => A.val (x i)).sum| ≤ t.leaves.length * m
  | .leaf i, h, _ => by
    have := h i (by simp [AddTree.leaves])
    refine ⟨by simp [AddTree.leaves], this.1, by simp [AddTree.leaves, AddTree.eval], ?_⟩
    simpa [AddTree.leaves] using this.2
  | .node l r, h, hΩ => by
    have hu := A.u_nonneg
    simp only [AddTree.leaves, List.length_append, List.map_append, List.sum_append, AddTree.eval] at hΩ h ⊢
    have hl : ∀ i ∈ l.leaves, A.fin (x i) ∧ |A.val (x i)| ≤ m := fun i hi => h i (List.mem_append_left _ hi)
    have hr : ∀ i ∈ r.leaves, A.fin (x i) ∧ |A.val (x i)| ≤ m := fun i hi => h i (List.mem_append_right _ hi)
    have hpos : ∀ t : AddTree, 0 < t.leaves.length := by
      intro t
      induction t with
      | leaf i => simp [AddTree.leaves]
      | node l r h1 h2 => simp only [AddTree.leaves, List.length_append]; omega
    have hlp := hpos l
    have hrp := hpos r
    have hm : 0 ≤ m := by
      obtain ⟨i, hi⟩ := List.exists_mem_of_length_pos hlp
      exact (abs_nonneg _).trans (hl i hi).2
    have hpow : ∀ k k' : Nat, k ≤ k' → (1 + A.u) ^ k ≤ (1 + A.u) ^ k' := fun k k' hk => pow_le_pow_right₀ (by linarith) hk
    have hone : ∀ k : Nat, 1 ≤ (1 + A.u) ^ k := fun k => one_le_pow₀ (by linarith)
    have hle1 : (l.leaves.length : ℝ) * m ≤ ((l.leaves.length + r.leaves.length : Nat) : ℝ) * m := by
      push_cast
      nlinarith [mul_nonneg (Nat.cast_nonneg (α := ℝ) r.leaves.length) hm]
    have hle2 : (r.leaves.length : ℝ) * m ≤ ((l.leaves.length + r.leaves.length : Nat) : ℝ) * m := by
      push_cast
      nlinarith [mul_nonneg (Nat.cast_nonneg (α := ℝ) l.leaves.length) hm]
    obtain ⟨_, l1, l2, l3⟩ := tree_sum x m l hl (le_trans (mul_le_mul (hpow _ _ (by omega)) hle1 (by positivity) (by positivity)) hΩ)
    obtain ⟨_, r1, r2, r3⟩ := tree_sum x m r hr (le_trans (mul_le_mul (hpow _ _ (by omega)) hle2 (by positivity) (by positivity)) hΩ)
    obtain ⟨k, hk⟩ : ∃ k, l.leaves.length + r.leaves.length = k + 2 := ⟨l.leaves.length + r.leaves.length - 2, by omega⟩
    have ck : ((k + 2 : Nat) : ℝ) = l.leaves.length + r.leaves.length := by rw [← hk]; push_cast; ring
    have hgl : ((1 + A.u) ^ (l.leaves.length - 1) - 1) * (l.leaves.length * m) ≤ ((1 + A.u) ^ k - 1) * (l.leaves.length * m) :=
      mul_le_mul_of_nonneg_right (by linarith [hpow (l.leaves.length - 1) k (by omega)]) (by positivity)
    have hgr : ((1 + A.u) ^ (r.leaves.length - 1) - 1) * (r.leaves.length * m) ≤ ((1 + A.u) ^ k - 1) * (r.leaves.length * m) :=
      mul_le_mul_of_nonneg_right (by linarith [hpow (r.leaves.length - 1) k (by omega)]) (by positivity)
    rw [hk] at hΩ ⊢
    rw [ck] at hΩ ⊢
    set sl := (l.leaves.map fun i => A.val (x i)).sum
    set sr := (r.leaves.map fun i => A.val (x i)).sum
    have hs : |A.val (l.eval x) + A.val (r.eval x) - (sl + sr)| ≤ ((1 + A.u) ^ k - 1) * ((l.leaves.length + r.leaves.length) * m) := by
      have e : A.val (l.eval x) + A.val (r.eval x) - (sl + sr) = (A.val (l.eval x) - sl) + (A.val (r.eval x) - sr) := by ring
      rw [e]
      have := abs_add_le (A.val (l.eval x) - sl) (A.val (r.eval x) - sr)
      nlinarith
    have hsum : |sl + sr| ≤ (l.leaves.length + r.leaves.length) * m := by
      have := abs_add_le sl sr
      nlinarith
    have hv : |A.val (l.eval x) + A.val (r.eval x)| ≤ (1 + A.u) ^ k * ((l.leaves.length + r.leaves.length) * m) := by
      have := abs_add_le (sl + sr) (A.val (l.eval x) + A.val (r.eval x) - (sl + sr))
      rw [add_sub_cancel] at this
      nlinarith
    have hk1 : k + 2 - 1 = k + 1 := by omega
    rw [hk1] at hΩ ⊢
    have htop : (1 + A.u) ^ k * (((l.leaves.length : ℝ) + r.leaves.length) * m) ≤ A.Ω := by
      refine le_trans (mul_le_mul_of_nonneg_right (hpow k (k + 1) (by omega)) (by positivity)) hΩ
    obtain ⟨f1, f2⟩ := A.add _ _ l1 r1 (hv.trans htop)
    refine ⟨by omega, f1, ?_, hsum⟩
    have e : A.val (l.eval x + r.eval x) - (sl + sr) = (A.val (l.eval x + r.eval x) - (A.val (l.eval x) + A.val (r.eval x))) +
        (A.val (l.eval x) + A.val (r.eval x) - (sl + sr)) := by ring
    rw [e]
    have h1 := abs_add_le (A.val (l.eval x + r.eval x) - (A.val (l.eval x) + A.val (r.eval x)))
      (A.val (l.eval x) + A.val (r.eval x) - (sl + sr))
    have h2 := mul_le_mul_of_nonneg_left hv hu
    rw [pow_succ]
    nlinarith

variable {f : FloatFns F} (hf : FnContract A f)
include hf

theorem near_sum {b : Bnd} {l : List F} {l' : List ℝ} (h : List.Forall₂ (Near A b) l l') (hn : 0 < l.length)
    (hΩ : b.sumTop A.u l.length ≤ A.Ω) : Near A (b.sum A.u l.length) (sumF f l) l'.sum := by
  have hp := hf.order l.length hn
  have hlen : (f.order l.length).leaves.length = l.length := by rw [hp.length_eq, List.length_range]
  have hmem : ∀ i ∈ (f.order l.length).leaves, A.fin (l.getD i f.zero) ∧ |A.val (l.getD i f.zero)| ≤ b.mag + b.err := by
    intro i hi
    have hi' : i < l.length := List.mem_range.1 (hp.mem_iff.1 hi)
    have := (List.forall₂_iff_get.1 h).2 i hi' (h.length_eq ▸ hi')
    have hg : l.getD i f.zero = l.get ⟨i, hi'⟩ := by simp [List.getD_eq_getElem?_getD, List.getElem?_eq_getElem hi']
    rw [hg]
    exact ⟨this.1, near_val this⟩
  obtain ⟨t0, t1, t2, t3⟩ := tree_sum (A := A) (fun i => l.getD i f.zero) (b.mag + b.err) (f.order l.length) hmem
    (by rw [hlen]; exact hΩ)
  have hs : ((f.order l.length).leaves.map fun i => A.val (l.getD i f.zero)).sum = (l.map A.val).sum := by
    rw [(hp.map _).sum_eq]
    congr 1
    apply List.ext_getElem
    · simp
    · intro i h1 h2
      have : i < l.length := by simpa using h1
      simp [List.getElem?_eq_getElem this]
  rw [hs, hlen] at t2
  have hsum : |(l.map A.val).sum - l'.sum| ≤ l.length * b.err ∧ |l'.sum| ≤ l.length * b.mag := by
    clear hs t0 t1 t2 t3 hmem hlen hp hΩ hn
    induction h with
    | nil => simp
    | @cons a x l l' ha _ ih =>
      simp only [List.map_cons, List.sum_cons, List.length_cons]
      push_cast
      have h1 := abs_add_le (A.val a - x) ((l.map A.val).sum - l'.sum)
      have h2 := abs_add_le x l'.sum
      have e : A.val a + (l.map A.val).sum - (x + l'.sum) = (A.val a - x) + ((l.map A.val).sum - l'.sum) := by ring
      rw [e]
      constructor
      · linarith [ha.2.1, ih.1]
      · linarith [ha.2.2, ih.2]
  refine ⟨t1, ?_, hsum.2⟩
  have e : A.val (sumF f l) - l'.sum = (A.val (sumF f l) - (l.map A.val).sum) + ((l.map A.val).sum - l'.sum) := by ring
  rw [e]
  have := abs_add_le (A.val (sumF f l) - (l.map A.val).sum) ((l.map A.val).sum - l'.sum)
  unfold Bnd.sum
  dsimp only
  unfold sumF at this ⊢
  linarith [hsum.1]

theorem near_mean {b : Bnd} {l : List F} {l' : List ℝ} (h : List.Forall₂ (Near A b) l l') (hn : 0 < l.length)
    (hnat : A.fin (f.ofNat l.length) ∧ A.val (f.ofNat l.length) = l.length)
    (hΩ : b.sumTop A.u l.length ≤ A.Ω) (hΩ' : (b.sum A.u l.length).divTop l.length ≤ A.Ω) :
    Near A ((b.sum A.u l.length).div A.u A.η l.length) (meanF f l) (l'.sum / l.length) :=
  near_div (near_sum hf h hn hΩ) hnat.1 hnat.2 (by exact_mod_cast hn) hΩ'

theorem near_exp {b : Bnd} {a : F} {x : ℝ} (h : Near A b a x) (hx : x ≤ 0) (hb : b.err ≤ 1) :
    Near A (b.exp hf.ex) (f.exp a) (Real.exp x) := by
  have ha : A.val a ≤ 1 := by linarith [(abs_le.1 h.2.1).2]
  obtain ⟨h1, h2⟩ := hf.exp a h.1 ha
  refine ⟨h1, ?_, ?_⟩
  · have h3 : |Real.exp (A.val a) - Real.exp x| ≤ 3 * |A.val a - x| := by
      have he1 : Real.exp 1 ≤ 3 := by linarith [Real.exp_one_lt_d9]
      have key : ∀ s t : ℝ, s ≤ t → t ≤ 1 → Real.exp t - Real.exp s ≤ 3 * (t - s) := by
        intro s t hst ht
        have g1 : Real.exp t * (1 - (t - s)) ≤ Real.exp s := by
          have : 1 - (t - s) ≤ Real.exp (-(t - s)) := by linarith [Real.add_one_le_exp (-(t - s))]
          calc Real.exp t * (1 - (t - s)) ≤ Real.exp t * Real.exp (-(t - s)) := mul_le_mul_of_nonneg_left this (Real.exp_pos _).le
            _ = Real.exp s := by rw [← Real.exp_add]; congr 1; ring
        have g2 : Real.exp t ≤ 3 := (Real.exp_le_exp.2 ht).trans he1
        nlinarith [mul_le_mul_of_nonneg_right g2 (sub_nonneg.2 hst)]
      rcases le_total x (A.val a) with hle | hle
      · rw [abs_of_nonneg (by linarith [Real.exp_le_exp.2 hle]), abs_of_nonneg (by linarith)]
        exact key _ _ hle ha
      · rw [abs_of_nonpos (by linarith [Real.exp_le_exp.2 hle]), abs_of_nonpos (by linarith)]
        linarith [key _ _ hle (by linarith)]
    have e : A.val (f.exp a) - Real.exp x = (A.val (f.exp a) - Real.exp (A.val a)) + (Real.exp (A.val a) - Real.exp x) := by ring
    rw [e]
    have := abs_add_le (A.val (f.exp a) - Real.exp (A.val a)) (Real.exp (A.val a) - Real.exp x)
    unfold Bnd.exp
    dsimp only
    linarith [h.2.1]
  · rw [abs_of_pos (Real.exp_pos _)]
    exact Real.exp_le_one_iff.2 hx

theorem near_log {b : Bnd} {a : F} {x lo M : ℝ} (h : Near A b a x) (hlo : lo ≤ x) (hb : b.err < lo) (hM : |Real.log x| ≤ M) :
    Near A (b.log hf.lg lo M) (f.log a) (Real.log x) := by
  have he0 : 0 ≤ b.err := (abs_nonneg _).trans h.2.1
  have hx : 0 < x := (he0.trans_lt hb).trans_le hlo
  have ha : lo - b.err ≤ A.val a := by linarith [(abs_le.1 h.2.1).1]
  have hd : 0 < lo - b.err := by linarith
  have ha0 : 0 < A.val a := hd.trans_le ha
  obtain ⟨h1, h2⟩ := hf.log a h.1 ha0
  have key : ∀ s t : ℝ, 0 < s → 0 < t → lo - b.err ≤ s → |t - s| ≤ b.err → Real.log t - Real.log s ≤ b.err / (lo - b.err) := by
    intro s t hs ht hls hst
    rw [← Real.log_div ht.ne' hs.ne']
    have g1 := Real.log_le_sub_one_of_pos (div_pos ht hs)
    have g2 : t / s - 1 = (t - s) / s := by field_simp
    rw [g2] at g1
    refine g1.trans (div_le_div₀ he0 ((le_abs_self _).trans hst) hd hls)
  have h3 : |Real.log (A.val a) - Real.log x| ≤ b.err / (lo - b.err) := by
    rw [abs_sub_le_iff]
    refine ⟨key x (A.val a) hx ha0 (by linarith) h.2.1, key (A.val a) x ha0 hx ha ?_⟩
    rw [abs_sub_comm]
    exact h.2.1
  refine ⟨h1, ?_, hM⟩
  have e : A.val (f.log a) - Real.log x = (A.val (f.log a) - Real.log (A.val a)) + (Real.log (A.val a) - Real.log x) := by ring
  rw [e]
  have h4 := abs_add_le (A.val (f.log a) - Real.log (A.val a)) (Real.log (A.val a) - Real.log x)
  have h5 : |Real.log (A.val a)| ≤ M + b.err / (lo - b.err) := by
    have := abs_add_le (Real.log x) (Real.log (A.val a) - Real.log x)
    rw [add_sub_cancel] at this
    linarith
  have h6 := mul_le_mul_of_nonneg_left h5 hf.lg_nonneg
  unfold Bnd.log
  dsimp only
  linarith

theorem near_abs {b : Bnd} {a : F} {x : ℝ} (h : Near A b a x) : Near A b (f.abs a) |x| := by
  obtain ⟨h1, h2⟩ := hf.abs a h.1
  refine ⟨h1, ?_, by rw [abs_abs]; exact h.2.2⟩
  rw [h2]
  exact (abs_abs_sub_abs_le_abs_sub _ _).trans h.2.1

omit hf in
theorem near_foldl {b : Bnd} : ∀ {l : List F} {l' : List ℝ}, List.Forall₂ (Near A b) l l' → ∀ {c : Bnd} {a : F} {x : ℝ}, Near A c a x →
    (∀ m < l.length, ((fun c => c.mul A.u A.η b)^[m] c).mulTop b ≤ A.Ω) →
    Near A ((fun c => c.mul A.u A.η b)^[l.length] c) (l.foldl (· * ·) a) (x * l'.prod)
  | [], _, .nil, c, a, x, h, _ => by simpa using h
  | y :: l, _, .cons (l₂ := l') (b := y') hy hl, c, a, x, h, hΩ => by
    have h1 := near_mul h hy (hΩ 0 (by simp))
    have := near_foldl hl h1 fun m hm => by
      have := hΩ (m + 1) (by simpa using hm)
      rwa [Function.iterate_succ_apply] at this
    rw [List.prod_cons, ← mul_assoc, List.length_cons, Function.iterate_succ_apply]
    exact this

omit hf in
theorem near_prod {b : Bnd} {l : List F} {l' : List ℝ} (h : List.Forall₂ (Near A b) l l') (hn : 0 < l.length)
    (hΩ : b.prodFits A.u A.η A.Ω l.length) : Near A (b.prod A.u A.η l.length) (prodF f l) l'.prod := by
  cases h with
  | nil => simp at hn
  | @cons a x l l' ha hl =>
    rw [List.prod_cons]
    exact near_foldl hl ha (by simpa [Bnd.prodFits] using hΩ)

end

end Bdld
