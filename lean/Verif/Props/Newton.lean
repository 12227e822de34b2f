import Verif.Spec.Newton
import Verif.Props.LangevinReal
import Mathlib.Analysis.SpecialFunctions.Pow.Real

/-
C130: the frictionless dynamics follows Newton's equations.
-/

namespace Bdld
open Spec Set

variable {d : Nat}

/-- Bounds of derivatives can be integrated. -/
theorem integrate_bound {E : Type} [NormedAddCommGroup E] [NormedSpace ℝ E] (u u' : ℝ → E) (a h c : ℝ) (n : ℕ)
    (hu : ∀ t ∈ Icc a (a + h), HasDerivWithinAt u (u' t) (Icc a (a + h)) t) (h0 : u a = 0)
    (hb : ∀ t ∈ Icc a (a + h), ‖u' t‖ ≤ c * (t - a) ^ n) :
    ∀ t ∈ Icc a (a + h), ‖u t‖ ≤ c * (t - a) ^ (n + 1) / (n + 1) := by
  have hB : ∀ t, HasDerivAt (fun t => c * (t - a) ^ (n + 1) / (n + 1)) (c * (t - a) ^ n) t := by
    intro t
    have := ((((hasDerivAt_id t).sub_const a).pow (n + 1)).const_mul c).div_const ((n : ℝ) + 1)
    refine this.congr_deriv ?_
    have : (n : ℝ) + 1 ≠ 0 := by positivity
    simp only [id_eq, Nat.add_sub_cancel, Nat.cast_add, Nat.cast_one, mul_one]
    field_simp
  intro t ht
  refine image_norm_le_of_norm_deriv_right_le_deriv_boundary' (f' := u') (B' := fun t => c * (t - a) ^ n)
    (fun t ht => (hu t ht).continuousWithinAt) ?_ ?_ (fun t _ => (hB t).continuousAt.continuousWithinAt)
    (fun t _ => (hB t).hasDerivWithinAt) (fun t ht => hb t ⟨ht.1, ht.2.le⟩) ht
  · intro t ht
    exact (hu t ⟨ht.1, ht.2.le⟩).mono_of_mem_nhdsWithin (Icc_mem_nhdsGE_of_mem ht)
  · rw [h0]; simp

/-- Local error of the positions and momenta. -/
theorem newton_local {E : Type} [NormedAddCommGroup E] [NormedSpace ℝ E] (x v p g g1 g2 : ℝ → E) (a h M1 M2 : ℝ) (hh : 0 ≤ h)
    (hx : ∀ t ∈ Icc a (a + h), HasDerivWithinAt x (v t) (Icc a (a + h)) t) (hp : ∀ t ∈ Icc a (a + h), HasDerivWithinAt p (g t) (Icc a (a + h)) t)
    (hg : ∀ t ∈ Icc a (a + h), HasDerivWithinAt g (g1 t) (Icc a (a + h)) t)
    (hg1 : ∀ t ∈ Icc a (a + h), HasDerivWithinAt g1 (g2 t) (Icc a (a + h)) t) (m : ℝ) (hm : 0 < m) (hv : ∀ t, v t = (1 / m) • p t)
    (h1 : ∀ t ∈ Icc a (a + h), ‖g1 t‖ ≤ M1) (h2 : ∀ t ∈ Icc a (a + h), ‖g2 t‖ ≤ M2) :
    ‖x (a + h) - (x a + h • (1 / m) • p a + (h ^ 2 / (2 * m)) • g a)‖ ≤ M1 * h ^ 3 / (6 * m) ∧
      ‖p (a + h) - (p a + (h / 2) • (g a + g (a + h)))‖ ≤ M2 * h ^ 3 / 12 := by
  have hmem : a + h ∈ Icc a (a + h) := ⟨by linarith, le_refl _⟩
  have hid : ∀ t, HasDerivWithinAt (fun t : ℝ => t - a) 1 (Icc a (a + h)) t := fun t => (hasDerivWithinAt_id t _).sub_const a
  constructor
  · have b1 := integrate_bound (fun t => g t - g a) g1 a h M1 0 (fun t ht => (hg t ht).sub_const _) (by simp)
      (fun t ht => by simpa using h1 t ht)
    have b2 := integrate_bound (fun t => p t - p a - (t - a) • g a) (fun t => g t - g a) a h M1 1 (fun t ht => by
      have := ((hp t ht).sub_const (p a)).sub ((hid t).smul_const (g a))
      refine this.congr_deriv ?_
      simp) (by simp) (fun t ht => by simpa using b1 t ht)
    have b3 := integrate_bound (fun t => x t - x a - (t - a) • (1 / m) • p a - ((t - a) ^ 2 / (2 * m)) • g a)
      (fun t => (1 / m) • (p t - p a - (t - a) • g a)) a h (M1 / (2 * m)) 2 (fun t ht => by
        have := (((hx t ht).sub_const (x a)).sub ((hid t).smul_const ((1 / m) • p a))).sub
          ((((hid t).pow 2).div_const (2 * m)).smul_const (g a))
        refine this.congr_deriv ?_
        rw [hv]
        simp only [smul_sub, smul_smul]
        congr 2
        field_simp
        ring) (by simp) (fun t ht => by
        have := b2 t ht
        rw [norm_smul, Real.norm_of_nonneg (by positivity)]
        calc 1 / m * ‖p t - p a - (t - a) • g a‖ ≤ 1 / m * (M1 * (t - a) ^ (1 + 1) / ((1 : ℕ) + 1)) :=
              mul_le_mul_of_nonneg_left this (by positivity)
          _ = M1 / (2 * m) * (t - a) ^ 2 := by push_cast; field_simp; norm_num)
    have := b3 _ hmem
    rw [add_sub_cancel_left] at this
    refine le_trans (le_of_eq ?_) (this.trans (le_of_eq ?_))
    · congr 1; abel
    · push_cast; field_simp; ring
  · have b1 := integrate_bound (fun t => g t - g a - (t - a) • g1 t) (fun t => -((t - a) • g2 t)) a h M2 1 (fun t ht => by
      have := ((hg t ht).sub_const (g a)).sub ((hid t).smul (hg1 t ht))
      refine this.congr_deriv ?_
      simp) (by simp) (fun t ht => by
        rw [norm_neg, norm_smul, Real.norm_of_nonneg (by linarith [ht.1]), pow_one, mul_comm]
        exact mul_le_mul_of_nonneg_right (h2 t ht) (by linarith [ht.1]))
    have b2 := integrate_bound (fun t => p t - p a - ((t - a) / 2) • (g a + g t)) (fun t => (1 / 2 : ℝ) • (g t - g a - (t - a) • g1 t))
      a h (M2 / 4) 2 (fun t ht => by
        have := ((hp t ht).sub_const (p a)).sub (((hid t).div_const 2).smul ((hg t ht).const_add (g a)))
        refine this.congr_deriv ?_
        module) (by simp) (fun t ht => by
        have := b1 t ht
        rw [norm_smul, Real.norm_of_nonneg (by norm_num)]
        calc 1 / 2 * ‖g t - g a - (t - a) • g1 t‖ ≤ 1 / 2 * (M2 * (t - a) ^ (1 + 1) / ((1 : ℕ) + 1)) :=
              mul_le_mul_of_nonneg_left this (by positivity)
          _ = M2 / 4 * (t - a) ^ 2 := by push_cast; ring)
    have := b2 _ hmem
    rw [add_sub_cancel_left] at this
    refine le_trans (le_of_eq ?_) (this.trans (le_of_eq ?_))
    · congr 1; abel
    · push_cast; ring

/-- A velocity Verlet step with vectors. -/
theorem verlet_vec (f : (Fin d → ℝ) → Fin d → ℝ) (m dt : ℝ) (hm : m ≠ 0) (s : Phase d) :
    (verlet f m dt s).1 = s.1 + dt • (1 / m) • s.2 + (dt ^ 2 / (2 * m)) • f s.1 ∧
      (verlet f m dt s).2 = s.2 + (dt / 2) • (f s.1 + f (verlet f m dt s).1) := by
  constructor
  · funext k
    simp only [verlet, Pi.add_apply, Pi.smul_apply, smul_eq_mul]
    field_simp
    ring
  · funext k
    simp only [verlet, Pi.add_apply, Pi.smul_apply, smul_eq_mul]
    ring

/-- Growth of the errors in one step. -/
theorem newton_growth (e ep e' ep' h m Ω L M1 M2 : ℝ) (he : 0 ≤ e) (hep : 0 ≤ ep) (hh : 0 ≤ h) (hm : 0 < m) (hΩ : 0 < Ω)
    (hL : L = m * Ω ^ 2) (hw : Ω * h ≤ 1) (hM1 : 0 ≤ M1) (hM2 : 0 ≤ M2)
    (h1 : e' ≤ e + h * (1 / m) * ep + h ^ 2 / (2 * m) * (L * e) + M1 * h ^ 3 / (6 * m)) :
    m * Ω * e' ≤ Real.exp (2 * (Ω * h)) * (m * Ω * e + ep) + (Ω * M1 / 4 + M2 / 12) * h ^ 3 ∧
      (ep' ≤ ep + h / 2 * (L * e + L * e') + M2 * h ^ 3 / 12 →
        m * Ω * e' + ep' ≤ Real.exp (2 * (Ω * h)) * (m * Ω * e + ep) + (Ω * M1 / 4 + M2 / 12) * h ^ 3) := by
  subst hL
  have hexp : 1 + 2 * (Ω * h) ≤ Real.exp (2 * (Ω * h)) := by linarith [Real.add_one_le_exp (2 * (Ω * h))]
  have hA : 0 ≤ m * Ω * e := by positivity
  obtain ⟨w, hwd⟩ : ∃ w, w = Ω * h := ⟨_, rfl⟩
  have hw0 : 0 ≤ w := by rw [hwd]; positivity
  have hc : 0 ≤ Ω * M1 * h ^ 3 := by positivity
  have hd : 0 ≤ M2 * h ^ 3 := by positivity
  have h1' : m * Ω * e' ≤ m * Ω * e + w * ep + w ^ 2 / 2 * (m * Ω * e) + Ω * M1 * h ^ 3 / 6 := by
    refine (mul_le_mul_of_nonneg_left h1 (mul_pos hm hΩ).le).trans (le_of_eq ?_)
    rw [hwd]
    field_simp
  have h2' : ep' ≤ ep + h / 2 * (m * Ω ^ 2 * e + m * Ω ^ 2 * e') + M2 * h ^ 3 / 12 →
      ep' ≤ ep + w / 2 * (m * Ω * e + m * Ω * e') + M2 * h ^ 3 / 12 := by
    intro h2
    refine h2.trans (le_of_eq ?_)
    rw [hwd]
    ring
  rw [← hwd] at hexp hw ⊢
  have hbig : (1 + 2 * w) * (m * Ω * e + ep) ≤ Real.exp (2 * w) * (m * Ω * e + ep) :=
    mul_le_mul_of_nonneg_right hexp (by positivity)
  generalize m * Ω * e = A at *
  have w2 : w ^ 2 ≤ w := by nlinarith
  have w3 : w ^ 3 ≤ w := by nlinarith [pow_nonneg hw0 2]
  constructor
  · nlinarith [mul_nonneg hw0 hep, mul_le_mul_of_nonneg_right w2 hA, mul_nonneg hw0 hA]
  · intro h2
    have h3 := h2' h2
    have h4 := mul_le_mul_of_nonneg_left h1' (by linarith : 0 ≤ 1 + w / 2)
    have c1 : w ^ 2 * A ≤ w * A := mul_le_mul_of_nonneg_right w2 hA
    have c2 : w ^ 3 * A ≤ w * A := mul_le_mul_of_nonneg_right w3 hA
    have c3 : w ^ 2 * ep ≤ w * ep := mul_le_mul_of_nonneg_right w2 hep
    have c4 : w * (Ω * M1 * h ^ 3) ≤ Ω * M1 * h ^ 3 := mul_le_of_le_one_left hc hw
    have c5 : 0 ≤ w * A := mul_nonneg hw0 hA
    have c6 : 0 ≤ w * ep := mul_nonneg hw0 hep
    nlinarith

/-- **C130.** The positions and momenta of the velocity Verlet steps differ from the solution of Newton's equations at most by a multiple
of the square of the time step. -/
theorem newton_global (f : (Fin d → ℝ) → Fin d → ℝ) (m T h L M1 M2 δ : ℝ) (x p g1 g2 : ℝ → Fin d → ℝ) (hm : 0 < m) (hL : 0 < L)
    (hn : NewtonPath f m T x p) (hg1 : ∀ t ∈ Icc 0 T, HasDerivWithinAt (fun t => f (x t)) (g1 t) (Icc 0 T) t)
    (hg2 : ∀ t ∈ Icc 0 T, HasDerivWithinAt g1 (g2 t) (Icc 0 T) t) (h1 : ∀ t ∈ Icc 0 T, ‖g1 t‖ ≤ M1) (h2 : ∀ t ∈ Icc 0 T, ‖g2 t‖ ≤ M2)
    (hlip : ∀ t ∈ Icc 0 T, ∀ y, ‖y - x t‖ ≤ δ → ‖f y - f (x t)‖ ≤ L * ‖y - x t‖) (hh : 0 ≤ h) (hw : √(L / m) * h ≤ 1)
    (hδ : (√(L / m) * M1 / 4 + M2 / 12) * T * Real.exp (2 * (√(L / m) * T)) * h ^ 2 ≤ m * √(L / m) * δ) (n : ℕ) (hT : n * h ≤ T) :
    m * √(L / m) * ‖((verlet f m h)^[n] (x 0, p 0)).1 - x (n * h)‖ + ‖((verlet f m h)^[n] (x 0, p 0)).2 - p (n * h)‖ ≤
      (√(L / m) * M1 / 4 + M2 / 12) * T * Real.exp (2 * (√(L / m) * T)) * h ^ 2 := by
  obtain ⟨Ω, hΩd⟩ : ∃ Ω, Ω = √(L / m) := ⟨_, rfl⟩
  have hΩ : 0 < Ω := by rw [hΩd]; positivity
  have hLe : L = m * Ω ^ 2 := by rw [hΩd, Real.sq_sqrt (by positivity)]; field_simp
  rw [← hΩd] at hw hδ ⊢
  have hT0 : 0 ≤ T := le_trans (by positivity) hT
  have hM1 : 0 ≤ M1 := (norm_nonneg _).trans (h1 0 ⟨le_refl _, hT0⟩)
  have hM2 : 0 ≤ M2 := (norm_nonneg _).trans (h2 0 ⟨le_refl _, hT0⟩)
  obtain ⟨K, hK⟩ : ∃ K, K = Ω * M1 / 4 + M2 / 12 := ⟨_, rfl⟩
  have hK0 : 0 ≤ K := by rw [hK]; positivity
  rw [← hK] at hδ ⊢
  have size : ∀ n : ℕ, n * h ≤ T → K * h ^ 3 * n * Real.exp (2 * (Ω * h) * n) ≤ K * T * Real.exp (2 * (Ω * T)) * h ^ 2 := by
    intro n hT
    have e1 : Real.exp (2 * (Ω * h) * n) ≤ Real.exp (2 * (Ω * T)) := Real.exp_le_exp.2 (by nlinarith)
    calc K * h ^ 3 * n * Real.exp (2 * (Ω * h) * n) = K * h ^ 2 * (n * h) * Real.exp (2 * (Ω * h) * n) := by ring
      _ ≤ K * h ^ 2 * T * Real.exp (2 * (Ω * T)) := by gcongr
      _ = _ := by ring
  refine le_trans ?_ (size n hT)
  induction n with
  | zero => simp
  | succ n ih =>
    have hT' : n * h ≤ T := le_trans (by push_cast; nlinarith) hT
    specialize ih hT'
    obtain ⟨s, hs⟩ : ∃ s, s = (verlet f m h)^[n] (x 0, p 0) := ⟨_, rfl⟩
    rw [Function.iterate_succ_apply', ← hs]
    rw [← hs] at ih
    obtain ⟨t, ht⟩ : ∃ t : ℝ, t = n * h := ⟨_, rfl⟩
    rw [show ((n + 1 : ℕ) : ℝ) * h = t + h by rw [ht]; push_cast; ring]
    rw [← ht] at ih hT'
    have ht0 : 0 ≤ t := by rw [ht]; positivity
    have hth : t + h ≤ T := by rw [ht]; push_cast at hT; linarith
    have sub : Icc t (t + h) ⊆ Icc 0 T := Icc_subset_Icc ht0 hth
    have hmt : t ∈ Icc 0 T := ⟨ht0, hT'⟩
    have hmth : t + h ∈ Icc 0 T := ⟨by linarith, hth⟩
    have loc := newton_local x (fun t => (1 / m) • p t) p (fun t => f (x t)) g1 g2 t h M1 M2 hh
      (fun u hu => ((hn.pos u (sub hu)).mono sub).congr_deriv (by funext k; simp [div_eq_inv_mul]))
      (fun u hu => (hn.mom u (sub hu)).mono sub) (fun u hu => (hg1 u (sub hu)).mono sub) (fun u hu => (hg2 u (sub hu)).mono sub)
      m hm (fun _ => rfl) (fun u hu => h1 u (sub hu)) (fun u hu => h2 u (sub hu))
    obtain ⟨v1, v2⟩ := verlet_vec f m h hm.ne' s
    have small : ∀ (e : ℝ) (k : ℕ), m * Ω * e ≤ K * h ^ 3 * k * Real.exp (2 * (Ω * h) * k) → (k : ℝ) * h ≤ T → e ≤ δ := by
      intro e k hk hkT
      have := hk.trans ((size k hkT).trans hδ)
      exact le_of_mul_le_mul_left this (by positivity)
    have d1 : ‖s.1 - x t‖ ≤ δ := small _ n (le_trans (le_add_of_nonneg_right (norm_nonneg _)) ih) (by rw [← ht]; exact hT')
    have f1 := hlip t hmt _ d1
    have step1 : ‖(verlet f m h s).1 - x (t + h)‖ ≤ ‖s.1 - x t‖ + h * (1 / m) * ‖s.2 - p t‖ + h ^ 2 / (2 * m) * (L * ‖s.1 - x t‖) +
        M1 * h ^ 3 / (6 * m) := by
      have : (verlet f m h s).1 - x (t + h) = (s.1 - x t) + (h * (1 / m)) • (s.2 - p t) + (h ^ 2 / (2 * m)) • (f s.1 - f (x t)) -
          (x (t + h) - (x t + h • (1 / m) • p t + (h ^ 2 / (2 * m)) • f (x t))) := by
        rw [v1]; module
      rw [this]
      refine (norm_sub_le _ _).trans (add_le_add ((norm_add_le _ _).trans (add_le_add ((norm_add_le _ _).trans (add_le_add le_rfl ?_)) ?_)) loc.1)
      · rw [norm_smul, Real.norm_of_nonneg (by positivity)]
      · rw [norm_smul, Real.norm_of_nonneg (by positivity)]
        exact mul_le_mul_of_nonneg_left f1 (by positivity)
    have grow := newton_growth ‖s.1 - x t‖ ‖s.2 - p t‖ ‖(verlet f m h s).1 - x (t + h)‖ ‖(verlet f m h s).2 - p (t + h)‖ h m Ω L M1 M2
      (norm_nonneg _) (norm_nonneg _) hh hm hΩ hLe hw hM1 hM2 step1
    rw [← hK] at grow
    have total : Real.exp (2 * (Ω * h)) * (m * Ω * ‖s.1 - x t‖ + ‖s.2 - p t‖) + K * h ^ 3 ≤
        K * h ^ 3 * (n + 1 : ℕ) * Real.exp (2 * (Ω * h) * (n + 1 : ℕ)) := by
      have e1 : Real.exp (2 * (Ω * h) * (n + 1 : ℕ)) = Real.exp (2 * (Ω * h)) * Real.exp (2 * (Ω * h) * n) := by
        rw [← Real.exp_add]; congr 1; push_cast; ring
      have e2 : 1 ≤ Real.exp (2 * (Ω * h)) * Real.exp (2 * (Ω * h) * n) := by
        rw [← Real.exp_add]; exact Real.one_le_exp (by positivity)
      have e3 : K * h ^ 3 ≤ K * h ^ 3 * (Real.exp (2 * (Ω * h)) * Real.exp (2 * (Ω * h) * n)) :=
        le_mul_of_one_le_right (by positivity) e2
      have e4 := mul_le_mul_of_nonneg_left ih (Real.exp_pos (2 * (Ω * h))).le
      rw [e1]
      push_cast
      calc _ ≤ Real.exp (2 * (Ω * h)) * (K * h ^ 3 * n * Real.exp (2 * (Ω * h) * n)) +
            K * h ^ 3 * (Real.exp (2 * (Ω * h)) * Real.exp (2 * (Ω * h) * n)) := add_le_add e4 e3
        _ = _ := by ring
    have d2 : ‖(verlet f m h s).1 - x (t + h)‖ ≤ δ := small _ (n + 1) (grow.1.trans total) hT
    have f2 := hlip (t + h) hmth _ d2
    refine (grow.2 ?_).trans total
    have : (verlet f m h s).2 - p (t + h) = (s.2 - p t) + (h / 2) • ((f s.1 - f (x t)) + (f (verlet f m h s).1 - f (x (t + h)))) -
        (p (t + h) - (p t + (h / 2) • (f (x t) + f (x (t + h))))) := by
      rw [v2]; module
    rw [this]
    refine (norm_sub_le _ _).trans (add_le_add ((norm_add_le _ _).trans (add_le_add le_rfl ?_)) loc.2)
    rw [norm_smul, Real.norm_of_nonneg (by positivity)]
    exact mul_le_mul_of_nonneg_left ((norm_add_le _ _).trans (add_le_add f1 f2)) (by positivity)

end Bdld
