import Verif.Props.Forget
import Verif.Props.StationaryHarmonic
import Mathlib.Analysis.Calculus.MeanValue

/-
C132 and C133 for overdamped dynamics.
-/

namespace Bdld

open Spec MeasureTheory ProbabilityTheory Filter Topology

variable {d : Nat}

/-- Distance of the positions of two walkers. -/
noncomputable def posDist (s t : Phase d) : ℝ := √(∑ k, (s.1 k - t.1 k) ^ 2)

/-- Positions that walkers can have: inside the ranges if the boundary is reflective. -/
def Allowed (pot : Potential ℝ d) (x : Fin d → ℝ) : Prop := pot.bc = some .reflective → InRanges pot.ranges x

/-- The reflective boundary condition never increases a distance. -/
theorem boundary1_closer (r : ℝ × ℝ) (hr : r.1 ≤ r.2) (x y p q : ℝ) :
    |(boundary1 (some .reflective) r x p).1 - (boundary1 (some .reflective) r y q).1| ≤ |x - y| ∧
      r.1 ≤ (boundary1 (some .reflective) r x p).1 ∧ (boundary1 (some .reflective) r x p).1 ≤ r.2 := by
  unfold boundary1
  simp only
  have hx : (r.2 < x ∧ r.1 ≤ x) ↔ r.2 < x := ⟨And.left, fun h => ⟨h, hr.trans h.le⟩⟩
  have hy : (r.2 < y ∧ r.1 ≤ y) ↔ r.2 < y := ⟨And.left, fun h => ⟨h, hr.trans h.le⟩⟩
  simp only [hx, hy]
  have h1 := abs_le.1 (le_refl |x - y|)
  refine ⟨?_, ?_, ?_⟩
  · rw [abs_le]
    split_ifs <;> simp only <;> constructor <;> linarith
  · split_ifs <;> simp only <;> linarith
  · split_ifs <;> simp only <;> linarith

theorem sum_sq_le {a b : Fin d → ℝ} (h : ∀ k, |a k| ≤ |b k|) : ∑ k, a k ^ 2 ≤ ∑ k, b k ^ 2 :=
  Finset.sum_le_sum fun k _ => sq_le_sq.2 (h k)

/-- If the deterministic part of the step brings positions closer together by the factor `ρ`, the step does, with or without
reflective boundary. -/
theorem euler_contracts (pot : Potential ℝ d) (dt friction kt m ρ : ℝ) (hρ : 0 ≤ ρ) (hbc : pot.bc ≠ some .periodic)
    (hr : pot.bc = some .reflective → d ≤ pot.ranges.length ∧ ∀ r ∈ pot.ranges, r.1 ≤ r.2)
    (hF : ∀ x y, Allowed pot x → Allowed pot y →
      ∑ k, (x k - y k + dt * (pot.force x k - pot.force y k)) ^ 2 ≤ ρ ^ 2 * ∑ k, (x k - y k) ^ 2) :
    Contracts (stepMap .overdamped pot dt friction kt m) {s | Allowed pot s.1} posDist ρ := by
  intro n1 n2 s hs
  have hsplit : ∀ x y : Fin d → ℝ, ∀ k, (x k + pot.force x k * dt + √(2 * dt) * n1 k) - (y k + pot.force y k * dt + √(2 * dt) * n1 k) =
      x k - y k + dt * (pot.force x k - pot.force y k) := fun x y k => by ring
  have hget : pot.bc = some .reflective → ∀ k : Fin d, ∃ r, pot.ranges[k.val]? = some r ∧ pot.ranges.getD k (0, 0) = r ∧ r.1 ≤ r.2 := by
    intro h k
    have hlt : k.val < pot.ranges.length := k.2.trans_le (hr h).1
    exact ⟨pot.ranges[k.val], List.getElem?_eq_getElem hlt, by simp [List.getD_eq_getElem?_getD, hlt], (hr h).2 _ (List.getElem_mem hlt)⟩
  constructor
  · intro h k r hk
    obtain ⟨r', e1, e2, e3⟩ := hget h k
    rw [e1] at hk
    injection hk with hk
    subst hk
    simp only [stepMap, eulerStep, boundary, h, e2]
    exact (boundary1_closer r' e3 _ 0 _ 0).2
  · intro t ht
    unfold posDist
    rw [← Real.sqrt_sq hρ, ← Real.sqrt_mul (sq_nonneg ρ)]
    refine Real.sqrt_le_sqrt (le_trans (sum_sq_le fun k => ?_) (hF s.1 t.1 hs ht))
    rw [← hsplit s.1 t.1 k]
    cases hb : pot.bc with
    | none => simp only [stepMap, eulerStep, boundary, hb, boundary1]; exact le_rfl
    | some b =>
      cases b with
      | periodic => exact absurd hb hbc
      | reflective =>
        obtain ⟨r, _, e2, e3⟩ := hget hb k
        simp only [stepMap, eulerStep, boundary, hb, e2]
        exact (boundary1_closer r e3 _ _ _ _).1

/-- The deterministic part for forces that pull positions together with at least the strength `μ` and vary at most with `L`. -/
theorem convex_closer (F : (Fin d → ℝ) → Fin d → ℝ) (A : (Fin d → ℝ) → Prop) (dt μ L : ℝ) (hdt : 0 ≤ dt)
    (h1 : ∀ x y, A x → A y → ∑ k, (x k - y k) * (F x k - F y k) ≤ -μ * ∑ k, (x k - y k) ^ 2)
    (h2 : ∀ x y, A x → A y → ∑ k, (F x k - F y k) ^ 2 ≤ L ^ 2 * ∑ k, (x k - y k) ^ 2) (x y : Fin d → ℝ) (hx : A x) (hy : A y) :
    ∑ k, (x k - y k + dt * (F x k - F y k)) ^ 2 ≤ (1 - 2 * dt * μ + dt ^ 2 * L ^ 2) * ∑ k, (x k - y k) ^ 2 := by
  have e : ∑ k, (x k - y k + dt * (F x k - F y k)) ^ 2 = ∑ k, (x k - y k) ^ 2 + 2 * dt * ∑ k, (x k - y k) * (F x k - F y k) +
      dt ^ 2 * ∑ k, (F x k - F y k) ^ 2 := by
    rw [Finset.mul_sum, Finset.mul_sum, ← Finset.sum_add_distrib, ← Finset.sum_add_distrib]
    exact Finset.sum_congr rfl fun k _ => by ring
  rw [e]
  have a1 := mul_le_mul_of_nonneg_left (h1 x y hx hy) (by linarith : 0 ≤ 2 * dt)
  have a2 := mul_le_mul_of_nonneg_left (h2 x y hx hy) (sq_nonneg dt)
  linarith

/-- The deterministic part in one dimension for a force whose derivative is between `-L` and `-μ`. -/
theorem convex_closer_one (F F' : ℝ → ℝ) (I : Set ℝ) (hI : Convex ℝ I) (dt μ L : ℝ) (hdt : 0 ≤ dt)
    (hF : ∀ x ∈ I, HasDerivAt F (F' x) x) (h1 : ∀ x ∈ I, F' x ≤ -μ) (h2 : ∀ x ∈ I, -L ≤ F' x) (x y : ℝ) (hx : x ∈ I) (hy : y ∈ I) :
    |x - y + dt * (F x - F y)| ≤ max |1 - dt * μ| |1 - dt * L| * |x - y| := by
  have hd : ∀ z ∈ I, HasDerivWithinAt (fun z => z + dt * F z) (1 + dt * F' z) I z := fun z hz =>
    ((hasDerivAt_id z).add ((hF z hz).const_mul dt)).hasDerivWithinAt
  have hb : ∀ z ∈ I, ‖1 + dt * F' z‖ ≤ max |1 - dt * μ| |1 - dt * L| := by
    intro z hz
    have a1 := mul_le_mul_of_nonneg_left (h1 z hz) hdt
    have a2 := mul_le_mul_of_nonneg_left (h2 z hz) hdt
    rw [Real.norm_eq_abs, abs_le]
    have b1 := le_max_left |1 - dt * μ| |1 - dt * L|
    have b2 := le_max_right |1 - dt * μ| |1 - dt * L|
    have c1 := le_abs_self (1 - dt * μ)
    have c2 := neg_abs_le (1 - dt * L)
    constructor <;> linarith
  have h := hI.norm_image_sub_le_of_norm_hasDerivWithin_le hd hb hy hx
  rw [Real.norm_eq_abs, Real.norm_eq_abs] at h
  refine le_trans (le_of_eq ?_) h
  congr 1
  ring

/-! ### Harmonic potentials -/

theorem euler_harmonic (pot : Potential ℝ d) (dt friction kt m : ℝ) (hbc : pot.bc = none) (κ a : Fin d → ℝ)
    (hpot : ∀ x, pot.force x = harmonicForce κ a x) (n1 n2 : Fin d → ℝ) (s : Phase d) :
    stepMap .overdamped pot dt friction kt m n1 n2 s =
      (fun k => s.1 k + dt * harmonicForce κ a s.1 k + √(2 * dt) * n1 k, s.2) := by
  simp only [stepMap, eulerStep, boundary, boundary1, hbc, hpot]
  refine Prod.ext (funext fun k => ?_) rfl
  simp only
  ring

theorem euler_diff (pot : Potential ℝ d) (dt friction kt m : ℝ) (hbc : pot.bc = none) (κ a : Fin d → ℝ)
    (hpot : ∀ x, pot.force x = harmonicForce κ a x) (noise : ℕ → ℕ → Fin d → ℝ) (s t : Phase d) (n : ℕ) (k : Fin d) :
    (moved (stepMap .overdamped pot dt friction kt m) noise n s).1 k - (moved (stepMap .overdamped pot dt friction kt m) noise n t).1 k =
      (1 - κ k * dt) ^ n * (s.1 k - t.1 k) := by
  induction n with
  | zero => simp [moved]
  | succ n ih =>
    simp only [moved, euler_harmonic pot dt friction kt m hbc κ a hpot]
    rw [pow_succ, mul_right_comm, ← ih]
    simp only [harmonicForce]
    ring

/-- **C132** for overdamped dynamics: in a harmonic potential without boundary condition, walkers that are moved with the same
random numbers forget their starting positions if and only if the time step is smaller than two divided by each force constant. -/
theorem overdamped_limit (pot : Potential ℝ d) (dt friction kt m : ℝ) (hbc : pot.bc = none) (κ a : Fin d → ℝ)
    (hpot : ∀ x, pot.force x = harmonicForce κ a x) (hdt : 0 < dt) (hκ : ∀ k, 0 < κ k) (noise : ℕ → ℕ → Fin d → ℝ) :
    (∀ s t : Phase d, Tendsto (fun n => dist (moved (stepMap .overdamped pot dt friction kt m) noise n s).1
        (moved (stepMap .overdamped pot dt friction kt m) noise n t).1) atTop (𝓝 0)) ↔ ∀ k, κ k * dt < 2 := by
  constructor
  · intro h k
    by_contra hk
    rw [not_lt] at hk
    have h1 := h (fun _ => 1, 0) 0
    have h2 : ∀ n, 1 ≤ dist (moved (stepMap .overdamped pot dt friction kt m) noise n (fun _ => 1, 0)).1
        (moved (stepMap .overdamped pot dt friction kt m) noise n 0).1 := by
      intro n
      refine le_trans ?_ (dist_le_pi_dist _ _ k)
      rw [Real.dist_eq, euler_diff pot dt friction kt m hbc κ a hpot, abs_mul, abs_pow]
      simp only [Prod.fst_zero, Pi.zero_apply, sub_zero, abs_one, mul_one]
      exact one_le_pow₀ (by rw [le_abs]; right; linarith)
    exact absurd (ge_of_tendsto' h1 h2) (by norm_num)
  · intro h s t
    have h1 : Tendsto (fun n => (moved (stepMap .overdamped pot dt friction kt m) noise n s).1 -
        (moved (stepMap .overdamped pot dt friction kt m) noise n t).1) atTop (𝓝 0) := by
      rw [tendsto_pi_nhds]
      intro k
      simp only [Pi.sub_apply, euler_diff pot dt friction kt m hbc κ a hpot, Pi.zero_apply]
      have hlt : |1 - κ k * dt| < 1 := by
        have := mul_pos (hκ k) hdt
        rw [abs_lt]
        constructor <;> linarith [h k]
      simpa using (tendsto_pow_atTop_nhds_zero_of_abs_lt_one hlt).mul_const (s.1 k - t.1 k)
    simp_rw [dist_eq_norm]
    simpa using h1.norm

end Bdld
