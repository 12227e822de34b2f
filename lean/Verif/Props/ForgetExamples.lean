import Verif.Props.ForgetRun
import Verif.Props.NewtonRun

/-
C132 and C133 in one dimension, and examples.
-/

namespace Bdld

open Spec MeasureTheory ProbabilityTheory Filter Topology

/-- **C133.** One dimension: if the second derivative of the potential is between `μ` and `L` where walkers can be, they come
together for all time steps smaller than `2 / L`. -/
theorem convex_contracts_one (pot : Potential ℝ 1) (F F' : ℝ → ℝ) (hF : ∀ x, pot.force x = fun _ => F (x 0))
    (dt friction kt m μ L : ℝ) (hbc : pot.bc ≠ some .periodic)
    (hr : pot.bc = some .reflective → 1 ≤ pot.ranges.length ∧ ∀ r ∈ pot.ranges, r.1 ≤ r.2) (hdt : 0 < dt) (hμ : 0 < μ) (hlim : dt * L < 2)
    (hd : ∀ x, Allowed pot (fun _ => x) → HasDerivAt F (F' x) x ∧ F' x ≤ -μ ∧ -L ≤ F' x) (hex : ∃ x, Allowed pot x) :
    max |1 - dt * μ| |1 - dt * L| < 1 ∧ Contracts (stepMap .overdamped pot dt friction kt m) {s | Allowed pot s.1} posDist
      (max |1 - dt * μ| |1 - dt * L|) := by
  have hconst : ∀ x : Fin 1 → ℝ, (fun _ => x 0) = x := fun x => funext fun k => by rw [Subsingleton.elim k 0]
  obtain ⟨x0, h0⟩ := hex
  have hle : μ ≤ L := by
    have := hd (x0 0) (by rw [hconst]; exact h0)
    linarith
  have hdm := mul_pos hdt hμ
  have hdl := mul_le_mul_of_nonneg_left hle hdt.le
  refine ⟨max_lt (abs_lt.2 ⟨by linarith, by linarith⟩) (abs_lt.2 ⟨by linarith, by linarith⟩), ?_⟩
  have hI : Convex ℝ {x : ℝ | Allowed pot (fun _ => x)} := by
    intro x hx y hy a b ha hb hab h i r hi
    have h1 := hx h i r hi
    have h2 := hy h i r hi
    simp only [smul_eq_mul] at h1 h2 ⊢
    have e1 : r.1 = a * r.1 + b * r.1 := by rw [← add_mul, hab, one_mul]
    have e2 : r.2 = a * r.2 + b * r.2 := by rw [← add_mul, hab, one_mul]
    have a1 := mul_le_mul_of_nonneg_left h1.1 ha
    have a2 := mul_le_mul_of_nonneg_left h1.2 ha
    have b1 := mul_le_mul_of_nonneg_left h2.1 hb
    have b2 := mul_le_mul_of_nonneg_left h2.2 hb
    constructor <;> linarith
  refine euler_contracts pot dt friction kt m _ ((abs_nonneg _).trans (le_max_left _ _)) hbc hr fun x y hx hy => ?_
  have h := convex_closer_one F F' _ hI dt μ L hdt.le (fun z hz => (hd z hz).1) (fun z hz => (hd z hz).2.1) (fun z hz => (hd z hz).2.2)
    (x 0) (y 0) (by simpa only [Set.mem_ofPred_eq, hconst] using hx) (by simpa only [Set.mem_ofPred_eq, hconst] using hy)
  rw [Fin.sum_univ_one, Fin.sum_univ_one, hF, hF, ← mul_pow]
  refine sq_le_sq.2 (h.trans (le_of_eq ?_))
  rw [abs_mul, abs_of_nonneg ((abs_nonneg (1 - dt * μ)).trans (le_max_left _ _))]

/-! ### Examples -/

/-- The polynomial `x² / 2 + x⁴ / 4`. -/
noncomputable def stiffPoly : NdArr 1 := ⟨fun _ => 5, fun i => if i 0 = 2 then 1 / 2 else if i 0 = 4 then 1 / 4 else 0⟩

theorem stiff_force (x : Fin 1 → ℝ) : polyForce stiffPoly x = fun _ => -(x 0) - x 0 ^ 3 := by
  funext k
  have hk : k = 0 := Subsingleton.elim _ _
  subst hk
  simp [polyForce, stiffPoly, polyder, polyvalNd, horner, List.range, List.range.loop, Fin.cons]
  ring

/-- The potential with ranges. -/
noncomputable def stiffPot : Potential ℝ 1 :=
  ⟨polyEnergy stiffPoly, polyForce stiffPoly, baseEvaluate (polyEnergy stiffPoly) (polyForce stiffPoly), [(-1, 1)], some .reflective⟩

/-- It is convex with constants 1 and 4 in a box with reflective boundary. -/
example : (newPolynomial stiffPoly (some [(-1, 1)])).map (·.withBcOption (some "reflective")) = .ok stiffPot ∧
    Contracts (stepMap .overdamped stiffPot 0.01 0 0 1) {s | Allowed stiffPot s.1} posDist 0.99 := by
  refine ⟨rfl, ?_⟩
  have h := convex_contracts_one stiffPot (fun x => -x - x ^ 3) (fun x => -1 - 3 * x ^ 2)
    stiff_force 0.01 0 0 1 1 4 (by simp [stiffPot]) (fun _ => ⟨by simp [stiffPot], by
      intro r hr
      simp only [stiffPot, List.mem_singleton] at hr
      rw [hr]
      norm_num⟩) (by norm_num) (by norm_num) (by norm_num) (fun x hx => ?_) ⟨0, fun _ i r hr => ?_⟩
  · have e : max |1 - (0.01 : ℝ) * 1| |1 - 0.01 * 4| = 0.99 := by norm_num [abs_of_pos]
    rw [e] at h
    exact h.2
  · have hx' := hx rfl 0 (-1, 1) (by simp [stiffPot])
    simp only at hx'
    refine ⟨?_, by nlinarith, by nlinarith⟩
    exact (((hasDerivAt_id x).neg).sub (hasDerivAt_pow 3 x)).congr_deriv (by norm_num)
  · have hi : i = 0 := Subsingleton.elim _ _
    subst hi
    simp only [stiffPot, Fin.val_zero, List.getElem?_cons_zero, Option.some.injEq] at hr
    rw [← hr]
    norm_num

/-- In the potential `x² / 2` with mass 1 the largest time step is 2. -/
example (friction kt dt : ℝ) (hf : 0 < friction) (hdt : 0 < dt) (noise : ℕ → ℕ → Fin 1 → ℝ) :
    ∃ p, newPolynomial parabola none = .ok p ∧ ((∀ s t : Phase 1, Tendsto (fun n => dist (moved (stepMap .bussi p dt friction kt 1) noise n s)
        (moved (stepMap .bussi p dt friction kt 1) noise n t)) atTop (𝓝 0)) ↔ dt < 2) := by
  refine ⟨_, rfl, ?_⟩
  rw [bussi_limit _ dt friction kt 1 rfl (fun _ => 1) (fun _ => 0) (fun x => parabola_force x) hdt hf one_pos (fun _ => one_pos)]
  constructor
  · intro h
    have := h 0
    nlinarith
  · intro h k
    nlinarith

/-- For a time step of 3 walkers are driven apart. -/
example (friction kt : ℝ) : ∃ p, newPolynomial parabola none = .ok p ∧ ∃ (l : ℝ) (z : Phase 1), 1 < l ∧ z ≠ 0 ∧
    ∀ (noise : ℕ → ℕ → Fin 1 → ℝ) s n, dist (moved (stepMap .bussi p 3 friction kt 1) noise n (s + z))
      (moved (stepMap .bussi p 3 friction kt 1) noise n s) = l ^ n * ‖z‖ :=
  ⟨_, rfl, bussi_diverges _ 3 friction kt 1 rfl (fun _ => 1) (fun _ => 0) (fun x => parabola_force x) (by norm_num) one_pos 0 (by norm_num)⟩

/-- Walkers in this potential, all started at 5 without momentum, end up in the stationary distribution. -/
example : ∃ p, newPolynomial parabola none = .ok p ∧ ∃ (μ : ℕ → ProbabilityMeasure (Phase 1)) (π : ProbabilityMeasure (Phase 1)),
    (μ 0 : Measure (Phase 1)) = Measure.dirac (fun _ => 5, fun _ => 0) ∧
    (∀ n, (μ n : Measure (Phase 1)) = (afterStep (stepMap .bussi p 0.01 10 1 1))^[n] (μ 0)) ∧
    (π : Measure (Phase 1)) = harmonicState (fun _ => 1) (fun _ => 0) 1 1 0.01 ∧ Tendsto μ atTop (𝓝 π) := by
  refine ⟨_, rfl, ?_⟩
  have hF : Measurable (polyForce parabola) := by
    rw [show polyForce parabola = harmonicForce (fun _ => 1) (fun _ => 0) from funext parabola_force]
    exact measurable_harmonicForce _ _
  have hp := fun n => afterStep_iterate_probability (measurable_stepMap .bussi
    (⟨polyEnergy parabola, polyForce parabola, baseEvaluate (polyEnergy parabola) (polyForce parabola), [], none⟩ : Potential ℝ 1) hF
    0.01 10 1 1) (Measure.dirac ((fun _ => 5, fun _ => 0) : Phase 1)) n
  have hq : IsProbabilityMeasure (harmonicState (fun _ : Fin 1 => 1) (fun _ => 0) 1 1 0.01) := by
    unfold harmonicState normals
    infer_instance
  refine ⟨fun n => ⟨_, hp n⟩, ⟨_, hq⟩, rfl, fun n => rfl, rfl, ?_⟩
  exact bussi_converges _ 0.01 10 1 1 rfl (fun _ => 1) (fun _ => 0) (fun x => parabola_force x) (by norm_num) (by norm_num) (by norm_num)
    (by norm_num) (by norm_num) (by norm_num) _ _ (fun n => rfl) rfl

end Bdld
