import Verif.Model.Action
import Verif.Model.Main
import Verif.Model.Report
import Verif.Props.MainCorrection
import Mathlib.Analysis.Complex.ExponentialBounds
import Mathlib.Analysis.Real.Pi.Bounds

/-
The unit tests of the repository (`test/*.py`), with the model in place of the program. They are no properties; they show that the
definitions of the model give the values that the authors of the program expect of it. Left out: the tests that only call a function
without looking at the result, and the two tests with a fixed seed, which depend on the generator of numpy.
-/

namespace Bdld

/-! ### test_action.py -/

/-- `test_get_valid_data`. -/
example : getValidData ((List.range 20).map fun i => 42 + 2 * i) 63 6 2 47 = .ok [48, 54, 60] := by decide

/-! ### test_grid.py -/

/-- `test_create`. -/
example : fromNpointsInt [((0 : ℚ), 1)] 11 = fromStepsizesNum [(0, 1)] (1 / 10) false := by decide +kernel

/-- `test_axes`. -/
example : (fromNpointsInt [((0 : ℚ), 1), (0, 10)] 3).map Grid.axes = .ok [[0, 1 / 2, 1], [0, 5, 10]] := by decide +kernel

/-- `test_points`. -/
example : (fromNpointsInt [((0 : ℚ), 1), (0, 10)] 3).bind Grid.points =
    .ok [[0, 0], [0, 5], [0, 10], [1 / 2, 0], [1 / 2, 5], [1 / 2, 10], [1, 0], [1, 5], [1, 10]] := by decide +kernel

/-- The values 0, 1, …, n - 1 as array. -/
def arange (F : Type) [NatCast F] (n : Nat) : Nd F := ⟨[n], (List.range n).map fun i : Nat => (i : F)⟩

/-- `test_data`. -/
example : ((fromNpointsInt [((0 : ℚ), 1)] 11).bind fun g => g.setData (arange ℚ 10)) = .error .valueError := by decide +kernel
example : ((fromNpointsInt [((0 : ℚ), 1)] 11).bind fun g => g.setData (arange ℚ 11)).map Grid.data = .ok (arange ℚ 11) := by decide +kernel

/-- `test_set_from_func`. -/
example : ((fromNpointsInt [((0 : ℚ), 10)] 11).bind fun g => g.setFromFunc fun x => x.headD 0 ^ 2).map Grid.data =
    .ok ((arange ℚ 11).map (· ^ 2)) := by decide +kernel

/-- `test_arithmetics`. -/
example : (do
    let g0 ← fromNpointsInt [((0 : ℚ), 10)] 11
    let g1 ← g0.setData (arange ℚ 11)
    let g2 ← g1.arith false (.num 1) (· + ·)
    let g3 ← g2.arith false (.num 1) (· - ·)
    return g1.eq g3) = Except.ok (ε := PyErr) true := by decide +kernel

/-- `test_exp_log`. -/
example : ∃ g1 g2 g3 : Grid ℝ, ((fromNpointsInt [((0 : ℝ), 10)] 11).bind fun g => g.setData (arange ℝ 11)) = .ok g1 ∧
    g1.mathOnSelf Real.exp = .ok g2 ∧ g2.data.flat = (List.range 11).map (fun i : Nat => Real.exp (i : ℝ)) ∧
    g2.mathOnSelf Real.log = .ok g3 ∧ g3.data = arange ℝ 11 := by
  refine ⟨_, _, _, rfl, rfl, ?_, rfl, ?_⟩
  · simp [arange, Nd.map, List.range, List.range.loop]
  · simp [arange, Nd.map, List.range, List.range.loop]

/-- `test_interpolation_sparsify`, with linear interpolation. -/
example {R : Type} (w : World R) (hw : LinearGriddata w) : ∃ g1 g2 : Grid ℝ,
    ((fromNpointsInt [((0 : ℝ), 10)] 11).bind fun g => g.setData (arange ℝ 11)) = .ok g1 ∧
    sparsify w.interp g1 [5] = .ok g2 ∧ g2.data = ⟨[5], [0, 5 / 2, 5, 15 / 2, 10]⟩ := by
  have hm := hw.many 0 1 (arange ℝ 11).flat [0, 5 / 2, 5, 15 / 2, 10] one_pos (by simp [arange]) (by simp [arange]; norm_num)
  have f1 : ⌊(5 / 2 : ℝ)⌋₊ = 2 := by norm_num [Nat.floor_eq_iff]
  have f2 : ⌊(15 / 2 : ℝ)⌋₊ = 7 := by norm_num [Nat.floor_eq_iff]
  have hv : ([0, 5 / 2, 5, 15 / 2, 10] : List ℝ).map (Spec.lin 0 1 11 fun j => (arange ℝ 11).flat.getD j 0) =
      [0, 5 / 2, 5, 15 / 2, 10] := by
    simp [arange, Spec.lin, f1, f2, List.range, List.range.loop]
    norm_num
  rw [show (arange ℝ 11).flat.length = 11 by simp [arange], hv] at hm
  have hp : linePoints 0 (10 / 4) 5 = ([0, 5 / 2, 5, 15 / 2, 10] : List ℝ).map fun q => [q] := by
    simp [linePoints, List.range, List.range.loop]
    norm_num
  rw [← hp] at hm
  have hf : fromNpoints [((0 : ℝ), 10)] [5] = .ok ⟨Nd.empty0, [(0, 10)], [5], [10 / 4]⟩ := by
    simp [fromNpoints, stepsizesFromNpoints]
    norm_num
  have hg : fromNpointsInt [((0 : ℝ), 10)] 11 = .ok ⟨Nd.empty0, [(0, 10)], [11], [1]⟩ := by
    simp [fromNpointsInt, fromNpoints, stepsizesFromNpoints]
    norm_num
  refine ⟨⟨arange ℝ 11, [(0, 10)], [11], [1]⟩, ⟨⟨[5], [0, 5 / 2, 5, 15 / 2, 10]⟩, [(0, 10)], [5], [10 / 4]⟩,
    ?_, ?_, rfl⟩
  · rw [hg]
    rfl
  · unfold sparsify
    rw [if_neg (by simp)]
    simp only
    rw [show List.zipWith (fun n m => if n ≤ m then n else m) [11] [5] = [5] by simp, hf, ok_bind, points_line _ 0 10 11 rfl rfl, ok_bind,
      points_line _ 0 10 5 rfl rfl, ok_bind, show ((10 : ℝ) - 0) / ((11 : ℕ) - 1) = 1 by norm_num,
      show ((10 : ℝ) - 0) / ((5 : ℕ) - 1) = 10 / 4 by norm_num, hm]
    rfl

/-! ### test_potential.py -/

/-- The coefficients `[0, 0, 1]` and `[[0, 0, 2], [1, 0, 0]]`. -/
noncomputable def testC1 : NdArr 1 := ⟨fun _ => 3, fun i => if i 0 = 2 then 1 else 0⟩
noncomputable def testC2 : NdArr 2 := ⟨![2, 3], fun i => if i 0 = 0 ∧ i 1 = 2 then 2 else if i 0 = 1 ∧ i 1 = 0 then 1 else 0⟩

/-- `test_create`: the derivative is `[0, 2]`, there are no ranges, four dimensions are not accepted. -/
example : (polyder testC1 0).shape 0 = 2 ∧ (polyder testC1 0).val (fun _ => 0) = 0 ∧ (polyder testC1 0).val (fun _ => 1) = 2 := by
  refine ⟨?_, ?_, ?_⟩
  · simp [polyder, testC1]
  · simp [polyder, testC1]
  · simp [polyder, testC1]
    norm_num
example : ∃ p, newPolynomial testC1 none = .ok p ∧ p.ranges = [] := ⟨_, rfl, rfl⟩
example (a : NdArr 4) : newPolynomial a none = .error .notImplementedError := rfl

/-- `test_evaluate`. -/
example : ∃ p, newPolynomial testC2 none = .ok p ∧ p.evaluate ![1 / 2, 2] = (17 / 2, ![-1, -8]) := by
  refine ⟨_, rfl, Prod.ext ?_ (funext fun k => ?_)⟩
  · simp [baseEvaluate, polyEnergy, polyvalNd, testC2, horner, List.range, List.range.loop, Fin.tail]
    norm_num
  · fin_cases k <;> simp [baseEvaluate, polyForce, polyder, polyvalNd, testC2, horner, List.range, List.range.loop, Fin.tail] <;> norm_num

/-- `test_reference`. -/
example : ∃ p, newPolynomial testC1 none = .ok p ∧
    calculateReference p ([0, 1, 2, 3, 4, 5].map fun x _ => x) true = .ok [0, 1, 4, 9, 16, 25] := by
  refine ⟨_, rfl, ?_⟩
  have e : ∀ x : ℝ, polyEnergy testC1 (fun _ => x) = x ^ 2 := fun x => by
    simp [polyEnergy, polyvalNd, testC1, horner, List.range, List.range.loop]
    ring
  have : npMin ([0, 1, 4, 9, 16, 25] : List ℝ) = .ok 0 := by
    simp [npMin]
    norm_num
  simp only [calculateReference, List.map_cons, List.map_nil, e]
  norm_num [this, ok_bind]

/-- `test_probability_density`. -/
example : ∃ g, calculateProbabilityDensity (fun p => polyEnergy testC1 fun _ => p.headD 0) 1 (1 / 2) [(-1, 1)] [3] = .ok g ∧
    g.data.flat = [Real.exp (-2) / (Real.exp (-2) + 1 + Real.exp (-2)), 1 / (Real.exp (-2) + 1 + Real.exp (-2)),
      Real.exp (-2) / (Real.exp (-2) + 1 + Real.exp (-2))] := by
  have e : ∀ x : ℝ, polyEnergy testC1 (fun _ => x) = x ^ 2 := fun x => by
    simp [polyEnergy, polyvalNd, testC1, horner, List.range, List.range.loop]
    ring
  simp only [e]
  refine ⟨_, rfl, ?_⟩
  simp [npStack, meshgrid, NdFn.transpose, NdFn.toRows, indices, Grid.axes, linspace, swap01, Nd.map, List.range, List.range.loop]
  norm_num [add_assoc]

/-- `test_boundary_conditions`. -/
def testRanges : List (ℚ × ℚ) := [(1 / 2, 1), (-1, 0)]
example : (applyReflective testRanges ![11 / 10, -1 / 2] ![1, -2]).map (fun s => (List.ofFn s.1, List.ofFn s.2)) = .ok ([1, -1 / 2], [-1, -2]) := by decide +kernel
example : (applyReflective testRanges ![7 / 10, -11 / 10] ![1, -2]).map (fun s => (List.ofFn s.1, List.ofFn s.2)) = .ok ([7 / 10, -1], [1, 2]) := by decide +kernel
example : (applyPeriodic testRanges ![11 / 10, -1 / 2] ![1, -2]).map (fun s => (List.ofFn s.1, List.ofFn s.2)) = .ok ([6 / 10, -1 / 2], [1, -2]) := by decide +kernel
example : (applyPeriodic testRanges ![7 / 10, -11 / 10] ![1, -2]).map (fun s => (List.ofFn s.1, List.ofFn s.2)) = .ok ([7 / 10, -1 / 10], [1, -2]) := by decide +kernel

/-! ### test_birth_death.py -/

/-- `test_init_approximations`: names of the variants. -/
example : approxFromStr "add" = .ok .add ∧ approxFromStr "mult" = .ok .mult ∧ approxFromStr "err" = .error .typeError := by decide

/-- `test_kernel_1d`. -/
example : calcKernel (d := 1) (fun _ => 2) (fun _ => 0) = 1 / (√(2 * Real.pi) * 2) ∧
    calcKernel (d := 1) (fun _ => 2) (fun _ => 1) = 1 / (√(2 * Real.pi) * 2) * Real.exp (-1 / 8) := by
  constructor
  · simp [calcKernel, Real.sqrt_eq_rpow]
  · simp [calcKernel, Real.sqrt_eq_rpow]
    norm_num

/-- `test_kernel_2d`. -/
example : calcKernel ![1, 2] ![0, 0] = 1 / (4 * Real.pi) ∧
    calcKernel ![1, 2] ![1, √2] = 1 / (4 * Real.pi) * Real.exp (-1 / 2) * Real.exp (-1 / 4) := by
  constructor
  · simp [calcKernel]; ring
  · rw [mul_assoc, ← Real.exp_add]
    simp [calcKernel]
    norm_num
    ring

theorem test_height : 0.79788455 < 1 / (0.5 * √(2 * Real.pi)) ∧ 1 / (0.5 * √(2 * Real.pi)) < 0.79788457 := by
  have h1 := Real.pi_gt_d20
  have h2 := Real.pi_lt_d20
  have hs : 0 < √(2 * Real.pi) := by positivity
  have hq : √(2 * Real.pi) ^ 2 = 2 * Real.pi := Real.sq_sqrt (by positivity)
  rw [lt_div_iff₀ (by positivity), div_lt_iff₀ (by positivity)]
  constructor <;> nlinarith

theorem test_exp_half : 0.60653065 < Real.exp (-(1 / 2)) ∧ Real.exp (-(1 / 2)) < 0.60653067 := by
  have h1 := Real.exp_one_gt_d9
  have h2 := Real.exp_one_lt_d9
  have h3 := Real.exp_pos (-(1 / 2))
  have h4 : Real.exp (-(1 / 2)) ^ 2 * Real.exp 1 = 1 := by rw [← Real.exp_nat_mul, ← Real.exp_add]; norm_num
  constructor <;> nlinarith

theorem test_exp_two : 0.135335282 < Real.exp (-2) ∧ Real.exp (-2) < 0.135335284 := by
  have h1 := Real.exp_one_gt_d9
  have h2 := Real.exp_one_lt_d9
  have h4 : Real.exp (-2) * (Real.exp 1 * Real.exp 1) = 1 := by rw [← Real.exp_add, ← Real.exp_add]; norm_num
  have h5 : 7.38905609 < Real.exp 1 * Real.exp 1 := by nlinarith
  have h6 : Real.exp 1 * Real.exp 1 < 7.38905610 := by nlinarith
  have h3 := Real.exp_pos (-2)
  constructor <;> nlinarith

/-- The values of `N(0, 0.25)` in the test. -/
theorem test_normal : |Spec.normalPdf 0.5 0 - 0.797885| ≤ 5e-7 ∧ |Spec.normalPdf 0.5 0.5 - 0.483941| ≤ 5e-7 ∧
    |Spec.normalPdf 0.5 1 - 0.107982| ≤ 1e-7 ∧ |(Spec.normalPdf 0.5 0 + Spec.normalPdf 0.5 0.5 + Spec.normalPdf 0.5 1) - 1.389808| ≤ 1e-6 ∧
    |(Spec.normalPdf 0.5 0 + 2 * Spec.normalPdf 0.5 0.5) - 1.765767| ≤ 1e-6 := by
  obtain ⟨a1, a2⟩ := test_height
  obtain ⟨b1, b2⟩ := test_exp_half
  obtain ⟨c1, c2⟩ := test_exp_two
  have e0 : Spec.normalPdf 0.5 0 = 1 / (0.5 * √(2 * Real.pi)) := by simp [Spec.normalPdf]
  have e1 : Spec.normalPdf 0.5 0.5 = 1 / (0.5 * √(2 * Real.pi)) * Real.exp (-(1 / 2)) := by
    rw [Spec.normalPdf]; norm_num
  have e2 : Spec.normalPdf 0.5 1 = 1 / (0.5 * √(2 * Real.pi)) * Real.exp (-2) := by
    rw [Spec.normalPdf]; norm_num
  rw [e0, e1, e2]
  generalize 1 / (0.5 * √(2 * Real.pi)) = h at *
  generalize Real.exp (-(1 / 2)) = x at *
  generalize Real.exp (-2) = y at *
  have p1 : 0.79788455 * 0.60653065 ≤ h * x := by nlinarith
  have p2 : h * x ≤ 0.79788457 * 0.60653067 := by nlinarith
  have p3 : 0.79788455 * 0.135335282 ≤ h * y := by nlinarith
  have p4 : h * y ≤ 0.79788457 * 0.135335284 := by nlinarith
  norm_num at *
  refine ⟨abs_le.2 ⟨?_, ?_⟩, abs_le.2 ⟨?_, ?_⟩, abs_le.2 ⟨?_, ?_⟩, abs_le.2 ⟨?_, ?_⟩, abs_le.2 ⟨?_, ?_⟩⟩ <;> linarith

/-- `test_walker_density`: three walkers, both functions, relative error `1e-6`. -/
example (f) (hf : f = walkerDensity ∨ f = walkerDensityManual) (dens) (hd : dens = f ![![0], ![0.5], ![1]] ![(0.5 : ℝ)])
    (e : Fin 3 → ℝ) (he : e = ![(0.797885 + 0.483941 + 0.107982) / 3, (0.797885 + 0.483941 + 0.483941) / 3,
      (0.797885 + 0.483941 + 0.107982) / 3]) (i : Fin 3) : |dens i - e i| ≤ 1e-6 * e i := by
  have h : ∀ i, dens i = Spec.kde ![(0.5 : ℝ)] ![![0], ![0.5], ![1]] ((![![0], ![0.5], ![1]] : Fin 3 → Fin 1 → ℝ) i) := by
    intro i
    rw [hd]
    rcases hf with rfl | rfl
    · exact (density_agree _ _).2 i
    · exact density_manual _ _ i
  have sym : ∀ x, Spec.normalPdf 0.5 (-x) = Spec.normalPdf 0.5 x := fun x => by simp [Spec.normalPdf]
  obtain ⟨-, -, -, h4, h5⟩ := test_normal
  rw [h, he]
  have k1 := sym 0.5
  have k2 := sym 1
  have hv : ∀ i, Spec.kde ![(0.5 : ℝ)] ![![0], ![0.5], ![1]] ((![![0], ![0.5], ![1]] : Fin 3 → Fin 1 → ℝ) i) =
      ![(Spec.normalPdf 0.5 0 + Spec.normalPdf 0.5 0.5 + Spec.normalPdf 0.5 1) / 3, (Spec.normalPdf 0.5 0 + 2 * Spec.normalPdf 0.5 0.5) / 3,
        (Spec.normalPdf 0.5 0 + Spec.normalPdf 0.5 0.5 + Spec.normalPdf 0.5 1) / 3] i := by
    intro i
    fin_cases i
    · simp [Spec.kde, Spec.kernel, Fin.sum_univ_three, k1, k2]
    · simp [Spec.kde, Spec.kernel, Fin.sum_univ_three]
      norm_num at k1 ⊢
      rw [k1]; ring
    · simp [Spec.kde, Spec.kernel, Fin.sum_univ_three]
      norm_num
      ring
  rw [hv]
  obtain ⟨l1, l2⟩ := abs_le.1 h4
  obtain ⟨m1, m2⟩ := abs_le.1 h5
  norm_num at l1 l2 m1 m2
  fin_cases i
  · refine abs_le.2 ⟨?_, ?_⟩ <;> simp <;> linarith
  · refine abs_le.2 ⟨?_, ?_⟩ <;> simp <;> linarith
  · refine abs_le.2 ⟨?_, ?_⟩ <;> simp <;> linarith

/-- `test_stats`. -/
example : BdStats.print ⟨5, 0, 0, 0⟩ (some "stats") 1 true = (⟨0, 0, 0, 0⟩, .line [1, 5, 0, 0, 0]) := by decide

end Bdld
