import Verif.Model.Density
import Verif.Props.Convolve
import Verif.Props.Trapz
import Mathlib.Algebra.Order.BigOperators.GroupWithZero.List

/-
Properties of the probability density of a potential (C36) and of the grid on which it is calculated (C51).
-/

namespace Bdld

/-! ### C36 -/

/-- `set_from_func` in any number of dimensions: the values in the order in which the points are listed. -/
theorem setFromFunc_ok {F : Type} [Field F] [Inhabited F] (g : Grid F) (f : List F → F) (hne : g.ranges ≠ [])
    (hn : g.nPoints.length = g.ranges.length) :
    ∃ p, g.points = .ok p ∧ p.length = g.nPoints.prod ∧ p.Perm (Spec.rowMajor g.axes) ∧
      g.setFromFunc f = .ok { g with data := ⟨g.nPoints, p.map f⟩ } := by
  have hax : g.axes ≠ [] := by
    intro h0
    have := congrArg List.length h0
    simp only [Grid.axes, List.length_zipWith, hn, List.length_nil, Nat.min_self] at this
    exact hne (List.length_eq_zero_iff.mp this)
  obtain ⟨p, hp, hperm⟩ := points_perm_partial g.axes hax
  have hl := points_length _ _ hp
  rw [length_axes g hn] at hl
  refine ⟨p, hp, hl, hperm, ?_⟩
  unfold Grid.setFromFunc
  rw [show g.points = .ok p from hp, ok_bind, setData_ok _ _ (by simp [hl])]

theorem copyEmpty_of_fromNpoints {F : Type} [Field F] (ranges : List (F × F)) (n : List Nat) (g g' : Grid F)
    (h : fromNpoints ranges n = .ok g) (h1 : g'.ranges = g.ranges) (h2 : g'.nPoints = g.nPoints) :
    g'.copyEmpty = .ok g := by
  unfold Grid.copyEmpty
  have : g.ranges = ranges ∧ g.nPoints = n := by
    unfold fromNpoints at h
    by_cases hl : n.length = ranges.length
    · rw [if_neg (by simpa using hl)] at h
      cases hs : stepsizesFromNpoints ranges n with
      | error e => rw [hs] at h; cases h
      | ok st => rw [hs] at h; cases h; exact ⟨rfl, rfl⟩
    · rw [if_pos hl] at h; cases h
  rw [h1, h2, this.1, this.2, h]

theorem fromNpoints_stepsizes_pos (ranges : List (ℝ × ℝ)) (n : List Nat) (st : List ℝ)
    (h : stepsizesFromNpoints ranges n = .ok st) (hr : ∀ r ∈ ranges, r.1 < r.2) (h2 : ∀ m ∈ n, 2 ≤ m) :
    ∀ s ∈ st, 0 < s := by
  induction ranges generalizing n st with
  | nil => simp only [stepsizesFromNpoints] at h; cases h; simp
  | cons r rs ih =>
    cases n with
    | nil => simp [stepsizesFromNpoints] at h
    | cons m n =>
      unfold stepsizesFromNpoints at h
      have hm := h2 m (by simp)
      rw [if_neg (by omega)] at h
      cases hs : stepsizesFromNpoints rs n with
      | error e => rw [hs] at h; cases h
      | ok l =>
        rw [hs] at h
        cases h
        intro s hmem
        rw [List.mem_cons] at hmem
        rcases hmem with rfl | hmem
        · have h3 := hr r (by simp)
          have : (2 : ℝ) ≤ m := by exact_mod_cast hm
          exact div_pos (by linarith) (by linarith)
        · exact ih n l hs (fun r' hr' => hr r' (by simp [hr'])) (fun k hk => h2 k (by simp [hk])) s hmem

theorem list_prod_pos (l : List ℝ) (h : ∀ x ∈ l, 0 < x) : 0 < l.prod := by
  induction l with
  | nil => simp
  | cons a l ih =>
    rw [List.prod_cons]
    exact mul_pos (h a (by simp)) (ih (fun x hx => h x (by simp [hx])))

theorem list_sum_pos (l : List ℝ) (hne : l ≠ []) (h : ∀ x ∈ l, 0 < x) : 0 < l.sum := by
  induction l with
  | nil => exact absurd rfl hne
  | cons a l ih =>
    rw [List.sum_cons]
    by_cases hl : l = []
    · subst hl
      simpa using h a (by simp)
    · have := ih hl (fun x hx => h x (by simp [hx]))
      have := h a (by simp)
      linarith

theorem nat_prod_pos (l : List Nat) (h : ∀ x ∈ l, 2 ≤ x) : 0 < l.prod := by
  induction l with
  | nil => simp
  | cons a l ih =>
    rw [List.prod_cons]
    exact Nat.mul_pos (by have := h a (by simp); omega) (ih (fun x hx => h x (by simp [hx])))

/-- The normalisation constant for the given energies. -/
noncomputable def Spec.partition (kt : ℝ) (energies stepsizes : List ℝ) : ℝ :=
  (energies.map (fun e => Real.exp (-e / kt))).sum * stepsizes.prod

/-- C36 in any number of dimensions: the density is calculated, has one value per grid point, proportional
to `exp(-E/kT)` at the point listed at the same position by `points()`, all values are positive, and their
sum times the volume element is one. Partial: in three dimensions `points()` lists the points in the wrong
order (C45), so that the values belong to other points, see `prob_density_3d_wrong`. -/
theorem prob_density_partial (energy : List ℝ → ℝ) (d : Nat) (kt : ℝ) (ranges : List (ℝ × ℝ)) (n : List Nat)
    (hd : 1 ≤ d) (h1 : ranges.length = d) (h2 : n.length = d) (hr : ∀ r ∈ ranges, r.1 < r.2)
    (hn : ∀ m ∈ n, 2 ≤ m) :
    ∃ g p, calculateProbabilityDensity energy d kt ranges n = .ok g ∧ g.ranges = ranges ∧ g.nPoints = n ∧
      Spec.Spaced g.ranges g.nPoints g.stepsizes ∧ g.Filled ∧ g.points = .ok p ∧
      p.Perm (Spec.rowMajor g.axes) ∧
      g.data.flat = p.map (fun x =>
        Real.exp (-energy x / kt) / Spec.partition kt (p.map energy) g.stepsizes) ∧
      (∀ v ∈ g.data.flat, 0 < v) ∧ (∀ s ∈ g.stepsizes, 0 < s) ∧ g.data.flat.sum * g.stepsizes.prod = 1 := by
  obtain ⟨g0, hg0⟩ := (from_npoints_total ranges n).1 (by omega) (fun m hm => by have := hn m hm; omega)
  obtain ⟨e1, e2, e3⟩ := from_npoints_spaced _ _ _ hg0
  have hst : ∀ s ∈ g0.stepsizes, 0 < s := by
    have h := hg0
    unfold fromNpoints at h
    rw [if_neg (by omega)] at h
    cases hs : stepsizesFromNpoints ranges n with
    | error e => rw [hs] at h; cases h
    | ok st =>
      rw [hs] at h
      cases h
      exact fromNpoints_stepsizes_pos ranges n st hs hr hn
  have hdims : g0.nPoints.length = g0.ranges.length := by rw [e1, e2]; omega
  obtain ⟨p, hp, hpl, hperm, hset⟩ := setFromFunc_ok g0 energy
    (by rw [e1]; intro h; rw [h] at h1; simp at h1; omega) hdims
  have hlen : ∀ f : List ℝ → ℝ, (p.map f).length = g0.nPoints.prod := fun f => by rw [List.length_map, hpl]
  have hce : ∀ v, Grid.copyEmpty { g0 with data := v } = .ok g0 :=
    fun v => copyEmpty_of_fromNpoints ranges n g0 _ hg0 rfl rfl
  have hmath : ∀ (f : List ℝ → ℝ) (op : ℝ → ℝ),
      Grid.mathOnSelf { g0 with data := ⟨g0.nPoints, p.map f⟩ } op
        = .ok { g0 with data := ⟨g0.nPoints, p.map (fun x => op (f x))⟩ } := by
    intro f op
    unfold Grid.mathOnSelf
    rw [hce, ok_bind, setData_ok _ _ (by simp only [Nd.map, List.length_map]; exact hpl)]
    simp [Nd.map, Function.comp_def]
  have harith : ∀ (f : List ℝ → ℝ) (y : ℝ) (op : ℝ → ℝ → ℝ),
      Grid.arith false { g0 with data := ⟨g0.nPoints, p.map f⟩ } (.num y) op
        = .ok { g0 with data := ⟨g0.nPoints, p.map (fun x => op (f x) y)⟩ } := by
    intro f y op
    unfold Grid.arith
    rw [hce, ok_bind]
    simp only
    rw [setData_ok _ _ (by simp only [Nd.map, List.length_map]; exact hpl)]
    simp [Nd.map, Function.comp_def]
  have hsum : 0 < (p.map (fun x => Real.exp (-energy x / kt))).sum := by
    apply list_sum_pos
    · intro h0
      have := hlen (fun x => Real.exp (-energy x / kt))
      rw [h0, e2, List.length_nil] at this
      have := nat_prod_pos n hn
      omega
    · intro v hv
      rw [List.mem_map] at hv
      obtain ⟨x, _, rfl⟩ := hv
      exact Real.exp_pos _
  have hprod := list_prod_pos _ hst
  have hZ : Spec.partition kt (p.map energy) g0.stepsizes
      = (p.map (fun x => Real.exp (-energy x / kt))).sum * g0.stepsizes.prod := by
    rw [Spec.partition, List.map_map]
    rfl
  have hZpos : 0 < Spec.partition kt (p.map energy) g0.stepsizes := by rw [hZ]; exact mul_pos hsum hprod
  refine ⟨{ g0 with data := ⟨g0.nPoints, p.map (fun x =>
      Real.exp (-energy x / kt) / Spec.partition kt (p.map energy) g0.stepsizes)⟩ }, p, ?_, e1, e2, e3,
    ⟨hdims, rfl, hlen _⟩, hp, hperm, rfl, ?_, hst, ?_⟩
  · unfold calculateProbabilityDensity
    rw [if_neg (by omega), if_neg (by omega), hg0, ok_bind, hset, ok_bind, hmath, ok_bind, harith, ok_bind,
      hmath, ok_bind, harith, hZ]
  · intro v hv
    simp only [List.mem_map] at hv
    obtain ⟨x, _, rfl⟩ := hv
    exact div_pos (Real.exp_pos _) hZpos
  · have e : p.map (fun x => Real.exp (-energy x / kt) / Spec.partition kt (p.map energy) g0.stepsizes)
        = p.map (fun x => Real.exp (-energy x / kt) * (Spec.partition kt (p.map energy) g0.stepsizes)⁻¹) := by
      simp only [div_eq_mul_inv]
    show (List.map _ _).sum * _ = 1
    rw [e, List.sum_map_mul_right, hZ, mul_inv, mul_assoc, mul_assoc, inv_mul_cancel₀ hprod.ne', mul_one,
      mul_inv_cancel₀ hsum.ne']

/-- C36 in one and two dimensions: the value with multi-index `idx` is the normalised Boltzmann factor at the
grid point with this index. -/
theorem prob_density_value_partial (energy : List ℝ → ℝ) (d : Nat) (kt : ℝ) (ranges : List (ℝ × ℝ))
    (n : List Nat) (hd : d = 1 ∨ d = 2) (h1 : ranges.length = d) (h2 : n.length = d)
    (hr : ∀ r ∈ ranges, r.1 < r.2) (hn : ∀ m ∈ n, 2 ≤ m) :
    ∃ g Z, calculateProbabilityDensity energy d kt ranges n = .ok g ∧ 0 < Z ∧
      ∀ idx x, Spec.IsPoint g.axes idx x →
        g.data.flat[ravel n idx]? = some (Real.exp (-energy x / kt) / Z) := by
  obtain ⟨g, p, hg, e1, e2, e3, hf, hp, hperm, hflat, hpos, hst, hone⟩ :=
    prob_density_partial energy d kt ranges n (by omega) h1 h2 hr hn
  have hdims : g.nPoints.length = g.ranges.length := hf.dims
  refine ⟨g, Spec.partition kt (p.map energy) g.stepsizes, hg, ?_, fun idx x hx => ?_⟩
  · rw [Spec.partition]
    refine mul_pos ?_ (list_prod_pos _ hst)
    apply list_sum_pos
    · intro h0
      have h3 : p = [] := by simpa using h0
      rw [hflat, h3] at hone
      simp at hone
    · intro v hv
      rw [List.mem_map] at hv
      obtain ⟨y, _, rfl⟩ := hv
      exact Real.exp_pos _
  · obtain ⟨g', hg', _, _, _, _, _, hval⟩ := set_from_func_partial g
      (fun x => Real.exp (-energy x / kt) / Spec.partition kt (p.map energy) g.stepsizes)
      (by rw [e1, h1]; exact hd) hdims
    obtain ⟨p', hp', _, _, hset⟩ := setFromFunc_ok g
      (fun x => Real.exp (-energy x / kt) / Spec.partition kt (p.map energy) g.stepsizes)
      (by rw [e1]; intro h; rw [h] at h1; simp at h1; omega) hdims
    rw [hp] at hp'
    cases hp'
    rw [hset] at hg'
    cases hg'
    have := hval idx x hx
    rw [e2] at this
    rw [hflat]
    exact this

/-- C36: wrong dimensions raise `ValueError`. -/
theorem prob_density_error (energy : List ℝ → ℝ) (d : Nat) (kt : ℝ) (ranges : List (ℝ × ℝ)) (n : List Nat)
    (h : ranges.length ≠ d ∨ n.length ≠ d) :
    calculateProbabilityDensity energy d kt ranges n = .error .valueError := by
  unfold calculateProbabilityDensity
  by_cases h1 : ranges.length = d
  · rw [if_neg (by simpa using h1), if_pos (by tauto)]
  · rw [if_pos h1]

/-- C36 is false in three dimensions: with `E(x, y, z) = x` on the unit cube the values at the points
`(0, 0, 0)` and `(0, 1, 0)`, which have the same energy, differ. -/
theorem prob_density_3d_wrong :
    ∃ (g : Grid ℝ) (v w : ℝ),
      calculateProbabilityDensity (fun x => x.headD 0) 3 1 [(0, 1), (0, 1), (0, 1)] [2, 2, 2] = .ok g ∧
      Spec.IsPoint g.axes [0, 0, 0] [0, 0, 0] ∧ Spec.IsPoint g.axes [0, 1, 0] [0, 1, 0] ∧
      g.data.flat[ravel [2, 2, 2] [0, 0, 0]]? = some v ∧ g.data.flat[ravel [2, 2, 2] [0, 1, 0]]? = some w ∧
      v ≠ w := by
  obtain ⟨g, p, hg, e1, e2, e3, hf, hp, hperm, hflat, hpos, hst, hone⟩ :=
    prob_density_partial (fun x => x.headD 0) 3 1 [(0, 1), (0, 1), (0, 1)] [2, 2, 2] (by omega) rfl rfl
      (by simp) (by simp)
  have hax : g.axes = [[0, 1], [0, 1], [0, 1]] := by
    rw [Grid.axes, e1, e2]
    norm_num [linspace, List.range_succ]
  unfold Grid.points at hp
  rw [hax, points_3d_partial] at hp
  cases hp
  have hZ : Spec.partition 1 (List.map (fun x : List ℝ => x.headD 0) ([(0 : ℝ), 1].flatMap (fun z =>
      [(0 : ℝ), 1].flatMap (fun x => [(0 : ℝ), 1].map (fun y => [x, y, z]))))) g.stepsizes ≠ 0 := by
    intro h0
    rw [hflat, h0] at hone
    simp at hone
  generalize Spec.partition 1 _ g.stepsizes = Z at hflat hZ
  refine ⟨g, Real.exp (-0 / 1) / Z, Real.exp (-1 / 1) / Z, hg, ?_, ?_, ?_, ?_, ?_⟩
  · rw [hax]; exact ⟨rfl, rfl, rfl, trivial⟩
  · rw [hax]; exact ⟨rfl, rfl, rfl, trivial⟩
  · rw [hflat]; rfl
  · rw [hflat]; rfl
  · intro h
    rw [div_left_inj' hZ, Real.exp_eq_exp] at h
    norm_num at h

/-! ### C51 -/

/-- C51: the number of points is odd, at least 501, and enough to place two points per bandwidth. -/
theorem bd_grid_points (r : ℝ × ℝ) (bw : ℝ) :
    bdGridPoints r bw % 2 = 1 ∧ 501 ≤ bdGridPoints r bw ∧ (r.2 - r.1) / (0.5 * bw) ≤ bdGridPoints r bw := by
  unfold bdGridPoints
  simp only
  generalize hm : ⌈(r.2 - r.1) / (0.5 * bw)⌉ = m
  have hle : (r.2 - r.1) / (0.5 * bw) ≤ m := by rw [← hm]; exact Int.le_ceil _
  have key : ∀ t : Int, m ≤ t → 0 ≤ t → (r.2 - r.1) / (0.5 * bw) ≤ (t.toNat : ℝ) := by
    intro t h1 h2
    have : ((t.toNat : Int) : ℝ) = (t : ℝ) := by rw [Int.toNat_of_nonneg h2]
    rw [Int.cast_natCast] at this
    rw [this]
    exact hle.trans (by exact_mod_cast h1)
  by_cases h : max 501 m % 2 = 0
  · rw [if_pos h]
    exact ⟨by omega, by omega, key _ (by omega) (by omega)⟩
  · rw [if_neg h]
    exact ⟨by omega, by omega, key _ (by omega) (by omega)⟩

/-- Number of points of the kernel grid for bandwidth `bw` and stepsize `h` that lie within five
bandwidths: the points `-5 bw + i h`. -/
theorem kernel_points_inside (bw h : ℝ) (hh : 0 < h) (i : Nat) (hi : (i : ℝ) < 10 * bw / h) :
    |(-(5 * bw)) + i * h| ≤ 5 * bw := by
  have h1 : (i : ℝ) * h < 10 * bw := by rwa [lt_div_iff₀ hh] at hi
  have h2 : 0 ≤ (i : ℝ) * h := by positivity
  rw [abs_le]
  constructor <;> linarith

/-- C51: with the stepsize of the density grid, the kernel grid made by `dens_kernel_convolution` has more
than 20 points, the first 20 of which lie within five bandwidths. -/
theorem kernel_resolution (r : ℝ × ℝ) (bw : ℝ) (hr : r.1 < r.2) (hbw : 0 < bw) :
    let h := (r.2 - r.1) / ((bdGridPoints r bw : ℝ) - 1)
    0 < h ∧ (21 : Int) ≤ ⌈(5 * bw - -(5 * bw)) / h⌉ + 1 ∧
      ∀ i : Nat, i < 20 → |(-(5 * bw)) + i * h| ≤ 5 * bw := by
  obtain ⟨_, h501, hle⟩ := bd_grid_points r bw
  intro h
  have hN : (501 : ℝ) ≤ bdGridPoints r bw := by exact_mod_cast h501
  have hL : 0 < r.2 - r.1 := by linarith
  have hh : 0 < h := div_pos hL (by linarith)
  rw [div_le_iff₀ (by positivity)] at hle
  -- at least 19 steps fit into ten bandwidths
  have hq : (19 : ℝ) < 10 * bw / h := by
    show (19 : ℝ) < 10 * bw / ((r.2 - r.1) / ((bdGridPoints r bw : ℝ) - 1))
    rw [div_div_eq_mul_div, lt_div_iff₀ hL]
    nlinarith [mul_pos hbw (show (0 : ℝ) < bdGridPoints r bw - 500 by linarith)]
  refine ⟨hh, ?_, ?_⟩
  · have e : (5 * bw - -(5 * bw)) / h = 10 * bw / h := by ring
    rw [e]
    have : (19 : Int) < ⌈10 * bw / h⌉ := by
      rw [Int.lt_ceil]
      exact_mod_cast hq
    omega
  · intro i hi
    apply kernel_points_inside bw h hh
    have : (i : ℝ) ≤ 19 := by exact_mod_cast (by omega : i ≤ 19)
    linarith

example : ((0 : ℝ), (10 : ℝ)).1 < ((0 : ℝ), (10 : ℝ)).2 ∧ (0 : ℝ) < 0.1 := by norm_num

/-- C51: `bd_prob_density` uses these numbers of points. -/
theorem bd_prob_density_points (energy : List ℝ → ℝ) (d : Nat) (ranges : List (ℝ × ℝ)) (bw : List ℝ) (kt : ℝ)
    (hd : 1 ≤ d) (h1 : ranges.length = d) (h2 : bw.length = d) (hr : ∀ r ∈ ranges, r.1 < r.2) :
    ∃ g, bdProbDensity energy d ranges bw kt = .ok g ∧ g.ranges = ranges ∧
      ∀ (i : Nat) (r : ℝ × ℝ) (b : ℝ), ranges[i]? = some r → bw[i]? = some b →
        g.nPoints[i]? = some (bdGridPoints r b) := by
  obtain ⟨g, p, hg, e1, e2, _⟩ := prob_density_partial energy d kt ranges
    (List.zipWith bdGridPoints ranges bw) hd h1 (by simp [h1, h2]) hr (by
      intro m hm
      obtain ⟨i, hi1, rfl⟩ := List.getElem_of_mem hm
      rw [List.getElem_zipWith]
      exact le_trans (by norm_num) (bd_grid_points _ _).2.1)
  refine ⟨g, ?_, e1, ?_⟩
  · unfold bdProbDensity
    rw [if_neg (by omega), hg]
  · intro i r b hr hb
    rw [e2, getElem?_zipWith_some, hr, hb]
    rfl

end Bdld
