import Verif.Lemmas.Grid
import Mathlib.Algebra.Order.Floor.Ring
import Mathlib.Algebra.Order.Field.Basic
import Mathlib.Algebra.Order.Floor.Semiring
import Mathlib.Data.List.Perm.Basic
import Mathlib.Data.List.Nodup
import Mathlib.Data.Rat.Floor
import Mathlib.Tactic.Linarith
import Mathlib.Tactic.FieldSimp
import Mathlib.Tactic.NormNum

/-
Properties of grids: order of the points (C45), constructors (C46), arithmetic (C47), sparsify (C49).
-/

namespace Bdld

/-! ### C45: order of the points -/

/-- C45: in one and two dimensions the points are listed in row-major order. Partial: false in three
dimensions, see `points_3d_wrong`. -/
theorem points_rowMajor_partial {F : Type} [Inhabited F] (axes : List (List F))
    (h : axes.length = 1 ∨ axes.length = 2) : pointsOfAxes axes = .ok (Spec.rowMajor axes) := by
  rw [points_order axes (by rintro rfl; simp at h), rowMajor_eq]
  congr 1
  have hs : (swap01 (axes.map List.length)).reverse = axes.map List.length := by
    match axes, h with
    | [a], _ => rfl
    | [a, b], _ => rfl
    | [], h => simp at h
    | _ :: _ :: _ :: _, h => simp at h
  rw [hs]
  apply List.map_congr_left
  intro idx hidx
  have hl := inShape_length _ _ ((mem_indices _ _).mp hidx)
  rw [List.length_map] at hl
  congr 1
  match idx, axes, hl, h with
  | [i], [a], _, _ => rfl
  | [i, j], [a, b], _, _ => rfl
  | [], [], _, h => simp at h
  | _ :: _ :: _ :: _, _ :: _ :: _ :: _, _, h => simp at h

example : pointsOfAxes [[(0 : Int), 1], [5, 6, 7]]
    = .ok [[0, 5], [0, 6], [0, 7], [1, 5], [1, 6], [1, 7]] := by decide

/-- C45 is false in three dimensions: the points are not listed in row-major order. -/
theorem points_3d_wrong : ∃ (axes : List (List Int)) (p : List (List Int)), axes.length = 3 ∧
    pointsOfAxes axes = .ok p ∧ p ≠ Spec.rowMajor axes :=
  ⟨[[0, 1], [0, 1], [0, 1]], [[0, 0, 0], [0, 1, 0], [1, 0, 0], [1, 1, 0], [0, 0, 1], [0, 1, 1], [1, 0, 1],
    [1, 1, 1]], rfl, by decide, by decide⟩

theorem pointAt_swap3 {F : Type} [Inhabited F] (a b c : List F) :
    pointsOfAxes [a, b, c] = .ok (c.flatMap (fun z => a.flatMap (fun x => b.map (fun y => [x, y, z])))) := by
  have h := points_order [a, b, c] (by simp)
  rw [h]
  congr 1
  have e : ∀ l : List F, (List.range l.length).map (fun i => l.getD i default) = l := by
    intro l
    apply List.ext_getElem
    · simp
    · intro i h1 h2
      simp [List.getD_eq_getElem?_getD, List.getElem?_eq_getElem h2]
  simp only [List.map_cons, List.map_nil, swap01, List.reverse_cons, List.reverse_nil, List.nil_append,
    List.cons_append, indices, List.map_flatMap]
  conv_rhs => rw [← e c, List.flatMap_map]
  congr 1
  funext k
  conv_rhs => rw [← e a, List.flatMap_map]
  congr 1
  funext i
  conv_rhs => rw [← e b, List.map_map]
  rw [List.map_eq_flatMap]
  congr 1

/-- C45: what happens in three dimensions: the last coordinate is the slowest, then the first one. -/
theorem points_3d_partial {F : Type} [Inhabited F] (a b c : List F) :
    pointsOfAxes [a, b, c] = .ok (c.flatMap (fun z => a.flatMap (fun x => b.map (fun y => [x, y, z])))) :=
  pointAt_swap3 a b c

/-- C45: in every number of dimensions every grid point is listed exactly once. -/
theorem points_perm_partial {F : Type} [Inhabited F] (axes : List (List F)) (h : axes ≠ []) :
    ∃ p, pointsOfAxes axes = .ok p ∧ p.Perm (Spec.rowMajor axes) := by
  refine ⟨_, points_order axes h, ?_⟩
  rw [rowMajor_eq]
  have hp : ((indices (swap01 (axes.map List.length)).reverse).map (fun idx => swap01 idx.reverse)).Perm
      (indices (axes.map List.length)) := by
    rw [List.perm_ext_iff_of_nodup]
    · intro idx
      rw [List.mem_map]
      constructor
      · rintro ⟨k, hk, rfl⟩
        rw [mem_indices] at hk ⊢
        have h1 := inShape_reverse _ _ hk
        rw [List.reverse_reverse] at h1
        have h2 := inShape_swap01 _ _ h1
        rwa [swap01_swap01] at h2
      · intro hk
        rw [mem_indices] at hk
        refine ⟨(swap01 idx).reverse, ?_, ?_⟩
        · rw [mem_indices]
          exact inShape_reverse _ _ (inShape_swap01 _ _ hk)
        · rw [List.reverse_reverse, swap01_swap01]
    · refine (indices_nodup _).map ?_
      intro x y hxy
      have := congrArg swap01 hxy
      simp only [swap01_swap01] at this
      exact List.reverse_injective this
    · exact indices_nodup _
  have := hp.map (pointAt axes)
  rw [List.map_map] at this
  exact this

/-- C45: in one and two dimensions `set_from_func` stores the value of the function at every grid point at
the index of the point. Partial: false in three dimensions. -/
theorem set_from_func_partial {F : Type} [Field F] [Inhabited F] (g : Grid F) (f : List F → F)
    (hd : g.ranges.length = 1 ∨ g.ranges.length = 2) (hn : g.nPoints.length = g.ranges.length) :
    ∃ g', g.setFromFunc f = .ok g' ∧ g'.ranges = g.ranges ∧ g'.nPoints = g.nPoints ∧
      g'.stepsizes = g.stepsizes ∧ g'.data.shape = g.nPoints ∧ g'.data.flat.length = g.nPoints.prod ∧
      ∀ idx x, Spec.IsPoint g.axes idx x → g'.data.flat[ravel g.nPoints idx]? = some (f x) := by
  have hlen : g.axes.length = g.ranges.length := by simp [Grid.axes, hn]
  have hp := points_rowMajor_partial g.axes (by rw [hlen]; exact hd)
  have hax := length_axes g hn
  have hl := points_length _ _ hp
  rw [hax] at hl
  refine ⟨{ g with data := ⟨g.nPoints, (Spec.rowMajor g.axes).map f⟩ }, ?_, rfl, rfl, rfl, rfl, ?_, ?_⟩
  · unfold Grid.setFromFunc Grid.points
    rw [hp, ok_bind]
    unfold Grid.setData Nd.reshape
    rw [if_pos (by rw [List.length_map, hl]), ok_bind, pure_eq_ok]
  · show ((Spec.rowMajor g.axes).map f).length = _
    rw [List.length_map, hl]
  · intro idx x hx
    show ((Spec.rowMajor g.axes).map f)[ravel g.nPoints idx]? = _
    have key : ∀ (axes : List (List F)) (idx : List Nat) (x : List F), Spec.IsPoint axes idx x →
        inShape (axes.map List.length) idx = true ∧ pointAt axes idx = x := by
      intro axes
      induction axes with
      | nil =>
        intro idx x hx
        match idx, x, hx with
        | [], [], _ => exact ⟨rfl, rfl⟩
      | cons a as ih =>
        intro idx x hx
        match idx, x, hx with
        | i :: idx, y :: x, hx =>
          obtain ⟨h1, h2⟩ := ih idx x hx.2
          have hi : i < a.length := by
            by_contra hc
            have h3 : a[i]? = some y := hx.1
            rw [List.getElem?_eq_none (by omega)] at h3
            cases h3
          refine ⟨by simp [inShape, hi, h1], ?_⟩
          have h3 : a[i]? = some y := hx.1
          simp [pointAt, h2, List.getD_eq_getElem?_getD, h3]
    obtain ⟨h1, h2⟩ := key g.axes idx x hx
    rw [rowMajor_eq, List.map_map, hax, List.getElem?_map, indices_ravel _ _ (hax ▸ h1)]
    simp [h2]

/-- C45 is false in three dimensions also for `set_from_func`: `f(x, y, z) = x` on the unit cube. -/
theorem set_from_func_3d_wrong : ∃ (g g' : Grid ℚ) (f : List ℚ → ℚ) (idx : List Nat) (x : List ℚ),
    g.ranges.length = 3 ∧ g.nPoints.length = 3 ∧ g.setFromFunc f = .ok g' ∧ Spec.IsPoint g.axes idx x ∧
    g'.data.flat[ravel g.nPoints idx]? ≠ some (f x) := by
  have hax : (⟨Nd.empty0, [(0, 1), (0, 1), (0, 1)], [2, 2, 2], [1, 1, 1]⟩ : Grid ℚ).axes
      = [[0, 1], [0, 1], [0, 1]] := by
    norm_num [Grid.axes, linspace, List.range_succ]
  refine ⟨⟨Nd.empty0, [(0, 1), (0, 1), (0, 1)], [2, 2, 2], [1, 1, 1]⟩,
    ⟨⟨[2, 2, 2], [0, 0, 1, 1, 0, 0, 1, 1]⟩, [(0, 1), (0, 1), (0, 1)], [2, 2, 2], [1, 1, 1]⟩,
    fun p => p.headD 0, [0, 1, 0], [0, 1, 0], rfl, rfl, ?_, ?_, ?_⟩
  · unfold Grid.setFromFunc Grid.points
    rw [hax, points_3d_partial]
    rfl
  · rw [hax]
    exact ⟨rfl, rfl, rfl, trivial⟩
  · show (some (1 : ℚ)) ≠ some 0
    simp

/-! ### C46: constructors -/

theorem stepsizes_spaced {F : Type} [Field F] [LinearOrder F] [IsStrictOrderedRing F]
    (ranges : List (F × F)) (n : List Nat) (st : List F) (hl : n.length = ranges.length)
    (h : stepsizesFromNpoints ranges n = .ok st) : Spec.Spaced ranges n st := by
  induction ranges generalizing n st with
  | nil =>
    cases n with
    | nil => simp only [stepsizesFromNpoints] at h; cases h; trivial
    | cons a n => simp at hl
  | cons r rs ih =>
    cases n with
    | nil => simp at hl
    | cons m n =>
      unfold stepsizesFromNpoints at h
      by_cases hm : m = 1
      · rw [if_pos hm] at h; cases h
      rw [if_neg hm] at h
      cases hs : stepsizesFromNpoints rs n with
      | error e => rw [hs] at h; cases h
      | ok l =>
        rw [hs] at h
        cases h
        refine ⟨?_, ih n l (by simpa using hl) hs⟩
        have : (m : F) - 1 ≠ 0 := by
          intro h0
          apply hm
          have : (m : F) = ((1 : Nat) : F) := by rw [Nat.cast_one]; linarith
          exact Nat.cast_injective this
        rw [div_mul_cancel₀ _ this]

/-- C45, C46: the axes of a grid are `min + j * stepsize` in every dimension. -/
theorem axes_uniform {F : Type} [Field F] [LinearOrder F] [IsStrictOrderedRing F]
    (ranges : List (F × F)) (n : List Nat) (st : List F) (h : Spec.Spaced ranges n st) :
    Spec.UniformAxes ranges n st (List.zipWith (fun r n => linspace r.1 r.2 n) ranges n) := by
  induction ranges generalizing n st with
  | nil =>
    cases n with
    | nil => cases st with
      | nil => exact trivial
      | cons x st => exact h.elim
    | cons m n => exact h.elim
  | cons r ranges ih =>
    cases n with
    | nil => exact h.elim
    | cons m n =>
      cases st with
      | nil => exact h.elim
      | cons x st =>
        refine ⟨by simp [linspace], fun j hj => ?_, ih n st h.2⟩
        simp only [linspace, List.getElem?_map, List.getElem?_range hj, Option.map_some, Option.some.injEq,
          add_right_inj]
        have h1 := h.1
        rw [h1]
        by_cases hm : m = 1
        · have : j = 0 := by omega
          subst this
          simp
        · have : ((m : F) - 1) ≠ 0 := by
            intro h0
            apply hm
            have : (m : F) = ((1 : Nat) : F) := by rw [Nat.cast_one]; linarith
            exact Nat.cast_injective this
          rw [mul_div_cancel_right₀ _ this]

/-- C45: the axes of every grid made by `from_npoints`. -/
theorem from_npoints_axes {F : Type} [Field F] [LinearOrder F] [IsStrictOrderedRing F]
    (ranges : List (F × F)) (n : List Nat) (g : Grid F) (h : fromNpoints ranges n = .ok g) :
    Spec.UniformAxes ranges n g.stepsizes g.axes ∧ Spec.Spaced ranges n g.stepsizes := by
  unfold fromNpoints at h
  by_cases hl : n.length = ranges.length
  · rw [if_neg (by simpa using hl)] at h
    cases hs : stepsizesFromNpoints ranges n with
    | error e => rw [hs] at h; cases h
    | ok st =>
      rw [hs] at h
      cases h
      have hsp := stepsizes_spaced ranges n st hl hs
      exact ⟨axes_uniform ranges n st hsp, hsp⟩
  · rw [if_pos hl] at h; cases h

/-- C46: `from_npoints` keeps ranges and numbers of points, and the stepsizes fit. -/
theorem from_npoints_spaced {F : Type} [Field F] [LinearOrder F] [IsStrictOrderedRing F]
    (ranges : List (F × F)) (n : List Nat) (g : Grid F) (h : fromNpoints ranges n = .ok g) :
    g.ranges = ranges ∧ g.nPoints = n ∧ Spec.Spaced g.ranges g.nPoints g.stepsizes := by
  unfold fromNpoints at h
  by_cases hl : n.length = ranges.length
  · rw [if_neg (by simpa using hl)] at h
    cases hs : stepsizesFromNpoints ranges n with
    | error e => rw [hs] at h; cases h
    | ok st =>
      rw [hs] at h
      cases h
      exact ⟨rfl, rfl, stepsizes_spaced ranges n st hl hs⟩
  · rw [if_pos hl] at h; cases h

theorem stepsizes_ok {F : Type} [Field F] (ranges : List (F × F)) (n : List Nat)
    (hl : n.length = ranges.length) (h1 : ∀ m ∈ n, m ≠ 1) :
    ∃ st, stepsizesFromNpoints ranges n = .ok st := by
  induction ranges generalizing n with
  | nil => exact ⟨[], by simp [stepsizesFromNpoints]⟩
  | cons r rs ih =>
    cases n with
    | nil => simp at hl
    | cons m n =>
      obtain ⟨st, hst⟩ := ih n (by simpa using hl) (fun k hk => h1 k (by simp [hk]))
      unfold stepsizesFromNpoints
      rw [if_neg (h1 m (by simp)), hst]
      exact ⟨_, rfl⟩

/-- C46: `from_npoints` succeeds if every dimension has a number of points different from one; different
lengths of ranges and numbers raise `ValueError`. -/
theorem from_npoints_total {F : Type} [Field F] (ranges : List (F × F)) (n : List Nat) :
    (n.length = ranges.length → (∀ m ∈ n, m ≠ 1) → ∃ g, fromNpoints ranges n = .ok g) ∧
    (n.length ≠ ranges.length → fromNpoints ranges n = .error .valueError) := by
  constructor
  · intro hl h1
    obtain ⟨st, hst⟩ := stepsizes_ok ranges n hl h1
    unfold fromNpoints
    rw [if_neg (by simpa using hl), hst]
    exact ⟨_, rfl⟩
  · intro hl
    unfold fromNpoints
    rw [if_pos hl]

/-- A single point in a dimension is a `ZeroDivisionError`. -/
theorem from_npoints_one : ∃ (ranges : List (ℚ × ℚ)), fromNpoints ranges [1] = .error .zeroDivisionError :=
  ⟨[(0, 1)], rfl⟩

theorem stepsize_loop_spec {F : Type} [Field F] [LinearOrder F] [IsStrictOrderedRing F] [FloorRing F]
    (shrink : Bool) (ranges l : List (F × F)) (hs : List F) (m : List Nat)
    (h : stepsizeLoop shrink ranges hs = .ok (l, m)) (i : Nat) (r : F × F) (st : F)
    (hr : ranges[i]? = some r) (hst : hs[i]? = some st) :
    let n : Int := ⌈(r.2 - r.1) / st⌉ + 1 - (if shrink then 1 else 0)
    st ≠ 0 ∧ l[i]? = some (r.1, r.1 + st * ((n : F) - 1)) ∧ m[i]? = some n.toNat := by
  induction ranges generalizing hs l m i with
  | nil => simp at hr
  | cons r0 rs ih =>
    cases hs with
    | nil => simp at hst
    | cons h0 hs =>
      unfold stepsizeLoop at h
      by_cases hz : h0 = 0
      · rw [if_pos hz] at h; cases h
      rw [if_neg hz] at h
      cases hrec : stepsizeLoop shrink rs hs with
      | error e => simp only [hrec] at h; cases h
      | ok v =>
        obtain ⟨l', m'⟩ := v
        simp only [hrec] at h
        cases h
        cases i with
        | zero =>
          simp only [List.getElem?_cons_zero, Option.some.injEq] at hr hst
          subst hr hst
          exact ⟨hz, rfl, rfl⟩
        | succ i =>
          simp only [List.getElem?_cons_succ] at hr hst ⊢
          exact ih l' hs m' hrec i hr hst

/-- C46: `from_stepsizes` covers every requested range, starting at its minimum and exceeding its maximum by
less than one step, with a number of points that fits the stepsize. -/
theorem from_stepsizes_covers {F : Type} [Field F] [LinearOrder F] [IsStrictOrderedRing F] [FloorRing F]
    (ranges : List (F × F)) (hs : List F) (g : Grid F) (hg : fromStepsizes ranges hs false = .ok g)
    (i : Nat) (r : F × F) (st : F) (hr : ranges[i]? = some r) (hst : hs[i]? = some st) (h0 : 0 < st)
    (hle : r.1 ≤ r.2) :
    g.stepsizes = hs ∧ ∃ (top : F) (n : Nat), g.ranges[i]? = some (r.1, top) ∧ g.nPoints[i]? = some n ∧
      r.2 ≤ top ∧ top < r.2 + st ∧ top - r.1 = st * ((n : F) - 1) ∧ 1 ≤ n := by
  unfold fromStepsizes at hg
  cases hl : stepsizeLoop false ranges hs with
  | error e => rw [hl] at hg; cases hg
  | ok v =>
    obtain ⟨l, m⟩ := v
    rw [hl] at hg
    cases hg
    obtain ⟨_, h1, h2⟩ := stepsize_loop_spec false ranges l hs m hl i r st hr hst
    refine ⟨rfl, _, _, h1, h2, ?_, ?_, ?_, ?_⟩
    all_goals
      have hc0 : 0 ≤ (r.2 - r.1) / st := div_nonneg (by linarith) h0.le
      have hc : 0 ≤ ⌈(r.2 - r.1) / st⌉ := Int.ceil_nonneg hc0
      have e : ((⌈(r.2 - r.1) / st⌉ + 1 - (if false = true then 1 else 0) : Int) : F) - 1
          = (⌈(r.2 - r.1) / st⌉ : F) := by push_cast; simp
      have hx : st * ((r.2 - r.1) / st) = r.2 - r.1 := by field_simp
    · rw [e]
      have := mul_le_mul_of_nonneg_left (Int.le_ceil ((r.2 - r.1) / st)) h0.le
      linarith
    · rw [e]
      have := mul_lt_mul_of_pos_left (Int.ceil_lt_add_one ((r.2 - r.1) / st)) h0
      linarith
    · rw [e]
      have : (((⌈(r.2 - r.1) / st⌉ + 1 - (if false = true then 1 else 0) : Int).toNat : Nat) : F)
          = ((⌈(r.2 - r.1) / st⌉ + 1 - (if false = true then 1 else 0) : Int) : F) := by
        rw [← Int.cast_natCast, Int.toNat_of_nonneg (by simp; omega)]
      rw [this, e]
      ring
    · simp
      omega

/-- C46: with `shrink` the grid stays inside of every requested (non-empty) range and falls short by at most
one step. Partial: it falls short by a complete step if the stepsize fits exactly, see
`from_stepsizes_shrink_exact`. -/
theorem from_stepsizes_shrink_partial {F : Type} [Field F] [LinearOrder F] [IsStrictOrderedRing F]
    [FloorRing F] (ranges : List (F × F)) (hs : List F) (g : Grid F)
    (hg : fromStepsizes ranges hs true = .ok g)
    (i : Nat) (r : F × F) (st : F) (hr : ranges[i]? = some r) (hst : hs[i]? = some st) (h0 : 0 < st)
    (hlt : r.1 < r.2) :
    g.stepsizes = hs ∧ ∃ (top : F) (n : Nat), g.ranges[i]? = some (r.1, top) ∧ g.nPoints[i]? = some n ∧
      top < r.2 ∧ r.2 ≤ top + st ∧ top - r.1 = st * ((n : F) - 1) ∧ 1 ≤ n := by
  unfold fromStepsizes at hg
  cases hl : stepsizeLoop true ranges hs with
  | error e => rw [hl] at hg; cases hg
  | ok v =>
    obtain ⟨l, m⟩ := v
    rw [hl] at hg
    cases hg
    obtain ⟨_, h1, h2⟩ := stepsize_loop_spec true ranges l hs m hl i r st hr hst
    refine ⟨rfl, _, _, h1, h2, ?_, ?_, ?_, ?_⟩
    all_goals
      have hc0 : 0 < (r.2 - r.1) / st := div_pos (by linarith) h0
      have hc : 0 < ⌈(r.2 - r.1) / st⌉ := Int.ceil_pos.mpr hc0
      have e : ((⌈(r.2 - r.1) / st⌉ + 1 - (if true = true then 1 else 0) : Int) : F) - 1
          = (⌈(r.2 - r.1) / st⌉ : F) - 1 := by push_cast; simp
      have hx : st * ((r.2 - r.1) / st) = r.2 - r.1 := by field_simp
    · rw [e]
      have := mul_lt_mul_of_pos_left (Int.ceil_lt_add_one ((r.2 - r.1) / st)) h0
      linarith
    · rw [e]
      have := mul_le_mul_of_nonneg_left (Int.le_ceil ((r.2 - r.1) / st)) h0.le
      linarith
    · rw [e]
      have : (((⌈(r.2 - r.1) / st⌉ + 1 - (if true = true then 1 else 0) : Int).toNat : Nat) : F)
          = ((⌈(r.2 - r.1) / st⌉ + 1 - (if true = true then 1 else 0) : Int) : F) := by
        rw [← Int.cast_natCast, Int.toNat_of_nonneg (by simp; omega)]
      rw [this, e]
      ring
    · simp
      omega

/-- C46 is false with `shrink`: a stepsize that fits exactly loses a complete step. -/
theorem from_stepsizes_shrink_exact : ∃ g : Grid ℚ, fromStepsizes [(0, 2)] [1] true = .ok g ∧
    g.ranges = [(0, 1)] ∧ g.nPoints = [2] := by
  have hc : ⌈(2 - 0 : ℚ) / 1⌉ = 2 := by norm_num
  refine ⟨⟨Nd.empty0, [(0, 1)], [2], [1]⟩, ?_, rfl, rfl⟩
  unfold fromStepsizes stepsizeLoop
  simp only [hc, stepsizeLoop, one_ne_zero, if_false]
  norm_num
  rfl

/-- The loop of `from_stepsizes` succeeds for non-zero stepsizes. -/
theorem from_stepsizes_total {F : Type} [Field F] [LinearOrder F] [FloorRing F]
    (shrink : Bool) (ranges : List (F × F)) (hs : List F) (hl : ranges.length ≤ hs.length)
    (h0 : ∀ h ∈ hs, h ≠ 0) :
    ∃ g, fromStepsizes ranges hs shrink = .ok g ∧ g.ranges.length = ranges.length ∧
      g.nPoints.length = ranges.length ∧ g.stepsizes = hs := by
  have key : ∃ l m, stepsizeLoop shrink ranges hs = .ok (l, m) ∧ l.length = ranges.length ∧
      m.length = ranges.length := by
    induction ranges generalizing hs with
    | nil => exact ⟨[], [], by simp [stepsizeLoop], rfl, rfl⟩
    | cons r rs ih =>
      cases hs with
      | nil => simp at hl
      | cons h hs =>
        obtain ⟨l, m, h1, h2, h3⟩ := ih hs (by simpa using hl) (fun k hk => h0 k (by simp [hk]))
        unfold stepsizeLoop
        rw [if_neg (h0 h (by simp))]
        simp only [h1]
        exact ⟨_, _, rfl, by simp [h2], by simp [h3]⟩
  obtain ⟨l, m, h1, h2, h3⟩ := key
  unfold fromStepsizes
  rw [h1]
  exact ⟨_, rfl, h2, h3, rfl⟩

/-! ### C47: arithmetic -/

/-- A grid with data: one value per grid point. -/
structure Grid.Filled {F : Type} (g : Grid F) : Prop where
  dims : g.nPoints.length = g.ranges.length
  shape : g.data.shape = g.nPoints
  size : g.data.flat.length = g.nPoints.prod

theorem copyEmpty_ok {F : Type} [Field F] [LinearOrder F] [IsStrictOrderedRing F] (g : Grid F)
    (hd : g.nPoints.length = g.ranges.length) (h1 : ∀ m ∈ g.nPoints, m ≠ 1) :
    ∃ n, g.copyEmpty = .ok n ∧ n.ranges = g.ranges ∧ n.nPoints = g.nPoints ∧
      Spec.Spaced n.ranges n.nPoints n.stepsizes := by
  obtain ⟨n, hn⟩ := (from_npoints_total g.ranges g.nPoints).1 hd h1
  exact ⟨n, hn, from_npoints_spaced _ _ _ hn⟩

theorem setData_ok {F : Type} (g : Grid F) (v : Nd F) (h : v.flat.length = g.nPoints.prod) :
    g.setData v = .ok { g with data := ⟨g.nPoints, v.flat⟩ } := by
  unfold Grid.setData Nd.reshape
  rw [if_pos h, ok_bind, pure_eq_ok]

theorem setData_error {F : Type} (g : Grid F) (v : Nd F) (h : v.flat.length ≠ g.nPoints.prod) :
    g.setData v = .error .valueError := by
  unfold Grid.setData Nd.reshape
  rw [if_neg h, error_bind]

/-- What an operation on a grid is expected to return: a grid with the same points, consistent stepsizes,
and the values `v k`. -/
def SameGrid {F : Type} [Field F] (g g' : Grid F) (v : Nat → Option F) : Prop :=
  g'.ranges = g.ranges ∧ g'.nPoints = g.nPoints ∧ Spec.Spaced g'.ranges g'.nPoints g'.stepsizes ∧
    g'.Filled ∧ ∀ k, g'.data.flat[k]? = v k

/-- C47: functions of a grid act on every value separately and return a grid with the same points. Partial:
false if a dimension has only one point, see `arith_single_point`. -/
theorem math_on_self_partial {F : Type} [Field F] [LinearOrder F] [IsStrictOrderedRing F] (g : Grid F)
    (hg : g.Filled) (h1 : ∀ m ∈ g.nPoints, m ≠ 1) (op : F → F) :
    ∃ g', g.mathOnSelf op = .ok g' ∧ SameGrid g g' (fun k => (g.data.flat[k]?).map op) := by
  obtain ⟨n, hn, e1, e2, e3⟩ := copyEmpty_ok g hg.dims h1
  unfold Grid.mathOnSelf
  rw [hn, ok_bind, setData_ok _ _ (by rw [e2]; simp [Nd.map, hg.size])]
  refine ⟨_, rfl, e1, e2, e3, ⟨?_, rfl, ?_⟩, ?_⟩
  · rw [e1, e2]; exact hg.dims
  · simp [Nd.map, hg.size, e2]
  · intro k
    simp [Nd.map]

theorem getElem?_zipWith_some {α β γ : Type} (op : α → β → γ) (a : List α) (b : List β) (k : Nat) :
    (List.zipWith op a b)[k]? = (a[k]?).bind (fun x => (b[k]?).map (op x)) := by
  rw [List.getElem?_zipWith]
  cases a[k]? <;> cases b[k]? <;> rfl

/-- C47: arithmetic with a number. -/
theorem arith_num_partial {F : Type} [Field F] [LinearOrder F] [IsStrictOrderedRing F] [Inhabited F]
    (sh : Bool) (g : Grid F) (hg : g.Filled) (h1 : ∀ m ∈ g.nPoints, m ≠ 1) (x : F) (op : F → F → F) :
    ∃ g', g.arith sh (.num x) op = .ok g' ∧
      SameGrid g g' (fun k => (g.data.flat[k]?).map (fun y => op y x)) := by
  obtain ⟨n, hn, e1, e2, e3⟩ := copyEmpty_ok g hg.dims h1
  unfold Grid.arith
  rw [hn, ok_bind]
  simp only
  rw [setData_ok _ _ (by rw [e2]; simp [Nd.map, hg.size])]
  refine ⟨_, rfl, e1, e2, e3, ⟨?_, rfl, ?_⟩, ?_⟩
  · rw [e1, e2]; exact hg.dims
  · simp [Nd.map, hg.size, e2]
  · intro k
    simp [Nd.map]

/-- C47: arithmetic with an array of the shape of the grid. -/
theorem arith_array_partial {F : Type} [Field F] [LinearOrder F] [IsStrictOrderedRing F] [Inhabited F]
    (sh : Bool) (g : Grid F) (hg : g.Filled) (h1 : ∀ m ∈ g.nPoints, m ≠ 1) (a : Nd F)
    (hs : a.shape = g.nPoints) (ha : a.flat.length = g.nPoints.prod) (op : F → F → F) :
    ∃ g', g.arith sh (.array a) op = .ok g' ∧
      SameGrid g g' (fun k => (g.data.flat[k]?).bind (fun x => (a.flat[k]?).map (op x))) := by
  obtain ⟨n, hn, e1, e2, e3⟩ := copyEmpty_ok g hg.dims h1
  unfold Grid.arith
  rw [hn, ok_bind]
  simp only
  unfold Nd.map2
  rw [if_pos (by rw [hg.shape, hs]), ok_bind, setData_ok _ _ (by rw [e2]; simp [hg.size, ha])]
  refine ⟨_, rfl, e1, e2, e3, ⟨?_, rfl, ?_⟩, ?_⟩
  · rw [e1, e2]; exact hg.dims
  · simp [hg.size, e2, ha]
  · intro k
    exact getElem?_zipWith_some op _ _ k

/-- C47: arithmetic of two grids with the same points. -/
theorem arith_grid_partial {F : Type} [Field F] [LinearOrder F] [IsStrictOrderedRing F] [Inhabited F]
    (sh oh : Bool) (hcls : sh = true → oh = true) (g o : Grid F) (hg : g.Filled) (ho : o.Filled)
    (h1 : ∀ m ∈ g.nPoints, m ≠ 1) (hn : g.nPoints = o.nPoints) (hr : g.ranges = o.ranges)
    (op : F → F → F) :
    ∃ g', g.arith sh (.grid oh o) op = .ok g' ∧
      SameGrid g g' (fun k => (g.data.flat[k]?).bind (fun x => (o.data.flat[k]?).map (op x))) := by
  obtain ⟨n, hc, e1, e2, e3⟩ := copyEmpty_ok g hg.dims h1
  unfold Grid.arith
  rw [hc, ok_bind]
  simp only
  rw [if_neg (by cases sh <;> cases oh <;> simp_all),
    if_neg (by rintro (h | h) <;> [exact h hn; exact h hr])]
  unfold Nd.map2
  rw [if_pos (by rw [hg.shape, ho.shape, hn]), ok_bind,
    setData_ok _ _ (by rw [e2]; simp [hg.size, ho.size, hn])]
  refine ⟨_, rfl, e1, e2, e3, ⟨?_, rfl, ?_⟩, ?_⟩
  · rw [e1, e2]; exact hg.dims
  · simp [hg.size, e2, ho.size, hn]
  · intro k
    exact getElem?_zipWith_some op _ _ k

/-- C47: two grids with different points, a plain grid as second operand of a histogram and unsupported
types raise `ValueError`. -/
theorem arith_error_partial {F : Type} [Field F] [LinearOrder F] [IsStrictOrderedRing F] [Inhabited F]
    (sh oh : Bool) (g o : Grid F) (hd : g.nPoints.length = g.ranges.length)
    (h1 : ∀ m ∈ g.nPoints, m ≠ 1) (op : F → F → F) :
    g.arith sh .other op = .error .valueError ∧
    ((g.nPoints ≠ o.nPoints ∨ g.ranges ≠ o.ranges) → g.arith sh (.grid oh o) op = .error .valueError) ∧
    g.arith true (.grid false o) op = .error .valueError := by
  obtain ⟨n, hc, e1, e2, e3⟩ := copyEmpty_ok g hd h1
  unfold Grid.arith
  rw [hc]
  refine ⟨rfl, ?_, rfl⟩
  intro h
  rw [ok_bind]
  simp only
  by_cases hcl : (sh && !oh) = true
  · rw [if_pos hcl]; rfl
  · rw [if_neg hcl, if_pos h]; rfl

/-- The common shape of two arrays is the shape of the first one. -/
theorem broadcastIdx_self (s idx : List Nat) (h : inShape s idx = true) (h1 : ∀ m ∈ s, m ≠ 1) :
    broadcastIdx s idx = idx := by
  have hl := inShape_length s idx h
  unfold broadcastIdx
  rw [hl, Nat.sub_self, List.drop_zero]
  apply List.ext_getElem
  · simp [hl]
  · intro i h2 h3
    rw [List.getElem_zipWith, if_neg (h1 _ (List.getElem_mem _))]

/-- C47: arithmetic with an array of another shape that can be broadcast to the shape of the grid; shapes
that cannot be broadcast raise `ValueError`. -/
theorem arith_broadcast_partial {F : Type} [Field F] [LinearOrder F] [IsStrictOrderedRing F] [Inhabited F]
    (sh : Bool) (g : Grid F) (hg : g.Filled) (h1 : ∀ m ∈ g.nPoints, m ≠ 1) (a : Nd F)
    (hs : a.shape ≠ g.nPoints) (op : F → F → F) :
    (broadcastRev g.nPoints.reverse a.shape.reverse = none →
      g.arith sh (.array a) op = .error .valueError) ∧
    (broadcastRev g.nPoints.reverse a.shape.reverse = some g.nPoints.reverse →
      ∃ g', g.arith sh (.array a) op = .ok g' ∧ g'.ranges = g.ranges ∧ g'.nPoints = g.nPoints ∧ g'.Filled ∧
        ∀ idx, inShape g.nPoints idx = true → g'.data.flat[ravel g.nPoints idx]?
          = some (op (g.data.get idx) (a.get (broadcastIdx a.shape idx)))) := by
  obtain ⟨n, hn, e1, e2, e3⟩ := copyEmpty_ok g hg.dims h1
  unfold Grid.arith
  rw [hn]
  constructor
  · intro hb
    rw [ok_bind]
    simp only
    unfold Nd.map2
    rw [if_neg (by rw [hg.shape]; exact fun h => hs h.symm), hg.shape, hb]
    rfl
  · intro hb
    rw [ok_bind]
    simp only
    unfold Nd.map2
    rw [if_neg (by rw [hg.shape]; exact fun h => hs h.symm), hg.shape, hb]
    simp only [List.reverse_reverse]
    rw [ok_bind, setData_ok _ _ (by rw [e2]; simp [Nd.ofFn, length_indices])]
    refine ⟨_, rfl, e1, e2, ⟨?_, rfl, ?_⟩, ?_⟩
    · rw [e1, e2]; exact hg.dims
    · simp [Nd.ofFn, length_indices, e2]
    · intro idx hidx
      show (Nd.ofFn g.nPoints _).flat[_]? = _
      rw [flat_ofFn_get _ _ _ hidx, broadcastIdx_self _ _ hidx h1]

/-- Adding a row `[10, 20]` to a grid with 3 x 2 points. -/
example : broadcastRev [3, 2].reverse [2].reverse = some [3, 2].reverse ∧
    (Nd.map2 (· + ·) ⟨[3, 2], [(1 : Int), 2, 3, 4, 5, 6]⟩ ⟨[2], [10, 20]⟩)
      = .ok ⟨[3, 2], [11, 22, 13, 24, 15, 26]⟩ := by decide

/-- A filled grid with 3 x 2 points that meets the hypotheses. -/
example : (⟨⟨[3, 2], [1, 2, 3, 4, 5, 6]⟩, [(0, 2), (0, 1)], [3, 2], [1, 1]⟩ : Grid ℚ).Filled ∧
    ∀ m ∈ [3, 2], m ≠ 1 := ⟨⟨rfl, rfl, rfl⟩, by decide⟩

/-- C47 is false for grids with a single point in a dimension (as `from_stepsizes` makes them for an empty
range): arithmetic raises `ZeroDivisionError`. -/
theorem arith_single_point : ∃ g g' : Grid ℚ, fromStepsizes [(0, 0)] [1] false = .ok g ∧
    g.setData ⟨[1], [5]⟩ = .ok g' ∧ g'.Filled ∧
    g'.arith false (.num 1) (· + ·) = .error .zeroDivisionError ∧
    g'.arith false (.grid false g') (· + ·) = .error .zeroDivisionError := by
  have hc : ⌈(0 - 0 : ℚ) / 1⌉ = 0 := by norm_num
  refine ⟨⟨Nd.empty0, [(0, 0)], [1], [1]⟩, ⟨⟨[1], [5]⟩, [(0, 0)], [1], [1]⟩, ?_, rfl, ⟨rfl, rfl, rfl⟩, rfl,
    rfl⟩
  unfold fromStepsizes stepsizeLoop
  simp only [hc, stepsizeLoop, one_ne_zero, if_false]
  norm_num

/-- Two grids are equal in the sense of `==` exactly if they have the same points and values. -/
theorem grid_eq_iff {F : Type} [DecidableEq F] (g o : Grid F) :
    g.eq o = true ↔ g.nPoints = o.nPoints ∧ g.ranges = o.ranges ∧ g.data = o.data := by
  simp [Grid.eq, and_assoc]

/-! ### C49: sparsify -/

/-- C49: `sparsify` keeps the ranges, reduces every number of points to the given maximum if it is larger,
and the data is what the interpolation gives at the new points. -/
theorem sparsify_spec {F : Type} [Field F] [LinearOrder F] [IsStrictOrderedRing F] [Inhabited F]
    (interp : List (List F) → List F → List (List F) → List F)
    (hi : ∀ p v x, (interp p v x).length = x.length) (g : Grid F) (hg : g.Filled) (mp : List Nat)
    (hne : g.ranges ≠ []) (hl : mp.length = g.nPoints.length) (h1 : ∀ m ∈ g.nPoints, m ≠ 1)
    (h2 : ∀ m ∈ mp, m ≠ 1) :
    ∃ s p q, sparsify interp g mp = .ok s ∧ s.ranges = g.ranges ∧
      s.nPoints = List.zipWith min g.nPoints mp ∧ Spec.Spaced s.ranges s.nPoints s.stepsizes ∧ s.Filled ∧
      g.points = .ok p ∧ s.points = .ok q ∧ s.data.flat = interp p g.data.flat q := by
  have hz : List.zipWith (fun n m => if n ≤ m then n else m) g.nPoints mp
      = List.zipWith min g.nPoints mp := by
    congr 1
  have hlen : (List.zipWith min g.nPoints mp).length = g.ranges.length := by
    rw [List.length_zipWith, hl, Nat.min_self, hg.dims]
  have hne1 : ∀ m ∈ List.zipWith min g.nPoints mp, m ≠ 1 := by
    intro m hm
    obtain ⟨i, hi1, hi2⟩ := List.getElem_of_mem hm
    rw [List.length_zipWith] at hi1
    rw [List.getElem_zipWith] at hi2
    have a1 := h1 (g.nPoints[i]'(by omega)) (List.getElem_mem _)
    have a2 := h2 (mp[i]'(by omega)) (List.getElem_mem _)
    omega
  obtain ⟨s, hs⟩ := (from_npoints_total g.ranges _).1 hlen hne1
  obtain ⟨e1, e2, e3⟩ := from_npoints_spaced _ _ _ hs
  have ax : ∀ t : Grid F, t.nPoints.length = t.ranges.length → t.ranges ≠ [] → t.axes ≠ [] := by
    intro t ht hr h0
    have := congrArg List.length h0
    simp only [Grid.axes, List.length_zipWith, ht, List.length_nil, Nat.min_self] at this
    exact hr (List.length_eq_zero_iff.mp this)
  obtain ⟨p, hp⟩ : ∃ p, pointsOfAxes g.axes = .ok p := ⟨_, points_order g.axes (ax g hg.dims hne)⟩
  obtain ⟨q, hq⟩ : ∃ q, pointsOfAxes s.axes = .ok q :=
    ⟨_, points_order s.axes (ax s (by rw [e1, e2]; exact hlen) (by rw [e1]; exact hne))⟩
  have hql := points_length _ _ hq
  rw [length_axes s (by rw [e1, e2]; exact hlen)] at hql
  unfold sparsify
  rw [if_neg (by omega)]
  simp only
  rw [hz, hs, ok_bind]
  unfold Grid.points
  rw [hp, ok_bind, hq, ok_bind]
  rw [setData_ok _ _ (by rw [hi, hql])]
  refine ⟨_, _, _, rfl, e1, e2, e3, ⟨?_, rfl, ?_⟩, rfl, hq, rfl⟩
  · rw [e1, e2]; exact hlen
  · show (interp _ _ _).length = _
    rw [hi, hql]

/-- C49: the number of points never grows and stays below the maximum. -/
theorem sparsify_points {F : Type} [Field F] [LinearOrder F] [IsStrictOrderedRing F] [Inhabited F]
    (interp : List (List F) → List F → List (List F) → List F) (g s : Grid F) (mp : List Nat)
    (h : sparsify interp g mp = .ok s) (i n : Nat) (hi : s.nPoints[i]? = some n) :
    (∃ m, mp[i]? = some m ∧ n ≤ m) ∧ ∃ m, g.nPoints[i]? = some m ∧ n ≤ m := by
  unfold sparsify at h
  by_cases hlt : mp.length < g.nPoints.length
  · rw [if_pos hlt] at h; cases h
  rw [if_neg hlt] at h
  simp only at h
  cases hf : fromNpoints g.ranges
    (List.zipWith (fun n m => if n ≤ m then n else m) g.nPoints mp) with
  | error e => rw [hf] at h; cases h
  | ok t =>
    rw [hf, ok_bind] at h
    cases hp : g.points with
    | error e => rw [hp] at h; cases h
    | ok p =>
      cases hq : t.points with
      | error e => rw [hp, hq] at h; cases h
      | ok q =>
        rw [hp, hq] at h
        simp only [ok_bind] at h
        have hsn : s.nPoints = t.nPoints := by
          unfold Grid.setData at h
          cases hr : (Nd.reshape ⟨[(interp p g.data.flat q).length], interp p g.data.flat q⟩ t.nPoints) with
          | error e => rw [hr] at h; cases h
          | ok d => rw [hr] at h; cases h; rfl
        rw [hsn, (from_npoints_spaced _ _ _ hf).2.1, getElem?_zipWith_some] at hi
        cases h1 : g.nPoints[i]? with
        | none => rw [h1] at hi; cases hi
        | some a =>
          cases h2 : mp[i]? with
          | none => rw [h1, h2] at hi; cases hi
          | some b =>
            rw [h1, h2] at hi
            simp only [Option.bind_some, Option.map_some, Option.some.injEq] at hi
            refine ⟨⟨b, rfl, ?_⟩, ⟨a, rfl, ?_⟩⟩ <;> split at hi <;> omega

/-- C49: a grid that is already small enough keeps its points, and its values if the interpolation
reproduces the data at the data points (in every number of dimensions, although the points may be listed in
the wrong order). -/
theorem sparsify_small {F : Type} [Field F] [LinearOrder F] [IsStrictOrderedRing F] [Inhabited F]
    (interp : List (List F) → List F → List (List F) → List F)
    (g : Grid F) (hi : ∀ p, g.points = .ok p → interp p g.data.flat p = g.data.flat) (hg : g.Filled)
    (mp : List Nat) (hne : g.ranges ≠ []) (hl : mp.length = g.nPoints.length) (h1 : ∀ m ∈ g.nPoints, m ≠ 1)
    (hsmall : ∀ (i n m : Nat), g.nPoints[i]? = some n → mp[i]? = some m → n ≤ m) :
    ∃ s, sparsify interp g mp = .ok s ∧ s.ranges = g.ranges ∧ s.nPoints = g.nPoints ∧ s.data = g.data := by
  have hz : List.zipWith (fun n m => if n ≤ m then n else m) g.nPoints mp = g.nPoints := by
    apply List.ext_getElem
    · simp [hl]
    · intro i a1 a2
      rw [List.getElem_zipWith, if_pos]
      exact hsmall i _ _ (List.getElem?_eq_getElem _) (List.getElem?_eq_getElem _)
  obtain ⟨s, hs, e1, e2, e3⟩ := copyEmpty_ok g hg.dims h1
  have hax : s.axes = g.axes := by unfold Grid.axes; rw [e1, e2]
  have hne' : g.axes ≠ [] := by
    intro h0
    have := congrArg List.length h0
    simp only [Grid.axes, List.length_zipWith, hg.dims, List.length_nil, Nat.min_self] at this
    exact hne (List.length_eq_zero_iff.mp this)
  obtain ⟨p, hp⟩ : ∃ p, pointsOfAxes g.axes = .ok p := ⟨_, points_order g.axes hne'⟩
  unfold sparsify
  unfold Grid.copyEmpty at hs
  rw [if_neg (by omega)]
  simp only
  rw [hz, hs, ok_bind]
  unfold Grid.points
  rw [hax, hp]
  simp only [ok_bind]
  rw [hi _ hp, setData_ok _ _ (by rw [e2]; exact hg.size)]
  refine ⟨_, rfl, e1, e2, ?_⟩
  show (⟨s.nPoints, g.data.flat⟩ : Nd F) = g.data
  rw [e2, ← hg.shape]

/-- An interpolation (by the value at the same point) and a grid meeting the hypotheses of `sparsify_small`
and `sparsify_spec`. -/
example :
    let interp : List (List ℚ) → List ℚ → List (List ℚ) → List ℚ :=
      fun p v x => x.map (fun q => v.getD (p.idxOf q) 0)
    let g : Grid ℚ := ⟨⟨[3], [4, 5, 7]⟩, [(0, 2)], [3], [1]⟩
    (∀ p v x, (interp p v x).length = x.length) ∧ g.Filled ∧
      (∀ p, g.points = .ok p → interp p g.data.flat p = g.data.flat) := by
  refine ⟨by simp, ⟨rfl, rfl, rfl⟩, ?_⟩
  intro p hp
  have : pointsOfAxes [[0, 1, (2 : ℚ)]] = .ok p := by
    rw [← hp]
    norm_num [Grid.points, Grid.axes, linspace, List.range_succ]
  rw [points_rowMajor_partial _ (by simp)] at this
  cases this
  decide

end Bdld
