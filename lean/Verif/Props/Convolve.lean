import Verif.Props.Grid
import Mathlib.Algebra.BigOperators.Ring.List
import Mathlib.Tactic.LinearCombination

/-
Properties of the convolution of two grids (C48).
-/

namespace Bdld

theorem sum_indicator {α F : Type} [DecidableEq α] [AddCommMonoid F] (l : List α) (hn : l.Nodup) (a : α)
    (f : α → F) : (l.map (fun x => if x = a then f x else 0)).sum = if a ∈ l then f a else 0 := by
  induction l with
  | nil => simp
  | cons b l ih =>
    rw [List.map_cons, List.sum_cons, ih hn.of_cons]
    have hb : b ∉ l := (List.nodup_cons.mp hn).1
    by_cases h : b = a
    · subst h
      rw [if_pos rfl, if_neg hb, if_pos (by simp)]
      simp
    · rw [if_neg h]
      by_cases ha : a ∈ l
      · rw [if_pos ha, if_pos (by simp [ha])]; simp
      · rw [if_neg ha, if_neg (by simp [ha, Ne.symm h])]; simp

theorem sum_sum_comm {α β F : Type} [AddCommMonoid F] (l : List α) (m : List β) (f : α → β → F) :
    (l.map (fun i => (m.map (fun j => f i j)).sum)).sum
      = (m.map (fun j => (l.map (fun i => f i j)).sum)).sum := by
  induction l with
  | nil => simp
  | cons a l ih =>
    rw [List.map_cons, List.sum_cons, ih, ← List.sum_map_add]
    rfl

theorem zipWith_add_eq_iff (i j k : List Nat) (h1 : i.length = k.length) (h2 : j.length = k.length) :
    List.zipWith (· + ·) i j = k ↔
      (List.zipWith (fun x y => decide (x ≤ y)) j k).all id = true ∧ i = List.zipWith (· - ·) k j := by
  induction k generalizing i j with
  | nil =>
    have e1 := List.length_eq_zero_iff.mp h1
    have e2 := List.length_eq_zero_iff.mp h2
    subst e1 e2
    simp
  | cons c k ih =>
    cases i with
    | nil => simp at h1
    | cons a i =>
      cases j with
      | nil => simp at h2
      | cons b j =>
        simp only [List.length_cons, Nat.add_right_cancel_iff] at h1 h2
        simp only [List.zipWith_cons_cons, List.cons.injEq, List.all_cons, id, Bool.and_eq_true,
          decide_eq_true_eq, ih i j h1 h2]
        constructor
        · rintro ⟨h, h3, h4⟩
          exact ⟨⟨by omega, h3⟩, by omega, h4⟩
        · rintro ⟨⟨h, h3⟩, h5, h4⟩
          exact ⟨by omega, h3, h4⟩

/-- The full convolution is the sum over all pairs of indices with the right sum. -/
theorem convFull_eq {F : Type} [Field F] (a b : Nd F) (k : List Nat) (ha : a.shape.length = k.length)
    (hb : b.shape.length = k.length) :
    convFull a b k = Spec.conv a.shape b.shape a.getZ b.getZ k := by
  unfold Spec.conv convFull
  rw [rowMajor_range, rowMajor_range, sum_sum_comm]
  congr 1
  apply List.map_congr_left
  intro j hj
  have hjl : j.length = k.length := by rw [inShape_length _ _ ((mem_indices _ _).mp hj), hb]
  have e : (indices a.shape).map (fun i => if List.zipWith (· + ·) i j = k then a.getZ i * b.getZ j else 0)
      = (indices a.shape).map (fun i => if i = List.zipWith (· - ·) k j then
          (if (List.zipWith (fun x y => decide (x ≤ y)) j k).all id then a.getZ i * b.getZ j else 0)
          else 0) := by
    apply List.map_congr_left
    intro i hi
    have hil : i.length = k.length := by rw [inShape_length _ _ ((mem_indices _ _).mp hi), ha]
    have := zipWith_add_eq_iff i j k hil hjl
    by_cases h1 : i = List.zipWith (· - ·) k j
    · by_cases h2 : (List.zipWith (fun x y => decide (x ≤ y)) j k).all id = true
      · rw [if_pos (this.mpr ⟨h2, h1⟩), if_pos h1, if_pos h2]
      · rw [if_neg (fun h => h2 (this.mp h).1), if_pos h1, if_neg h2]
    · rw [if_neg (fun h => h1 (this.mp h).2), if_neg h1]
  rw [e, sum_indicator _ (indices_nodup _)]
  by_cases hm : List.zipWith (· - ·) k j ∈ indices a.shape
  · rw [if_pos hm]
  · rw [if_neg hm]
    by_cases h2 : (List.zipWith (fun x y => decide (x ≤ y)) j k).all id = true
    · rw [if_pos h2]
      rw [mem_indices] at hm
      rw [Nd.getZ, if_neg hm, zero_mul]
    · rw [if_neg h2]

/-- Values of a filled grid as function of the multi-index. -/
theorem getZ_of_inShape {F : Type} [Field F] (g : Grid F) (hg : g.Filled) (idx : List Nat)
    (h : inShape g.nPoints idx = true) :
    g.data.flat[ravel g.nPoints idx]? = some (g.data.getZ idx) := by
  have := ravel_lt _ _ h
  rw [Nd.getZ, hg.shape, if_pos h, List.getD_eq_getElem?_getD,
    List.getElem?_eq_getElem (by rw [hg.size]; exact this)]
  rfl

/-- C48: grids with different stepsizes are rejected. -/
theorem convolve_stepsizes {F : Type} [Field F] [DecidableEq F] (g1 g2 : Grid F) (mode : ConvMode)
    (h : g1.stepsizes ≠ g2.stepsizes) : convolve g1 g2 mode = .error .valueError := by
  unfold convolve
  rw [if_pos h]
  rfl

/-- C48: mode "full" is rejected. -/
theorem convolve_full {F : Type} [Field F] [DecidableEq F] (g1 g2 : Grid F) :
    ∃ e, convolve g1 g2 .full = .error e ∧ (g1.stepsizes = g2.stepsizes →
      g1.data.shape.length = g2.data.shape.length → e = .notImplementedError) := by
  unfold convolve
  by_cases h : g1.stepsizes = g2.stepsizes
  · rw [if_neg (by simpa using h)]
    simp only [spConvolve]
    by_cases hl : g1.data.shape.length = g2.data.shape.length
    · rw [if_neg (by simpa using hl)]
      exact ⟨_, rfl, fun _ _ => rfl⟩
    · rw [if_pos hl]
      exact ⟨_, rfl, fun _ h' => absurd h' hl⟩
  · rw [if_pos h]
    exact ⟨_, rfl, fun h' => absurd h' h⟩

/-- C48: mode "same": the points of the first grid, and the values of the central part of the convolution
times the volume element. -/
theorem convolve_same {F : Type} [Field F] [LinearOrder F] [IsStrictOrderedRing F] (g1 g2 : Grid F)
    (h1 : g1.Filled) (h2 : g2.Filled) (hd : g1.nPoints.length = g2.nPoints.length)
    (hst : g1.stepsizes = g2.stepsizes) (hn : ∀ m ∈ g1.nPoints, m ≠ 1) :
    ∃ g, convolve g1 g2 .same = .ok g ∧ g.ranges = g1.ranges ∧ g.nPoints = g1.nPoints ∧
      Spec.Spaced g.ranges g.nPoints g.stepsizes ∧ g.Filled ∧
      ∀ k, inShape g1.nPoints k = true → g.data.flat[ravel g1.nPoints k]?
        = some (Spec.conv g1.nPoints g2.nPoints g1.data.getZ g2.data.getZ
            (List.zipWith (· + ·) k (g2.nPoints.map (fun n => (n - 1) / 2))) * g1.stepsizes.prod) := by
  obtain ⟨n, hc, e1, e2, e3⟩ := copyEmpty_ok g1 h1.dims hn
  unfold convolve
  rw [if_neg (by simpa using hst)]
  simp only [spConvolve]
  rw [if_neg (by rw [h1.shape, h2.shape]; simpa using hd), ok_bind, hc, ok_bind,
    setData_ok _ _ (by rw [e2]; simp [Nd.map, Nd.ofFn, length_indices, h1.shape])]
  refine ⟨_, rfl, e1, e2, e3, ⟨?_, rfl, ?_⟩, ?_⟩
  · rw [e1, e2]; exact h1.dims
  · simp [Nd.map, Nd.ofFn, length_indices, h1.shape, e2]
  · intro k hk
    show ((Nd.ofFn g1.data.shape _).flat.map _)[_]? = _
    rw [List.getElem?_map, h1.shape, flat_ofFn_get _ _ _ hk]
    have hkl := inShape_length _ _ hk
    rw [convFull_eq _ _ _ (by rw [h1.shape]; simp [hkl, h2.shape, hd])
      (by rw [h2.shape]; simp [hkl, hd]), h1.shape, h2.shape]
    rfl

/-- In every dimension the first grid has more points than the second one. -/
def Larger : List Nat → List Nat → Prop
  | [], [] => True
  | m :: s, n :: t => n < m ∧ Larger s t
  | _, _ => False

theorem Larger.length (s t : List Nat) (h : Larger s t) : s.length = t.length := by
  induction s generalizing t with
  | nil => cases t with
    | nil => rfl
    | cons n t => exact h.elim
  | cons m s ih =>
    cases t with
    | nil => exact h.elim
    | cons n t => simp [ih t h.2]

theorem Larger.lexLt (s t : List Nat) (h : Larger s t) :
    Bdld.lexLt s t = false ∧ (s ≠ [] → Bdld.lexLt t s = true) := by
  cases s with
  | nil => cases t with
    | nil => exact ⟨rfl, fun h => absurd rfl h⟩
    | cons n t => exact h.elim
  | cons m s =>
    cases t with
    | nil => exact h.elim
    | cons n t =>
      have := h.1
      constructor
      · rw [Bdld.lexLt, if_neg (by omega)]
        simp; omega
      · intro _
        rw [Bdld.lexLt, if_neg (by omega)]
        simp; omega

theorem Larger.shapeLe (s t : List Nat) (h : Larger s t) : Bdld.shapeLe t s = true := by
  unfold Bdld.shapeLe
  induction s generalizing t with
  | nil => cases t with
    | nil => rfl
    | cons n t => exact h.elim
  | cons m s ih =>
    cases t with
    | nil => exact h.elim
    | cons n t =>
      have := h.1
      simp only [List.zipWith_cons_cons, List.all_cons, id, Bool.and_eq_true, decide_eq_true_eq]
      exact ⟨by omega, ih t h.2⟩

theorem Larger.maxmin (s t : List Nat) (h : Larger s t) :
    List.zipWith (fun m n => max m n - min m n + 1) s t = List.zipWith (fun m n => m - n + 1) s t ∧
    List.zipWith (fun m n => max m n - min m n + 1) t s = List.zipWith (fun m n => m - n + 1) s t ∧
    List.zipWith (fun m n => min m n - 1) s t = t.map (· - 1) ∧
    List.zipWith (fun m n => min m n - 1) t s = t.map (· - 1) := by
  induction s generalizing t with
  | nil => cases t with
    | nil => exact ⟨rfl, rfl, rfl, rfl⟩
    | cons n t => exact h.elim
  | cons m s ih =>
    cases t with
    | nil => exact h.elim
    | cons n t =>
      have hmn := h.1
      obtain ⟨i1, i2, i3, i4⟩ := ih t h.2
      simp only [List.zipWith_cons_cons, List.map_cons]
      rw [i1, i2, i3, i4, show max m n - min m n + 1 = m - n + 1 by omega,
        show max n m - min n m + 1 = m - n + 1 by omega, show min m n - 1 = n - 1 by omega,
        show min n m - 1 = n - 1 by omega]
      exact ⟨rfl, rfl, rfl, rfl⟩

theorem Larger.ne_one (s t : List Nat) (h : Larger s t) :
    ∀ m ∈ List.zipWith (fun m n => m - n + 1) s t, m ≠ 1 := by
  induction s generalizing t with
  | nil => cases t with
    | nil => simp
    | cons n t => exact h.elim
  | cons m s ih =>
    cases t with
    | nil => exact h.elim
    | cons n t =>
      have hmn := h.1
      intro k hk
      rw [List.zipWith_cons_cons, List.mem_cons] at hk
      rcases hk with rfl | hk
      · omega
      · exact ih t h.2 k hk

/-- Ranges of the result of a "valid" convolution are centred in the ranges of the larger grid: half the
extent of the smaller grid is removed on both sides. -/
def Centred {F : Type} [Field F] : List (F × F) → List (F × F) → List (F × F) → Prop
  | [], [], [] => True
  | r :: rs, l :: ls, s :: ss =>
    r.1 = l.1 + (s.2 - s.1) / 2 ∧ r.2 = l.2 - (s.2 - s.1) / 2 ∧ Centred rs ls ss
  | _, _, _ => False

theorem validRanges_spec {F : Type} [Field F] [LinearOrder F] [IsStrictOrderedRing F]
    (lr sr : List (F × F)) (ln sn : List Nat) (hs : List F) (hl : Spec.Spaced lr ln hs)
    (hsm : Spec.Spaced sr sn hs) (hL : Larger ln sn) :
    Centred (validRanges lr sn hs) lr sr ∧
    stepsizesFromNpoints (validRanges lr sn hs) (List.zipWith (fun m n => m - n + 1) ln sn) = .ok hs ∧
    (validRanges lr sn hs).length = lr.length := by
  induction lr generalizing sr ln sn hs with
  | nil =>
    match ln, hs, hl with
    | [], [], _ =>
      match sr, sn, hsm with
      | [], [], _ => exact ⟨trivial, rfl, rfl⟩
      | _ :: _, [], h => exact h.elim
      | _ :: _, _ :: _, h => exact h.elim
  | cons r lr ih =>
    match ln, hs, hl with
    | m :: ln, h :: hs, hl =>
      match sr, sn, hsm with
      | s :: sr, n :: sn, hsm =>
        obtain ⟨c1, c2, c3⟩ := ih sr ln sn hs hl.2 hsm.2 hL.2
        have hmn := hL.1
        have e1 : r.2 - r.1 = h * ((m : F) - 1) := hl.1
        have e2 : s.2 - s.1 = h * ((n : F) - 1) := hsm.1
        refine ⟨⟨?_, ?_, c1⟩, ?_, ?_⟩
        · show r.1 + ((n : F) - 1) / 2 * h = _
          rw [e2]; ring
        · show r.2 - ((n : F) - 1) / 2 * h = _
          rw [e2]; ring
        · rw [validRanges, List.zipWith_cons_cons, stepsizesFromNpoints, if_neg (by omega), c2]
          simp only
          congr 2
          have hc : ((m - n + 1 : Nat) : F) - 1 = (m : F) - n := by
            rw [Nat.cast_add, Nat.cast_sub hmn.le, Nat.cast_one]; ring
          have hne : (m : F) - n ≠ 0 := by
            have : (n : F) < m := Nat.cast_lt.mpr hmn
            linarith
          rw [hc, div_eq_iff hne]
          linear_combination e1
        · simp [validRanges, c3]
      | [], [], hsm => exact hsm.elim
      | [], _ :: _, hsm => exact hsm.elim

/-- C48: mode "valid" for a larger and a smaller grid in either order: `n_large - n_small + 1` points with
the same stepsize, centred in the larger grid, and the part of the convolution without padding times the
volume element. Partial: grids with the same number of points in some dimension raise, see
`convolve_valid_equal`. -/
theorem convolve_valid_partial {F : Type} [Field F] [LinearOrder F] [IsStrictOrderedRing F] (gl gs : Grid F)
    (hl : gl.Filled) (hs : gs.Filled) (hL : Larger gl.nPoints gs.nPoints) (hne : gl.nPoints ≠ [])
    (hsl : Spec.Spaced gl.ranges gl.nPoints gl.stepsizes) (hss : Spec.Spaced gs.ranges gs.nPoints gs.stepsizes)
    (hst : gl.stepsizes = gs.stepsizes) (g1 g2 : Grid F)
    (hg : (g1 = gl ∧ g2 = gs) ∨ (g1 = gs ∧ g2 = gl)) :
    ∃ g, convolve g1 g2 .valid = .ok g ∧
      g.nPoints = List.zipWith (fun m n => m - n + 1) gl.nPoints gs.nPoints ∧
      g.stepsizes = gl.stepsizes ∧ Centred g.ranges gl.ranges gs.ranges ∧ g.Filled ∧
      ∀ k, inShape g.nPoints k = true → g.data.flat[ravel g.nPoints k]?
        = some (Spec.conv g1.nPoints g2.nPoints g1.data.getZ g2.data.getZ
            (List.zipWith (· + ·) k (gs.nPoints.map (· - 1))) * gl.stepsizes.prod) := by
  have hlen := hL.length
  obtain ⟨c1, c2, c3⟩ := validRanges_spec gl.ranges gs.ranges gl.nPoints gs.nPoints gl.stepsizes hsl
    (hst ▸ hss) hL
  have hlex := hL.lexLt
  have hle := hL.shapeLe
  obtain ⟨m1, m2, m3, m4⟩ := hL.maxmin
  have hfrom : fromNpoints (validRanges gl.ranges gs.nPoints gl.stepsizes)
      (List.zipWith (fun m n => m - n + 1) gl.nPoints gs.nPoints)
      = .ok ⟨Nd.empty0, validRanges gl.ranges gs.nPoints gl.stepsizes,
          List.zipWith (fun m n => m - n + 1) gl.nPoints gs.nPoints, gl.stepsizes⟩ := by
    unfold fromNpoints
    rw [if_neg (by simp [c3, hl.dims, ← hlen]), c2]
  have hzl : (List.zipWith (fun m n => m - n + 1) gl.nPoints gs.nPoints).length = gl.nPoints.length := by
    simp [← hlen]
  rcases hg with ⟨rfl, rfl⟩ | ⟨rfl, rfl⟩
  · unfold convolve
    rw [if_neg (by simpa using hst)]
    simp only [spConvolve]
    rw [if_neg (by rw [hl.shape, hs.shape]; simpa using hlen), hl.shape, hs.shape,
      if_pos (by rw [hle]; rfl), ok_bind, hlex.2 hne, m1, m3]
    simp only [if_true]
    rw [hfrom, ok_bind, setData_ok _ _ (by simp [Nd.map, Nd.ofFn, length_indices])]
    refine ⟨_, rfl, rfl, rfl, c1, ⟨?_, rfl, ?_⟩, ?_⟩
    · simp [c3, hl.dims, ← hlen]
    · simp [Nd.map, Nd.ofFn, length_indices]
    · intro k hk
      have hkl := inShape_length _ _ hk
      simp only at hkl hk ⊢
      rw [hzl] at hkl
      show ((Nd.ofFn _ _).flat.map _)[_]? = _
      rw [List.getElem?_map, flat_ofFn_get _ _ _ hk, convFull_eq _ _ _ (by rw [hl.shape]; simp [hkl, ← hlen])
        (by rw [hs.shape]; simp [hkl, ← hlen]), hl.shape, hs.shape]
      rfl
  · unfold convolve
    rw [if_neg (by simpa using hst.symm)]
    simp only [spConvolve]
    rw [if_neg (by rw [hl.shape, hs.shape]; simpa using hlen.symm), hl.shape, hs.shape,
      if_pos (by rw [hle]; simp), ok_bind, hlex.1, m2, m4, ← hst]
    simp only [Bool.false_eq_true, if_false]
    rw [hfrom, ok_bind, setData_ok _ _ (by simp [Nd.map, Nd.ofFn, length_indices])]
    refine ⟨_, rfl, rfl, rfl, c1, ⟨?_, rfl, ?_⟩, ?_⟩
    · simp [c3, hl.dims, ← hlen]
    · simp [Nd.map, Nd.ofFn, length_indices]
    · intro k hk
      have hkl := inShape_length _ _ hk
      simp only at hkl hk ⊢
      rw [hzl] at hkl
      show ((Nd.ofFn _ _).flat.map _)[_]? = _
      rw [List.getElem?_map, flat_ofFn_get _ _ _ hk, convFull_eq _ _ _ (by rw [hs.shape]; simp [hkl, ← hlen])
        (by rw [hl.shape]; simp [hkl, ← hlen]), hl.shape, hs.shape]
      rfl

/-- A grid with four points and one with two points, stepsize 2. -/
example : ∃ g : Grid ℚ,
    convolve ⟨⟨[4], [1, 2, 3, 5]⟩, [(0, 6)], [4], [2]⟩ ⟨⟨[2], [10, 20]⟩, [(-1, 1)], [2], [2]⟩ .valid = .ok g ∧
    g.nPoints = [3] ∧ g.ranges = [(1, 5)] ∧ g.data.flat = [80, 140, 220] := by
  refine ⟨⟨⟨[3], [80, 140, 220]⟩, [(1, 5)], [3], [2]⟩, ?_, rfl, rfl, rfl⟩
  norm_num [convolve, spConvolve, shapeLe, lexLt, validRanges, fromNpoints, stepsizesFromNpoints, Nd.ofFn,
    indices, convFull, Nd.getZ, inShape, ravel, Grid.setData, Nd.reshape, Nd.map, List.range_succ, ok_bind,
    pure_eq_ok]

/-- C48 is false for grids of the same size in mode "valid": the result should have one point, but
`from_npoints` raises `ZeroDivisionError`. -/
theorem convolve_valid_equal : ∃ g : Grid ℚ, g.Filled ∧ Spec.Spaced g.ranges g.nPoints g.stepsizes ∧
    convolve g g .valid = .error .zeroDivisionError := by
  refine ⟨⟨⟨[2], [1, 2]⟩, [(0, 1)], [2], [1]⟩, ⟨rfl, rfl, rfl⟩, ⟨by norm_num, trivial⟩, ?_⟩
  norm_num [convolve, spConvolve, shapeLe, lexLt, validRanges, fromNpoints, stepsizesFromNpoints, ok_bind]
  rfl

end Bdld
