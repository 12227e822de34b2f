import Verif.Props.Density
import Verif.Lemmas.Rates

/-
Properties of the grids of the additive and multiplicative approximations (C75, C76, C77).
-/

namespace Bdld

theorem kernelAt_pos (bw p : List ℝ) (h : ∀ b ∈ bw, 0 < b) : 0 < kernelAt bw p := by
  unfold kernelAt calcKernel
  refine mul_pos (div_pos one_pos (mul_pos (Real.rpow_pos_of_pos (by positivity) _) ?_)) (Real.exp_pos _)
  apply Finset.prod_pos
  intro k _
  exact h _ (List.get_mem _ _)

/-- The kernel grid of `dens_kernel_convolution`: stepsizes of the density, points from minus to (at least)
plus five bandwidths, positive values. -/
theorem kernel_grid (eq : Grid ℝ) (bw : List ℝ) (hne : bw ≠ []) (hl : eq.stepsizes.length = bw.length)
    (hst : ∀ s ∈ eq.stepsizes, 0 < s) (hbw : ∀ b ∈ bw, 0 < b) :
    ∃ kernel : Grid ℝ, kernel.Filled ∧ kernel.stepsizes = eq.stepsizes ∧
      kernel.nPoints.length = bw.length ∧
      (∀ (i : Nat) (b s : ℝ), bw[i]? = some b → eq.stepsizes[i]? = some s →
        kernel.nPoints[i]? = some (⌈10 * b / s⌉.toNat + 1) ∧
        ∃ top, kernel.ranges[i]? = some (-(5 * b), top) ∧
          top - -(5 * b) = s * (((⌈10 * b / s⌉.toNat + 1 : Nat) : ℝ) - 1)) ∧
      (∃ p, kernel.points = .ok p ∧ kernel.data.flat = p.map (kernelAt bw)) ∧
      (∀ v ∈ kernel.data.flat, 0 < v) ∧
      ∀ mode, densKernelConvolution eq bw mode = convolve eq kernel mode := by
  obtain ⟨k0, hk0, l1, l2, l3⟩ := from_stepsizes_total false (bw.map (fun b => (-(5 * b), 5 * b)))
    eq.stepsizes (by rw [List.length_map, hl]) (fun h hh => (hst h hh).ne')
  rw [List.length_map] at l1 l2
  have hdims : k0.nPoints.length = k0.ranges.length := by rw [l1, l2]
  obtain ⟨p, hp, hpl, _, _⟩ := setFromFunc_ok k0 (kernelAt bw)
    (by intro h; rw [h] at l1; exact hne (List.length_eq_zero_iff.mp l1.symm)) hdims
  refine ⟨{ k0 with data := ⟨k0.nPoints, p.map (kernelAt bw)⟩ }, ⟨hdims, rfl, by simpa using hpl⟩, l3, l2,
    ?_, ⟨p, hp, rfl⟩, ?_, ?_⟩
  · intro i b s hb hs
    have hbpos : 0 < b := hbw b (List.mem_of_getElem? hb)
    have hspos : 0 < s := hst s (List.mem_of_getElem? hs)
    unfold fromStepsizes at hk0
    cases hloop : stepsizeLoop false (bw.map (fun b => (-(5 * b), 5 * b))) eq.stepsizes with
    | error e => rw [hloop] at hk0; cases hk0
    | ok v =>
      obtain ⟨l, m⟩ := v
      rw [hloop] at hk0
      cases hk0
      obtain ⟨_, h1, h2⟩ := stepsize_loop_spec false _ l eq.stepsizes m hloop i (-(5 * b), 5 * b) s
        (by rw [List.getElem?_map, hb]; rfl) hs
      have e : (5 * b - -(5 * b)) / s = 10 * b / s := by ring
      simp only [e] at h1 h2
      have hc : 0 ≤ ⌈10 * b / s⌉ := Int.ceil_nonneg (by positivity)
      have e2 : (⌈10 * b / s⌉ + 1 - (if false = true then 1 else 0) : Int).toNat
          = ⌈10 * b / s⌉.toNat + 1 := by simp; omega
      refine ⟨by rw [h2, e2], _, h1, ?_⟩
      have e3 : ((⌈10 * b / s⌉.toNat : Nat) : ℝ) = (⌈10 * b / s⌉ : ℝ) := by
        rw [← Int.cast_natCast, Int.toNat_of_nonneg hc]
      push_cast
      rw [e3]
      simp
  · intro v hv
    simp only [List.mem_map] at hv
    obtain ⟨x, _, rfl⟩ := hv
    exact kernelAt_pos bw x hbw
  · intro mode
    unfold densKernelConvolution
    rw [hk0, ok_bind, hp, ok_bind, setData_ok _ _ (by simpa using hpl), ok_bind]

/-! ### C76: the logarithms are defined -/

theorem getZ_nonneg (g : Grid ℝ) (hg : g.Filled) (h : ∀ v ∈ g.data.flat, 0 < v) (idx : List Nat) :
    0 ≤ g.data.getZ idx := by
  by_cases hi : inShape g.nPoints idx = true
  · have := getZ_of_inShape g hg idx hi
    exact (h _ (List.mem_of_getElem? this)).le
  · rw [Nd.getZ, hg.shape, if_neg hi]

theorem sum_pos_of_mem {α : Type} (l : List α) (f : α → ℝ) (h0 : ∀ a ∈ l, 0 ≤ f a) (a : α) (ha : a ∈ l)
    (h : 0 < f a) : 0 < (l.map f).sum := by
  induction l with
  | nil => simp at ha
  | cons b l ih =>
    rw [List.map_cons, List.sum_cons]
    have hb := h0 b (by simp)
    have hl : 0 ≤ (l.map f).sum := by
      apply List.sum_nonneg
      intro x hx
      rw [List.mem_map] at hx
      obtain ⟨y, hy, rfl⟩ := hx
      exact h0 y (by simp [hy])
    rw [List.mem_cons] at ha
    rcases ha with rfl | ha
    · linarith
    · have := ih (fun x hx => h0 x (by simp [hx])) ha
      linarith

/-- The centre of a kernel is one of its points. -/
theorem inShape_half (n : List Nat) (h : ∀ m ∈ n, 1 ≤ m) :
    inShape n (n.map (fun m => (m - 1) / 2)) = true := by
  induction n with
  | nil => rfl
  | cons a n ih =>
    have := h a (by simp)
    simp only [List.map_cons, inShape, Bool.and_eq_true, decide_eq_true_eq]
    exact ⟨by omega, ih (fun m hm => h m (by simp [hm]))⟩

/-- C76: the convolution of a positive density with the kernel is defined on the points of the density and
positive everywhere. -/
theorem dens_conv_pos (eq : Grid ℝ) (bw : List ℝ) (hf : eq.Filled) (hne : bw ≠ [])
    (hd : eq.nPoints.length = bw.length) (hl : eq.stepsizes.length = bw.length)
    (hn : ∀ m ∈ eq.nPoints, m ≠ 1) (hst : ∀ s ∈ eq.stepsizes, 0 < s) (hbw : ∀ b ∈ bw, 0 < b)
    (hpos : ∀ v ∈ eq.data.flat, 0 < v) :
    ∃ conv, densKernelConvolution eq bw .same = .ok conv ∧ conv.ranges = eq.ranges ∧
      conv.nPoints = eq.nPoints ∧ Spec.Spaced conv.ranges conv.nPoints conv.stepsizes ∧ conv.Filled ∧
      ∀ v ∈ conv.data.flat, 0 < v := by
  obtain ⟨kernel, kf, k1, k2, k3, _, k4, k5⟩ := kernel_grid eq bw hne hl hst hbw
  obtain ⟨g, hg, e1, e2, e3, e4, e5⟩ := convolve_same eq kernel hf kf (by rw [k2, hd]) k1.symm hn
  refine ⟨g, by rw [k5, hg], e1, e2, e3, e4, ?_⟩
  intro v hv
  obtain ⟨j, hj, rfl⟩ := List.getElem_of_mem hv
  have hjl : j < (indices eq.nPoints).length := by rw [length_indices, ← e2, ← e4.size]; exact hj
  -- the multi-index of the value
  obtain ⟨k, hk, hjk⟩ : ∃ k, inShape eq.nPoints k = true ∧ ravel eq.nPoints k = j := by
    have hmem : (indices eq.nPoints)[j] ∈ indices eq.nPoints := List.getElem_mem _
    refine ⟨(indices eq.nPoints)[j], (mem_indices _ _).mp hmem, ?_⟩
    have h1 := indices_ravel _ _ ((mem_indices _ _).mp hmem)
    have h2 := ravel_lt _ _ ((mem_indices _ _).mp hmem)
    rw [List.getElem?_eq_getElem (by rw [length_indices]; exact h2)] at h1
    exact ((indices_nodup eq.nPoints).getElem_inj_iff).mp (Option.some.inj h1)
  have hval := e5 k hk
  rw [hjk, List.getElem?_eq_getElem hj] at hval
  rw [Option.some.inj hval]
  refine mul_pos ?_ (list_prod_pos _ hst)
  unfold Spec.conv
  rw [rowMajor_range, rowMajor_range]
  have hkn : ∀ m ∈ kernel.nPoints, 1 ≤ m := by
    intro m hm
    obtain ⟨i, hi, rfl⟩ := List.getElem_of_mem hm
    have hib : i < bw.length := by rw [← k2]; exact hi
    have := (k3 i bw[i] (eq.stepsizes[i]'(by rw [hl]; exact hib)) (List.getElem?_eq_getElem _)
      (List.getElem?_eq_getElem _)).1
    rw [List.getElem?_eq_getElem hi] at this
    rw [Option.some.inj this]
    omega
  have hnn : ∀ i j, 0 ≤ (if List.zipWith (· + ·) i j = List.zipWith (· + ·) k
      (kernel.nPoints.map (fun n => (n - 1) / 2)) then eq.data.getZ i * kernel.data.getZ j else 0) := by
    intro i j
    split
    · exact mul_nonneg (getZ_nonneg eq hf hpos i) (getZ_nonneg kernel kf k4 j)
    · exact le_rfl
  apply sum_pos_of_mem _ _ _ k ((mem_indices _ _).mpr hk)
  · apply sum_pos_of_mem _ _ (fun j _ => hnn k j) _ ((mem_indices _ _).mpr (inShape_half _ hkn))
    simp only [if_true]
    have a1 := getZ_of_inShape eq hf k hk
    have a2 := getZ_of_inShape kernel kf _ (inShape_half _ hkn)
    exact mul_pos (hpos _ (List.mem_of_getElem? a1)) (k4 _ (List.mem_of_getElem? a2))
  · intro i _
    apply List.sum_nonneg
    intro x hx
    rw [List.mem_map] at hx
    obtain ⟨j, _, rfl⟩ := hx
    exact hnn i j

/-! ### C75: position of the kernel -/

/-- Number of steps from the first point of the kernel grid to the point used as its centre. -/
noncomputable def Spec.kernelCentre (b h : ℝ) : Nat := ⌈10 * b / h⌉.toNat / 2

/-- Coordinate of the point of the kernel grid that is used as its centre; it should be zero. -/
noncomputable def Spec.kernelShift (b h : ℝ) : ℝ := Spec.kernelCentre b h * h - 5 * b

/-- C75: the kernel is off centre by at most half a step, and it is centred exactly if ten bandwidths are an
even number of steps. -/
theorem kernel_shift (b h : ℝ) (hb : 0 < b) (hh : 0 < h) :
    |Spec.kernelShift b h| ≤ h / 2 ∧ (Spec.kernelShift b h = 0 ↔ ∃ m : Nat, 10 * b = 2 * m * h) := by
  have hq : 0 < 10 * b / h := by positivity
  have hc0 : 0 ≤ ⌈10 * b / h⌉ := Int.ceil_nonneg hq.le
  obtain ⟨c, hc⟩ := Int.eq_ofNat_of_zero_le hc0
  have h1 : 10 * b / h ≤ c := by
    have := Int.le_ceil (10 * b / h); rw [hc] at this; exact_mod_cast this
  have h2 : (c : ℝ) < 10 * b / h + 1 := by
    have := Int.ceil_lt_add_one (10 * b / h); rw [hc] at this; exact_mod_cast this
  rw [div_le_iff₀ hh] at h1
  have h3 : (c : ℝ) * h < 10 * b + h := by
    have := mul_lt_mul_of_pos_right h2 hh
    rwa [add_mul, div_mul_cancel₀ _ hh.ne', one_mul] at this
  have hk : Spec.kernelCentre b h = c / 2 := by rw [Spec.kernelCentre, hc]; rfl
  unfold Spec.kernelShift
  rw [hk]
  rcases Nat.even_or_odd' c with ⟨m, hm | hm⟩
  · have e : c / 2 = m := by omega
    have hcm : (c : ℝ) = 2 * m := by exact_mod_cast hm
    rw [hcm] at h1 h3
    rw [e]
    refine ⟨by rw [abs_le]; constructor <;> nlinarith, fun h0 => ⟨m, by linarith⟩, ?_⟩
    rintro ⟨k, hk⟩
    have a1 : (k : ℝ) * h ≤ m * h := by linarith
    have a2 : (m : ℝ) * h < (k + 1) * h := by linarith
    have b1 : (k : ℝ) ≤ m := le_of_mul_le_mul_right a1 hh
    have b2 : (m : ℝ) < k + 1 := lt_of_mul_lt_mul_right a2 hh.le
    have c1 : k ≤ m := by exact_mod_cast b1
    have c2 : m < k + 1 := by exact_mod_cast b2
    have : k = m := by omega
    subst this
    linarith
  · have e : c / 2 = m := by omega
    have hcm : (c : ℝ) = 2 * m + 1 := by exact_mod_cast hm
    rw [hcm] at h1 h3
    rw [e]
    refine ⟨by rw [abs_le]; constructor <;> nlinarith, fun h0 => ⟨m, by linarith⟩, ?_⟩
    rintro ⟨k, hk⟩
    have a1 : (m : ℝ) * h < k * h := by linarith
    have a2 : (2 * (k : ℝ)) * h ≤ (2 * m + 1) * h := by linarith
    have b1 : (m : ℝ) < k := lt_of_mul_lt_mul_right a1 hh.le
    have b2 : 2 * (k : ℝ) ≤ 2 * m + 1 := le_of_mul_le_mul_right a2 hh
    have c1 : m < k := by exact_mod_cast b1
    have c2 : 2 * k ≤ 2 * m + 1 := by exact_mod_cast b2
    omega

/-- Values of the kernel in one and two dimensions: the value with multi-index `j` is the kernel at the
coordinates `-5 b + j h`. -/
theorem kernel_values_partial (eq : Grid ℝ) (bw : List ℝ) (hd : bw.length = 1 ∨ bw.length = 2)
    (hl : eq.stepsizes.length = bw.length) (hst : ∀ s ∈ eq.stepsizes, 0 < s) (hbw : ∀ b ∈ bw, 0 < b)
    (kernel : Grid ℝ) (hf : kernel.Filled) (hn : kernel.nPoints.length = bw.length)
    (hk : ∀ (i : Nat) (b s : ℝ), bw[i]? = some b → eq.stepsizes[i]? = some s →
        kernel.nPoints[i]? = some (⌈10 * b / s⌉.toNat + 1) ∧
        ∃ top, kernel.ranges[i]? = some (-(5 * b), top) ∧
          top - -(5 * b) = s * (((⌈10 * b / s⌉.toNat + 1 : Nat) : ℝ) - 1))
    (p : List (List ℝ)) (hp : kernel.points = .ok p) (hv : kernel.data.flat = p.map (kernelAt bw))
    (idx : List Nat) (hi : inShape kernel.nPoints idx = true) :
    kernel.data.getZ idx
      = kernelAt bw (List.zipWith (fun (bh : ℝ × ℝ) (j : Nat) => -(5 * bh.1) + j * bh.2)
          (bw.zip eq.stepsizes) idx) := by
  have hax : ∀ (i : Nat) (b s : ℝ), bw[i]? = some b → eq.stepsizes[i]? = some s → ∀ j,
      kernel.nPoints[i]? = some j → ∀ m < j, ∃ a, kernel.axes[i]? = some a ∧
        a[m]? = some (-(5 * b) + m * s) := by
    intro i b s hb hs j hj m hm
    obtain ⟨e1, top, e2, e3⟩ := hk i b s hb hs
    rw [hj] at e1
    cases e1
    refine ⟨linspace (-(5 * b)) top (⌈10 * b / s⌉.toNat + 1), ?_, ?_⟩
    · unfold Grid.axes
      rw [getElem?_zipWith_some, e2, hj]
      rfl
    · have hpos : 0 < 10 * b / s :=
        div_pos (by linarith [hbw b (List.mem_of_getElem? hb)]) (hst s (List.mem_of_getElem? hs))
      have hc : 0 < ⌈10 * b / s⌉.toNat := by
        have := Int.ceil_pos.mpr hpos
        omega
      unfold linspace
      rw [List.getElem?_map, List.getElem?_range hm, e3]
      simp only [Option.map_some, Option.some.injEq]
      have : (((⌈10 * b / s⌉.toNat + 1 : Nat) : ℝ) - 1) ≠ 0 := by
        push_cast
        have : (0 : ℝ) < (⌈10 * b / s⌉.toNat : ℝ) := by exact_mod_cast hc
        linarith
      rw [mul_div_cancel_right₀ _ this]
  have key : ∀ x, Spec.IsPoint kernel.axes idx x → kernel.data.getZ idx = kernelAt bw x := by
    intro x hx
    have hlr : kernel.ranges.length = 1 ∨ kernel.ranges.length = 2 := by rw [← hf.dims, hn]; exact hd
    obtain ⟨g', hg', _, _, _, _, _, hval⟩ := set_from_func_partial kernel (kernelAt bw) hlr hf.dims
    obtain ⟨p', hp', _, _, hset⟩ := setFromFunc_ok kernel (kernelAt bw)
      (by intro h; rw [h] at hlr; simp at hlr) hf.dims
    rw [hp] at hp'
    cases hp'
    rw [hset] at hg'
    cases hg'
    have h1 := hval idx x hx
    have h2 := getZ_of_inShape kernel hf idx hi
    rw [hv] at h2
    exact Option.some.inj (h2.symm.trans h1)
  apply key
  rcases hd with hd | hd
  · obtain ⟨b, rfl⟩ := List.length_eq_one_iff.mp hd
    obtain ⟨s, hs⟩ := List.length_eq_one_iff.mp (hl.trans hd)
    obtain ⟨m, hm⟩ := List.length_eq_one_iff.mp (hn.trans hd)
    have hal : kernel.axes.length = 1 := by simp [Grid.axes, ← hf.dims, hm]
    obtain ⟨a, ha⟩ := List.length_eq_one_iff.mp hal
    rw [hm] at hi
    obtain ⟨j, rfl⟩ := List.length_eq_one_iff.mp (inShape_length _ _ hi)
    simp only [inShape, Bool.and_true, decide_eq_true_eq] at hi
    obtain ⟨a', h1, h2⟩ := hax 0 b s rfl (by rw [hs]; rfl) m (by rw [hm]; rfl) j hi
    rw [ha] at h1 ⊢
    cases h1
    rw [hs]
    exact ⟨h2, trivial⟩
  · obtain ⟨b, b', rfl⟩ := List.length_eq_two.mp hd
    obtain ⟨s, s', hs⟩ := List.length_eq_two.mp (hl.trans hd)
    obtain ⟨m, m', hm⟩ := List.length_eq_two.mp (hn.trans hd)
    have hal : kernel.axes.length = 2 := by simp [Grid.axes, ← hf.dims, hm]
    obtain ⟨a, a2, ha⟩ := List.length_eq_two.mp hal
    rw [hm] at hi
    obtain ⟨j, j', rfl⟩ := List.length_eq_two.mp (inShape_length _ _ hi)
    simp only [inShape, Bool.and_true, Bool.and_eq_true, decide_eq_true_eq] at hi
    obtain ⟨a', h1, h2⟩ := hax 0 b s rfl (by rw [hs]; rfl) m (by rw [hm]; rfl) j hi.1
    obtain ⟨a'', h3, h4⟩ := hax 1 b' s' rfl (by rw [hs]; rfl) m' (by rw [hm]; rfl) j' hi.2
    rw [ha] at h1 h3 ⊢
    cases h1
    cases h3
    rw [hs]
    exact ⟨h2, h4, trivial⟩

/-- C75 in one dimension: the value at grid point `k` is the sum over all grid points `i` whose distance is
covered by the kernel grid, but with the kernel evaluated at the distance plus `kernelShift`. -/
theorem dens_conv_partial (eq : Grid ℝ) (b h : ℝ) (n : Nat) (hf : eq.Filled) (hnp : eq.nPoints = [n])
    (hs : eq.stepsizes = [h]) (hn : n ≠ 1) (hb : 0 < b) (hh : 0 < h) :
    ∃ conv, densKernelConvolution eq [b] .same = .ok conv ∧ conv.ranges = eq.ranges ∧ conv.nPoints = [n] ∧
      ∀ k < n, conv.data.flat[k]? = some (h * ((List.range n).map (fun i =>
        if i ≤ k + Spec.kernelCentre b h ∧ k + Spec.kernelCentre b h - i ≤ ⌈10 * b / h⌉.toNat then
          eq.data.flat.getD i 0
            * kernelAt [b] [((k : ℝ) - i) * h + Spec.kernelShift b h]
        else 0)).sum) := by
  have hst : ∀ s ∈ eq.stepsizes, 0 < s := by rw [hs]; simpa using hh
  have hbw : ∀ x ∈ [b], 0 < x := by simpa using hb
  obtain ⟨kernel, kf, k1, k2, k3, ⟨p, hp, hv⟩, k4, k5⟩ := kernel_grid eq [b] (by simp) (by simp [hs]) hst hbw
  obtain ⟨g, hg, e1, e2, e3, e4, e5⟩ := convolve_same eq kernel hf kf (by rw [k2, hnp]; rfl) k1.symm
    (by rw [hnp]; simpa using hn)
  have hkv := kernel_values_partial eq [b] (Or.inl rfl) (by simp [hs]) hst hbw kernel kf k2 k3 p hp hv
  have hkn : kernel.nPoints = [⌈10 * b / h⌉.toNat + 1] := by
    obtain ⟨m, hm⟩ := List.length_eq_one_iff.mp k2
    have := (k3 0 b h rfl (by rw [hs]; rfl)).1
    rw [hm] at this ⊢
    simp at this
    rw [this]
  refine ⟨g, by rw [k5, hg], e1, by rw [e2, hnp], fun k hk => ?_⟩
  have hval := e5 [k] (by rw [hnp]; simpa [inShape] using hk)
  have hrav : ravel eq.nPoints [k] = k := by rw [hnp]; simp [ravel]
  rw [hrav] at hval
  rw [hval]
  congr 1
  rw [hs, List.prod_singleton, mul_comm]
  congr 1
  unfold Spec.conv
  rw [hnp, hkn, rowMajor_range, rowMajor_range]
  have hone : ∀ m, indices [m] = (List.range m).map (fun i => [i]) := by
    intro m
    simp only [indices, List.map_cons, List.map_nil]
    generalize List.range m = l
    induction l with
    | nil => rfl
    | cons a l ih => rw [List.flatMap_cons, ih]; rfl
  rw [hone, hone, List.map_map]
  congr 1
  apply List.map_congr_left
  intro i hi
  rw [List.mem_range] at hi
  simp only [Function.comp_apply, List.map_map]
  have hc : (⌈10 * b / h⌉.toNat + 1 - 1) / 2 = Spec.kernelCentre b h := by
    rw [Nat.add_sub_cancel, Spec.kernelCentre]
  simp only [List.map_cons, List.map_nil, hc, List.zipWith_cons_cons, List.zipWith_nil_right,
    List.cons.injEq, and_true, Function.comp_def]
  have hgi : eq.data.getZ [i] = eq.data.flat.getD i 0 := by
    rw [Nd.getZ, hf.shape, hnp, if_pos (by simpa [inShape] using hi)]
    simp [ravel]
  by_cases h1 : i ≤ k + Spec.kernelCentre b h
  · have e : (List.range (⌈10 * b / h⌉.toNat + 1)).map
        (fun j => if i + j = k + Spec.kernelCentre b h then eq.data.getZ [i] * kernel.data.getZ [j] else 0)
        = (List.range (⌈10 * b / h⌉.toNat + 1)).map
        (fun j => if j = k + Spec.kernelCentre b h - i then eq.data.getZ [i] * kernel.data.getZ [j] else 0) := by
      apply List.map_congr_left
      intro j _
      have : i + j = k + Spec.kernelCentre b h ↔ j = k + Spec.kernelCentre b h - i := by omega
      simp only [this]
    rw [e, sum_indicator _ List.nodup_range]
    by_cases h2 : k + Spec.kernelCentre b h - i ≤ ⌈10 * b / h⌉.toNat
    · rw [if_pos (by rw [List.mem_range]; omega), if_pos ⟨h1, h2⟩, hgi,
        hkv _ (by rw [hkn]; simp only [inShape, Bool.and_true, decide_eq_true_eq]; omega), hs]
      simp only [List.zip_cons_cons, List.zip_nil_right, List.zipWith_cons_cons, List.zipWith_nil_right]
      rw [Nat.cast_sub h1, Nat.cast_add]
      have : -(5 * b) + ((k : ℝ) + Spec.kernelCentre b h - i) * h
          = ((k : ℝ) - i) * h + Spec.kernelShift b h := by unfold Spec.kernelShift; ring
      rw [this]
    · rw [if_neg (by rw [List.mem_range]; omega), if_neg (fun h => h2 h.2)]
  · rw [if_neg (fun h => h1 h.1)]
    apply List.sum_eq_zero
    intro x hx
    rw [List.mem_map] at hx
    obtain ⟨j, _, rfl⟩ := hx
    rw [if_neg (by omega)]

/-- C75 is false: the convolution of a density that is symmetric about the middle of the grid is not
symmetric. -/
theorem dens_conv_asymmetric :
    ∃ (eq conv : Grid ℝ) (v w : ℝ), eq.Filled ∧ Spec.Spaced eq.ranges eq.nPoints eq.stepsizes ∧
      eq.nPoints = [3] ∧ eq.data.flat = eq.data.flat.reverse ∧
      densKernelConvolution eq [1 / 10] .same = .ok conv ∧ conv.data.flat[0]? = some v ∧
      conv.data.flat[2]? = some w ∧ v ≠ w := by
  obtain ⟨conv, hc, _, _, hv⟩ := dens_conv_partial ⟨⟨[3], [0, 1, 0]⟩, [(0, 2)], [3], [1]⟩ (1 / 10) 1 3
    ⟨rfl, rfl, rfl⟩ rfl rfl (by norm_num) (by norm_num) (by norm_num)
  have hceil : ⌈10 * (1 / 10 : ℝ) / 1⌉ = 1 := by norm_num
  have hcen : Spec.kernelCentre (1 / 10) 1 = 0 := by rw [Spec.kernelCentre, hceil]; rfl
  refine ⟨⟨⟨[3], [0, 1, 0]⟩, [(0, 2)], [3], [1]⟩, conv, _, _, ⟨rfl, rfl, rfl⟩,
    ⟨by norm_num, trivial⟩, rfl, rfl, hc, hv 0 (by norm_num),
    hv 2 (by norm_num), ?_⟩
  have hpos := kernelAt_pos [1 / 10] [((2 : Nat) - (1 : Nat) : ℝ) * 1 + Spec.kernelShift (1 / 10) 1]
    (by simp)
  rw [hcen, hceil]
  simp [List.range_succ] at hpos ⊢
  exact hpos.ne

/-! ### C76: logarithms of positive numbers only -/

theorem Spaced_unique {F : Type} [Field F] [LinearOrder F] [IsStrictOrderedRing F] (r : List (F × F))
    (n : List Nat) (h h' : List F) (h1 : Spec.Spaced r n h) (h2 : Spec.Spaced r n h')
    (hn : ∀ m ∈ n, m ≠ 1) : h = h' := by
  induction r generalizing n h h' with
  | nil =>
    match n, h, h', h1, h2 with
    | [], [], [], _, _ => rfl
  | cons a r ih =>
    match n, h, h', h1, h2 with
    | m :: n, x :: h, y :: h', h1, h2 =>
      have hm : ((m : F) - 1) ≠ 0 := by
        intro h0
        have : (m : F) = 1 := by linear_combination h0
        exact hn m (by simp) (by exact_mod_cast this)
      have : x = y := mul_right_cancel₀ hm (h1.1.symm.trans h2.1)
      rw [this, ih n h h' h1.2 h2.2 (fun k hk => hn k (by simp [hk]))]

theorem Spaced_length {F : Type} [Field F] (r : List (F × F)) (n : List Nat) (h : List F)
    (h1 : Spec.Spaced r n h) : h.length = n.length := by
  induction r generalizing n h with
  | nil =>
    match n, h, h1 with
    | [], [], _ => rfl
  | cons a r ih =>
    match n, h, h1 with
    | m :: n, x :: h, h1 => simp [ih n h h1.2]

/-- C76: the grid of the multiplicative variant consists of minus the logarithms of positive numbers, if the
interpolation gives positive values for positive data. -/
theorem multiplicative_grid_pos (interp : List (List ℝ) → List ℝ → List (List ℝ) → List ℝ)
    (hi : ∀ p v x, (interp p v x).length = x.length)
    (hip : ∀ p v x, (∀ y ∈ v, 0 < y) → ∀ y ∈ interp p v x, 0 < y)
    (eq : Grid ℝ) (bw : List ℝ) (hf : eq.Filled) (hne : bw ≠ [])
    (hd : eq.nPoints.length = bw.length) (hl : eq.stepsizes.length = bw.length)
    (hn : ∀ m ∈ eq.nPoints, m ≠ 1) (hst : ∀ s ∈ eq.stepsizes, 0 < s) (hbw : ∀ b ∈ bw, 0 < b)
    (hpos : ∀ v ∈ eq.data.flat, 0 < v) :
    ∃ conv s m, densKernelConvolution eq bw .same = .ok conv ∧
      sparsify interp conv (List.replicate bw.length 101) = .ok s ∧ multiplicativeGrid interp eq bw = .ok m ∧
      m.ranges = eq.ranges ∧ m.nPoints = eq.nPoints.map (min · 101) ∧ (∀ v ∈ s.data.flat, 0 < v) ∧
      m.data.flat = s.data.flat.map (fun v => -Real.log v) := by
  obtain ⟨conv, c1, c2, c3, c4, c5, c6⟩ := dens_conv_pos eq bw hf hne hd hl hn hst hbw hpos
  have hdim : conv.nDim = bw.length := by rw [Grid.nDim, c2, ← hf.dims, hd]
  obtain ⟨s, p, q, s1, s2, s3, s4, s5, s6, s7, s8⟩ := sparsify_spec interp hi conv c5
    (List.replicate bw.length 101)
    (by rw [c2]; intro h; have := hf.dims; rw [h, hd] at this; exact hne (List.length_eq_zero_iff.mp this))
    (by rw [List.length_replicate, c3, hd]) (by rw [c3]; exact hn)
    (fun m hm => by rw [List.eq_of_mem_replicate hm]; norm_num)
  have hsn : ∀ m ∈ s.nPoints, m ≠ 1 := by
    intro m hm
    rw [s3] at hm
    obtain ⟨i, hi1, hi2⟩ := List.getElem_of_mem hm
    rw [List.length_zipWith] at hi1
    rw [List.getElem_zipWith] at hi2
    have a1 := hn (conv.nPoints[i]'(by omega)) (by rw [← c3]; exact List.getElem_mem _)
    rw [List.getElem_replicate] at hi2
    omega
  obtain ⟨l, l1, l2, l3, l4, l5, l6⟩ := math_on_self_partial s s5 hsn Real.log
  obtain ⟨m, m1, m2, m3, m4, m5, m6⟩ := math_on_self_partial l l5 (by rw [l3]; exact hsn) (fun x => -x)
  refine ⟨conv, s, m, c1, s1, ?_, by rw [m2, l2, s2, c2], ?_, ?_, ?_⟩
  · unfold multiplicativeGrid
    rw [c1, ok_bind, hdim, s1, ok_bind, l1, ok_bind, m1]
  · rw [m3, l3, s3, c3]
    apply List.ext_getElem
    · simp [hd]
    · intro i h1 h2
      rw [List.getElem_zipWith, List.getElem_replicate, List.getElem_map]
  · rw [s8]
    exact hip _ _ _ c6
  · apply List.ext_getElem?
    intro k
    simp only at l6 m6
    rw [m6, l6, List.getElem?_map, Option.map_map]
    rfl

/-- An interpolation (nearest in the sense of the first value) with the required properties. -/
example : let interp : List (List ℝ) → List ℝ → List (List ℝ) → List ℝ :=
      fun _ v x => x.map (fun _ => v.headD 1)
    (∀ p v x, (interp p v x).length = x.length) ∧
      ∀ p v x, (∀ y ∈ v, 0 < y) → ∀ y ∈ interp p v x, 0 < y := by
  refine ⟨by simp, ?_⟩
  intro p v x hv y hy
  rw [List.mem_map] at hy
  obtain ⟨_, _, rfl⟩ := hy
  cases v with
  | nil => simp
  | cons a v => exact hv a (by simp)

/-! ### C76 and C77: additive correction -/

theorem trapSum_congr {F : Type} [Field F] (s : List Nat) (h : List F) (f g : List Nat → F)
    (he : ∀ idx, inShape s idx = true → f idx = g idx) : Spec.trapSum s h f = Spec.trapSum s h g := by
  unfold Spec.trapSum
  rw [rowMajor_range]
  congr 1
  apply List.map_congr_left
  intro idx hidx
  rw [he idx ((mem_indices _ _).mp hidx)]

/-- `log((K * π) / π)` at the grid point with the given index. -/
noncomputable def Spec.logTerm (conv eq : Grid ℝ) (idx : List Nat) : ℝ :=
  Real.log (conv.data.getZ idx / eq.data.getZ idx)

/-- C76, C77: the additive correction at every grid point is minus the logarithm of a quotient of positive
numbers plus the same constant, the trapezoidal integral of the logarithmic term times the density. If a
dimension has more than 101 points, the result is this correction interpolated on fewer points. -/
theorem additive_correction (interp : List (List ℝ) → List ℝ → List (List ℝ) → List ℝ)
    (eq : Grid ℝ) (bw : List ℝ) (hf : eq.Filled) (hne : bw ≠ [])
    (hd : eq.nPoints.length = bw.length) (hsp : Spec.Spaced eq.ranges eq.nPoints eq.stepsizes)
    (hn : ∀ m ∈ eq.nPoints, m ≠ 1) (hst : ∀ s ∈ eq.stepsizes, 0 < s) (hbw : ∀ b ∈ bw, 0 < b)
    (hpos : ∀ v ∈ eq.data.flat, 0 < v) :
    ∃ conv corr, densKernelConvolution eq bw .same = .ok conv ∧ corr.Filled ∧ corr.ranges = eq.ranges ∧
      corr.nPoints = eq.nPoints ∧
      (∀ idx, inShape eq.nPoints idx = true → 0 < conv.data.getZ idx ∧ 0 < eq.data.getZ idx ∧
        corr.data.getZ idx = -Spec.logTerm conv eq idx
          + Spec.trapSum eq.nPoints eq.stepsizes (fun i => Spec.logTerm conv eq i * eq.data.getZ i)) ∧
      calcAdditiveCorrection interp eq bw =
        if eq.nPoints.any (fun n => decide (n > 101)) then
          sparsify interp corr (List.replicate bw.length 101)
        else .ok corr := by
  have hl := (Spaced_length _ _ _ hsp).trans hd
  obtain ⟨conv, c1, c2, c3, c4, c5, c6⟩ := dens_conv_pos eq bw hf hne hd hl hn hst hbw hpos
  have hcst : conv.stepsizes = eq.stepsizes := by
    rw [c2, c3] at c4
    exact Spaced_unique _ _ _ _ c4 hsp hn
  obtain ⟨q, q1, q2, q3, q4, q5, q6⟩ := arith_grid_partial false false (by simp) conv eq c5 hf
    (by rw [c3]; exact hn) c3 c2 (fun x y => x / y)
  have hnq : ∀ m ∈ q.nPoints, m ≠ 1 := by rw [q3, c3]; exact hn
  obtain ⟨l, l1, l2, l3, l4, l5, l6⟩ := math_on_self_partial q q5 hnq Real.log
  have hnl : ∀ m ∈ l.nPoints, m ≠ 1 := by rw [l3]; exact hnq
  obtain ⟨ng, g1, g2, g3, g4, g5, g6⟩ := math_on_self_partial l l5 hnl (fun x => -x)
  have hng : ∀ m ∈ ng.nPoints, m ≠ 1 := by rw [g3]; exact hnl
  have hln : l.nPoints = eq.nPoints := by rw [l3, q3, c3]
  simp only at q6 l6 g6
  -- values
  have val : ∀ idx, inShape eq.nPoints idx = true → l.data.getZ idx = Spec.logTerm conv eq idx := by
    intro idx h
    have a1 := getZ_of_inShape l l5 idx (by rw [hln]; exact h)
    have a2 := getZ_of_inShape conv c5 idx (by rw [c3]; exact h)
    have a3 := getZ_of_inShape eq hf idx h
    rw [hln, l6, q6, ← c3, a2, c3, a3] at a1
    simp only [Option.bind_some, Option.map_some, Option.some.injEq] at a1
    exact a1.symm
  have hmap2 : l.data.map2 (fun x y => x * y) eq.data
      = .ok ⟨eq.nPoints, List.zipWith (fun x y => x * y) l.data.flat eq.data.flat⟩ := by
    unfold Nd.map2
    rw [if_pos (by rw [l5.shape, hf.shape, hln]), l5.shape, hln]
  generalize hprod : (⟨eq.nPoints, List.zipWith (fun x y => x * y) l.data.flat eq.data.flat⟩ : Nd ℝ) = prod
    at hmap2
  have hint : (ndTrapz ⟨prod.shape, prod.get⟩ conv.stepsizes).val []
      = Spec.trapSum eq.nPoints eq.stepsizes (fun i => Spec.logTerm conv eq i * eq.data.getZ i) := by
    rw [nd_trapz_eq _ _ (by rw [hcst, ← hprod]; exact Spaced_length _ _ _ hsp), hcst, ← hprod]
    apply trapSum_congr
    intro idx h
    have a1 := getZ_of_inShape l l5 idx (by rw [hln]; exact h)
    have a3 := getZ_of_inShape eq hf idx h
    rw [hln] at a1
    show (List.zipWith _ _ _).getD _ _ = _
    rw [List.getD_eq_getElem?_getD, getElem?_zipWith_some, a1, a3, val idx h]
    rfl
  obtain ⟨I, hI⟩ : ∃ I, I = Spec.trapSum eq.nPoints eq.stepsizes
    (fun i => Spec.logTerm conv eq i * eq.data.getZ i) := ⟨_, rfl⟩
  rw [← hI] at hint
  obtain ⟨corr, r1, r2, r3, r4, r5, r6⟩ := arith_num_partial false ng g5 hng I (fun x y => x + y)
  have hrn : corr.nPoints = eq.nPoints := by rw [r3, g3, hln]
  simp only at r6
  have hrr : corr.ranges = eq.ranges := by rw [r2, g2, l2, q2, c2]
  refine ⟨conv, corr, c1, r5, hrr, hrn, ?_, ?_⟩
  · intro idx h
    have a1 := getZ_of_inShape corr r5 idx (by rw [hrn]; exact h)
    have a2 := getZ_of_inShape conv c5 idx (by rw [c3]; exact h)
    have a3 := getZ_of_inShape eq hf idx h
    have a4 := getZ_of_inShape l l5 idx (by rw [hln]; exact h)
    refine ⟨c6 _ (List.mem_of_getElem? a2), hpos _ (List.mem_of_getElem? a3), ?_⟩
    rw [hrn, r6, g6, ← hln, a4, val idx h] at a1
    simp only [Option.map_some, Option.some.injEq] at a1
    rw [← hI]
    exact a1.symm
  · unfold calcAdditiveCorrection
    rw [c1, ok_bind, q1, ok_bind, l1, ok_bind, hmap2, ok_bind]
    simp only
    rw [g1, ok_bind, hint, r1, ok_bind, hrn, Grid.nDim, hrr, ← hf.dims, hd, pure_eq_ok]

/-- C77: the average of the additive correction over the density with the trapezoidal rule. It vanishes if
the density is normalised with the same rule. Partial: the density is normalised with the plain sum (C36), so
in general the average is not zero, see `additive_average_false`. -/
theorem additive_average_partial (n : List Nat) (h : List ℝ) (pi L corr : List Nat → ℝ)
    (hc : ∀ idx, inShape n idx = true →
      corr idx = -L idx + Spec.trapSum n h (fun i => L i * pi i)) :
    Spec.trapSum n h (fun i => corr i * pi i)
      = Spec.trapSum n h (fun i => L i * pi i) * (Spec.trapSum n h pi - 1) := by
  rw [trapSum_congr n h _ _ (fun idx hi => by rw [hc idx hi])]
  generalize hI : Spec.trapSum n h (fun i => L i * pi i) = I
  unfold Spec.trapSum at hI ⊢
  have e : ∀ l : List (List Nat), (l.map (fun idx => Spec.trapWeights n h idx * ((-L idx + I) * pi idx))).sum
      = -(l.map (fun idx => Spec.trapWeights n h idx * (L idx * pi idx))).sum
        + I * (l.map (fun idx => Spec.trapWeights n h idx * pi idx)).sum := by
    intro l
    induction l with
    | nil => simp
    | cons a l ih =>
      simp only [List.map_cons, List.sum_cons]
      rw [ih]
      ring
  rw [e, hI]
  ring

theorem trapSum_1d (n : Nat) (h : ℝ) (f : List Nat → ℝ) :
    Spec.trapSum [n] [h] f = ((List.range n).map (fun i => Spec.trapWeight n i * h * f [i])).sum := by
  unfold Spec.trapSum
  rw [rowMajor_range, indices, sum_map_flatMap]
  simp [indices, Spec.trapWeights]

/-- C77: in one dimension the integral of the density with the trapezoidal rule is too small by half a step
times the values at both ends of the grid. -/
theorem density_trapz (n : Nat) (h : ℝ) (v : Nat → ℝ) (hsum : ((List.range (n + 2)).map v).sum * h = 1) :
    Spec.trapSum [n + 2] [h] (fun i => v (i.headD 0)) = 1 - h * (v 0 + v (n + 1)) / 2 := by
  rw [trapSum_1d]
  simp only [List.headD_cons]
  rw [← trapz_weights (n + 2) h v]
  have key : ∀ m : Nat, ((List.range (m + 1)).map (fun i => h * (v (i + 1) + v i) / 2)).sum
      = ((List.range (m + 2)).map v).sum * h - h * (v 0 + v (m + 1)) / 2 := by
    intro m
    induction m with
    | zero => simp [List.range_succ]; ring
    | succ m ih =>
      rw [sum_range_succ, ih, sum_range_succ (m + 2)]
      ring
  rw [show n + 2 - 1 = n + 1 from rfl, key, hsum]

/-- C77 is false: for the uniform density on a grid with two points, which is normalised as by
`calculate_probability_density`, the average of the correction is not zero. -/
theorem additive_average_false (interp : List (List ℝ) → List ℝ → List (List ℝ) → List ℝ) :
    ∃ eq corr : Grid ℝ, eq.Filled ∧ Spec.Spaced eq.ranges eq.nPoints eq.stepsizes ∧
      (∀ v ∈ eq.data.flat, 0 < v) ∧ eq.data.flat.sum * eq.stepsizes.prod = 1 ∧
      calcAdditiveCorrection interp eq [1 / 10] = .ok corr ∧
      Spec.trapSum eq.nPoints eq.stepsizes (fun i => corr.data.getZ i * eq.data.getZ i) ≠ 0 := by
  obtain ⟨eq, heq⟩ : ∃ eq : Grid ℝ, eq = ⟨⟨[2], [1 / 2, 1 / 2]⟩, [(0, 1)], [2], [1]⟩ := ⟨_, rfl⟩
  have hF : eq.Filled := by rw [heq]; exact ⟨rfl, rfl, rfl⟩
  have hS : Spec.Spaced eq.ranges eq.nPoints eq.stepsizes := by
    rw [heq]; exact ⟨by norm_num, trivial⟩
  have hn : eq.nPoints = [2] := by rw [heq]
  have hs : eq.stepsizes = [1] := by rw [heq]
  have hpos : ∀ v ∈ eq.data.flat, 0 < v := by rw [heq]; simp
  have hz : ∀ i, i < 2 → eq.data.getZ [i] = 1 / 2 := by
    intro i hi
    rw [heq]
    rcases (by omega : i = 0 ∨ i = 1) with rfl | rfl <;> simp [Nd.getZ, inShape, ravel]
  obtain ⟨conv, corr, c1, c2, c3, c4, c5, c6⟩ := additive_correction interp eq [1 / 10] hF (by simp)
    (by rw [hn]; rfl) hS (by rw [hn]; simp) (by rw [hs]; simp) (by simp) hpos
  refine ⟨eq, corr, hF, hS, hpos, by rw [heq]; norm_num, by rw [c6, hn]; rfl, ?_⟩
  rw [additive_average_partial eq.nPoints eq.stepsizes _ (Spec.logTerm conv eq) _
    (fun idx hi => (c5 idx hi).2.2)]
  -- the values of the convolution
  obtain ⟨conv', d1, _, d2, d3⟩ := dens_conv_partial eq (1 / 10) 1 2 hF hn hs (by norm_num) (by norm_num)
    (by norm_num)
  rw [c1] at d1
  cases d1
  have hceil : ⌈10 * (1 / 10 : ℝ) / 1⌉ = 1 := by norm_num
  have hcen : Spec.kernelCentre (1 / 10) 1 = 0 := by rw [Spec.kernelCentre, hceil]; rfl
  have hsh : Spec.kernelShift (1 / 10) 1 = -(1 / 2) := by rw [Spec.kernelShift, hcen]; norm_num
  have hK : ∀ x : ℝ, x ^ 2 = 1 / 4 → kernelAt [1 / 10] [x] < 1 / 4 := by
    intro x hx
    unfold kernelAt calcKernel
    simp only [List.length_singleton, Nat.cast_one, Finset.univ_unique, Fin.default_eq_zero,
      Finset.prod_singleton, Finset.sum_singleton]
    have e : (List.getD [x] ((0 : Fin 1) : Nat) 0) = x := rfl
    have e2 : ([1 / 10] : List ℝ).get 0 = 1 / 10 := rfl
    rw [e, e2, hx]
    have h1 : (1 : ℝ) ≤ (2 * Real.pi) ^ ((1 : ℝ) / 2) :=
      Real.one_le_rpow (by linarith [Real.two_le_pi]) (by norm_num)
    have h2 : (50 : ℝ) ≤ Real.exp (25 / 2) := by
      have := Real.quadratic_le_exp_of_nonneg (show (0 : ℝ) ≤ 25 / 2 by norm_num)
      linarith
    have h3 : Real.exp (-(1 / 4 / (2 * (1 / 10) ^ 2))) ≤ 1 / 50 := by
      rw [show (1 / 4 / (2 * (1 / 10) ^ 2) : ℝ) = 25 / 2 by norm_num, Real.exp_neg, one_div]
      exact inv_anti₀ (by norm_num) h2
    have h4 : 1 / ((2 * Real.pi) ^ ((1 : ℝ) / 2) * (1 / 10)) ≤ 10 := by
      rw [div_le_iff₀ (by positivity)]
      linarith
    calc _ ≤ 10 * (1 / 50 : ℝ) := mul_le_mul h4 h3 (Real.exp_pos _).le (by norm_num)
      _ < 1 / 4 := by norm_num
  have hk0 := kernelAt_pos [1 / 10] [-(1 / 2)] (by simp)
  have hk1 := kernelAt_pos [1 / 10] [1 / 2] (by simp)
  obtain ⟨conv', f1, _, f2, _, f3, _⟩ := dens_conv_pos eq [1 / 10] hF (by simp) (by rw [hn]; rfl)
    (by rw [hs]; rfl) (by rw [hn]; simp) (by rw [hs]; simp) (by simp) hpos
  rw [c1] at f1
  cases f1
  have hget : ∀ i, i < 2 → conv.data.flat[i]? = some (conv.data.getZ [i]) := by
    intro i hi
    have := getZ_of_inShape conv f3 [i] (by rw [d2]; simpa [inShape] using hi)
    rw [d2] at this
    simpa [ravel] using this
  have hflat : eq.data.flat = [1 / 2, 1 / 2] := by rw [heq]
  have hq1 := hK (-(1 / 2)) (by norm_num)
  have hq2 := hK (1 / 2) (by norm_num)
  have hv0 : conv.data.getZ [0] < 1 / 2 := by
    have a := (hget 0 (by norm_num)).symm.trans (d3 0 (by norm_num))
    rw [hcen, hceil, hsh, hflat] at a
    simp [List.range_succ] at a
    rw [a]
    norm_num at hq1 ⊢
    linarith
  have hv1 : conv.data.getZ [1] < 1 / 2 := by
    have a := (hget 1 (by norm_num)).symm.trans (d3 1 (by norm_num))
    rw [hcen, hceil, hsh, hflat] at a
    simp [List.range_succ] at a
    rw [a]
    norm_num at hq1 hq2 ⊢
    linarith
  have hL : ∀ i, i < 2 → Spec.logTerm conv eq [i] < 0 := by
    intro i hi
    have hp := (c5 [i] (by rw [hn]; simpa [inShape] using hi)).1
    unfold Spec.logTerm
    rw [hz i hi]
    apply Real.log_neg (by positivity)
    rw [div_lt_one (by norm_num)]
    rcases (by omega : i = 0 ∨ i = 1) with rfl | rfl
    · exact hv0
    · exact hv1
  rw [hn, hs, trapSum_1d, trapSum_1d]
  have l0 := hL 0 (by norm_num)
  have l1 := hL 1 (by norm_num)
  simp only [List.range_succ, List.range_zero, List.nil_append, List.cons_append, List.map_cons, List.map_nil,
    List.sum_cons, List.sum_nil, Spec.trapWeight]
  rw [hz 0 (by norm_num), hz 1 (by norm_num)]
  norm_num
  intro h0
  linarith

end Bdld
