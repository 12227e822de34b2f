import Verif.Model.Fes
import Verif.Spec.Fes
import Verif.Props.Potential
import Verif.Lemmas.Except
import Verif.Lemmas.Grid
import Verif.Props.InputSections
import Mathlib.Tactic.Linarith
import Mathlib.Tactic.Ring
import Mathlib.Tactic.FieldSimp

/-
Free energy surfaces and free energy differences (C63, C64), exact real arithmetic.
-/

namespace Bdld

/-! ### C63: FES -/

theorem maxCount_ge (l : List Nat) : ∀ n ∈ l, n ≤ Spec.maxCount l := by
  induction l with
  | nil => simp
  | cons a l ih =>
    intro n hn
    simp only [Spec.maxCount, List.foldr_cons]
    rcases List.mem_cons.1 hn with rfl | hn
    · exact le_max_left _ _
    · exact le_trans (ih n hn) (le_max_right _ _)

theorem maxCount_mem (l : List Nat) (h : l ≠ []) : Spec.maxCount l ∈ l := by
  induction l with
  | nil => exact absurd rfl h
  | cons a l ih =>
    simp only [Spec.maxCount, List.foldr_cons]
    by_cases hl : l = []
    · subst hl; simp
    · have := ih hl
      unfold Spec.maxCount at this
      rcases le_total a (l.foldr max 0) with h' | h'
      · rw [max_eq_right h']; exact List.mem_cons_of_mem _ this
      · rw [max_eq_left h']; exact List.mem_cons_self

theorem fesValue_top (kt : ℝ) (n : Nat) : fesValue kt n = ⊤ ↔ n = 0 := by
  unfold fesValue
  split
  · simp [*]
  · simp only [*, iff_false]; exact WithTop.coe_ne_top

/-- **C63.** `calculate_fes` of a histogram with at least one bin gives in every bin `kT ln(M / n)` with
`n` the counts of the bin and `M` the largest counts, and infinity for empty bins. -/
theorem fes_spec (counts : Nd Nat) (kt : ℝ) (hk : 0 < kt) (h : counts.flat ≠ []) :
    calculateFes counts kt true = .ok (counts.map (Spec.freeEnergy kt (Spec.maxCount counts.flat))) := by
  obtain ⟨m, h1, h2, h3⟩ := npMin_spec (counts.flat.map (fesValue kt)) (by simpa using h)
  have hmem := maxCount_mem _ h
  have hge := maxCount_ge counts.flat
  simp only [calculateFes, Nd.map, if_true, h1, ok_bind]
  generalize Spec.maxCount counts.flat = M at hmem hge
  match m, h2, h3 with
  | none, h2, h3 =>
    have h0 : ∀ n ∈ counts.flat, n = 0 := fun n hn => (fesValue_top kt n).1
      (top_le_iff.1 (h3 _ (List.mem_map_of_mem hn)))
    simp only [pure_eq_ok, Except.ok.injEq, Nd.mk.injEq, true_and]
    refine List.map_congr_left (fun n hn => ?_)
    simp [h0 n hn, fesValue, Spec.freeEnergy]
  | some x, h2, h3 =>
    obtain ⟨n0, hn0, hx⟩ := List.mem_map.1 h2
    have hn00 : n0 ≠ 0 := by
      intro h0
      rw [(fesValue_top kt n0).2 h0] at hx
      cases hx
    have hx' : x = -kt * Real.log n0 := by
      simp only [fesValue, hn00, if_false] at hx
      exact (WithTop.coe_inj.1 hx).symm
    have hM0 : M ≠ 0 := fun h0 => hn00 (Nat.le_zero.1 (h0 ▸ hge _ hn0))
    have hMn : M = n0 := by
      refine le_antisymm ?_ (hge _ hn0)
      have h4 := h3 _ (List.mem_map_of_mem hmem)
      simp only [fesValue, hM0, if_false] at h4
      have h5 : x ≤ -kt * Real.log M := WithTop.coe_le_coe.1 h4
      rw [hx'] at h5
      have h6 : Real.log M ≤ Real.log n0 := by
        by_contra hc
        have : kt * Real.log n0 < kt * Real.log M := mul_lt_mul_of_pos_left (not_le.1 hc) hk
        linarith
      have h7 := (Real.log_le_log_iff (by positivity) (by positivity)).1 h6
      exact_mod_cast h7
    subst hMn
    simp only [pure_eq_ok, Except.ok.injEq, Nd.mk.injEq, true_and, List.map_map]
    refine List.map_congr_left (fun n hn => ?_)
    simp only [Function.comp, topSub, Spec.freeEnergy, fesValue]
    by_cases hn : n = 0
    · simp [hn]
    · simp only [hn, if_false]
      rw [WithTop.map_coe, WithTop.coe_inj, hx', Real.log_div (by positivity) (by positivity)]
      ring

/-- C63: without bins numpy's `min` raises. -/
theorem fes_no_bins (counts : Nd Nat) (kt : ℝ) (h : counts.flat = []) :
    calculateFes counts kt true = .error .valueError := by
  simp [calculateFes, Nd.map, h, npMin]; rfl

/-- **C63.** Consequences: infinity exactly for empty bins. -/
theorem freeEnergy_top (kt : ℝ) (m n : Nat) : Spec.freeEnergy kt m n = ⊤ ↔ n = 0 := by
  unfold Spec.freeEnergy
  split
  · simp [*]
  · simp only [*, iff_false]; exact WithTop.coe_ne_top

/-- **C63.** All values are at least zero, and zero exactly for the fullest bins. -/
theorem freeEnergy_min (kt : ℝ) (hk : 0 < kt) (m n : Nat) (h : n ≤ m) (hm : m ≠ 0) :
    0 ≤ Spec.freeEnergy kt m n ∧ (Spec.freeEnergy kt m n = 0 ↔ n = m) := by
  unfold Spec.freeEnergy
  by_cases hn : n = 0
  · simp only [hn, if_true]
    exact ⟨le_top, by simp [Ne.symm hm]⟩
  · simp only [hn, if_false]
    have hn' : (0 : ℝ) < n := by positivity
    have h1 : (1 : ℝ) ≤ m / n := by rw [le_div_iff₀ hn']; simpa using h
    refine ⟨?_, ?_⟩
    · exact WithTop.coe_le_coe.2 (mul_nonneg hk.le (Real.log_nonneg h1))
    · rw [← WithTop.coe_zero, WithTop.coe_inj, mul_eq_zero]
      constructor
      · rintro (h0 | h0)
        · exact absurd h0 hk.ne'
        · by_contra hne
          have : (1 : ℝ) < m / n := by
            rw [lt_div_iff₀ hn']; simpa using lt_of_le_of_ne h hne
          exact absurd h0 (Real.log_pos this).ne'
      · rintro rfl
        right
        rw [div_self hn'.ne', Real.log_one]

/-- **C63.** The values determine the ratios of counts: `F_a - F_b = -kT ln(n_a / n_b)`. -/
theorem freeEnergy_diff (kt : ℝ) (m a b : Nat) (hm : m ≠ 0) (ha : a ≠ 0) (hb : b ≠ 0) :
    ∃ fa fb : ℝ, Spec.freeEnergy kt m a = fa ∧ Spec.freeEnergy kt m b = fb ∧
      fa - fb = -kt * Real.log ((a : ℝ) / b) := by
  refine ⟨kt * Real.log ((m : ℝ) / a), kt * Real.log ((m : ℝ) / b), by simp only [Spec.freeEnergy, ha, if_false],
    by simp only [Spec.freeEnergy, hb, if_false], ?_⟩
  rw [Real.log_div (by positivity) (by positivity), Real.log_div (by positivity) (by positivity),
    Real.log_div (by positivity) (by positivity)]
  ring

theorem maxCount_mul (c : Nat) (l : List Nat) : Spec.maxCount (l.map (c * ·)) = c * Spec.maxCount l := by
  induction l with
  | nil => simp [Spec.maxCount]
  | cons a l ih =>
    unfold Spec.maxCount at ih ⊢
    rw [List.map_cons, List.foldr_cons, ih, List.foldr_cons, Nat.mul_max_mul_left]

/-- **C63.** Multiplying all counts with the same factor does not change the FES. -/
theorem fes_scale (counts : Nd Nat) (kt : ℝ) (hk : 0 < kt) (c : Nat) (hc : c ≠ 0) :
    calculateFes (counts.map (c * ·)) kt true = calculateFes counts kt true := by
  by_cases h : counts.flat = []
  · rw [fes_no_bins _ _ h, fes_no_bins _ _ (by simp [Nd.map, h])]
  · rw [fes_spec _ _ hk h, fes_spec _ _ hk (by simpa [Nd.map] using h)]
    simp only [Nd.map, List.map_map, maxCount_mul, Except.ok.injEq, Nd.mk.injEq, true_and]
    refine List.map_congr_left (fun n _ => ?_)
    simp only [Function.comp, Spec.freeEnergy, Nat.mul_eq_zero, hc, false_or]
    split
    · rfl
    · push_cast
      rw [mul_div_mul_left _ _ (by exact_mod_cast hc)]

/-- **C63.** The statement about the result of the function: infinity exactly for empty bins; if there are
counts, the minimum is zero and attained exactly at the fullest bins; differences of the values in
non-empty bins are `-kT ln(n_a / n_b)`. -/
theorem fes_properties (counts : Nd Nat) (kt : ℝ) (hk : 0 < kt) (fes : Nd (WithTop ℝ))
    (h : calculateFes counts kt true = .ok fes) :
    fes.shape = counts.shape ∧ fes.flat.length = counts.flat.length ∧
    (∀ i : Nat, fes.flat[i]? = some ⊤ ↔ counts.flat[i]? = some 0) ∧
    ((∃ n ∈ counts.flat, n ≠ 0) → (0 ∈ fes.flat) ∧ (∀ x ∈ fes.flat, 0 ≤ x) ∧
      ∀ i : Nat, fes.flat[i]? = some 0 ↔ ∃ n, counts.flat[i]? = some n ∧ ∀ k ∈ counts.flat, k ≤ n) ∧
    ∀ (i j a b : Nat), counts.flat[i]? = some a → counts.flat[j]? = some b → a ≠ 0 → b ≠ 0 →
      ∃ fa fb : ℝ, fes.flat[i]? = some (fa : WithTop ℝ) ∧ fes.flat[j]? = some (fb : WithTop ℝ) ∧
        fa - fb = -kt * Real.log ((a : ℝ) / b) := by
  have hf : counts.flat ≠ [] := by
    intro h0
    rw [fes_no_bins _ _ h0] at h
    cases h
  rw [fes_spec counts kt hk hf] at h
  cases h
  have hmem := maxCount_mem _ hf
  have hge := maxCount_ge counts.flat
  simp only [Nd.map, List.length_map, List.getElem?_map, true_and]
  generalize Spec.maxCount counts.flat = M at hmem hge
  refine ⟨fun i => ?_, ?_, ?_⟩
  · cases counts.flat[i]? with
    | none => simp
    | some n => simp [freeEnergy_top]
  · rintro ⟨n0, hn0, hn0'⟩
    have hM : M ≠ 0 := fun h0 => hn0' (Nat.le_zero.1 (h0 ▸ hge _ hn0))
    refine ⟨List.mem_map.2 ⟨M, hmem, ((freeEnergy_min kt hk M M le_rfl hM).2).2 rfl⟩, ?_, fun i => ?_⟩
    · intro x hx
      obtain ⟨n, hn, rfl⟩ := List.mem_map.1 hx
      exact (freeEnergy_min kt hk M n (hge n hn) hM).1
    · cases hi : counts.flat[i]? with
      | none => simp
      | some n =>
        have hn := List.mem_of_getElem? hi
        simp only [Option.map_some, Option.some.injEq, (freeEnergy_min kt hk M n (hge n hn) hM).2]
        constructor
        · rintro rfl
          exact ⟨n, rfl, hge⟩
        · rintro ⟨k, rfl, hk'⟩
          exact le_antisymm (hge n hn) (hk' M hmem)
  · intro i j a b hi hj ha hb
    have hM : M ≠ 0 := fun h0 => ha (Nat.le_zero.1 (h0 ▸ hge _ (List.mem_of_getElem? hi)))
    obtain ⟨fa, fb, h1, h2, h3⟩ := freeEnergy_diff kt M a b hM ha hb
    exact ⟨fa, fb, by simp [hi, h1], by simp [hj, h2], h3⟩

/-- **C63.** An entirely empty histogram gives infinity everywhere. -/
theorem fes_empty (counts : Nd Nat) (kt : ℝ) (hk : 0 < kt) (h : counts.flat ≠ [])
    (h0 : ∀ n ∈ counts.flat, n = 0) : calculateFes counts kt true = .ok (counts.map (fun _ => ⊤)) := by
  rw [fes_spec counts kt hk h]
  simp only [Nd.map, Except.ok.injEq, Nd.mk.injEq, true_and]
  exact List.map_congr_left (fun n hn => (freeEnergy_top _ _ _).2 (h0 n hn))

/-- Example: three bins with 2, 0 and 4 counts. -/
example : calculateFes ⟨[3], [2, 0, 4]⟩ 1 true =
    .ok ⟨[3], [((Real.log 2 : ℝ) : WithTop ℝ), ⊤, 0]⟩ := by
  rw [fes_spec _ _ one_pos (by simp)]
  have h : Spec.maxCount [2, 0, 4] = 4 := rfl
  simp only [Nd.map, h, Spec.freeEnergy, List.map_cons, List.map_nil, Except.ok.injEq, Nd.mk.injEq, true_and]
  norm_num

/-! ### C64: free energy differences -/

theorem boltzmann_freeEnergy (kt : ℝ) (hk : 0 < kt) (m n : Nat) (hm : m ≠ 0) :
    boltzmann kt (Spec.freeEnergy kt m n) = (n : ℝ) / m := by
  unfold Spec.freeEnergy
  by_cases hn : n = 0
  · simp only [hn, if_true]
    show (0 : ℝ) = _
    simp
  · simp only [hn, if_false]
    show Real.exp (-(kt * Real.log ((m : ℝ) / n)) / kt) = _
    have h1 : -(kt * Real.log ((m : ℝ) / n)) / kt = Real.log ((n : ℝ) / m) := by
      rw [Real.log_div (by positivity) (by positivity), Real.log_div (by positivity) (by positivity)]
      field_simp
      ring
    rw [h1, Real.exp_log (by positivity)]

theorem countsIn_sum (m : ℝ) (counts : List Nat) (mask : List Bool) :
    (List.zipWith (fun p (b : Bool) => if b then p else 0) (counts.map (fun n : Nat => (n : ℝ) / m)) mask).sum =
      (Spec.countsIn counts mask : ℝ) / m := by
  induction counts generalizing mask with
  | nil => simp [Spec.countsIn]
  | cons n counts ih =>
    cases mask with
    | nil => simp [Spec.countsIn]
    | cons b mask =>
      have := ih mask
      simp only [Spec.countsIn, List.map_cons, List.zipWith_cons_cons, List.sum_cons, Nat.cast_add] at this ⊢
      rw [this, add_div]
      cases b <;> simp

theorem countsIn_ne_zero (counts : List Nat) (mask : List Bool) (h : Spec.countsIn counts mask ≠ 0) :
    Spec.maxCount counts ≠ 0 := by
  intro h0
  apply h
  have h1 : ∀ n ∈ counts, n = 0 := fun n hn => Nat.le_zero.1 (h0 ▸ maxCount_ge counts n hn)
  clear h0 h
  induction counts generalizing mask with
  | nil => simp [Spec.countsIn]
  | cons n counts ih =>
    cases mask with
    | nil => simp [Spec.countsIn]
    | cons b mask =>
      have h2 := ih mask (fun n hn => h1 n (List.mem_cons_of_mem _ hn))
      unfold Spec.countsIn at h2 ⊢
      rw [List.zipWith_cons_cons, List.sum_cons, h2, h1 n List.mem_cons_self]
      simp

/-- **C64.** The free energy differences calculated from the FES of a histogram are
`-kT ln(N_i / N_1)` with `N_i` the counts in state `i`, for all masks that fit the histogram and contain
counts. -/
theorem deltaF_spec (counts : Nd Nat) (kt : ℝ) (hk : 0 < kt) (masks : List (List Bool))
    (hf : counts.flat ≠ []) (hl : ∀ m ∈ masks, m.length = counts.flat.length)
    (hN : ∀ m ∈ masks, Spec.countsIn counts.flat m ≠ 0) :
    (do let fes ← calculateFes counts kt true
        calculateDeltaF fes kt masks) =
      .ok (masks.tail.map (fun m => -kt * Real.log
        ((Spec.countsIn counts.flat m : ℝ) / Spec.countsIn counts.flat (masks.headD [])))) := by
  rw [fes_spec counts kt hk hf, ok_bind]
  cases masks with
  | nil => rfl
  | cons m0 masks =>
    have hM := countsIn_ne_zero _ _ (hN m0 List.mem_cons_self)
    generalize hMdef : Spec.maxCount counts.flat = M at hM ⊢
    have hp : (counts.flat.map (Spec.freeEnergy kt M)).map (boltzmann kt) =
        counts.flat.map (fun n : Nat => (n : ℝ) / M) := by
      rw [List.map_map]
      exact List.map_congr_left (fun n _ => boltzmann_freeEnergy kt hk M n hM)
    have hs : ∀ m ∈ m0 :: masks, maskedSum (counts.flat.map (fun n : Nat => (n : ℝ) / M)) m =
        .ok ((Spec.countsIn counts.flat m : ℝ) / M) := by
      intro m hm
      unfold maskedSum
      rw [if_pos (by rw [List.length_map]; exact hl m hm), countsIn_sum]
    have hmap : (m0 :: masks).mapM (maskedSum (counts.flat.map (fun n : Nat => (n : ℝ) / M))) =
        .ok ((m0 :: masks).map (fun m => (Spec.countsIn counts.flat m : ℝ) / M)) := mapM_ok _ _ _ hs
    simp only [calculateDeltaF, Nd.map, hp, hmap, ok_bind, pure_eq_ok, List.map_cons, List.tail_cons,
      List.headD_cons, List.map_map, Except.ok.injEq]
    refine List.map_congr_left (fun m _ => ?_)
    simp only [Function.comp]
    rw [div_div_div_cancel_right₀ (by exact_mod_cast hM)]

theorem maskedSum_mul (c : ℝ) (probs : List ℝ) (mask : List Bool) :
    maskedSum (probs.map (c * ·)) mask = (maskedSum probs mask).map (c * ·) := by
  unfold maskedSum
  rw [List.length_map]
  split
  · simp only [Except.map, Except.ok.injEq]
    rename_i h
    clear h
    induction probs generalizing mask with
    | nil => simp
    | cons p probs ih =>
      cases mask with
      | nil => simp
      | cons b mask =>
        simp only [List.map_cons, List.zipWith_cons_cons, List.sum_cons, ih mask, mul_add]
        cases b <;> simp
  · rfl

theorem mapM_map {α β : Type} (f : α → Except PyErr β) (g : β → β) (l : List α) :
    l.mapM (fun a => (f a).map g) = (l.mapM f).map (List.map g) := by
  induction l with
  | nil => rfl
  | cons a l ih =>
    rw [List.mapM_cons, List.mapM_cons, ih]
    cases f a with
    | error e => rfl
    | ok b => cases l.mapM f <;> rfl

/-- **C64.** A constant shift of the FES does not change the differences, for every FES and all masks. -/
theorem deltaF_shift (fes : Nd (WithTop ℝ)) (kt c : ℝ) (masks : List (List Bool)) :
    calculateDeltaF (fes.map (· + (c : WithTop ℝ))) kt masks = calculateDeltaF fes kt masks := by
  have hb : ∀ x : WithTop ℝ, boltzmann kt (x + (c : WithTop ℝ)) = Real.exp (-c / kt) * boltzmann kt x := by
    intro x
    match x with
    | none => show boltzmann kt (⊤ + (c : WithTop ℝ)) = _ * (0 : ℝ); rw [top_add, mul_zero]; rfl
    | some x =>
      show Real.exp (-(x + c) / kt) = _ * Real.exp (-x / kt)
      rw [← Real.exp_add]
      congr 1
      ring
  have hp : (fes.map (· + (c : WithTop ℝ))).flat.map (boltzmann kt) =
      (fes.flat.map (boltzmann kt)).map (Real.exp (-c / kt) * ·) := by
    simp only [Nd.map, List.map_map]
    exact List.map_congr_left (fun x _ => hb x)
  have hm : masks.mapM (maskedSum ((fes.flat.map (boltzmann kt)).map (Real.exp (-c / kt) * ·))) =
      (masks.mapM (maskedSum (fes.flat.map (boltzmann kt)))).map (List.map (Real.exp (-c / kt) * ·)) := by
    rw [← mapM_map]
    congr 1
    funext m
    exact maskedSum_mul _ _ _
  simp only [calculateDeltaF, hp, hm]
  cases masks.mapM (maskedSum (fes.flat.map (boltzmann kt))) with
  | error e => rfl
  | ok l =>
    simp only [Except.map, ok_bind, pure_eq_ok, Except.ok.injEq]
    cases l with
    | nil => rfl
    | cons p0 l =>
      simp only [List.map_cons, List.tail_cons, List.headD_cons, List.map_map]
      refine List.map_congr_left (fun p _ => ?_)
      simp only [Function.comp]
      rw [mul_div_mul_left _ _ (Real.exp_pos _).ne']

/-- Free energy difference between two states calculated by the code from the histogram. -/
noncomputable def histoDeltaF (counts : Nd Nat) (kt : ℝ) (masks : List (List Bool)) : Except PyErr (List ℝ) := do
  let fes ← calculateFes counts kt true
  calculateDeltaF fes kt masks

/-- **C64.** Differences are additive over a chain of states and antisymmetric. -/
theorem deltaF_chain (counts : Nd Nat) (kt : ℝ) (hk : 0 < kt) (a b c : List Bool) (hf : counts.flat ≠ [])
    (hl : ∀ m ∈ [a, b, c], m.length = counts.flat.length)
    (hN : ∀ m ∈ [a, b, c], Spec.countsIn counts.flat m ≠ 0) :
    ∃ x y : ℝ, histoDeltaF counts kt [a, b] = .ok [x] ∧ histoDeltaF counts kt [b, c] = .ok [y] ∧
      histoDeltaF counts kt [a, c] = .ok [x + y] ∧ histoDeltaF counts kt [b, a] = .ok [-x] := by
  have ha := hN a (by simp)
  have hb := hN b (by simp)
  have hc := hN c (by simp)
  have key : ∀ s t : List Bool, s ∈ [a, b, c] → t ∈ [a, b, c] → histoDeltaF counts kt [s, t] =
      .ok [-kt * (Real.log (Spec.countsIn counts.flat t) - Real.log (Spec.countsIn counts.flat s))] := by
    intro s t hs ht
    unfold histoDeltaF
    rw [deltaF_spec counts kt hk [s, t] hf (by simp [hl s hs, hl t ht]) (by simp [hN s hs, hN t ht])]
    have h1 := hN s hs
    have h2 := hN t ht
    simp only [List.tail_cons, List.map_cons, List.map_nil, List.headD_cons]
    rw [Real.log_div (by exact_mod_cast h2) (by exact_mod_cast h1)]
  refine ⟨_, _, key a b (by simp) (by simp), key b c (by simp) (by simp), ?_, ?_⟩
  · rw [key a c (by simp) (by simp)]; congr 2; ring
  · rw [key b a (by simp) (by simp)]; congr 2; ring

/-- C64: a mask of the wrong size raises `IndexError`. -/
theorem deltaF_wrong_size (fes : Nd (WithTop ℝ)) (kt : ℝ) (m : List Bool) (masks : List (List Bool))
    (h : m.length ≠ fes.flat.length) : calculateDeltaF fes kt (m :: masks) = .error .indexError := by
  have : maskedSum (fes.flat.map (boltzmann kt)) m = .error .indexError := by
    unfold maskedSum
    rw [if_neg (by rwa [List.length_map])]
  simp only [calculateDeltaF, List.mapM_cons, this]
  rfl

/-- Example: states with the first bin (two counts) and the other two (four counts). -/
example : histoDeltaF ⟨[3], [2, 0, 4]⟩ 1 [[true, false, false], [false, true, true]] =
    .ok [-Real.log 2] := by
  unfold histoDeltaF
  rw [deltaF_spec _ _ one_pos _ (by simp) (by simp) (by simp [Spec.countsIn])]
  simp only [Spec.countsIn, List.tail_cons, List.map_cons, List.map_nil, List.headD_cons, List.zipWith]
  norm_num

end Bdld
