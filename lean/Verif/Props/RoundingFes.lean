import Verif.Lemmas.RoundingFes

/-
C116: rounding errors of free energies and free energy differences.
-/

set_option linter.unusedSectionVars false

namespace Bdld
open Spec

section
variable {F : Type} [Add F] [Sub F] [Mul F] [Div F] [Neg F] [LT F] [DecidableLT F] {A : Rounding F} {f : FloatFns F}

/-- The minimum is that of the values. -/
theorem npMin_val (A : Rounding F) (l : List (WithTop F)) (hl : ∀ a : F, (a : WithTop F) ∈ l → A.fin a) (m : WithTop F)
    (h : npMin l = .ok m) : m ∈ l ∧ npMin (l.map (WithTop.map A.val)) = .ok (m.map A.val) := by
  cases l with
  | nil => cases h
  | cons x l =>
    simp only [npMin, Except.ok.injEq, List.map_cons] at h ⊢
    induction l generalizing x with
    | nil => subst h; simp
    | cons y l ih =>
      have hxy : (y < x) ↔ (y.map A.val < x.map A.val) := by
        cases x with
        | top =>
          cases y with
          | top => simp
          | coe y => simp [WithTop.coe_lt_top]
        | coe x =>
          cases y with
          | top => simp
          | coe y =>
            rw [WithTop.map_coe, WithTop.map_coe, WithTop.coe_lt_coe, WithTop.coe_lt_coe]
            exact A.lt y x (hl y (by simp)) (hl x (by simp))
      simp only [List.foldl_cons, List.map_cons] at h ⊢
      by_cases hc : y < x
      · rw [if_pos hc] at h
        rw [if_pos (hxy.1 hc)]
        have := ih y (fun a ha => hl a (List.mem_cons_of_mem _ ha)) h
        exact ⟨List.mem_cons_of_mem _ this.1, this.2⟩
      · rw [if_neg hc] at h
        rw [if_neg (fun h' => hc (hxy.2 h'))]
        have := ih x (fun a ha => hl a (by
          rcases List.mem_cons.1 ha with h1 | h1
          · exact h1 ▸ List.mem_cons_self
          · exact List.mem_cons_of_mem _ (List.mem_cons_of_mem _ h1))) h
        refine ⟨?_, this.2⟩
        rcases List.mem_cons.1 this.1 with h1 | h1
        · exact h1 ▸ List.mem_cons_self
        · exact List.mem_cons_of_mem _ (List.mem_cons_of_mem _ h1)

variable (hf : FesContract A f)

/-- The bounds for given `kT` and largest logarithm of counts. -/
noncomputable def fesBnd (hf : FesContract A f) (k L : ℝ) : FesBnd := ⟨A.u, A.η, hf.er, hf.lg, k, L⟩

/-- `-kT ln n`. -/
theorem near_fesValue {kt : F} (hk : A.fin kt) (hk0 : 0 < A.val kt) {L : ℝ} {n : Nat} (hn : n ≠ 0) (hN : n ≤ hf.N)
    (hL : Real.log n ≤ L) (hΩ : (fesBnd hf (A.val kt) L).FesFits A.Ω) :
    Near A (fesBnd hf (A.val kt) L).raw (-kt * f.log (f.ofNat n)) (-A.val kt * Real.log n) := by
  obtain ⟨h1, h2⟩ := hf.ofNat n hN
  have hn0 : (0 : ℝ) < n := by exact_mod_cast Nat.pos_of_ne_zero hn
  have hlog : 0 ≤ Real.log n := Real.log_natCast_nonneg n
  obtain ⟨h3, h4⟩ := hf.log _ h1 (by rw [h2]; exact hn0)
  rw [h2] at h4
  have hl : Near A ⟨hf.lg * L, L⟩ (f.log (f.ofNat n)) (Real.log n) := by
    refine ⟨h3, h4.trans ?_, ?_⟩
    · rw [abs_of_nonneg hlog]
      exact mul_le_mul_of_nonneg_left hL hf.lg_nonneg
    · rw [abs_of_nonneg hlog]
      exact hL
  have hkn : Near A (Bnd.exact (A.val kt)) (-kt) (-A.val kt) := near_neg (near_exact hk (abs_of_pos hk0).le)
  exact near_mul hkn hl hΩ.raw

/-- **C116.** Computed free energies: infinite exactly where the exact ones are (empty bins), elsewhere the error is at most
`FesBnd.fes`. -/
theorem fes_rounding {kt : F} (hk : A.fin kt) (hk0 : 0 < A.val kt) (counts : Nd Nat) (hc : counts.flat ≠ []) {L : ℝ}
    (hN : ∀ n ∈ counts.flat, n ≤ hf.N) (hL : ∀ n ∈ counts.flat, n ≠ 0 → Real.log n ≤ L)
    (hΩ : (fesBnd hf (A.val kt) L).FesFits A.Ω) :
    ∃ g : Nat → WithTop F, calculateFesF f counts kt true = .ok (counts.map g) ∧
      calculateFes counts (A.val kt) true = .ok (counts.map (freeEnergy (A.val kt) (maxCount counts.flat))) ∧
      (∀ n ∈ counts.flat, NearTop A (fesBnd hf (A.val kt) L).fes (g n) (freeEnergy (A.val kt) (maxCount counts.flat) n)) ∧
      (A.u ≤ 1 → (∃ n ∈ counts.flat, n ≠ 0) → (∃ n ∈ counts.flat, ∃ a : F, g n = a ∧ A.val a = 0) ∧
        ∀ n ∈ counts.flat, ∀ a : F, g n = a → 0 ≤ A.val a) := by
  set B := fesBnd hf (A.val kt) L with hB
  have hv : ∀ n ∈ counts.flat, n ≠ 0 → Near A B.raw (-kt * f.log (f.ofNat n)) (-A.val kt * Real.log n) :=
    fun n hn h0 => near_fesValue hf hk hk0 h0 (hN n hn) (hL n hn h0) hΩ
  obtain ⟨m, hm⟩ : ∃ m, npMin (counts.flat.map (fesValueF f kt)) = .ok m := by
    cases hl : counts.flat with
    | nil => exact absurd hl hc
    | cons x l => exact ⟨_, rfl⟩
  obtain ⟨hmem, hmv⟩ := npMin_val A _ (by
    intro a ha
    obtain ⟨n, hn, he⟩ := List.mem_map.1 ha
    unfold fesValueF at he
    split at he
    · cases he
    · rename_i h0
      rw [← WithTop.coe_injective he]
      exact (hv n hn h0).1) m hm
  obtain ⟨m', e1, _, hmin⟩ := npMin_spec ((counts.flat.map (fesValueF f kt)).map (WithTop.map A.val)) (by simpa using hc)
  rw [hmv] at e1
  obtain rfl := Except.ok.inj e1
  obtain ⟨n₀, hn₀, rfl⟩ := List.mem_map.1 hmem
  have hex := fes_spec counts (A.val kt) hk0 hc
  by_cases h0 : n₀ = 0
  · -- all bins are empty
    subst h0
    have hall : ∀ n ∈ counts.flat, n = 0 := by
      intro n hn
      by_contra h0
      have := hmin ((fesValueF f kt n).map A.val) (List.mem_map.2 ⟨_, List.mem_map.2 ⟨n, hn, rfl⟩, rfl⟩)
      simp [fesValueF, h0] at this
    refine ⟨fesValueF f kt, ?_, hex, ?_, ?_⟩
    · simp only [calculateFesF, Nd.map, if_true, hm, ok_bind]
      simp [fesValueF]
      rfl
    · intro n hn
      rw [hall n hn]
      simp only [fesValueF, freeEnergy, if_true]
      trivial
    · rintro _ ⟨n, hn, h⟩
      exact absurd (hall n hn) h
  · have hv₀ := hv n₀ hn₀ h0
    have hval₀ : fesValueF f kt n₀ = ((-kt * f.log (f.ofNat n₀) : F) : WithTop F) := by simp [fesValueF, h0]
    rw [hval₀] at hm hmin
    set a₀ := -kt * f.log (f.ofNat n₀) with ha₀
    set M := maxCount counts.flat with hM
    have hMmem : M ∈ counts.flat := maxCount_mem _ hc
    have hMge : ∀ n ∈ counts.flat, n ≤ M := maxCount_ge _
    have hM0 : M ≠ 0 := fun h => h0 (Nat.le_zero.1 (h ▸ hMge n₀ hn₀))
    have hle : ∀ n ∈ counts.flat, n ≠ 0 → A.val a₀ ≤ A.val (-kt * f.log (f.ofNat n)) := by
      intro n hn hn0
      have := hmin ((fesValueF f kt n).map A.val) (List.mem_map.2 ⟨_, List.mem_map.2 ⟨n, hn, rfl⟩, rfl⟩)
      simpa [fesValueF, hn0] using this
    have hlogle : ∀ n ∈ counts.flat, n ≠ 0 → -A.val kt * Real.log M ≤ -A.val kt * Real.log n := by
      intro n hn hn0
      have h1 : (0 : ℝ) < n := by exact_mod_cast Nat.pos_of_ne_zero hn0
      have := Real.log_le_log h1 (by exact_mod_cast hMge n hn : (n : ℝ) ≤ M)
      nlinarith
    -- the minimum approximates the exact minimum
    have hnear : Near A B.raw a₀ (-A.val kt * Real.log M) := by
      have hvM := hv M hMmem hM0
      refine ⟨hv₀.1, ?_, hvM.2.2⟩
      rw [abs_le]
      have g1 := hle M hMmem hM0
      have g2 := hlogle n₀ hn₀ h0
      constructor
      · linarith [(abs_le.1 hv₀.2.1).1]
      · linarith [(abs_le.1 hvM.2.1).2]
    have hg : ∀ n ∈ counts.flat, n ≠ 0 →
        Near A B.fes (-kt * f.log (f.ofNat n) - a₀) (A.val kt * Real.log ((M : ℝ) / n)) := by
      intro n hn hn0
      have h1 : (n : ℝ) ≠ 0 := by exact_mod_cast hn0
      have h2 : (M : ℝ) ≠ 0 := by exact_mod_cast hM0
      have := near_sub (hv n hn hn0) hnear hΩ.fes
      rw [Real.log_div h2 h1, show A.val kt * (Real.log M - Real.log n) = -A.val kt * Real.log n - -A.val kt * Real.log M by ring]
      exact this
    have hsub : ∀ n ∈ counts.flat, n ≠ 0 → |A.val (-kt * f.log (f.ofNat n) - a₀) - (A.val (-kt * f.log (f.ofNat n)) - A.val a₀)| ≤
        A.u * |A.val (-kt * f.log (f.ofNat n)) - A.val a₀| := by
      intro n hn hn0
      refine (A.sub _ _ (hv n hn hn0).1 hv₀.1 ?_).2
      refine le_trans ?_ hΩ.fes
      have := abs_sub (A.val (-kt * f.log (f.ofNat n))) (A.val a₀)
      have g1 := near_val (hv n hn hn0)
      have g2 := near_val hv₀
      unfold Bnd.addTop
      linarith
    refine ⟨fun n => (fesValueF f kt n).map (· - a₀), ?_, hex, ?_, ?_⟩
    · simp only [calculateFesF, Nd.map, if_true, hm, ok_bind, List.map_map]
      rfl
    · intro n hn
      by_cases hn0 : n = 0
      · subst hn0
        simp only [fesValueF, freeEnergy, if_true]
        trivial
      · simp only [fesValueF, freeEnergy, hn0, if_false]
        exact hg n hn hn0
    · intro hu1 _
      refine ⟨⟨n₀, hn₀, a₀ - a₀, by show WithTop.map _ (fesValueF f kt n₀) = _; rw [hval₀]; rfl, ?_⟩, ?_⟩
      · have := hsub n₀ hn₀ h0
        rw [← ha₀, sub_self, sub_zero, abs_zero, mul_zero] at this
        exact abs_nonpos_iff.1 this
      · intro n hn a ha
        by_cases hn0 : n = 0
        · subst hn0
          simp [fesValueF] at ha
        · simp only [fesValueF, hn0, if_false, WithTop.map_coe] at ha
          rw [← WithTop.coe_injective ha]
          have g1 := hsub n hn hn0
          have g2 := hle n hn hn0
          rw [abs_of_nonneg (by linarith : 0 ≤ A.val (-kt * f.log (f.ofNat n)) - A.val a₀)] at g1
          have g3 := (abs_le.1 g1).1
          nlinarith

/-! ### Free energy differences -/

theorem selectMask_length {α : Type} : ∀ (l : List α) (mask : List Bool), mask.length = l.length → (selectMask l mask).length = mask.count true
  | [], [], _ => rfl
  | x :: l, b :: mask, h => by
    have := selectMask_length l mask (by simpa using h)
    cases b <;> simp [selectMask] at this ⊢ <;> exact this

theorem selectMask_forall₂ {α β : Type} {S : α → β → Prop} : ∀ {l : List α} {l' : List β} (mask : List Bool), List.Forall₂ S l l' →
    List.Forall₂ S (selectMask l mask) (selectMask l' mask)
  | _, _, mask, .nil => by simp [selectMask]
  | _, _, [], .cons _ _ => by simp [selectMask]
  | _, _, b :: mask, .cons h hl => by
    have := selectMask_forall₂ mask hl
    cases b
    · simpa [selectMask] using this
    · simpa [selectMask] using ⟨h, this⟩

theorem selectMask_sum : ∀ (l : List ℝ) (mask : List Bool),
    (selectMask l mask).sum = (List.zipWith (fun p (b : Bool) => if b then p else 0) l mask).sum
  | [], mask => by simp [selectMask]
  | x :: l, [] => by simp [selectMask]
  | x :: l, b :: mask => by
    have := selectMask_sum l mask
    cases b
    · simpa [selectMask] using this
    · simpa [selectMask] using this

theorem selectMask_mem {α : Type} {l : List α} {mask : List Bool} {x : α} (h : x ∈ selectMask l mask) : x ∈ l := by
  obtain ⟨⟨y, b⟩, h1, h2⟩ := List.mem_filterMap.1 h
  cases b
  · simp at h2
  · simp only [if_true, Option.some.injEq] at h2
    exact h2 ▸ (List.of_mem_zip h1).1

theorem countsIn_le_sum : ∀ (l : List Nat) (mask : List Bool), countsIn l mask ≤ l.sum
  | [], mask => by simp [countsIn]
  | x :: l, [] => by simp [countsIn]
  | x :: l, b :: mask => by
    have := countsIn_le_sum l mask
    unfold countsIn at this ⊢
    rw [List.zipWith_cons_cons, List.sum_cons, List.sum_cons]
    cases b <;> simp <;> omega

/-- Relative error of the probability of a bin. -/
theorem relNear_boltzmann {B : FesBnd} (hu : B.u = A.u) (hη : B.η = A.η) (her : B.er = hf.er) {kt : F} (hk : A.fin kt)
    (hk0 : 0 < A.val kt) (hBk : B.k = A.val kt) (hΩ : B.fes.divTop B.k ≤ A.Ω) (h1 : B.arg.err ≤ 1) (hR : B.arg.mag + B.arg.err ≤ hf.R)
    (a : WithTop F) (x : WithTop ℝ) (h : NearTop A B.fes a x) : RelNear A B.prob (boltzmannF f kt a) (boltzmann (A.val kt) x) := by
  match a, x, h with
  | none, none, _ =>
    refine ⟨hf.zero.1, ?_⟩
    simp [boltzmannF, boltzmann, hf.zero.2]
  | some a, some x, h =>
    have ha : Near A B.arg (-a / kt) (-x / A.val kt) := by
      have := near_div (near_neg (show Near A B.fes a x from h)) hk rfl hk0 (by rw [← hBk]; exact hΩ)
      rw [← hu, ← hη] at this
      unfold FesBnd.arg
      rw [hBk]
      exact this
    have := relNear_exp hf ha h1 hR
    rw [← her] at this
    exact this

/-- **C116.** Computed free energy differences: for populated states of at most `K` bins the error is at most `FesBnd.deltaF`. -/
theorem deltaF_rounding {kt : F} (hk : A.fin kt) (hk0 : 0 < A.val kt) (counts : Nd Nat) {L : ℝ} {K : Nat}
    (hN : ∀ n ∈ counts.flat, n ≤ hf.N) (hL : (counts.flat.sum : ℝ) ≤ Real.exp L) (m₀ : List Bool) (masks : List (List Bool))
    (hl : ∀ m ∈ m₀ :: masks, m.length = counts.flat.length) (hpop : ∀ m ∈ m₀ :: masks, countsIn counts.flat m ≠ 0)
    (hK : ∀ m ∈ m₀ :: masks, m.count true ≤ K) (hΩ : (fesBnd hf (A.val kt) L).Fits K hf.R A.Ω) :
    ∃ l l' : List _, (do let fes ← calculateFesF f counts kt true
                         calculateDeltaFF f fes kt (m₀ :: masks)) = .ok l ∧
      (do let fes ← calculateFes counts (A.val kt) true
          calculateDeltaF fes (A.val kt) (m₀ :: masks)) = .ok l' ∧
      List.Forall₂ (Near A ((fesBnd hf (A.val kt) L).deltaF K)) l l' := by
  have hc : counts.flat ≠ [] := by
    intro h
    apply hpop m₀ (by simp)
    simp [countsIn, h]
  have hM0 : maxCount counts.flat ≠ 0 := countsIn_ne_zero _ _ (hpop m₀ (by simp))
  have hlog : ∀ n ∈ counts.flat, n ≠ 0 → Real.log n ≤ L := by
    intro n hn h0
    have h1 : (0 : ℝ) < n := by exact_mod_cast Nat.pos_of_ne_zero h0
    rw [Real.log_le_iff_le_exp h1]
    refine le_trans ?_ hL
    exact_mod_cast List.single_le_sum (by simp) n hn
  obtain ⟨g, e1, _, hg, _⟩ := fes_rounding hf hk hk0 counts hc hN hlog hΩ.toFesFits
  set B := fesBnd hf (A.val kt) L with hB
  have hex := deltaF_spec counts (A.val kt) hk0 (m₀ :: masks) hc hl hpop
  set M := maxCount counts.flat with hM
  have hMr : (0 : ℝ) < M := by exact_mod_cast Nat.pos_of_ne_zero hM0
  have herr : 0 ≤ B.arg.err := by
    obtain ⟨n, hn⟩ := List.exists_mem_of_ne_nil _ hc
    have hBk : 0 < B.k := hk0
    have hfe : 0 ≤ B.fes.err := by
      have := hg M (maxCount_mem _ hc)
      simp only [freeEnergy, hM0, if_false] at this
      cases hgM : g M with
      | top => rw [hgM] at this; exact this.elim
      | coe a =>
        rw [hgM] at this
        exact (abs_nonneg _).trans this.2.1
    have hfm : 0 ≤ B.fes.mag := by
      have := hg M (maxCount_mem _ hc)
      simp only [freeEnergy, hM0, if_false] at this
      cases hgM : g M with
      | top => rw [hgM] at this; exact this.elim
      | coe a =>
        rw [hgM] at this
        exact (abs_nonneg _).trans this.2.2
    have hu : 0 ≤ B.u := A.u_nonneg
    have hη : 0 ≤ B.η := A.η_nonneg
    unfold FesBnd.arg Bnd.div
    dsimp only
    positivity
  have hprob : 0 ≤ B.prob := by
    have : 0 ≤ B.er := hf.er_nonneg
    unfold FesBnd.prob
    positivity
  have hu0 : 0 ≤ B.u := A.u_nonneg
  -- probabilities of the bins
  have hbins : List.Forall₂ (RelNear A B.prob) ((counts.flat.map g).map (boltzmannF f kt)) (counts.flat.map (fun n : Nat => (n : ℝ) / M)) := by
    rw [List.map_map, List.forall₂_map_left_iff, List.forall₂_map_right_iff, List.forall₂_same]
    intro n hn
    have := relNear_boltzmann hf (B := B) rfl rfl rfl hk hk0 rfl hΩ.arg hΩ.small hΩ.range (g n) _ (hg n hn)
    rw [boltzmann_freeEnergy _ hk0 _ _ hM0] at this
    exact this
  have hst0 : 0 ≤ B.state K := by
    unfold FesBnd.state
    have h1 : 1 ≤ (1 + B.u) ^ (K - 1) := one_le_pow₀ (by linarith)
    nlinarith
  -- probabilities of the states
  have hstate : ∀ m ∈ m₀ :: masks, ∃ s, maskedSumF f ((counts.flat.map g).map (boltzmannF f kt)) m = .ok s ∧
      RelNear A (B.state K) s ((countsIn counts.flat m : ℝ) / M) := by
    intro m hm
    have hlen : m.length = ((counts.flat.map g).map (boltzmannF f kt)).length := by simpa using hl m hm
    refine ⟨_, by rw [maskedSumF, if_pos hlen], ?_⟩
    set l := selectMask ((counts.flat.map g).map (boltzmannF f kt)) m with hl1
    set l' := selectMask (counts.flat.map (fun n : Nat => (n : ℝ) / M)) m with hl2
    have hll : List.Forall₂ (RelNear A B.prob) l l' := selectMask_forall₂ m hbins
    have hcount : l.length = m.count true := selectMask_length _ _ hlen
    have hsum : l'.sum = (countsIn counts.flat m : ℝ) / M := by
      rw [hl2, selectMask_sum]
      exact countsIn_sum M counts.flat m
    have hpos : 0 < (countsIn counts.flat m : ℝ) / M :=
      div_pos (by exact_mod_cast Nat.pos_of_ne_zero (hpop m hm)) hMr
    have hl0 : 0 < l.length := by
      rcases Nat.eq_zero_or_pos l.length with h | h
      · exfalso
        have h2 : l' = [] := List.eq_nil_of_length_eq_zero (by rw [← hll.length_eq]; exact h)
        rw [h2] at hsum
        simp only [List.sum_nil] at hsum
        linarith
      · exact h
    have hmem : ∀ y ∈ l', 0 ≤ y ∧ y ≤ 1 := by
      intro y hy
      obtain ⟨n, hn, rfl⟩ := List.mem_map.1 (selectMask_mem hy)
      refine ⟨by positivity, ?_⟩
      rw [div_le_one hMr]
      exact_mod_cast maxCount_ge _ n hn
    have hlK : l.length ≤ K := by rw [hcount]; exact hK m hm
    have hsK : l'.sum ≤ K := by
      have := List.sum_le_card_nsmul l' 1 (fun y hy => (hmem y hy).2)
      rw [← hll.length_eq] at this
      refine this.trans ?_
      simp only [nsmul_eq_mul, mul_one]
      exact_mod_cast hlK
    have hpw : (1 + B.prob) * (1 + B.u) ^ (l.length - 1) ≤ 1 + B.state K := by
      unfold FesBnd.state
      have := mul_le_mul_of_nonneg_left (pow_le_pow_right₀ (by linarith : 1 ≤ 1 + B.u) (by omega : l.length - 1 ≤ K - 1))
        (by linarith : 0 ≤ 1 + B.prob)
      linarith
    have hs0 : 0 ≤ l'.sum := List.sum_nonneg fun y hy => (hmem y hy).1
    have := relNear_sum hf hprob hll (fun y hy => (hmem y hy).1) hl0
      ((mul_le_mul hpw hsK hs0 (by linarith)).trans hΩ.state)
    rw [hsum] at this
    refine relNear_mono this hpos.le ?_
    have : B.u = A.u := rfl
    rw [← this]
    linarith
  -- the list of probabilities
  have hstates : ∀ ms : List (List Bool), (∀ m ∈ ms, m ∈ m₀ :: masks) →
      ∃ ss, ms.mapM (maskedSumF f ((counts.flat.map g).map (boltzmannF f kt))) = .ok ss ∧
        List.Forall₂ (fun s m => RelNear A (B.state K) s ((countsIn counts.flat m : ℝ) / M)) ss ms := by
    intro ms
    induction ms with
    | nil => exact fun _ => ⟨[], rfl, .nil⟩
    | cons m ms ih =>
      intro h
      obtain ⟨s, h1, h2⟩ := hstate m (h m (by simp))
      obtain ⟨ss, h3, h4⟩ := ih fun m' hm' => h m' (by simp [hm'])
      exact ⟨s :: ss, by rw [List.mapM_cons, h1, ok_bind, h3]; rfl, .cons h2 h4⟩
  obtain ⟨ss, e2, hss⟩ := hstates (m₀ :: masks) fun m hm => hm
  cases hss with
  | @cons s₀ _ ss _ hs₀ hss =>
  refine ⟨ss.map (fun p => -kt * f.log (p / s₀)), _, ?_, hex, ?_⟩
  · rw [e1, ok_bind]
    simp only [calculateDeltaFF, Nd.map, e2, ok_bind]
    rfl
  · simp only [List.tail_cons, List.headD_cons]
    rw [List.forall₂_map_left_iff, List.forall₂_map_right_iff]
    have hpos : ∀ m ∈ m₀ :: masks, 0 < (countsIn counts.flat m : ℝ) := fun m hm => by
      exact_mod_cast Nat.pos_of_ne_zero (hpop m hm)
    have htot : ∀ m ∈ m₀ :: masks, Real.log (countsIn counts.flat m) ≤ L ∧ 0 ≤ Real.log (countsIn counts.flat m) := by
      intro m hm
      refine ⟨?_, Real.log_natCast_nonneg _⟩
      rw [Real.log_le_iff_le_exp (hpos m hm)]
      refine le_trans ?_ hL
      exact_mod_cast countsIn_le_sum _ _
    refine List.forall₂_iff_get.2 ⟨hss.length_eq, fun i h1 h2 => ?_⟩
    have hs := (List.forall₂_iff_get.1 hss).2 i h1 h2
    generalize ss.get ⟨i, h1⟩ = s at hs
    have hm : masks.get ⟨i, h2⟩ ∈ m₀ :: masks := List.mem_cons_of_mem _ (List.get_mem _ _)
    generalize masks.get ⟨i, h2⟩ = m at hs hm
    have hq : (countsIn counts.flat m : ℝ) / countsIn counts.flat m₀ =
        ((countsIn counts.flat m : ℝ) / M) / ((countsIn counts.flat m₀ : ℝ) / M) := by
      have := (hpos m₀ (by simp)).ne'
      field_simp
    have hlogL : |Real.log ((countsIn counts.flat m : ℝ) / countsIn counts.flat m₀)| ≤ L := by
      rw [Real.log_div (hpos m hm).ne' (hpos m₀ (by simp)).ne', abs_le]
      have g1 := htot m hm
      have g2 := htot m₀ (by simp)
      constructor <;> linarith
    have hr := relNear_quot hst0 hΩ.state_lt hs hs₀ (div_pos (hpos m hm) hMr) (div_pos (hpos m₀ (by simp)) hMr)
      (by rw [← hq]; exact hlogL) hΩ.quot
    rw [← hq] at hr
    have hlg := relNear_log hf (ε := B.ratio K) hΩ.ratio hr (div_pos (hpos m hm) (hpos m₀ (by simp))) hlogL
    exact near_mul (near_neg (near_exact hk (abs_of_pos hk0).le)) hlg hΩ.deltaF

end

end Bdld
