import Verif.Props.Ensemble
import Verif.Props.Sampling
import Verif.Props.MainPath
import Verif.Props.MainBins
import Mathlib.Analysis.Calculus.FDeriv.Measurable

/-
C154: runs of the program without birth-death with random numbers: distribution and independence of the walkers, spread of
the fraction of walkers in a region and of the histogram.
-/

namespace Bdld

open MeasureTheory ProbabilityTheory Filter Spec

variable {d : Nat}

/-- The step of the dynamics described by the options of the section ld. -/
noncomputable def dynamicsOf (o : Dict (OptVal ℝ)) (pot : Potential ℝ d) (mass : ℝ) :
    (Fin d → ℝ) → (Fin d → ℝ) → Phase d → Phase d :=
  stepMap (if o.get? "type" = some (.base (.str "bussi-parinello")) then .bussi else .overdamped) pot (floatOf o "timestep")
    (floatOf o "friction") (floatOf o "kt") mass

/-- Number of the first vector that walker `k` of `N` takes in step `i`. -/
noncomputable def firstVector (o : Dict (OptVal ℝ)) (N k i : ℕ) : ℕ := (i * N + k) * vectorsPerStep o

/-- Number of the second vector. Overdamped dynamics takes no second vector, the number is one that nobody takes in `n`
steps. -/
noncomputable def secondVector (o : Dict (OptVal ℝ)) (N n k i : ℕ) : ℕ :=
  if o.get? "type" = some (.base (.str "bussi-parinello")) then (i * N + k) * 2 + 1 else n * N + (i * N + k)

theorem langevin_noisePath (o : Dict (OptVal ℝ)) (pot : Potential ℝ d) (mass : ℝ) (g : ℕ → Fin d → ℝ) (N n k t : ℕ)
    (s : Phase d) :
    langevinPath o pot.force (boundary pot.bc pot.ranges) mass (fun i j => g ((i * N + k) * vectorsPerStep o + j)) t s =
      noisePath (dynamicsOf o pot mass) (firstVector o N k) (secondVector o N n k) g t s := by
  induction t with
  | zero => rfl
  | succ t ih =>
    simp only [langevinPath, noisePath, ih]
    unfold langevinStep dynamicsOf firstVector secondVector vectorsPerStep
    by_cases h : o.get? "type" = some (.base (.str "bussi-parinello"))
    · simp only [h, if_true, stepMap, Nat.add_zero]
    · simp only [h, if_false, stepMap, Nat.add_zero]

theorem vectors_different (o : Dict (OptVal ℝ)) (N n k : ℕ) (hk : k < N) :
    AllDifferent (firstVector o N k) (secondVector o N n k) n := by
  have hN : 0 < N := by omega
  have key : ∀ i j, i * N + k = j * N + k → i = j := fun i j h => by
    have : i * N = j * N := by omega
    exact Nat.eq_of_mul_eq_mul_right hN this
  unfold AllDifferent firstVector secondVector vectorsPerStep
  by_cases h : o.get? "type" = some (.base (.str "bussi-parinello"))
  · simp only [h, if_true]
    refine ⟨fun i _ j _ e => key i j (by omega), fun i _ j _ e => key i j (by omega), fun i _ j _ => by omega⟩
  · simp only [h, if_false]
    refine ⟨fun i _ j _ e => key i j (by omega), fun i _ j _ e => key i j (by omega), fun i hi j _ => ?_⟩
    have : (i + 1) * N ≤ n * N := Nat.mul_le_mul_right N hi
    rw [Nat.add_mul] at this
    omega

theorem step_walker {N i k j l : ℕ} (hk : k < N) (hl : l < N) (h : i * N + k = j * N + l) : i = j ∧ k = l := by
  have h1 := congrArg (· / N) h
  have h2 := congrArg (· % N) h
  have hN : 0 < N := by omega
  simp only [Nat.mul_comm _ N, Nat.mul_add_div hN, Nat.div_eq_of_lt hk, Nat.div_eq_of_lt hl, Nat.add_zero, Nat.mul_add_mod,
    Nat.mod_eq_of_lt hk, Nat.mod_eq_of_lt hl] at h1 h2
  exact ⟨h1, h2⟩

theorem vectors_disjoint (o : Dict (OptVal ℝ)) (N n k l : ℕ) (hk : k < N) (hl : l < N) (hkl : k ≠ l) :
    Disjoint (taken (firstVector o N k) (secondVector o N n k) n) (taken (firstVector o N l) (secondVector o N n l) n) := by
  rw [Finset.disjoint_left]
  unfold taken firstVector secondVector vectorsPerStep
  by_cases h : o.get? "type" = some (.base (.str "bussi-parinello"))
  · simp only [h, if_true, Finset.mem_union, Finset.mem_image, Finset.mem_range]
    rintro x (⟨i, hi, rfl⟩ | ⟨i, hi, rfl⟩) (⟨j, hj, e⟩ | ⟨j, hj, e⟩)
    · exact hkl (step_walker hl hk (show j * N + l = i * N + k by omega)).2.symm
    · omega
    · omega
    · exact hkl (step_walker hl hk (show j * N + l = i * N + k by omega)).2.symm
  · simp only [h, if_false, Finset.mem_union, Finset.mem_image, Finset.mem_range]
    have lt : ∀ i < n, ∀ m < N, i * N + m < n * N := fun i hi m hm => by
      have : (i + 1) * N ≤ n * N := Nat.mul_le_mul_right N hi
      rw [Nat.add_mul] at this
      omega
    rintro x (⟨i, hi, rfl⟩ | ⟨i, hi, rfl⟩) (⟨j, hj, e⟩ | ⟨j, hj, e⟩)
    · exact hkl (step_walker hl hk (show j * N + l = i * N + k by omega)).2.symm
    · have := lt i hi k hk
      omega
    · have := lt j hj l hl
      omega
    · exact hkl (step_walker hl hk (show j * N + l = i * N + k by omega)).2.symm

/-! ### Runs with random numbers -/

variable {Ω R : Type} [MeasurableSpace Ω]

/-- Finished runs of one input file without birth-death, one for every `ω`, in which the walkers start at the given places
with the given momenta and the generator of the dynamics gives independent vectors of standard normal numbers. -/
structure RandomRuns (P : Measure Ω) (w : Ω → World R) (file : Option (List Section)) (cfg : Ω → SimCfg d)
    (sim s0 : Ω → Sim d R) (config : Input ℝ) (n : ℕ) (pot : Potential ℝ d) (mass : ℝ) (starts : List (Phase d)) : Prop where
  run : ∀ ω, FinishedRun (w ω) file ⟨d, cfg ω, sim ω⟩ config n (s0 ω)
  lawful : ∀ ω, (w ω).bdOps.Lawful
  noEvents : config.birthDeath = none
  hasMass : FloatOpt config.particles "mass" mass
  samePot : ∀ ω, (cfg ω).ld.pot = pot
  startsAt : ∀ ω, (s0 ω).particles.map (fun p => (p.pos, p.mom)) = starts
  stream : NormalStream P (fun i ω => draw ((w ω).normal d) (seededBy (w ω) .ld config.ld) i)

variable {P : Measure Ω} {w : Ω → World R} {file : Option (List Section)} {cfg : Ω → SimCfg d} {sim s0 : Ω → Sim d R}
  {config : Input ℝ} {n : ℕ} {pot : Potential ℝ d} {mass : ℝ} {starts : List (Phase d)}

theorem dynamicsOf_measurable (o : Dict (OptVal ℝ)) (hf : Measurable pot.force) (mass : ℝ) :
    Measurable (fun z : (Phase d × (Fin d → ℝ)) × (Fin d → ℝ) => dynamicsOf o pot mass z.1.2 z.2 z.1.1) :=
  measurable_stepMap _ pot hf _ _ _ _

/-- The force of a potential is measurable. -/
theorem conservative_measurable {U : (Fin d → ℝ) → ℝ} {F : (Fin d → ℝ) → Fin d → ℝ} (h : Conservative U F) : Measurable F := by
  refine measurable_pi_lambda _ fun k => ?_
  have e : (fun x => F x k) = fun x => -(fderiv ℝ U x) (Pi.single k 1) := by
    funext x
    rw [(h x).fderiv]
    simp [Pi.single_apply]
  rw [e]
  exact (measurable_fderiv_apply_const ℝ U _).neg

theorem RandomRuns.force (h : RandomRuns P w file cfg sim s0 config n pot mass starts) : Measurable pot.force := by
  have := h.stream.prob
  obtain ⟨ω⟩ := P.nonempty_of_neZero
  rw [← h.samePot ω]
  exact conservative_measurable (main_potential (h.run ω)).conservative

/-- The walkers of the run follow the paths of the stream. -/
theorem RandomRuns.walkers (h : RandomRuns P w file cfg sim s0 config n pot mass starts) (ω : Ω) (t : ℕ) (ht : t ≤ n) :
    ((h.run ω).path t).map (fun q => (q.pos, q.mom)) = starts.mapIdx (fun k s =>
      noisePath (dynamicsOf config.ld pot mass) (firstVector config.ld starts.length k)
        (secondVector config.ld starts.length n k)
        (fun i => draw ((w ω).normal d) (seededBy (w ω) .ld config.ld) i) t s) := by
  have hl : (s0 ω).particles.length = starts.length := by rw [← h.startsAt ω, List.length_map]
  apply List.ext_getElem?
  intro k
  rw [List.getElem?_map, List.getElem?_mapIdx]
  by_cases hk : k < starts.length
  · have hk' : k < (s0 ω).particles.length := by omega
    obtain ⟨q, h1, h2⟩ := main_path (h.run ω) (h.lawful ω) h.noEvents mass h.hasMass k _ (List.getElem?_eq_getElem hk') t ht
    rw [h1, List.getElem?_eq_getElem hk]
    simp only [Option.map_some, Option.some.injEq]
    rw [h2, ← main_bc (h.run ω)]
    have hs : ((s0 ω).particles[k].pos, (s0 ω).particles[k].mom) = starts[k] := by
      have := h.startsAt ω
      subst this
      simp
    simp only [hs, h.samePot ω, hl]
    exact langevin_noisePath config.ld pot mass _ _ n k t _
  · rw [List.getElem?_eq_none (show starts.length ≤ k by omega),
      List.getElem?_eq_none (show ((h.run ω).path t).length ≤ k by rw [(h.run ω).path_length (h.lawful ω)]; omega)]
    rfl

/-- Position and momentum of walker `k` after step `t` as function of the random numbers. -/
noncomputable def RandomRuns.phase (h : RandomRuns P w file cfg sim s0 config n pot mass starts) (k t : ℕ) (ω : Ω) : Phase d :=
  (((h.run ω).path t).map (fun q => (q.pos, q.mom))).getD k (0, 0)

theorem RandomRuns.phase_eq (h : RandomRuns P w file cfg sim s0 config n pot mass starts) (k t : ℕ) (ht : t ≤ n)
    (s : Phase d) (hs : starts[k]? = some s) : h.phase k t = fun ω => noisePath (dynamicsOf config.ld pot mass)
      (firstVector config.ld starts.length k) (secondVector config.ld starts.length n k)
      (fun i => draw ((w ω).normal d) (seededBy (w ω) .ld config.ld) i) t s := by
  funext ω
  unfold RandomRuns.phase
  rw [h.walkers ω t ht, List.getD_eq_getElem?_getD, List.getElem?_mapIdx, hs]
  rfl

theorem RandomRuns.phase_measurable (h : RandomRuns P w file cfg sim s0 config n pot mass starts) (k t : ℕ) (ht : t ≤ n)
    (hk : k < starts.length) : Measurable (h.phase k t) := by
  rw [h.phase_eq k t ht _ (List.getElem?_eq_getElem hk)]
  exact (noisePath_measurable (dynamicsOf_measurable config.ld h.force mass) _ _ _ t).comp h.stream.stream_measurable

/-- **C154.** Distribution of a walker of a run after step `t`. -/
theorem main_walker_law (h : RandomRuns P w file cfg sim s0 config n pot mass starts) (k t : ℕ) (ht : t ≤ n) (s : Phase d)
    (hs : starts[k]? = some s) :
    P.map (h.phase k t) = (afterStep (dynamicsOf config.ld pot mass))^[t] (Measure.dirac s) := by
  rw [h.phase_eq k t ht s hs]
  exact noisePath_law h.stream (dynamicsOf_measurable config.ld h.force mass) _ _ s n
    (vectors_different config.ld starts.length n k (List.getElem?_eq_some_iff.1 hs).1) t ht

/-- **C154.** The walkers of a run without birth-death are independent of each other. -/
theorem main_walkers_indep (h : RandomRuns P w file cfg sim s0 config n pot mass starts) (k l : ℕ) (hk : k < starts.length)
    (hl : l < starts.length) (hkl : k ≠ l) :
    IndepFun (fun ω (t : Fin (n + 1)) => h.phase k t ω) (fun ω (t : Fin (n + 1)) => h.phase l t ω) P := by
  have := noisePath_indep h.stream (dynamicsOf_measurable config.ld h.force mass) _ _ _ _ starts[k] starts[l] n
    (vectors_disjoint config.ld starts.length n k l hk hl hkl)
  convert this using 3 with ω t ω t
  · rw [h.phase_eq k t (Nat.lt_succ_iff.1 t.2) _ (List.getElem?_eq_getElem hk)]
  · rw [h.phase_eq l t (Nat.lt_succ_iff.1 t.2) _ (List.getElem?_eq_getElem hl)]

/-- C154 for two steps. -/
theorem main_walkers_indep_at (h : RandomRuns P w file cfg sim s0 config n pot mass starts) (k l t u : ℕ)
    (hk : k < starts.length) (hl : l < starts.length) (hkl : k ≠ l) (ht : t ≤ n) (hu : u ≤ n) :
    IndepFun (h.phase k t) (h.phase l u) P :=
  (main_walkers_indep h k l hk hl hkl).comp
    (φ := fun x : Fin (n + 1) → Phase d => x ⟨t, Nat.lt_succ_of_le ht⟩)
    (ψ := fun x : Fin (n + 1) → Phase d => x ⟨u, Nat.lt_succ_of_le hu⟩) (measurable_pi_apply _) (measurable_pi_apply _)

/-- Fraction of the steps in `steps` at which walker `k` is in the region. -/
noncomputable def RandomRuns.share (h : RandomRuns P w file cfg sim s0 config n pot mass starts) (A : Set (Fin d → ℝ))
    (steps : List ℕ) (k : ℕ) (ω : Ω) : ℝ :=
  (steps.map (fun t => A.indicator (1 : (Fin d → ℝ) → ℝ) (h.phase k t ω).1)).sum / steps.length

/-- Probability that walker `k` is in the region, averaged over the walkers and the steps, from the dynamics. -/
noncomputable def Spec.meanProbability (T : (Fin d → ℝ) → (Fin d → ℝ) → Phase d → Phase d) (starts : List (Phase d))
    (A : Set (Fin d → ℝ)) (steps : List ℕ) : ℝ :=
  (starts.map (fun s => (steps.map (fun t => ((afterStep T)^[t] (Measure.dirac s)).real (Prod.fst ⁻¹' A))).sum /
    steps.length)).sum / starts.length

theorem sum_getElem_range {α : Type} (l : List α) (f : α → ℝ) (e : ℕ → ℝ) (h : ∀ (k : ℕ) (x : α), l[k]? = some x → e k = f x) :
    ∑ k ∈ Finset.range l.length, e k = (l.map f).sum := by
  induction l generalizing e with
  | nil => simp
  | cons x l ih =>
    rw [List.length_cons, Finset.sum_range_succ', List.map_cons, List.sum_cons, h 0 x rfl, add_comm,
      ih (fun k => e (k + 1)) fun k y hy => h (k + 1) y hy]

theorem integral_list_sum {l : List ℕ} {f : ℕ → Ω → ℝ} (h : ∀ t ∈ l, Integrable (f t) P) :
    ∫ ω, (l.map (fun t => f t ω)).sum ∂P = (l.map (fun t => ∫ ω, f t ω ∂P)).sum ∧
    Integrable (fun ω => (l.map (fun t => f t ω)).sum) P := by
  induction l with
  | nil => simp
  | cons t l ih =>
    obtain ⟨h1, h2⟩ := ih fun t ht => h t (List.mem_cons_of_mem _ ht)
    simp only [List.map_cons, List.sum_cons]
    exact ⟨by rw [integral_add (h t List.mem_cons_self) h2, h1], (h t List.mem_cons_self).add h2⟩

/-- **C154.** The fraction of the walkers and steps in a region differs from the mean probability by `ε` or more only with
a probability of at most `1 / (4 N ε²)` for `N` walkers. -/
theorem main_region_spread (h : RandomRuns P w file cfg sim s0 config n pot mass starts) (hN : starts ≠ [])
    (A : Set (Fin d → ℝ)) (hA : MeasurableSet A) (steps : List ℕ) (hne : steps ≠ []) (hst : ∀ t ∈ steps, t ≤ n) {ε : ℝ}
    (hε : 0 < ε) :
    P {ω | ε ≤ |(∑ k ∈ Finset.range starts.length, h.share A steps k ω) / starts.length -
        meanProbability (dynamicsOf config.ld pot mass) starts A steps|} ≤
      ENNReal.ofReal (1 / (4 * starts.length * ε ^ 2)) := by
  have := h.stream.prob
  have hK : (0 : ℝ) < steps.length := by exact_mod_cast List.length_pos_iff.2 hne
  have him : Measurable (A.indicator (1 : (Fin d → ℝ) → ℝ)) := measurable_one.indicator hA
  have hi01 : ∀ y, A.indicator (1 : (Fin d → ℝ) → ℝ) y ∈ Set.Icc (0 : ℝ) 1 := fun y => by
    by_cases hy : y ∈ A <;> simp [hy]
  have hms : ∀ k < starts.length, ∀ t ∈ steps, Measurable (fun ω => A.indicator (1 : (Fin d → ℝ) → ℝ) (h.phase k t ω).1) :=
    fun k hk t ht => him.comp (measurable_fst.comp (h.phase_measurable k t (hst t ht) hk))
  have hsum : ∀ (l : List ℕ) (f : ℕ → ℝ), (∀ t ∈ l, f t ∈ Set.Icc (0 : ℝ) 1) → (l.map f).sum ∈ Set.Icc (0 : ℝ) l.length := by
    intro l f hf
    induction l with
    | nil => simp
    | cons t l ih =>
      have h1 := hf t List.mem_cons_self
      have h2 := ih fun t ht => hf t (List.mem_cons_of_mem _ ht)
      simp only [List.map_cons, List.sum_cons, List.length_cons, Nat.cast_add, Nat.cast_one]
      exact ⟨by linarith [h1.1, h2.1], by linarith [h1.2, h2.2]⟩
  have hmean : ∀ k s, starts[k]? = some s → ∫ ω, h.share A steps k ω ∂P =
      (steps.map (fun t => ((afterStep (dynamicsOf config.ld pot mass))^[t] (Measure.dirac s)).real (Prod.fst ⁻¹' A))).sum /
        steps.length := by
    intro k s hs
    have hk := (List.getElem?_eq_some_iff.1 hs).1
    unfold RandomRuns.share
    rw [integral_div, (integral_list_sum (f := fun t ω => A.indicator (1 : (Fin d → ℝ) → ℝ) (h.phase k t ω).1) (fun t ht =>
      Integrable.of_bound (hms k hk t ht).aestronglyMeasurable 1 (Eventually.of_forall fun ω => by
        rw [Real.norm_eq_abs, abs_le]
        have := hi01 (h.phase k t ω).1
        exact ⟨by linarith [this.1], this.2⟩))).1]
    congr 2
    refine List.map_congr_left fun t ht => ?_
    rw [← main_walker_law h k t (hst t ht) s hs, map_measureReal_apply (h.phase_measurable k t (hst t ht) hk) (measurable_fst hA)]
    have hpre : MeasurableSet (h.phase k t ⁻¹' (Prod.fst ⁻¹' A)) := h.phase_measurable k t (hst t ht) hk (measurable_fst hA)
    rw [← integral_indicator_one hpre]
    rfl
  have key := average_spread (P := P) starts.length (by simpa using hN) (h.share A steps) (fun k hk => ?_) (fun k hk ω => ?_)
    (fun k hk l hl hkl => ?_) hε
  · convert key using 6
    unfold meanProbability
    rw [sum_getElem_range starts _ _ hmean]
  · unfold RandomRuns.share
    refine Measurable.div_const ?_ _
    have : ∀ l : List ℕ, (∀ t ∈ l, t ∈ steps) → Measurable (fun ω => (l.map (fun t => A.indicator (1 : (Fin d → ℝ) → ℝ)
        (h.phase k t ω).1)).sum) := by
      intro l hl
      induction l with
      | nil => simp
      | cons t l ih =>
        simp only [List.map_cons, List.sum_cons]
        exact (hms k hk t (hl t List.mem_cons_self)).add (ih fun t ht => hl t (List.mem_cons_of_mem _ ht))
    exact this steps fun _ ht => ht
  · have := hsum steps (fun t => A.indicator (1 : (Fin d → ℝ) → ℝ) (h.phase k t ω).1) fun t _ => hi01 _
    unfold RandomRuns.share
    exact ⟨div_nonneg this.1 hK.le, (div_le_one hK).2 this.2⟩
  · have hind := main_walkers_indep h k l hk hl hkl
    have hF : Measurable (fun x : Fin (n + 1) → Phase d => (steps.map (fun t : ℕ => A.indicator (1 : (Fin d → ℝ) → ℝ)
        (x (Fin.ofNat (n + 1) t)).1)).sum / (steps.length : ℝ)) := by
      refine Measurable.div_const ?_ _
      generalize steps = l
      induction l with
      | nil => simp
      | cons t l ih =>
        simp only [List.map_cons, List.sum_cons]
        exact (him.comp (measurable_fst.comp (measurable_pi_apply _))).add ih
    have hc := hind.comp hF hF
    have e : ∀ m, h.share A steps m = (fun x : Fin (n + 1) → Phase d => (steps.map (fun t : ℕ => A.indicator
        (1 : (Fin d → ℝ) → ℝ) (x (Fin.ofNat (n + 1) t)).1)).sum / (steps.length : ℝ)) ∘ fun ω (t : Fin (n + 1)) => h.phase m t ω := by
      intro m
      funext ω
      unfold RandomRuns.share
      simp only [Function.comp]
      congr 2
      refine List.map_congr_left fun t ht => ?_
      rw [show ((Fin.ofNat (n + 1) t : Fin (n + 1)) : ℕ) = t from Nat.mod_eq_of_lt (Nat.lt_succ_of_le (hst t ht))]
    rw [e k, e l]
    exact hc

/-! ### The histogram -/

/-- There is only one way to make the requested bins. -/
theorem requested_unique {o : Dict (OptVal ℝ)} {e e' : List (List ℝ)} (h : RequestedBins o d e) (h' : RequestedBins o d e') :
    e = e' := by
  refine List.ext_getElem? fun k => ?_
  by_cases hk : k < d
  · obtain ⟨lo, hi, n, b, _, _, g⟩ := h.edges k hk
    obtain ⟨lo', hi', n', b', _, _, g'⟩ := h'.edges k hk
    have e1 := Option.some.inj (b.min.symm.trans b'.min)
    have e2 := Option.some.inj (b.max.symm.trans b'.max)
    have e3 := Option.some.inj (b.bins.symm.trans b'.bins)
    rw [g, g', e1, e2, e3]
  · rw [List.getElem?_eq_none (by rw [h.dims]; omega), List.getElem?_eq_none (by rw [h'.dims]; omega)]

theorem region_count (bins : List (List ℝ)) (idx : List Nat) (l : List (Phase d)) :
    (countInBin bins idx (l.map (fun s => List.ofFn s.1)) : ℝ) =
      (l.map (fun s => (binRegion bins idx).indicator (1 : (Fin d → ℝ) → ℝ) s.1)).sum := by
  classical
  induction l with
  | nil => simp [countInBin]
  | cons s l ih =>
    rw [List.map_cons, List.map_cons, List.sum_cons, ← ih]
    unfold countInBin
    rw [List.countP_cons, Nat.cast_add, add_comm]
    congr 1
    by_cases hs : InBin bins idx (List.ofFn s.1) <;> simp [binRegion, hs]

theorem RandomRuns.count (h : RandomRuns P w file cfg sim s0 config n pot mass starts) (bins : List (List ℝ)) (idx : List Nat)
    (steps : List ℕ) (hst : ∀ t ∈ steps, t ≤ n) (ω : Ω) :
    (countInBin bins idx (steps.flatMap (fun t => positionsOf ((h.run ω).path t))) : ℝ) =
      ∑ k ∈ Finset.range starts.length,
        (steps.map (fun t => (binRegion bins idx).indicator (1 : (Fin d → ℝ) → ℝ) (h.phase k t ω).1)).sum := by
  induction steps with
  | nil => simp [countInBin]
  | cons t l ih =>
    rw [List.flatMap_cons, countInBin_append, Nat.cast_add, ih fun t ht => hst t (List.mem_cons_of_mem _ ht)]
    simp only [List.map_cons, List.sum_cons]
    rw [Finset.sum_add_distrib]
    congr 1
    have e : positionsOf ((h.run ω).path t) =
        (((h.run ω).path t).map (fun q => (q.pos, q.mom))).map (fun s => List.ofFn s.1) := by
      unfold positionsOf
      rw [List.map_map]
      rfl
    rw [e, region_count]
    have hlen : (((h.run ω).path t).map (fun q => (q.pos, q.mom))).length = starts.length := by
      rw [h.walkers ω t (hst t List.mem_cons_self), List.length_mapIdx]
    rw [← hlen]
    refine (sum_getElem_range _ _ _ fun k s hs => ?_).symm
    unfold RandomRuns.phase
    rw [List.getD_eq_getElem?_getD, hs]
    rfl

/-- **C154.** The histogram of a run divided by the number of its samples differs in every bin from the mean probability of
the bin by `ε` or more only with a probability of at most `1 / (4 N ε²)` for `N` walkers. It holds for the runs in which the
histogram is exact (C82). -/
theorem main_histogram_spread (h : RandomRuns P w file cfg sim s0 config n pot mass starts) (hN : starts ≠ [])
    (o oh : Dict (OptVal ℝ)) (ho : config.trajectories = some o) (hoh : config.histogram = some oh)
    (hreset : oh.get? "reset" = some .none) (hf : hasFilename o = false)
    (hd : natOption oh "stride" 1 ∣ natOption o "write-stride" 100) (hn : ¬ natOption o "write-stride" 100 ∣ n)
    (hs : 0 < natOption oh "stride" 1) (hle : natOption oh "stride" 1 ≤ n)
    (bins : List (List ℝ)) (hb : RequestedBins oh d bins) (h0 : ∀ idx, ¬ InBin bins idx (List.replicate d 0))
    (idx : List Nat) {ε : ℝ} (hε : 0 < ε) :
    P {ω | ∀ H, (sim ω).hist = some H →
        ε ≤ |(H.data idx : ℝ) / (starts.length * (sampledSteps (natOption oh "stride" 1) 0 n).length : ℕ) -
          meanProbability (dynamicsOf config.ld pot mass) starts (binRegion bins idx)
            (sampledSteps (natOption oh "stride" 1) 0 n)|} ≤
      ENNReal.ofReal (1 / (4 * starts.length * ε ^ 2)) := by
  have hst : ∀ t ∈ sampledSteps (natOption oh "stride" 1) 0 n, t ≤ n := fun t ht => (mem_sampledSteps.1 ht).2.1
  have hne : sampledSteps (natOption oh "stride" 1) 0 n ≠ [] := fun e => by
    have := mem_sampledSteps.2 (show 0 < natOption oh "stride" 1 ∧ natOption oh "stride" 1 ≤ n ∧
      natOption oh "stride" 1 ∣ natOption oh "stride" 1 from ⟨hs, hle, dvd_rfl⟩)
    rw [e] at this
    cases this
  refine le_trans (measure_mono ?_) (main_region_spread h hN (binRegion bins idx) (binRegion_measurable bins idx)
    (sampledSteps (natOption oh "stride" 1) 0 n) hne hst hε)
  intro ω hω
  have hw : 0 < (s0 ω).particles.length := by
    have := congrArg List.length (h.startsAt ω)
    rw [List.length_map] at this
    rw [this]
    exact List.length_pos_iff.2 hN
  obtain ⟨H, e1, e2⟩ := main_histogram_partial (h.run ω) (h.lawful ω) o oh ho hoh hreset hw hf hd hn
  obtain ⟨edges, b1, _, H', b2, b3⟩ := main_bins (h.run ω) oh hoh
  have := Option.some.inj (e1.symm.trans b2)
  subst this
  have hbins : H.bins = bins := b3.trans (requested_unique b1 hb)
  have hex := e2 (fun idx => by
    rw [hbins]
    unfold countInBin
    rw [List.countP_eq_zero]
    intro p hp
    rw [List.mem_singleton] at hp
    rw [hp]
    simpa using h0 idx) idx
  have hω := hω H e1
  rw [hex, hbins, h.count bins idx _ hst ω, Nat.cast_mul, mul_comm (starts.length : ℝ), ← div_div, Finset.sum_div] at hω
  exact hω

end Bdld
