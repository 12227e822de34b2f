import Verif.Props.LongRun
import Verif.Props.ForgetRun
import Verif.Props.SamplingCanonical
import Mathlib.Analysis.Convex.Measure
import Mathlib.MeasureTheory.Measure.Portmanteau

/-
C155, part 2: long runs in harmonic potentials.
-/

namespace Bdld

open MeasureTheory ProbabilityTheory Filter Topology Spec

variable {d : Nat}

/-! ### Probabilities that settle -/

/-- Weak convergence of the distributions of the positions. -/
theorem settles_of_weak {T : (Fin d → ℝ) → (Fin d → ℝ) → Phase d → Phase d} {s : Phase d} {A : Set (Fin d → ℝ)} (hA : MeasurableSet A)
    (law : ℕ → ProbabilityMeasure (Fin d → ℝ)) (limit : ProbabilityMeasure (Fin d → ℝ))
    (hlaw : ∀ n, (law n : Measure (Fin d → ℝ)) = ((afterStep T)^[n] (Measure.dirac s)).map Prod.fst) (h : Tendsto law atTop (𝓝 limit))
    (h0 : (limit : Measure (Fin d → ℝ)) (frontier A) = 0) : Settles T A ((limit : Measure (Fin d → ℝ)).real A) s := by
  have h1 := ProbabilityMeasure.tendsto_measure_of_null_frontier_of_tendsto' h h0
  have h2 := (ENNReal.tendsto_toReal (measure_ne_top (limit : Measure (Fin d → ℝ)) A)).comp h1
  refine h2.congr fun n => ?_
  rw [Function.comp, hlaw, Measure.map_apply measurable_fst hA]
  rfl

theorem normals_null (a v : Fin d → ℝ) (hv : ∀ k, 0 < v k) (A : Set (Fin d → ℝ)) : normals a v A = 0 ↔ volume A = 0 := by
  obtain ⟨K, k0, k1, hK⟩ := normals_density a v hv
  have hm : Measurable (fun x : Fin d → ℝ => ENNReal.ofReal (Real.exp (-∑ k, (x k - a k) ^ 2 / (2 * v k)))) := by fun_prop
  have h1 : normals a v ≪ volume := by
    have h2 : K • normals a v ≪ volume := hK ▸ withDensity_absolutelyContinuous _ _
    intro s hs
    have := h2 hs
    rw [Measure.smul_apply, smul_eq_mul, mul_eq_zero] at this
    exact this.resolve_left k0
  have h3 : volume ≪ normals a v := by
    have h4 : volume ≪ K • normals a v := by
      rw [← hK]
      refine withDensity_absolutelyContinuous' hm.aemeasurable (Eventually.of_forall fun x => ?_)
      rw [ne_eq, ENNReal.ofReal_eq_zero, not_le]
      exact Real.exp_pos _
    intro s hs
    refine h4 ?_
    rw [Measure.smul_apply, hs, smul_zero]
  exact ⟨fun h => h3 h, fun h => h1 h⟩

theorem binRegion_convex (bins : List (List ℝ)) (idx : List Nat) (hb : bins.length = d) (hi : idx.length = d) :
    Convex ℝ (binRegion bins idx : Set (Fin d → ℝ)) := by
  rw [binRegion_pi bins idx hb hi]
  refine convex_pi fun k _ => Set.OrdConnected.convex ⟨?_⟩
  rintro x ⟨lo, hi', g1, g2, g3, _⟩ z ⟨lo', hi'', f1, f2, _, f4⟩ y ⟨hy1, hy2⟩
  rw [g1] at f1
  rw [g2] at f2
  cases f1
  cases f2
  refine ⟨lo, hi', g1, g2, g3.trans hy1, ?_⟩
  rcases f4 with f4 | ⟨f4, f5⟩
  · exact .inl (lt_of_le_of_lt hy2 f4)
  · rw [f5] at hy2
    rcases lt_or_eq_of_le hy2 with h | h
    · exact .inl h
    · exact .inr ⟨f4, h⟩

/-- The harmonic potential as such. -/
noncomputable def harmonicPot (κ a : Fin d → ℝ) : Potential ℝ d where
  energy := harmonicEnergy κ a
  force := harmonicForce κ a
  evaluate := fun x => (harmonicEnergy κ a x, harmonicForce κ a x)
  ranges := []
  bc := none

/-- A step after Bussi and Parrinello in the harmonic potential. -/
noncomputable def bussiHarmonic (κ a : Fin d → ℝ) (dt friction kt m : ℝ) : (Fin d → ℝ) → (Fin d → ℝ) → Phase d → Phase d :=
  bussiParrinello (harmonicForce κ a) m dt (Real.exp (-(friction * dt / 2))) (√(m * kt * (1 - Real.exp (-(friction * dt)))))

/-- An overdamped step in the harmonic potential. -/
noncomputable def eulerHarmonic (κ a : Fin d → ℝ) (dt : ℝ) (n1 _n2 : Fin d → ℝ) (s : Phase d) : Phase d :=
  (fun k => s.1 k + dt * harmonicForce κ a s.1 k + √(2 * dt) * n1 k, s.2)

theorem bussiHarmonic_eq (κ a : Fin d → ℝ) (dt friction kt m : ℝ) (pot : Potential ℝ d) (hbc : pot.bc = none)
    (hpot : ∀ x, pot.force x = harmonicForce κ a x) : stepMap .bussi pot dt friction kt m = bussiHarmonic κ a dt friction kt m := by
  rw [stepMap_bussi pot dt friction kt m hbc, show pot.force = harmonicForce κ a from funext hpot]
  rfl

theorem eulerHarmonic_eq (κ a : Fin d → ℝ) (dt friction kt m : ℝ) (pot : Potential ℝ d) (hbc : pot.bc = none)
    (hpot : ∀ x, pot.force x = harmonicForce κ a x) : stepMap .overdamped pot dt friction kt m = eulerHarmonic κ a dt := by
  funext n1 n2 s
  exact euler_harmonic pot dt friction kt m hbc κ a hpot n1 n2 s

theorem bussiHarmonic_measurable (κ a : Fin d → ℝ) (dt friction kt m : ℝ) :
    Measurable (fun z : (Phase d × (Fin d → ℝ)) × (Fin d → ℝ) => bussiHarmonic κ a dt friction kt m z.1.2 z.2 z.1.1) := by
  rw [← bussiHarmonic_eq κ a dt friction kt m (harmonicPot κ a) rfl fun _ => rfl]
  exact measurable_stepMap .bussi (harmonicPot κ a) (measurable_harmonicForce κ a) dt friction kt m

theorem eulerHarmonic_measurable (κ a : Fin d → ℝ) (dt : ℝ) :
    Measurable (fun z : (Phase d × (Fin d → ℝ)) × (Fin d → ℝ) => eulerHarmonic κ a dt z.1.2 z.2 z.1.1) := by
  rw [← eulerHarmonic_eq κ a dt 0 0 0 (harmonicPot κ a) rfl fun _ => rfl]
  exact measurable_stepMap .overdamped (harmonicPot κ a) (measurable_harmonicForce κ a) dt 0 0 0

/-- The probability of a bin settles at that of the normal distribution with variance `kT / (κ (1 - κ dt² / 4m))`. -/
theorem settles_bussi (κ a : Fin d → ℝ) (dt friction kt m : ℝ) (hdt : 0 < dt) (hf : 0 < friction) (hkt : 0 < kt) (hm : 0 < m)
    (hκ : ∀ k, 0 < κ k) (hs : ∀ k, κ k * dt ^ 2 < 4 * m) (bins : List (List ℝ)) (idx : List Nat) (hb : bins.length = d)
    (hi : idx.length = d) (z : Phase d) : Settles (bussiHarmonic κ a dt friction kt m) (binRegion bins idx)
      ((normals a (fun k => kt / shadowConstants κ m dt k)).real (binRegion bins idx)) z := by
  have hT := bussiHarmonic_measurable κ a dt friction kt m
  have hprob := fun n => afterStep_iterate_probability hT (Measure.dirac z) n
  have hpos : ∀ k, 0 < kt / shadowConstants κ m dt k := fun k => div_pos hkt
    (mul_pos (hκ k) (by rw [sub_pos, div_lt_one (by linarith)]; exact hs k))
  have hpi : IsProbabilityMeasure (harmonicState κ a m kt dt) := by
    unfold harmonicState
    infer_instance
  have hc := bussi_converges (harmonicPot κ a) dt friction kt m rfl κ a (fun _ => rfl) hdt hf hkt hm hκ hs
    (fun n => ⟨_, hprob n⟩) ⟨_, hpi⟩ (fun n => by
      rw [bussiHarmonic_eq κ a dt friction kt m (harmonicPot κ a) rfl fun _ => rfl]
      rfl) rfl
  have hc' := ProbabilityMeasure.tendsto_map_of_tendsto_of_continuous _ _ hc (f := Prod.fst) continuous_fst
  have hfst : (harmonicState κ a m kt dt).map Prod.fst = normals a (fun k => kt / shadowConstants κ m dt k) := by
    unfold harmonicState
    rw [Measure.map_fst_prod, measure_univ, one_smul]
  have := settles_of_weak (T := bussiHarmonic κ a dt friction kt m) (s := z) (binRegion_measurable bins idx) _ _ (fun n => rfl) hc' (by
    change (harmonicState κ a m kt dt).map Prod.fst _ = 0
    rw [hfst, normals_null _ _ hpos]
    exact (binRegion_convex bins idx hb hi).addHaar_frontier volume)
  change Settles _ _ (((harmonicState κ a m kt dt).map Prod.fst).real _) _ at this
  rwa [hfst] at this

/-- The same for overdamped walkers, with variance `1 / (κ (1 - κ dt / 2))`. -/
theorem settles_euler (κ a : Fin d → ℝ) (dt : ℝ) (hdt : 0 < dt) (hκ : ∀ k, 0 < κ k) (hs : ∀ k, κ k * dt < 2)
    (bins : List (List ℝ)) (idx : List Nat) (hb : bins.length = d) (hi : idx.length = d) (z : Phase d) :
    Settles (eulerHarmonic κ a dt) (binRegion bins idx)
      ((normals a (fun k => 1 / (κ k * (1 - κ k * dt / 2)))).real (binRegion bins idx)) z := by
  have hT := eulerHarmonic_measurable κ a dt
  have hprob := fun n => afterStep_iterate_probability hT (Measure.dirac z) n
  have hpos : ∀ k, 0 < 1 / (κ k * (1 - κ k * dt / 2)) := fun k =>
    one_div_pos.2 (mul_pos (hκ k) (by linarith [hs k]))
  have hprob' : ∀ n, IsProbabilityMeasure (((afterStep (eulerHarmonic κ a dt))^[n] (Measure.dirac z)).map Prod.fst) := fun n => by
    have := hprob n
    exact Measure.isProbabilityMeasure_map measurable_fst.aemeasurable
  have hc := overdamped_converges (harmonicPot κ a) dt 0 0 0 rfl κ a (fun _ => rfl) hdt hκ hs (Measure.dirac z)
    (fun n => ⟨_, hprob' n⟩) ⟨_, normals_prob a (fun k => 1 / (κ k * (1 - κ k * dt / 2)))⟩ (fun n => by
      rw [eulerHarmonic_eq κ a dt 0 0 0 (harmonicPot κ a) rfl fun _ => rfl]
      rfl) rfl
  refine settles_of_weak (binRegion_measurable bins idx) _ _ (fun n => rfl) hc ?_
  change normals a _ _ = 0
  rw [normals_null _ _ hpos]
  exact (binRegion_convex bins idx hb hi).addHaar_frontier volume

/-- Bins as requested in the input have positive probability. -/
theorem requested_positive {o : Dict (OptVal ℝ)} {bins : List (List ℝ)} (hb : RequestedBins o d bins) (a v : Fin d → ℝ)
    (hv : ∀ k, 0 < v k) (idx : List Nat) (hi : idx ∈ indices (bins.map (fun e => e.length - 1))) :
    0 < (normals a v).real (binRegion bins idx) := by
  have hw : ∀ k : Fin d, ∃ w, 0 < w ∧ EvenBins w (bins[k]'(by rw [hb.dims]; exact k.2)) := by
    intro k
    obtain ⟨lo, hi', n, _, hn, hle, he⟩ := hb.edges k k.2
    have hlt : (widened lo hi').1 < (widened lo hi').2 := by
      unfold widened
      split
      · simp only
        linarith
      · rename_i hne
        exact lt_of_le_of_ne hle hne
    obtain ⟨_, he⟩ := List.getElem?_eq_some_iff.1 he
    have hn' : (0 : ℝ) < n := by exact_mod_cast hn
    refine ⟨((widened lo hi').2 - (widened lo hi').1) / n, div_pos (by linarith) hn', ?_⟩
    have he' : bins[k]'(by rw [hb.dims]; exact k.2) = _ := he
    rw [he']
    intro i x y hx hy
    rw [List.getElem?_map] at hx hy
    obtain ⟨j, hj, rfl⟩ := Option.map_eq_some_iff.1 hx
    obtain ⟨l, hl, rfl⟩ := Option.map_eq_some_iff.1 hy
    obtain ⟨_, h1⟩ := List.getElem?_eq_some_iff.1 hj
    obtain ⟨_, h2⟩ := List.getElem?_eq_some_iff.1 hl
    rw [List.getElem_range] at h1 h2
    subst h1
    subst h2
    push_cast
    ring
  choose w h0 hw using hw
  have hvol := binRegion_volume bins hb.dims w hw idx hi
  refine lt_of_le_of_ne measureReal_nonneg (Ne.symm ?_)
  rw [ne_eq, measureReal_eq_zero_iff, normals_null a v hv, hvol, Finset.prod_eq_zero_iff]
  rintro ⟨k, _, hk⟩
  rw [ENNReal.ofReal_eq_zero] at hk
  linarith [h0 k]

/-! ### Runs of the program in a parabola -/

/-- The potential `c0 + c1 x + c2 x²` without boundary condition. -/
structure Parabola (config : Input ℝ) (c0 c1 c2 : ℝ) : Prop where
  type : StrOpt config.potential "type" "polynomial"
  oneDim : IntOpt config.potential "n_dim" 1
  coeffs : FloatsOpt config.potential "coeffs" [c0, c1, c2]
  open' : ¬ StrOpt config.potential "boundary-condition" "reflective" ∧ ¬ StrOpt config.potential "boundary-condition" "periodic"

/-- The section ld for the dynamics of Bussi and Parrinello. -/
structure BussiOptions (config : Input ℝ) (dt friction kt : ℝ) : Prop where
  type : StrOpt config.ld "type" "bussi-parinello"
  timestep : FloatOpt config.ld "timestep" dt
  friction : FloatOpt config.ld "friction" friction
  kt : FloatOpt config.ld "kt" kt

/-- The section ld for overdamped dynamics. -/
structure OverdampedOptions (config : Input ℝ) (dt : ℝ) : Prop where
  type : StrOpt config.ld "type" "overdamped"
  timestep : FloatOpt config.ld "timestep" dt

theorem floatsOpt_unique {o : Dict (OptVal ℝ)} {key : String} {l l' : List ℝ} (h : FloatsOpt o key l) (h' : FloatsOpt o key l') :
    l = l' := by
  unfold FloatsOpt at h h'
  rw [h] at h'
  have := OptVal.list.inj (Option.some.inj h')
  exact List.map_injective_iff.2 (fun x y e => by cases e; rfl) this

theorem floatOf_opt {o : Dict (OptVal ℝ)} {key : String} {x : ℝ} (h : FloatOpt o key x) : Spec.floatOf o key = x := by
  unfold FloatOpt at h
  unfold Spec.floatOf
  rw [h]

/-- The potential of the run is harmonic. -/
theorem run_parabola_force {R : Type} {w : World R} {inp : Option (List Section)} {cfg : SimCfg 1} {sim s0 : Sim 1 R} {config : Input ℝ} {n : ℕ}
    (hr : FinishedRun w inp ⟨1, cfg, sim⟩ config n s0) {c0 c1 c2 : ℝ} (h : Parabola config c0 c1 c2) (hc : 0 < c2) :
    cfg.ld.pot.bc = none ∧ ∀ x, cfg.ld.pot.force x = harmonicForce (fun _ => 2 * c2) (fun _ => -c1 / (2 * c2)) x := by
  have hp := main_potential hr
  refine ⟨?_, fun x => ?_⟩
  · have h1 := hp.reflective
    have h2 := hp.periodic
    simp only at h1 h2
    cases hb : cfg.ld.pot.bc with
    | none => rfl
    | some b =>
      cases b with
      | reflective => exact absurd (h1.1 hb) h.open'.1
      | periodic => exact absurd (h2.1 hb) h.open'.2
  · obtain ⟨_, cs, lo, hi, hcs, _, _, _, he⟩ := hp.oneDim h.type h.oneDim
    obtain rfl := floatsOpt_unique hcs h.coeffs
    simp only at he
    have he' : cfg.ld.pot.energy = fun x : Fin 1 → ℝ => c0 + c1 * x 0 + c2 * x 0 ^ 2 := by
      funext y
      rw [he y 0]
      simp [poly1, Finset.sum_range_succ]
    have hcons := hp.conservative x
    simp only at hcons
    have hd : HasFDerivAt (fun x : Fin 1 → ℝ => c0 + c1 * x 0 + c2 * x 0 ^ 2)
        ((c1 + 2 * c2 * x 0) • ContinuousLinearMap.proj (R := ℝ) (φ := fun _ : Fin 1 => ℝ) 0) x := by
      have hx : HasFDerivAt (fun x : Fin 1 → ℝ => x 0) (ContinuousLinearMap.proj (R := ℝ) (φ := fun _ : Fin 1 => ℝ) 0) x :=
        hasFDerivAt_apply (0 : Fin 1) x
      have hq : HasDerivAt (fun y : ℝ => c0 + c1 * y + c2 * y ^ 2) (c1 + 2 * c2 * x 0) (x 0) := by
        have := (((hasDerivAt_id (x 0)).const_mul c1).const_add c0).add ((hasDerivAt_pow 2 (x 0)).const_mul c2)
        exact this.congr_deriv (by push_cast; ring)
      exact hq.comp_hasFDerivAt x hx
    rw [he'] at hcons
    have hu := hcons.unique hd
    have := congrArg (fun f => f (fun _ => (1 : ℝ))) hu
    simp at this
    funext k
    rw [Subsingleton.elim k 0]
    simp only [harmonicForce]
    field_simp
    linarith

theorem stepKind_bussi {config : Input ℝ} {dt friction kt : ℝ} (h : BussiOptions config dt friction kt) (pot : Potential ℝ d) (mass : ℝ) :
    dynamicsOf config.ld pot mass = stepMap .bussi pot dt friction kt mass := by
  unfold dynamicsOf
  have ht : config.ld.get? "type" = some (.base (.str "bussi-parinello")) := h.type
  rw [if_pos ht, floatOf_opt h.timestep, floatOf_opt h.friction, floatOf_opt h.kt]

theorem stepKind_overdamped {config : Input ℝ} {dt : ℝ} (h : OverdampedOptions config dt) (pot : Potential ℝ d) (mass : ℝ) :
    dynamicsOf config.ld pot mass = stepMap .overdamped pot dt (Spec.floatOf config.ld "friction") (Spec.floatOf config.ld "kt") mass := by
  unfold dynamicsOf
  have ht : config.ld.get? "type" = some (.base (.str "overdamped")) := h.type
  rw [if_neg (by rw [ht]; simp), floatOf_opt h.timestep]

section
variable {Ω R : Type} [MeasurableSpace Ω] {P : Measure Ω} {w : Ω → World R} {inp : Option (List Section)} {cfg : Ω → SimCfg 1}
  {sim s0 : Ω → Sim 1 R} {config : Input ℝ} {n : ℕ} {pot : Potential ℝ 1} {mass : ℝ} {starts : List (Phase 1)} {S : Finset (Phase 1)}
  {bins : List (List ℝ)} {file : Bool} {s W : ℕ}

theorem CountingRuns.pot_harmonic (h : CountingRuns P w inp cfg sim s0 config n pot mass starts (dynamicsOf config.ld pot mass) S bins file s W)
    {c0 c1 c2 : ℝ} (hp : Parabola config c0 c1 c2) (hc : 0 < c2) :
    pot.bc = none ∧ ∀ x, pot.force x = harmonicForce (fun _ => 2 * c2) (fun _ => -c1 / (2 * c2)) x := by
  have := h.random.stream.prob
  obtain ⟨ω⟩ := P.nonempty_of_neZero
  rw [← h.random.samePot ω]
  exact run_parabola_force (h.random.run ω) hp hc

theorem CountingRuns.bussi (h : CountingRuns P w inp cfg sim s0 config n pot mass starts (dynamicsOf config.ld pot mass) S bins file s W)
    {c0 c1 c2 dt friction kt : ℝ} (hp : Parabola config c0 c1 c2) (hc : 0 < c2) (hl : BussiOptions config dt friction kt) :
    CountingRuns P w inp cfg sim s0 config n pot mass starts
      (bussiHarmonic (fun _ => 2 * c2) (fun _ => -c1 / (2 * c2)) dt friction kt mass) S bins file s W := by
  obtain ⟨h1, h2⟩ := h.pot_harmonic hp hc
  exact ⟨h.random, by rw [stepKind_bussi hl, bussiHarmonic_eq _ _ dt friction kt mass pot h1 h2], h.inside, h.trajectories, h.histogram⟩

theorem CountingRuns.overdamped
    (h : CountingRuns P w inp cfg sim s0 config n pot mass starts (dynamicsOf config.ld pot mass) S bins file s W)
    {c0 c1 c2 dt : ℝ} (hp : Parabola config c0 c1 c2) (hc : 0 < c2) (hl : OverdampedOptions config dt) :
    CountingRuns P w inp cfg sim s0 config n pot mass starts
      (eulerHarmonic (fun _ => 2 * c2) (fun _ => -c1 / (2 * c2)) dt) S bins file s W := by
  obtain ⟨h1, h2⟩ := h.pot_harmonic hp hc
  exact ⟨h.random, by rw [stepKind_overdamped hl, eulerHarmonic_eq _ _ dt _ _ mass pot h1 h2], h.inside, h.trajectories, h.histogram⟩

end

/-- Positions in the parabola with force constant `κ'`: normal numbers around the minimum with variance `kT / κ'`. -/
noncomputable def Spec.parabolaLaw (c1 c2 kt κ' : ℝ) : Measure (Fin 1 → ℝ) := normals (fun _ => -c1 / (2 * c2)) (fun _ => kt / κ')

section
variable {S : Finset (Phase 1)} {oh : Dict (OptVal ℝ)} {bins : List (List ℝ)} {file : Bool} {s W : ℕ}

/-- **C155.** Runs of the program with the dynamics of Bussi and Parrinello in the parabola `c0 + c1 x + c2 x²`: with enough steps
and walkers, all bins of the histogram are near to the probabilities of the canonical distribution of a parabola with the force
constant `2 c2 (1 - c2 dt² / 2m)` instead of `2 c2`, except for a small probability. -/
theorem main_bussi_histogram {c0 c1 c2 dt friction kt mass : ℝ} (hc : 0 < c2) (hdt : 0 < dt) (hf : 0 < friction) (hkt : 0 < kt)
    (hm : 0 < mass) (hlim : c2 * dt ^ 2 < 2 * mass) (hb : RequestedBins oh 1 bins) (hs : 0 < s) (hW : 0 < W) (hfile : file = true ∨ s ≤ W)
    {ε δ : ℝ} (hε : 0 < ε) (hδ : 0 < δ) :
    ∃ n0 N0 : ℕ, ∀ {Ω R : Type} [MeasurableSpace Ω] (P : Measure Ω) (w : Ω → World R) (inp : Option (List Section))
      (cfg : Ω → SimCfg 1) (sim s0 : Ω → Sim 1 R) (config : Input ℝ) (n : ℕ) (pot : Potential ℝ 1) (starts : List (Phase 1)),
      CountingRuns P w inp cfg sim s0 config n pot mass starts (dynamicsOf config.ld pot mass) S bins file s W →
      Parabola config c0 c1 c2 → BussiOptions config dt friction kt → n0 ≤ n → N0 ≤ starts.length →
      P {ω | ¬ ∃ H, (sim ω).hist = some H ∧ H.bins = bins ∧ ∀ idx ∈ indices (bins.map (fun e => e.length - 1)),
        |(H.data idx : ℝ) / (starts.length * (countedSteps file s W n).length : ℕ) -
          (parabolaLaw c1 c2 kt (2 * c2 * (1 - c2 * dt ^ 2 / (2 * mass)))).real (binRegion bins idx)| < ε} ≤ ENNReal.ofReal δ := by
  obtain ⟨n0, N0, h⟩ := main_long_histogram (bussiHarmonic_measurable (fun _ : Fin 1 => 2 * c2) (fun _ => -c1 / (2 * c2)) dt friction kt mass)
    (S := S) (bins := bins) (p := fun idx => (parabolaLaw c1 c2 kt (2 * c2 * (1 - c2 * dt ^ 2 / (2 * mass)))).real (binRegion bins idx))
    (indices (bins.map (fun e => e.length - 1))) (fun idx hi z _ => by
      have := settles_bussi (fun _ : Fin 1 => 2 * c2) (fun _ => -c1 / (2 * c2)) dt friction kt mass hdt hf hkt hm (fun _ => by linarith)
        (fun _ => by linarith) bins idx hb.dims (by rw [(indices_mem_length _ _ hi).1, List.length_map, hb.dims]) z
      convert this using 2
      unfold parabolaLaw shadowConstants
      congr 1
      funext k
      congr 3
      field_simp
      ring) hs hW hfile hε hδ
  exact ⟨n0, N0, fun P w inp cfg sim s0 config n pot starts hrun hp hl hn hN =>
    h P w inp cfg sim s0 config n pot mass starts (hrun.bussi hp hc hl) hn hN⟩

/-- **C155.** The same for overdamped walkers: the force constant is `2 c2 (1 - c2 dt)`, and `kT` is 1. -/
theorem main_overdamped_histogram {c0 c1 c2 dt mass : ℝ} (hc : 0 < c2) (hdt : 0 < dt) (hlim : c2 * dt < 1)
    (hb : RequestedBins oh 1 bins) (hs : 0 < s) (hW : 0 < W) (hfile : file = true ∨ s ≤ W) {ε δ : ℝ} (hε : 0 < ε) (hδ : 0 < δ) :
    ∃ n0 N0 : ℕ, ∀ {Ω R : Type} [MeasurableSpace Ω] (P : Measure Ω) (w : Ω → World R) (inp : Option (List Section))
      (cfg : Ω → SimCfg 1) (sim s0 : Ω → Sim 1 R) (config : Input ℝ) (n : ℕ) (pot : Potential ℝ 1) (starts : List (Phase 1)),
      CountingRuns P w inp cfg sim s0 config n pot mass starts (dynamicsOf config.ld pot mass) S bins file s W →
      Parabola config c0 c1 c2 → OverdampedOptions config dt → n0 ≤ n → N0 ≤ starts.length →
      P {ω | ¬ ∃ H, (sim ω).hist = some H ∧ H.bins = bins ∧ ∀ idx ∈ indices (bins.map (fun e => e.length - 1)),
        |(H.data idx : ℝ) / (starts.length * (countedSteps file s W n).length : ℕ) -
          (parabolaLaw c1 c2 1 (2 * c2 * (1 - c2 * dt))).real (binRegion bins idx)| < ε} ≤ ENNReal.ofReal δ := by
  obtain ⟨n0, N0, h⟩ := main_long_histogram (eulerHarmonic_measurable (fun _ : Fin 1 => 2 * c2) (fun _ => -c1 / (2 * c2)) dt)
    (S := S) (bins := bins) (p := fun idx => (parabolaLaw c1 c2 1 (2 * c2 * (1 - c2 * dt))).real (binRegion bins idx))
    (indices (bins.map (fun e => e.length - 1))) (fun idx hi z _ => by
      have := settles_euler (fun _ : Fin 1 => 2 * c2) (fun _ => -c1 / (2 * c2)) dt hdt (fun _ => by linarith)
        (fun _ => by linarith) bins idx hb.dims (by rw [(indices_mem_length _ _ hi).1, List.length_map, hb.dims]) z
      convert this using 2
      unfold parabolaLaw
      congr 1
      funext k
      congr 2
      ring) hs hW hfile hε hδ
  exact ⟨n0, N0, fun P w inp cfg sim s0 config n pot starts hrun hp hl hn hN =>
    h P w inp cfg sim s0 config n pot mass starts (hrun.overdamped hp hc hl) hn hN⟩

/-- **C155.** The free energies at the end of these runs: the difference of two bins is near to the free energy difference of the
same canonical distribution, except for a small probability. -/
theorem main_bussi_fes {c0 c1 c2 dt friction kt mass : ℝ} (hc : 0 < c2) (hdt : 0 < dt) (hf : 0 < friction) (hkt : 0 < kt)
    (hm : 0 < mass) (hlim : c2 * dt ^ 2 < 2 * mass) (hb : RequestedBins oh 1 bins) (hs : 0 < s) (hW : 0 < W) (hfile : file = true ∨ s ≤ W)
    {i j : ℕ} {idx jdx : List Nat} (hi : (indices (bins.map (fun e => e.length - 1)))[i]? = some idx)
    (hj : (indices (bins.map (fun e => e.length - 1)))[j]? = some jdx) {ε δ : ℝ} (hε : 0 < ε) (hδ : 0 < δ) :
    ∃ n0 N0 : ℕ, ∀ {Ω R : Type} [MeasurableSpace Ω] (P : Measure Ω) (w : Ω → World R) (inp : Option (List Section))
      (cfg : Ω → SimCfg 1) (sim s0 : Ω → Sim 1 R) (config : Input ℝ) (n : ℕ) (pot : Potential ℝ 1) (starts : List (Phase 1)),
      CountingRuns P w inp cfg sim s0 config n pot mass starts (dynamicsOf config.ld pot mass) S bins file s W →
      Parabola config c0 c1 c2 → BussiOptions config dt friction kt → config.fes ≠ none → n0 ≤ n → N0 ≤ starts.length →
      P {ω | ¬ ∃ fes, (sim ω).fes = some fes ∧ ∃ f g : ℝ, fes.flat[i]? = some (f : WithTop ℝ) ∧ fes.flat[j]? = some (g : WithTop ℝ) ∧
        |(f - g) - kt * Real.log ((parabolaLaw c1 c2 kt (2 * c2 * (1 - c2 * dt ^ 2 / (2 * mass)))).real (binRegion bins jdx) /
          (parabolaLaw c1 c2 kt (2 * c2 * (1 - c2 * dt ^ 2 / (2 * mass)))).real (binRegion bins idx))| < ε} ≤ ENNReal.ofReal δ := by
  have hpos : 0 < kt / (2 * c2 * (1 - c2 * dt ^ 2 / (2 * mass))) := by
    refine div_pos hkt (mul_pos (by linarith) ?_)
    rw [sub_pos, div_lt_one (by linarith)]
    exact hlim
  obtain ⟨n0, N0, h⟩ := main_long_fes (bussiHarmonic_measurable (fun _ : Fin 1 => 2 * c2) (fun _ => -c1 / (2 * c2)) dt friction kt mass)
    (S := S) (bins := bins) (p := fun idx => (parabolaLaw c1 c2 kt (2 * c2 * (1 - c2 * dt ^ 2 / (2 * mass)))).real (binRegion bins idx)) hi hj
    (requested_positive hb _ _ (fun _ => hpos) _ (List.mem_of_getElem? hi)) (requested_positive hb _ _ (fun _ => hpos) _ (List.mem_of_getElem? hj))
    (fun idx hk z _ => by
      have hi' : idx ∈ indices (bins.map (fun e => e.length - 1)) := by
        simp only [List.mem_cons, List.not_mem_nil, or_false] at hk
        rcases hk with rfl | rfl
        · exact List.mem_of_getElem? hi
        · exact List.mem_of_getElem? hj
      have := settles_bussi (fun _ : Fin 1 => 2 * c2) (fun _ => -c1 / (2 * c2)) dt friction kt mass hdt hf hkt hm (fun _ => by linarith)
        (fun _ => by linarith) bins idx hb.dims (by rw [(indices_mem_length _ _ hi').1, List.length_map, hb.dims]) z
      convert this using 2
      unfold parabolaLaw shadowConstants
      congr 1
      funext k
      congr 3
      field_simp
      ring) hs hW hfile kt hε hδ
  refine ⟨n0, N0, fun P w inp cfg sim s0 config n pot starts hrun hp hl hfes hn hN =>
    h P w inp cfg sim s0 config n pot mass starts (hrun.bussi hp hc hl) hfes (fun ω => ?_) hn hN⟩
  obtain ⟨dt', friction', kt', _, _, k3, _, k5⟩ := (main_constants (hrun.random.run ω)).2.1 hl.type
  simp only at k5
  have e : kt' = kt := by
    have k4 : config.ld.get? "kt" = some (.base (.float kt')) := k3
    have k6 : config.ld.get? "kt" = some (.base (.float kt)) := hl.kt
    rw [k4] at k6
    cases k6
    rfl
  rw [k5, e]
  rfl

end

end Bdld
