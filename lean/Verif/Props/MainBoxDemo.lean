import Verif.Props.MainBox
import Verif.Props.MainLongRunDemo

/-
C157 for concrete inputs: any number of overdamped walkers in the double well x⁴ - 2 x² between reflecting walls at -3 and 3 that
all start at 1, and any number of steps.
-/

namespace Bdld

open MeasureTheory ProbabilityTheory Spec

noncomputable section

def boxLd (n : ℕ) : Section := demoSection "ld"
  [("type", "overdamped"), ("timestep", "0.005"), ("n_steps", Nat.repr n), ("seed", "1")]

def boxPot : Section := demoSection "potential"
  [("type", "polynomial"), ("n_dim", "1"), ("coeffs", "0,0,-2,0,1"), ("min", "-3"), ("max", "3"),
   ("boundary-condition", "reflective")]

/-- Overdamped dynamics in x⁴ - 2 x² between reflecting walls, with a histogram and free energies at the end. -/
def boxFile (n N : ℕ) : List Section := [boxLd n, boxPot, longPart N, tenTraj, longHist, unitsFes "1"]

def boxInput (n N : ℕ) : Input ℝ where
  ld := [("type", .base (.str "overdamped")), ("timestep", .base (.float (1 / 200))), ("n_steps", .base (.int n)),
    ("seed", .base (.int 1))]
  potential := [("type", .base (.str "polynomial")), ("n_dim", .base (.int 1)),
    ("coeffs", .list ([0, 0, -2, 0, 1].map .float)), ("min", .base (.float (-3))), ("max", .base (.float 3)),
    ("boundary-condition", .base (.str "reflective"))]
  particles := [("number", .base (.int N)), ("mass", .base (.float 1)), ("seed", .none),
    ("initial-distribution", .base (.str "fractions-pos")), ("pos1", .list [.float 1]),
    ("fractions", .list ([1].map .float))]
  trajectories := some tenTrajOpts
  histogram := some longHistOpts
  fes := some [("kt", .base (.float 1)), ("stride", .base (.int 10)), ("filename", .none), ("write-stride", .none),
    ("fmt", .none), ("plot-stride", .none), ("plot-filename", .none), ("plot-domain", .none), ("plot-title", .none)]

set_option linter.unusedSimpArgs false in
theorem boxed_parse {n N : ℕ} (hn : 0 < n) (hN : 0 < N) : parseAll 1 realConv (some (boxFile n N)) = .ok (boxInput n N) := by
  have f1 : findSection (boxFile n N) "ld" = some (boxLd n) := rfl
  have f2 : findSection (boxFile n N) "potential" = some boxPot := rfl
  have f3 : findSection (boxFile n N) "particles" = some (longPart N) := rfl
  have f4 : findSection (boxFile n N) "birth-death" = none := rfl
  have f5 : findSection (boxFile n N) "trajectories" = some tenTraj := rfl
  have f6 : findSection (boxFile n N) "histogram" = some longHist := rfl
  have f7 : findSection (boxFile n N) "fes" = some (unitsFes "1") := rfl
  have f8 : findSection (boxFile n N) "delta-f" = none := rfl
  have f9 : findSection (boxFile n N) "particle-distribution" = none := rfl
  have s1 : pySplit "0,0,-2,0,1" = ["0", "0", "-2", "0", "1"] := by decide +kernel
  have s3 : pySplit "1" = ["1"] := by decide +kernel
  have in' := repr_int n
  have iN := repr_int N
  simp [parseAll, requireSection, parseOptional, f1, f2, f3, f4, f5, f6, f7, f8, f9, isOneDim, in', iN, hn, hN,
    boxLd, boxPot, longPart, tenTraj, longHist, unitsFes, demoSection, parseLd, parsePotential, parseParticles, potentialOptions, polyOptions, InputOption.parse, opt,
    optList, Dict.get?, List.lookup, InputOption.convert, ldOptions, parseSection, parseLoop, Dict.set, tf1, tf2, tf3, tf6,
    tf3', tf3'', tfm1, tfm2, s1, s3, ti3, ti4, ti5, ti6, ti7,
    positive, allPositive, positiveOrZero, gtZero, cmpNum, ok_bind, pure_eq_ok, atMost3dim, atMost3dimInt, pyAnd,
    callType, orValueError, particlesOptions, initialDistributions, oneOf, numberedSection,
    numberedLoop, numKey, List.range, List.range.loop, birthDeathOptions,
    trajectoriesOptions, histogramOptions, fesOptions, repr1, repr2, repr3, boxInput, tenTrajOpts, longHistOpts]

theorem boxed_numbered (n N : ℕ) :
    Numbered (boxInput n N).particles.get? "pos" "" ([[1]].map (fun p => .list (p.map .float))) := by
  refine ⟨?_, ?_⟩
  · intro i hi
    match i, hi with
    | 0, _ => rfl
  · have e : ("pos" ++ (0 + 1 + 1).repr ++ "") = "pos2" := by decide +kernel
    rw [List.length_map, List.length_cons, List.length_nil, e]
    rfl

theorem boxed_consistent (formats : List String) (terminal : Bool) (n N : ℕ) : ConsistentLine formats terminal (boxInput n N) where
  polynomial := rfl
  oneDim := rfl
  coeffs := by intro h; cases h
  range := by intro lo hi h1 h2; cases h1; cases h2; norm_num
  ldSeed := by intro i hi; cases hi; decide
  particlesSeed := by intro i hi; cases hi
  start := .inr ⟨[[1]], boxed_numbered n N, by simp, .inr ⟨rfl, fun fractions h => by
    have h' : some (OptVal.list (([1] : List ℝ).map BaseVal.float)) = some (OptVal.list (fractions.map .float)) := h
    have : ([1] : List ℝ).map BaseVal.float = fractions.map .float := by simpa using h'
    obtain rfl := List.map_injective_iff.2 (fun x y e => by cases e; rfl) this
    norm_num⟩⟩
  bdSeed := by intro o ho; cases ho
  bdWalkers := by intro h; cases h
  bdVariant := by intro o ho; cases ho
  needsTrajectories := fun _ => rfl
  bins := by intro o ho lo hi h1 h2; cases ho; cases h1; cases h2; norm_num
  output := by
    rintro (⟨o, ho, h⟩ | ⟨o, ho, h⟩ | ⟨o, ho, h⟩ | ⟨o, ho, h⟩)
    · cases ho
      exact absurd h.1 (by simp [natOption, longHistOpts, Dict.get?, List.lookup])
    · cases ho
      rcases h with ⟨h, _⟩ | ⟨h, _⟩
      · simp [natOption, Dict.get?, List.lookup] at h
      · simp [intOption, Dict.get?, List.lookup] at h
    · cases ho
    · cases ho
  plots := by intro o ho; cases ho; exact .inl rfl
  deltaF := by intro o ho; cases ho
  distribution := by intro o ho; cases ho

theorem boxed_finished {n N : ℕ} (hn : 0 < n) (hN : 0 < N) (g : ℕ → Fin 1 → ℝ) : ∃ (cfg : SimCfg 1) (sim s0 : Sim 1 ℕ),
    FinishedRun (tenWorld g) (some (boxFile n N)) ⟨1, cfg, sim⟩ (boxInput n N) n s0 ∧
      s0.particles.map (fun p => (p.pos, p.mom)) = List.replicate N longStart := by
  have hp : parseAll 1 (tenWorld g).conv (some (boxFile n N)) = .ok (boxInput n N) := boxed_parse hn hN
  obtain ⟨⟨d, cfg, sim⟩, ha⟩ := line_progress (tenWorld g) _ _ hp (boxed_consistent _ _ n N) countBdOps_lawful
    ⟨fun _ _ _ h => ⟨le_rfl, h⟩, fun _ _ h => h⟩ (withLinear_ok _) (fun o ho => by cases ho)
  obtain ⟨config, n', s0, hr⟩ := main_run _ _ _ ha
  have hp' := hr.parse
  rw [hp] at hp'
  cases hp'
  have hn' : n' = n := by
    have := hr.steps
    cases this
    rfl
  subst hn'
  obtain ⟨hd, _⟩ := (main_potential hr).oneDim rfl rfl
  simp only at hd
  subst hd
  refine ⟨cfg, sim, s0, hr, ?_⟩
  obtain ⟨mass, number, m1, m2, _, _, m3⟩ := main_initial hr
  cases m2
  obtain ⟨_, e⟩ := m3 rfl [[1]] [1] (boxed_numbered n' N) rfl (by simp) (by norm_num)
  rw [e, show ((N : Int).toNat) = N from Int.toNat_natCast N, long_shares]
  have c1 : coords 1 [(1 : ℝ)] = fun _ => 1 := by
    funext k
    rw [Subsingleton.elim k 0]
    rfl
  simp [longStart, atRest, c1]

/-- The hypotheses of C157 hold for every number of steps and walkers. -/
theorem boxed_counting {bins : List (List ℝ)} (hb : RequestedBins longHistOpts 1 bins) {n N : ℕ} (hn : 0 < n) (hN : 0 < N) :
    ∃ (cfg : (ℕ → Fin 1 → ℝ) → SimCfg 1) (sim s0 : (ℕ → Fin 1 → ℝ) → Sim 1 ℕ) (pot : Potential ℝ 1),
    CountingRuns (Measure.infinitePi (fun _ : ℕ => standard 1)) tenWorld (some (boxFile n N)) cfg sim s0 (boxInput n N) n pot 1
      (List.replicate N longStart) (dynamicsOf (boxInput n N).ld pot 1) {longStart} bins false 5 200 := by
  choose cfg sim s0 hr hs using boxed_finished hn hN
  refine ⟨cfg, sim, s0, (cfg fun _ => 0).ld.pot, ⟨hr, fun _ => countBdOps_lawful, rfl, rfl, fun ω => ?_, hs, ?_⟩, rfl,
    fun z hz => ?_, ⟨tenTrajOpts, rfl, rfl, rfl⟩, ⟨longHistOpts, rfl, rfl, rfl, hb⟩⟩
  · have h1 := (finished_required (hr ω)).1
    have h2 := (finished_required (hr fun _ => 0)).1
    have h3 : setupPotential (tenWorld ω) (boxInput n N).potential = setupPotential (tenWorld fun _ => 0) (boxInput n N).potential := rfl
    rw [h3, h2] at h1
    have h4 := Except.ok.inj h1
    simp only [AnyPotential.mk.injEq, heq_eq_eq, true_and] at h4
    exact h4.symm
  · have e : (fun (i : ℕ) (ω : ℕ → Fin 1 → ℝ) => draw ((tenWorld ω).normal 1) (seededBy (tenWorld ω) .ld (boxInput n N).ld) i) =
        fun i ω => ω i := by
      funext i ω
      exact listWorld_draw ω i
    rw [e]
    exact stream_exists 1
  · rw [Finset.mem_singleton]
    exact (List.mem_replicate.1 hz).2

/-- The potential of the runs. -/
theorem boxed_potential {n N : ℕ} {w : World ℕ} {cfg : SimCfg 1} {sim s0 : Sim 1 ℕ} {inp : Option (List Section)}
    (hr : FinishedRun w inp ⟨1, cfg, sim⟩ (boxInput n N) n s0) :
    BoxPotential (boxInput n N).potential cfg.ld.pot (fun _ => -3) (fun _ => 3) where
  setup := ⟨ℕ, w, (finished_required hr).1⟩
  valid := (input_valid 1 one_pos inp _ hr.parse).potential
  reflective := rfl
  ranges := by
    obtain ⟨_, cs, lo, hi, _, h1, h2, h3, _⟩ := (main_potential hr).oneDim rfl rfl
    cases h1
    cases h2
    intro k
    simp only at h3
    rw [h3, Subsingleton.elim k 0]
    rfl
  lt := fun _ => by norm_num

theorem boxed_overdamped (n N : ℕ) : OverdampedOptions (boxInput n N) (1 / 200) where
  type := rfl
  timestep := rfl

/-- C157 for the example: the potential does not depend on the numbers of steps and walkers. There is a distribution at which the
walkers settle, and with enough steps and walkers the histogram is with a probability of at least 99 % in all ten bins nearer than
1/100 to it. -/
theorem boxed_demo : ∃ (bins : List (List ℝ)) (n N : ℕ) (cfg : (ℕ → Fin 1 → ℝ) → SimCfg 1) (sim s0 : (ℕ → Fin 1 → ℝ) → Sim 1 ℕ)
    (pot : Potential ℝ 1) (π : Measure (Fin 1 → ℝ)), RequestedBins longHistOpts 1 bins ∧
    BoxPotential (boxInput n N).potential pot (fun _ => -3) (fun _ => 3) ∧ StationaryInBox pot (1 / 200) (fun _ => -3) (fun _ => 3) π ∧
    CountingRuns (Measure.infinitePi (fun _ : ℕ => standard 1)) tenWorld (some (boxFile n N)) cfg sim s0 (boxInput n N) n pot 1
      (List.replicate N longStart) (dynamicsOf (boxInput n N).ld pot 1) {longStart} bins false 5 200 ∧
    (Measure.infinitePi (fun _ : ℕ => standard 1)) {ω | ¬ ∃ H, (sim ω).hist = some H ∧ H.bins = bins ∧
      ∀ idx ∈ indices (bins.map (fun e => e.length - 1)),
        |(H.data idx : ℝ) / (N * (countedSteps false 5 200 n).length : ℕ) - π.real (binRegion bins idx)| < 1 / 100} ≤
      ENNReal.ofReal (1 / 100) := by
  obtain ⟨bins, hb⟩ := long_bins
  obtain ⟨cfg1, sim1, s1, hr1, _⟩ := boxed_finished one_pos one_pos (fun _ => 0)
  have hbox := boxed_potential hr1
  obtain ⟨π, hπ, _⟩ := box_converges (dt := 1 / 200) hbox.box.1 hbox.box.2 (by norm_num)
  obtain ⟨n0, N0, h⟩ := main_box_histogram (S := {longStart}) (bins := bins) (file := false) (s := 5) (W := 200) (mass := 1) hbox
    (by norm_num) hπ (by norm_num) (by norm_num) (.inr (by norm_num)) (ε := 1 / 100) (δ := 1 / 100) (by norm_num) (by norm_num)
  obtain ⟨cfg, sim, s0, pot, hc⟩ := boxed_counting hb (Nat.succ_pos n0) (Nat.succ_pos N0)
  have hpot : pot = cfg1.ld.pot := by
    rw [← hc.random.samePot fun _ => 0]
    have h1 := (finished_required (hc.random.run fun _ => 0)).1
    have h2 := (finished_required hr1).1
    have h3 : setupPotential (tenWorld fun _ => 0) (boxInput (n0 + 1) (N0 + 1)).potential =
        setupPotential (tenWorld fun _ => 0) (boxInput 1 1).potential := rfl
    rw [h3, h2] at h1
    have h4 := Except.ok.inj h1
    simp only [AnyPotential.mk.injEq, heq_eq_eq, true_and] at h4
    exact h4.symm
  subst hpot
  refine ⟨bins, n0 + 1, N0 + 1, cfg, sim, s0, _, π, hb, hbox, hπ, hc, ?_⟩
  have := h _ _ _ cfg sim s0 _ _ _ hc (boxed_overdamped _ _) (Nat.le_succ n0) (by simp)
  rwa [List.length_replicate] at this

/-- The box of the potential of Müller and Brown, as the program creates it from the options. -/
theorem mueller_box : BoxPotential [("type", .base (.str "mueller-brown")), ("n_dim", .base (.int 2)), ("scaling-factor", .base (.float 1)),
    ("boundary-condition", .base (.str "reflective"))] ((MB.potential (MB.create MB.prefactors (some 1))).withBcOption (some "reflective"))
    ![-3 / 2, -1 / 2] ![3 / 2, 5 / 2] where
  setup := ⟨ℕ, tenWorld fun _ => 0, rfl⟩
  valid :=
    { type := ⟨"mueller-brown", rfl, .inr rfl⟩
      bound := .inr ⟨"reflective", rfl, trivial⟩
      nDim := ⟨2, rfl, trivial⟩
      dimPos := by intro h; simp [Dict.get?, List.lookup] at h
      oneDim := by intro h; simp [Dict.get?, List.lookup] at h
      moreDim := by intro h; simp [Dict.get?, List.lookup] at h
      scaling := fun _ => .inr ⟨1, rfl, trivial⟩ }
  reflective := rfl
  ranges := by
    intro k
    fin_cases k <;> simp [MB.potential, Potential.withBcOption, MB.ranges]
  lt := by
    intro k
    fin_cases k <;> norm_num

/-- C157 for the potential of Müller and Brown, with any time step: overdamped walkers settle at a distribution inside the
walls, and a part of them is on the wall at 3/2. -/
theorem mueller_settles {dt : ℝ} (hdt : 0 < dt) : ∃ π : Measure (Fin 2 → ℝ), IsProbabilityMeasure π ∧
    π (Set.Icc ![-3 / 2, -1 / 2] ![3 / 2, 5 / 2]) = 1 ∧ 0 < π.real {x | x 0 = 3 / 2} ∧ ∀ (friction kt m : ℝ) (A : Set (Fin 2 → ℝ)), MeasurableSet A → ∀ z,
      Settles (stepMap .overdamped ((MB.potential (MB.create MB.prefactors (some 1))).withBcOption (some "reflective")) dt friction kt m)
        A (π.real A) z := by
  obtain ⟨hb, hF⟩ := mueller_box.box
  obtain ⟨π, hπ, _⟩ := box_converges hb hF hdt
  exact ⟨π, hπ.prob, hπ.inside, (box_walls hb hF hdt hπ 0).2, fun friction kt m A hA z => settles_box hb hF hdt hπ friction kt m hA z⟩

end

end Bdld
