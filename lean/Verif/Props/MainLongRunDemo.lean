import Verif.Props.MainLongRun
import Verif.Props.MainEnsembleDemo
import Verif.Props.PyNumberRead

/-
C155 for concrete inputs: any number of walkers in x² that all start at 1, and any number of steps.
-/

namespace Bdld

open MeasureTheory ProbabilityTheory Spec

noncomputable section

/-- A number written in the input file. -/
theorem repr_int (n : ℕ) : realConv.toInt (Nat.repr n) = some (n : Int) := by
  have e : (Nat.repr n).toList = Nat.toDigits 10 n := by simp [Nat.repr]
  simp only [textConv, e]
  exact toDigits_int n

def longLd (n : ℕ) : Section := demoSection "ld"
  [("type", "bussi-parinello"), ("timestep", "0.005"), ("friction", "10.0"), ("kt", "1"), ("n_steps", Nat.repr n), ("seed", "1")]

def longPot : Section := demoSection "potential"
  [("type", "polynomial"), ("n_dim", "1"), ("coeffs", "0,0,1"), ("min", "-3"), ("max", "3")]

def longPart (N : ℕ) : Section := demoSection "particles"
  [("number", Nat.repr N), ("initial-distribution", "fractions-pos"), ("fractions", "1"), ("pos1", "1")]

def longHist : Section := demoSection "histogram" [("bins", "10"), ("min", "-3"), ("max", "3"), ("stride", "5")]

/-- Bussi-Parinello dynamics in x² without boundary condition, with a histogram and free energies at the end. -/
def longFile (n N : ℕ) : List Section := [longLd n, longPot, longPart N, tenTraj, longHist, unitsFes "1"]

def longHistOpts : Dict (OptVal ℝ) :=
  [("stride", .base (.int 5)), ("reset", .none), ("filename", .none), ("write-stride", .none), ("fmt", .none),
   ("min", .base (.float (-3))), ("max", .base (.float 3)), ("bins", .base (.int 10))]

def longInput (n N : ℕ) : Input ℝ where
  ld := [("type", .base (.str "bussi-parinello")), ("timestep", .base (.float (1 / 200))), ("n_steps", .base (.int n)),
    ("seed", .base (.int 1)), ("kt", .base (.float 1)), ("friction", .base (.float 10))]
  potential := [("type", .base (.str "polynomial")), ("n_dim", .base (.int 1)),
    ("coeffs", .list ([0, 0, 1].map .float)), ("min", .base (.float (-3))), ("max", .base (.float 3)),
    ("boundary-condition", .none)]
  particles := [("number", .base (.int N)), ("mass", .base (.float 1)), ("seed", .none),
    ("initial-distribution", .base (.str "fractions-pos")), ("pos1", .list [.float 1]),
    ("fractions", .list ([1].map .float))]
  trajectories := some tenTrajOpts
  histogram := some longHistOpts
  fes := some [("kt", .base (.float 1)), ("stride", .base (.int 10)), ("filename", .none), ("write-stride", .none),
    ("fmt", .none), ("plot-stride", .none), ("plot-filename", .none), ("plot-domain", .none), ("plot-title", .none)]

set_option linter.unusedSimpArgs false in
theorem long_parse {n N : ℕ} (hn : 0 < n) (hN : 0 < N) : parseAll 1 realConv (some (longFile n N)) = .ok (longInput n N) := by
  have f1 : findSection (longFile n N) "ld" = some (longLd n) := rfl
  have f2 : findSection (longFile n N) "potential" = some longPot := rfl
  have f3 : findSection (longFile n N) "particles" = some (longPart N) := rfl
  have f4 : findSection (longFile n N) "birth-death" = none := rfl
  have f5 : findSection (longFile n N) "trajectories" = some tenTraj := rfl
  have f6 : findSection (longFile n N) "histogram" = some longHist := rfl
  have f7 : findSection (longFile n N) "fes" = some (unitsFes "1") := rfl
  have f8 : findSection (longFile n N) "delta-f" = none := rfl
  have f9 : findSection (longFile n N) "particle-distribution" = none := rfl
  have s1 : pySplit "0,0,1" = ["0", "0", "1"] := by decide +kernel
  have s3 : pySplit "1" = ["1"] := by decide +kernel
  have in' := repr_int n
  have iN := repr_int N
  simp [parseAll, requireSection, parseOptional, f1, f2, f3, f4, f5, f6, f7, f8, f9, isOneDim, in', iN, hn, hN,
    longLd, longPot, longPart, tenTraj, longHist, unitsFes, demoSection, parseLd, parsePotential, parseParticles, potentialOptions, polyOptions, InputOption.parse, opt,
    optList, Dict.get?, List.lookup, InputOption.convert, ldOptions, parseSection, parseLoop, Dict.set, tf1, tf2, tf3, tf6,
    tf3', tf3'', tfm1, s1, s3, ti3, ti4, ti5, ti6, ti7,
    positive, allPositive, positiveOrZero, gtZero, cmpNum, ok_bind, pure_eq_ok, atMost3dim, atMost3dimInt, pyAnd,
    callType, orValueError, particlesOptions, initialDistributions, oneOf, numberedSection,
    numberedLoop, numKey, List.range, List.range.loop, birthDeathOptions,
    trajectoriesOptions, histogramOptions, fesOptions, repr1, repr2, repr3, longInput, tenTrajOpts, longHistOpts]

theorem long_numbered (n N : ℕ) :
    Numbered (longInput n N).particles.get? "pos" "" ([[1]].map (fun p => .list (p.map .float))) := by
  refine ⟨?_, ?_⟩
  · intro i hi
    match i, hi with
    | 0, _ => rfl
  · have e : ("pos" ++ (0 + 1 + 1).repr ++ "") = "pos2" := by decide +kernel
    rw [List.length_map, List.length_cons, List.length_nil, e]
    rfl

theorem long_consistent (formats : List String) (terminal : Bool) (n N : ℕ) : ConsistentLine formats terminal (longInput n N) where
  polynomial := rfl
  oneDim := rfl
  coeffs := by intro h; cases h
  range := by intro lo hi h1 h2; cases h1; cases h2; norm_num
  ldSeed := by intro i hi; cases hi; decide
  particlesSeed := by intro i hi; cases hi
  start := .inr ⟨[[1]], long_numbered n N, by simp, .inr ⟨rfl, fun fractions h => by
    have h' : some (OptVal.list (([1] : List ℝ).map BaseVal.float)) = some (OptVal.list (fractions.map .float)) := h
    have : ([1] : List ℝ).map BaseVal.float = fractions.map .float := by simpa using h'
    obtain rfl := List.map_injective_iff.2 (fun x y e => by cases e; rfl) this
    norm_num⟩⟩
  bdSeed := by intro o ho; cases ho
  bdWalkers := by intro h; cases h
  bdVariant := by intro o ho; cases ho
  needsTrajectories := fun _ => rfl
  bins := by intro o ho lo hi h1 h2; cases ho; cases h1; cases h2; norm_num
  output := by
    rintro (⟨o, ho, h⟩ | ⟨o, ho, h⟩ | ⟨o, ho, h⟩ | ⟨o, ho, h⟩)
    · cases ho
      exact absurd h.1 (by simp [natOption, longHistOpts, Dict.get?, List.lookup])
    · cases ho
      rcases h with ⟨h, _⟩ | ⟨h, _⟩
      · simp [natOption, Dict.get?, List.lookup] at h
      · simp [intOption, Dict.get?, List.lookup] at h
    · cases ho
    · cases ho
  plots := by intro o ho; cases ho; exact .inl rfl
  deltaF := by intro o ho; cases ho
  distribution := by intro o ho; cases ho

theorem long_shares (N : ℕ) : Spec.shares [(1 : ℝ)] N = [N] := by
  simp [Spec.shares]

/-- All walkers start at 1, at rest. -/
def longStart : Phase 1 := (fun _ => 1, fun _ => 0)

theorem long_finished {n N : ℕ} (hn : 0 < n) (hN : 0 < N) (g : ℕ → Fin 1 → ℝ) : ∃ (cfg : SimCfg 1) (sim s0 : Sim 1 ℕ),
    FinishedRun (tenWorld g) (some (longFile n N)) ⟨1, cfg, sim⟩ (longInput n N) n s0 ∧
      s0.particles.map (fun p => (p.pos, p.mom)) = List.replicate N longStart := by
  have hp : parseAll 1 (tenWorld g).conv (some (longFile n N)) = .ok (longInput n N) := long_parse hn hN
  obtain ⟨⟨d, cfg, sim⟩, ha⟩ := line_progress (tenWorld g) _ _ hp (long_consistent _ _ n N) countBdOps_lawful
    ⟨fun _ _ _ h => ⟨le_rfl, h⟩, fun _ _ h => h⟩ (withLinear_ok _) (fun o ho => by cases ho)
  obtain ⟨config, n', s0, hr⟩ := main_run _ _ _ ha
  have hp' := hr.parse
  rw [hp] at hp'
  cases hp'
  have hn' : n' = n := by
    have := hr.steps
    cases this
    rfl
  subst hn'
  obtain ⟨hd, _⟩ := (main_potential hr).oneDim rfl rfl
  simp only at hd
  subst hd
  refine ⟨cfg, sim, s0, hr, ?_⟩
  obtain ⟨mass, number, m1, m2, _, _, m3⟩ := main_initial hr
  cases m2
  obtain ⟨_, e⟩ := m3 rfl [[1]] [1] (long_numbered n' N) rfl (by simp) (by norm_num)
  rw [e, show ((N : Int).toNat) = N from Int.toNat_natCast N, long_shares]
  have c1 : coords 1 [(1 : ℝ)] = fun _ => 1 := by
    funext k
    rw [Subsingleton.elim k 0]
    rfl
  simp [longStart, atRest, c1]

/-- The bins of the histogram, as requested. -/
theorem long_bins : ∃ bins, RequestedBins longHistOpts 1 bins := by
  obtain ⟨cfg, sim, s0, hr, _⟩ := long_finished one_pos one_pos (fun _ => 0)
  obtain ⟨bins, hb, _⟩ := main_bins hr longHistOpts rfl
  exact ⟨bins, hb⟩

/-- The hypotheses of C155 hold for every number of steps and walkers. -/
theorem long_counting {bins : List (List ℝ)} (hb : RequestedBins longHistOpts 1 bins) {n N : ℕ} (hn : 0 < n) (hN : 0 < N) :
    ∃ (cfg : (ℕ → Fin 1 → ℝ) → SimCfg 1) (sim s0 : (ℕ → Fin 1 → ℝ) → Sim 1 ℕ) (pot : Potential ℝ 1),
    CountingRuns (Measure.infinitePi (fun _ : ℕ => standard 1)) tenWorld (some (longFile n N)) cfg sim s0 (longInput n N) n pot 1
      (List.replicate N longStart) (dynamicsOf (longInput n N).ld pot 1) {longStart} bins false 5 200 := by
  choose cfg sim s0 hr hs using long_finished hn hN
  refine ⟨cfg, sim, s0, (cfg fun _ => 0).ld.pot, ⟨hr, fun _ => countBdOps_lawful, rfl, rfl, fun ω => ?_, hs, ?_⟩, rfl,
    fun z hz => ?_, ⟨tenTrajOpts, rfl, rfl, rfl⟩, ⟨longHistOpts, rfl, rfl, rfl, hb⟩⟩
  · have h1 := (finished_required (hr ω)).1
    have h2 := (finished_required (hr fun _ => 0)).1
    have h3 : setupPotential (tenWorld ω) (longInput n N).potential = setupPotential (tenWorld fun _ => 0) (longInput n N).potential := rfl
    rw [h3, h2] at h1
    have h4 := Except.ok.inj h1
    simp only [AnyPotential.mk.injEq, heq_eq_eq, true_and] at h4
    exact h4.symm
  · have e : (fun (i : ℕ) (ω : ℕ → Fin 1 → ℝ) => draw ((tenWorld ω).normal 1) (seededBy (tenWorld ω) .ld (longInput n N).ld) i) =
        fun i ω => ω i := by
      funext i ω
      exact listWorld_draw ω i
    rw [e]
    exact stream_exists 1
  · rw [Finset.mem_singleton]
    exact (List.mem_replicate.1 hz).2

theorem long_parabola (n N : ℕ) : Parabola (longInput n N) 0 0 1 where
  type := rfl
  oneDim := rfl
  coeffs := rfl
  open' := ⟨(by intro h; cases h), (by intro h; cases h)⟩

theorem long_bussi (n N : ℕ) : BussiOptions (longInput n N) (1 / 200) 10 1 where
  type := rfl
  timestep := rfl
  friction := rfl
  kt := rfl

/-- C155 for the example: with enough steps and walkers, the histogram of the parabola x² at temperature 1 is with a probability of
at least 99 % in all ten bins nearer than 1/100 to the normal distribution with variance `1 / (2 (1 - 1/80000))`. -/
theorem long_demo : ∃ (bins : List (List ℝ)) (n N : ℕ) (cfg : (ℕ → Fin 1 → ℝ) → SimCfg 1) (sim s0 : (ℕ → Fin 1 → ℝ) → Sim 1 ℕ)
    (pot : Potential ℝ 1), RequestedBins longHistOpts 1 bins ∧
    CountingRuns (Measure.infinitePi (fun _ : ℕ => standard 1)) tenWorld (some (longFile n N)) cfg sim s0 (longInput n N) n pot 1
      (List.replicate N longStart) (dynamicsOf (longInput n N).ld pot 1) {longStart} bins false 5 200 ∧
    (Measure.infinitePi (fun _ : ℕ => standard 1)) {ω | ¬ ∃ H, (sim ω).hist = some H ∧ H.bins = bins ∧
      ∀ idx ∈ indices (bins.map (fun e => e.length - 1)),
        |(H.data idx : ℝ) / (N * (countedSteps false 5 200 n).length : ℕ) -
          (normals (fun _ : Fin 1 => 0) (fun _ => 1 / (2 * (1 - 1 / 80000)))).real (binRegion bins idx)| < 1 / 100} ≤
      ENNReal.ofReal (1 / 100) := by
  obtain ⟨bins, hb⟩ := long_bins
  obtain ⟨n0, N0, h⟩ := main_bussi_histogram (S := {longStart}) (oh := longHistOpts) (bins := bins) (file := false) (s := 5) (W := 200)
    (c0 := 0) (c1 := 0) (c2 := 1) (dt := 1 / 200) (friction := 10) (kt := 1) (mass := 1) one_pos (by norm_num) (by norm_num) one_pos
    one_pos (by norm_num) hb (by norm_num) (by norm_num) (.inr (by norm_num)) (ε := 1 / 100) (δ := 1 / 100) (by norm_num) (by norm_num)
  obtain ⟨cfg, sim, s0, pot, hc⟩ := long_counting hb (Nat.succ_pos n0) (Nat.succ_pos N0)
  refine ⟨bins, n0 + 1, N0 + 1, cfg, sim, s0, pot, hb, hc, ?_⟩
  have := h _ _ _ cfg sim s0 _ _ pot _ hc (long_parabola _ _) (long_bussi _ _) (Nat.le_succ n0) (by simp)
  rw [List.length_replicate] at this
  have e : parabolaLaw 0 1 1 (2 * 1 * (1 - 1 * (1 / 200) ^ 2 / (2 * 1))) = normals (fun _ : Fin 1 => 0) (fun _ => 1 / (2 * (1 - 1 / 80000))) := by
    unfold parabolaLaw
    norm_num
  rw [e] at this
  exact this

end

end Bdld
