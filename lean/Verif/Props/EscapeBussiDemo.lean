import Verif.Props.EscapeBussi
import Verif.Props.EscapeDemo

/-
C159 for concrete inputs: walkers with the dynamics of Bussi and Parrinello in the double well x⁴ - 2 x² without boundary condition.
-/

namespace Bdld

open MeasureTheory ProbabilityTheory Spec

noncomputable section

/-- Bussi-Parinello dynamics in x⁴ - 2 x² without walls, with a histogram and free energies at the end. -/
def wildFile (n N : ℕ) : List Section := [longLd n, freePolySection, longPart N, tenTraj, longHist, unitsFes "1"]

def wildInput (n N : ℕ) : Input ℝ where
  ld := [("type", .base (.str "bussi-parinello")), ("timestep", .base (.float (1 / 200))), ("n_steps", .base (.int n)),
    ("seed", .base (.int 1)), ("kt", .base (.float 1)), ("friction", .base (.float 10))]
  potential := [("type", .base (.str "polynomial")), ("n_dim", .base (.int 1)),
    ("coeffs", .list ([0, 0, -2, 0, 1].map .float)), ("min", .base (.float (-3))), ("max", .base (.float 3)),
    ("boundary-condition", .none)]
  particles := [("number", .base (.int N)), ("mass", .base (.float 1)), ("seed", .none),
    ("initial-distribution", .base (.str "fractions-pos")), ("pos1", .list [.float 1]),
    ("fractions", .list ([1].map .float))]
  trajectories := some tenTrajOpts
  histogram := some longHistOpts
  fes := some [("kt", .base (.float 1)), ("stride", .base (.int 10)), ("filename", .none), ("write-stride", .none),
    ("fmt", .none), ("plot-stride", .none), ("plot-filename", .none), ("plot-domain", .none), ("plot-title", .none)]

set_option linter.unusedSimpArgs false in
theorem wild_parse {n N : ℕ} (hn : 0 < n) (hN : 0 < N) : parseAll 1 realConv (some (wildFile n N)) = .ok (wildInput n N) := by
  have f1 : findSection (wildFile n N) "ld" = some (longLd n) := rfl
  have f2 : findSection (wildFile n N) "potential" = some freePolySection := rfl
  have f3 : findSection (wildFile n N) "particles" = some (longPart N) := rfl
  have f4 : findSection (wildFile n N) "birth-death" = none := rfl
  have f5 : findSection (wildFile n N) "trajectories" = some tenTraj := rfl
  have f6 : findSection (wildFile n N) "histogram" = some longHist := rfl
  have f7 : findSection (wildFile n N) "fes" = some (unitsFes "1") := rfl
  have f8 : findSection (wildFile n N) "delta-f" = none := rfl
  have f9 : findSection (wildFile n N) "particle-distribution" = none := rfl
  have s1 : pySplit "0,0,-2,0,1" = ["0", "0", "-2", "0", "1"] := by decide +kernel
  have s3 : pySplit "1" = ["1"] := by decide +kernel
  have in' := repr_int n
  have iN := repr_int N
  simp [parseAll, requireSection, parseOptional, f1, f2, f3, f4, f5, f6, f7, f8, f9, isOneDim, in', iN, hn, hN,
    longLd, freePolySection, longPart, tenTraj, longHist, unitsFes, demoSection, parseLd, parsePotential, parseParticles, potentialOptions, polyOptions, InputOption.parse, opt,
    optList, Dict.get?, List.lookup, InputOption.convert, ldOptions, parseSection, parseLoop, Dict.set, tf1, tf2, tf3, tf6,
    tf3', tf3'', tfm1, tfm2, s1, s3, ti3, ti4, ti5, ti6, ti7,
    positive, allPositive, positiveOrZero, gtZero, cmpNum, ok_bind, pure_eq_ok, atMost3dim, atMost3dimInt, pyAnd,
    callType, orValueError, particlesOptions, initialDistributions, oneOf, numberedSection,
    numberedLoop, numKey, List.range, List.range.loop, birthDeathOptions,
    trajectoriesOptions, histogramOptions, fesOptions, repr1, repr2, repr3, wildInput, tenTrajOpts, longHistOpts]

theorem wild_numbered (n N : ℕ) :
    Numbered (wildInput n N).particles.get? "pos" "" ([[1]].map (fun p => .list (p.map .float))) := by
  refine ⟨?_, ?_⟩
  · intro i hi
    match i, hi with
    | 0, _ => rfl
  · have e : ("pos" ++ (0 + 1 + 1).repr ++ "") = "pos2" := by decide +kernel
    rw [List.length_map, List.length_cons, List.length_nil, e]
    rfl

theorem wild_consistent (formats : List String) (terminal : Bool) (n N : ℕ) : ConsistentLine formats terminal (wildInput n N) where
  polynomial := rfl
  oneDim := rfl
  coeffs := by intro h; cases h
  range := by intro lo hi h1 h2; cases h1; cases h2; norm_num
  ldSeed := by intro i hi; cases hi; decide
  particlesSeed := by intro i hi; cases hi
  start := .inr ⟨[[1]], wild_numbered n N, by simp, .inr ⟨rfl, fun fractions h => by
    have h' : some (OptVal.list (([1] : List ℝ).map BaseVal.float)) = some (OptVal.list (fractions.map .float)) := h
    have : ([1] : List ℝ).map BaseVal.float = fractions.map .float := by simpa using h'
    obtain rfl := List.map_injective_iff.2 (fun x y e => by cases e; rfl) this
    norm_num⟩⟩
  bdSeed := by intro o ho; cases ho
  bdWalkers := by intro h; cases h
  bdVariant := by intro o ho; cases ho
  needsTrajectories := fun _ => rfl
  bins := by intro o ho lo hi h1 h2; cases ho; cases h1; cases h2; norm_num
  output := by
    rintro (⟨o, ho, h⟩ | ⟨o, ho, h⟩ | ⟨o, ho, h⟩ | ⟨o, ho, h⟩)
    · cases ho
      exact absurd h.1 (by simp [natOption, longHistOpts, Dict.get?, List.lookup])
    · cases ho
      rcases h with ⟨h, _⟩ | ⟨h, _⟩
      · simp [natOption, Dict.get?, List.lookup] at h
      · simp [intOption, Dict.get?, List.lookup] at h
    · cases ho
    · cases ho
  plots := by intro o ho; cases ho; exact .inl rfl
  deltaF := by intro o ho; cases ho
  distribution := by intro o ho; cases ho

theorem wild_finished {n N : ℕ} (hn : 0 < n) (hN : 0 < N) (g : ℕ → Fin 1 → ℝ) : ∃ (cfg : SimCfg 1) (sim s0 : Sim 1 ℕ),
    FinishedRun (tenWorld g) (some (wildFile n N)) ⟨1, cfg, sim⟩ (wildInput n N) n s0 ∧
      s0.particles.map (fun p => (p.pos, p.mom)) = List.replicate N longStart := by
  have hp : parseAll 1 (tenWorld g).conv (some (wildFile n N)) = .ok (wildInput n N) := wild_parse hn hN
  obtain ⟨⟨d, cfg, sim⟩, ha⟩ := line_progress (tenWorld g) _ _ hp (wild_consistent _ _ n N) countBdOps_lawful
    ⟨fun _ _ _ h => ⟨le_rfl, h⟩, fun _ _ h => h⟩ (withLinear_ok _) (fun o ho => by cases ho)
  obtain ⟨config, n', s0, hr⟩ := main_run _ _ _ ha
  have hp' := hr.parse
  rw [hp] at hp'
  cases hp'
  have hn' : n' = n := by
    have := hr.steps
    cases this
    rfl
  subst hn'
  obtain ⟨hd, _⟩ := (main_potential hr).oneDim rfl rfl
  simp only at hd
  subst hd
  refine ⟨cfg, sim, s0, hr, ?_⟩
  obtain ⟨mass, number, m1, m2, _, _, m3⟩ := main_initial hr
  cases m2
  obtain ⟨_, e⟩ := m3 rfl [[1]] [1] (wild_numbered n' N) rfl (by simp) (by norm_num)
  rw [e, show ((N : Int).toNat) = N from Int.toNat_natCast N, long_shares]
  have c1 : coords 1 [(1 : ℝ)] = fun _ => 1 := by
    funext k
    rw [Subsingleton.elim k 0]
    rfl
  simp [longStart, atRest, c1]

/-- The hypotheses of C159 hold for every number of steps and walkers. -/
theorem wild_counting {bins : List (List ℝ)} (hb : RequestedBins longHistOpts 1 bins) {n N : ℕ} (hn : 0 < n) (hN : 0 < N) :
    ∃ (cfg : (ℕ → Fin 1 → ℝ) → SimCfg 1) (sim s0 : (ℕ → Fin 1 → ℝ) → Sim 1 ℕ) (pot : Potential ℝ 1),
    CountingRuns (Measure.infinitePi (fun _ : ℕ => standard 1)) tenWorld (some (wildFile n N)) cfg sim s0 (wildInput n N) n pot 1
      (List.replicate N longStart) (dynamicsOf (wildInput n N).ld pot 1) {longStart} bins false 5 200 := by
  choose cfg sim s0 hr hs using wild_finished hn hN
  refine ⟨cfg, sim, s0, (cfg fun _ => 0).ld.pot, ⟨hr, fun _ => countBdOps_lawful, rfl, rfl, fun ω => ?_, hs, ?_⟩, rfl,
    fun z hz => ?_, ⟨tenTrajOpts, rfl, rfl, rfl⟩, ⟨longHistOpts, rfl, rfl, rfl, hb⟩⟩
  · have h1 := (finished_required (hr ω)).1
    have h2 := (finished_required (hr fun _ => 0)).1
    have h3 : setupPotential (tenWorld ω) (wildInput n N).potential = setupPotential (tenWorld fun _ => 0) (wildInput n N).potential := rfl
    rw [h3, h2] at h1
    have h4 := Except.ok.inj h1
    simp only [AnyPotential.mk.injEq, heq_eq_eq, true_and] at h4
    exact h4.symm
  · have e : (fun (i : ℕ) (ω : ℕ → Fin 1 → ℝ) => draw ((tenWorld ω).normal 1) (seededBy (tenWorld ω) .ld (wildInput n N).ld) i) =
        fun i ω => ω i := by
      funext i ω
      exact listWorld_draw ω i
    rw [e]
    exact stream_exists 1
  · rw [Finset.mem_singleton]
    exact (List.mem_replicate.1 hz).2

theorem wild_polynomial (n N : ℕ) : FreePolynomial (wildInput n N) [0, 0, -2, 0, 1] where
  type := rfl
  oneDim := rfl
  coeffs := rfl
  open' := ⟨(by intro h; cases h), (by intro h; cases h)⟩

theorem wild_bussi (n N : ℕ) : BussiOptions (wildInput n N) (1 / 200) 10 1 where
  type := rfl
  timestep := rfl
  friction := rfl
  kt := rfl

/-- C159 for the example: walkers that start in the right well of `x⁴ - 2 x²` run away with a probability that does not depend on
the number of steps. -/
theorem wild_demo : ∃ r c : ℝ, 0 < r ∧ 0 < c ∧ ∀ n N : ℕ, 0 < N →
    ∃ (cfg : (ℕ → Fin 1 → ℝ) → SimCfg 1) (sim s0 : (ℕ → Fin 1 → ℝ) → Sim 1 ℕ) (pot : Potential ℝ 1)
      (h : RandomRuns (Measure.infinitePi (fun _ : ℕ => standard 1)) tenWorld (some (wildFile (n + 1) N)) cfg sim s0 (wildInput (n + 1) N)
        (n + 1) pot 1 (List.replicate N longStart)),
      ∀ k < N, c ≤ (Measure.infinitePi (fun _ : ℕ => standard 1)).real {ω | 2 ^ n * r ≤ |(h.phase k (n + 1) ω).1 0|} := by
  obtain ⟨r, c, hr, hc, hrun⟩ := main_bussi_escape freed_degree (dt := 1 / 200) (friction := 10) (kt := 1) (mass := 1) (by norm_num) (by norm_num) (by norm_num)
    (by norm_num) longStart
  obtain ⟨bins, hb⟩ := long_bins
  refine ⟨r, c, hr, hc, fun n N hN => ?_⟩
  obtain ⟨cfg, sim, s0, pot, h⟩ := wild_counting hb (Nat.succ_pos n) hN
  exact ⟨cfg, sim, s0, pot, h.random, fun k hk => hrun _ _ _ cfg sim s0 _ _ pot _ h.random (wild_polynomial _ _) (wild_bussi _ _) k
    (by rw [List.getElem?_replicate, if_pos hk]) n le_rfl⟩

/-- C159 for the example: no distribution is stationary. -/
theorem wild_no_stationary (μ : Measure (Phase 1)) (hμ : IsProbabilityMeasure μ) :
    afterStep (stepMap .bussi (freePot [0, 0, -2, 0, 1]) (1 / 200) 10 1 1) μ ≠ μ :=
  bussi_free_no_stationary freed_degree (by norm_num) (by norm_num) (by norm_num) (by norm_num) μ hμ

end

end Bdld
