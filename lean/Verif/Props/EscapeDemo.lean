import Verif.Props.Escape
import Verif.Props.MainBoxDemo

/-
C158 for concrete inputs: overdamped walkers in the double well x⁴ - 2 x² without boundary condition.
-/

namespace Bdld

open MeasureTheory ProbabilityTheory Spec

noncomputable section

def freePolySection : Section := demoSection "potential"
  [("type", "polynomial"), ("n_dim", "1"), ("coeffs", "0,0,-2,0,1"), ("min", "-3"), ("max", "3")]

/-- Overdamped dynamics in x⁴ - 2 x² without walls, with a histogram and free energies at the end. -/
def freeFile (n N : ℕ) : List Section := [boxLd n, freePolySection, longPart N, tenTraj, longHist, unitsFes "1"]

def freeInput (n N : ℕ) : Input ℝ where
  ld := [("type", .base (.str "overdamped")), ("timestep", .base (.float (1 / 200))), ("n_steps", .base (.int n)),
    ("seed", .base (.int 1))]
  potential := [("type", .base (.str "polynomial")), ("n_dim", .base (.int 1)),
    ("coeffs", .list ([0, 0, -2, 0, 1].map .float)), ("min", .base (.float (-3))), ("max", .base (.float 3)),
    ("boundary-condition", .none)]
  particles := [("number", .base (.int N)), ("mass", .base (.float 1)), ("seed", .none),
    ("initial-distribution", .base (.str "fractions-pos")), ("pos1", .list [.float 1]),
    ("fractions", .list ([1].map .float))]
  trajectories := some tenTrajOpts
  histogram := some longHistOpts
  fes := some [("kt", .base (.float 1)), ("stride", .base (.int 10)), ("filename", .none), ("write-stride", .none),
    ("fmt", .none), ("plot-stride", .none), ("plot-filename", .none), ("plot-domain", .none), ("plot-title", .none)]

set_option linter.unusedSimpArgs false in
theorem freed_parse {n N : ℕ} (hn : 0 < n) (hN : 0 < N) : parseAll 1 realConv (some (freeFile n N)) = .ok (freeInput n N) := by
  have f1 : findSection (freeFile n N) "ld" = some (boxLd n) := rfl
  have f2 : findSection (freeFile n N) "potential" = some freePolySection := rfl
  have f3 : findSection (freeFile n N) "particles" = some (longPart N) := rfl
  have f4 : findSection (freeFile n N) "birth-death" = none := rfl
  have f5 : findSection (freeFile n N) "trajectories" = some tenTraj := rfl
  have f6 : findSection (freeFile n N) "histogram" = some longHist := rfl
  have f7 : findSection (freeFile n N) "fes" = some (unitsFes "1") := rfl
  have f8 : findSection (freeFile n N) "delta-f" = none := rfl
  have f9 : findSection (freeFile n N) "particle-distribution" = none := rfl
  have s1 : pySplit "0,0,-2,0,1" = ["0", "0", "-2", "0", "1"] := by decide +kernel
  have s3 : pySplit "1" = ["1"] := by decide +kernel
  have in' := repr_int n
  have iN := repr_int N
  simp [parseAll, requireSection, parseOptional, f1, f2, f3, f4, f5, f6, f7, f8, f9, isOneDim, in', iN, hn, hN,
    boxLd, freePolySection, longPart, tenTraj, longHist, unitsFes, demoSection, parseLd, parsePotential, parseParticles, potentialOptions, polyOptions, InputOption.parse, opt,
    optList, Dict.get?, List.lookup, InputOption.convert, ldOptions, parseSection, parseLoop, Dict.set, tf1, tf2, tf3, tf6,
    tf3', tf3'', tfm1, tfm2, s1, s3, ti3, ti4, ti5, ti6, ti7,
    positive, allPositive, positiveOrZero, gtZero, cmpNum, ok_bind, pure_eq_ok, atMost3dim, atMost3dimInt, pyAnd,
    callType, orValueError, particlesOptions, initialDistributions, oneOf, numberedSection,
    numberedLoop, numKey, List.range, List.range.loop, birthDeathOptions,
    trajectoriesOptions, histogramOptions, fesOptions, repr1, repr2, repr3, freeInput, tenTrajOpts, longHistOpts]

theorem freed_numbered (n N : ℕ) :
    Numbered (freeInput n N).particles.get? "pos" "" ([[1]].map (fun p => .list (p.map .float))) := by
  refine ⟨?_, ?_⟩
  · intro i hi
    match i, hi with
    | 0, _ => rfl
  · have e : ("pos" ++ (0 + 1 + 1).repr ++ "") = "pos2" := by decide +kernel
    rw [List.length_map, List.length_cons, List.length_nil, e]
    rfl

theorem freed_consistent (formats : List String) (terminal : Bool) (n N : ℕ) : ConsistentLine formats terminal (freeInput n N) where
  polynomial := rfl
  oneDim := rfl
  coeffs := by intro h; cases h
  range := by intro lo hi h1 h2; cases h1; cases h2; norm_num
  ldSeed := by intro i hi; cases hi; decide
  particlesSeed := by intro i hi; cases hi
  start := .inr ⟨[[1]], freed_numbered n N, by simp, .inr ⟨rfl, fun fractions h => by
    have h' : some (OptVal.list (([1] : List ℝ).map BaseVal.float)) = some (OptVal.list (fractions.map .float)) := h
    have : ([1] : List ℝ).map BaseVal.float = fractions.map .float := by simpa using h'
    obtain rfl := List.map_injective_iff.2 (fun x y e => by cases e; rfl) this
    norm_num⟩⟩
  bdSeed := by intro o ho; cases ho
  bdWalkers := by intro h; cases h
  bdVariant := by intro o ho; cases ho
  needsTrajectories := fun _ => rfl
  bins := by intro o ho lo hi h1 h2; cases ho; cases h1; cases h2; norm_num
  output := by
    rintro (⟨o, ho, h⟩ | ⟨o, ho, h⟩ | ⟨o, ho, h⟩ | ⟨o, ho, h⟩)
    · cases ho
      exact absurd h.1 (by simp [natOption, longHistOpts, Dict.get?, List.lookup])
    · cases ho
      rcases h with ⟨h, _⟩ | ⟨h, _⟩
      · simp [natOption, Dict.get?, List.lookup] at h
      · simp [intOption, Dict.get?, List.lookup] at h
    · cases ho
    · cases ho
  plots := by intro o ho; cases ho; exact .inl rfl
  deltaF := by intro o ho; cases ho
  distribution := by intro o ho; cases ho

theorem freed_finished {n N : ℕ} (hn : 0 < n) (hN : 0 < N) (g : ℕ → Fin 1 → ℝ) : ∃ (cfg : SimCfg 1) (sim s0 : Sim 1 ℕ),
    FinishedRun (tenWorld g) (some (freeFile n N)) ⟨1, cfg, sim⟩ (freeInput n N) n s0 ∧
      s0.particles.map (fun p => (p.pos, p.mom)) = List.replicate N longStart := by
  have hp : parseAll 1 (tenWorld g).conv (some (freeFile n N)) = .ok (freeInput n N) := freed_parse hn hN
  obtain ⟨⟨d, cfg, sim⟩, ha⟩ := line_progress (tenWorld g) _ _ hp (freed_consistent _ _ n N) countBdOps_lawful
    ⟨fun _ _ _ h => ⟨le_rfl, h⟩, fun _ _ h => h⟩ (withLinear_ok _) (fun o ho => by cases ho)
  obtain ⟨config, n', s0, hr⟩ := main_run _ _ _ ha
  have hp' := hr.parse
  rw [hp] at hp'
  cases hp'
  have hn' : n' = n := by
    have := hr.steps
    cases this
    rfl
  subst hn'
  obtain ⟨hd, _⟩ := (main_potential hr).oneDim rfl rfl
  simp only at hd
  subst hd
  refine ⟨cfg, sim, s0, hr, ?_⟩
  obtain ⟨mass, number, m1, m2, _, _, m3⟩ := main_initial hr
  cases m2
  obtain ⟨_, e⟩ := m3 rfl [[1]] [1] (freed_numbered n' N) rfl (by simp) (by norm_num)
  rw [e, show ((N : Int).toNat) = N from Int.toNat_natCast N, long_shares]
  have c1 : coords 1 [(1 : ℝ)] = fun _ => 1 := by
    funext k
    rw [Subsingleton.elim k 0]
    rfl
  simp [longStart, atRest, c1]

/-- The hypotheses of C158 hold for every number of steps and walkers. -/
theorem freed_counting {bins : List (List ℝ)} (hb : RequestedBins longHistOpts 1 bins) {n N : ℕ} (hn : 0 < n) (hN : 0 < N) :
    ∃ (cfg : (ℕ → Fin 1 → ℝ) → SimCfg 1) (sim s0 : (ℕ → Fin 1 → ℝ) → Sim 1 ℕ) (pot : Potential ℝ 1),
    CountingRuns (Measure.infinitePi (fun _ : ℕ => standard 1)) tenWorld (some (freeFile n N)) cfg sim s0 (freeInput n N) n pot 1
      (List.replicate N longStart) (dynamicsOf (freeInput n N).ld pot 1) {longStart} bins false 5 200 := by
  choose cfg sim s0 hr hs using freed_finished hn hN
  refine ⟨cfg, sim, s0, (cfg fun _ => 0).ld.pot, ⟨hr, fun _ => countBdOps_lawful, rfl, rfl, fun ω => ?_, hs, ?_⟩, rfl,
    fun z hz => ?_, ⟨tenTrajOpts, rfl, rfl, rfl⟩, ⟨longHistOpts, rfl, rfl, rfl, hb⟩⟩
  · have h1 := (finished_required (hr ω)).1
    have h2 := (finished_required (hr fun _ => 0)).1
    have h3 : setupPotential (tenWorld ω) (freeInput n N).potential = setupPotential (tenWorld fun _ => 0) (freeInput n N).potential := rfl
    rw [h3, h2] at h1
    have h4 := Except.ok.inj h1
    simp only [AnyPotential.mk.injEq, heq_eq_eq, true_and] at h4
    exact h4.symm
  · have e : (fun (i : ℕ) (ω : ℕ → Fin 1 → ℝ) => draw ((tenWorld ω).normal 1) (seededBy (tenWorld ω) .ld (freeInput n N).ld) i) =
        fun i ω => ω i := by
      funext i ω
      exact listWorld_draw ω i
    rw [e]
    exact stream_exists 1
  · rw [Finset.mem_singleton]
    exact (List.mem_replicate.1 hz).2

theorem freed_polynomial (n N : ℕ) : FreePolynomial (freeInput n N) [0, 0, -2, 0, 1] where
  type := rfl
  oneDim := rfl
  coeffs := rfl
  open' := ⟨(by intro h; cases h), (by intro h; cases h)⟩

theorem freed_overdamped (n N : ℕ) : OverdampedOptions (freeInput n N) (1 / 200) where
  type := rfl
  timestep := rfl

theorem freed_degree : ∃ i, 3 ≤ i ∧ ([0, 0, -2, 0, 1] : List ℝ).getD i 0 ≠ 0 := ⟨4, by norm_num, by norm_num⟩

/-- C158 for the example: walkers that start in the right well of `x⁴ - 2 x²` run away with a probability that does not depend on
the number of steps. -/
theorem freed_demo : ∃ r c : ℝ, 0 < r ∧ 0 < c ∧ ∀ n N : ℕ, 0 < N →
    ∃ (cfg : (ℕ → Fin 1 → ℝ) → SimCfg 1) (sim s0 : (ℕ → Fin 1 → ℝ) → Sim 1 ℕ) (pot : Potential ℝ 1)
      (h : RandomRuns (Measure.infinitePi (fun _ : ℕ => standard 1)) tenWorld (some (freeFile (n + 1) N)) cfg sim s0 (freeInput (n + 1) N)
        (n + 1) pot 1 (List.replicate N longStart)),
      ∀ k < N, c ≤ (Measure.infinitePi (fun _ : ℕ => standard 1)).real {ω | 2 ^ n * r ≤ |(h.phase k (n + 1) ω).1 0|} := by
  obtain ⟨r, c, hr, hc, hrun⟩ := main_escape freed_degree (dt := 1 / 200) (by norm_num) longStart
  obtain ⟨bins, hb⟩ := long_bins
  refine ⟨r, c, hr, hc, fun n N hN => ?_⟩
  obtain ⟨cfg, sim, s0, pot, h⟩ := freed_counting hb (Nat.succ_pos n) hN
  exact ⟨cfg, sim, s0, pot, h.random, fun k hk => hrun _ _ _ cfg sim s0 _ _ pot 1 _ h.random (freed_polynomial _ _) (freed_overdamped _ _) k
    (by rw [List.getElem?_replicate, if_pos hk]) n le_rfl⟩

/-- C158 for the example: no distribution is stationary. -/
theorem freed_no_stationary (π : Measure (Fin 1 → ℝ)) (hπ : IsProbabilityMeasure π) :
    afterMove (eulerMove (freePot [0, 0, -2, 0, 1]) (1 / 200)) π ≠ π := by
  obtain ⟨R, h⟩ := freePot_steep _ freed_degree (dt := 1 / 200) (by norm_num)
  exact escape_no_stationary h (freePot_continuous _) (by norm_num) π hπ

end

end Bdld
