import Verif.Props.MainEnsemble
import Verif.Props.UnitsDemo
import Verif.Props.MainPathDemo
import Mathlib.Probability.Independence.InfinitePi

/-
C154 for a concrete input: ten walkers in x², half of them start at 1, half at -1.
-/

namespace Bdld

open MeasureTheory ProbabilityTheory Spec

noncomputable section

/-- A world in which the generators take the numbers from a list. -/
def listWorld (g : ℕ → Fin 1 → ℝ) : World ℕ where
  conv := realConv
  normal := fun _ r => (fun _ => g r 0, r + 1)
  init := ⟨fun lo _ r => (lo, r), fun _ r => (0, r)⟩
  bdOps := countBdOps
  fromSeed := fun _ => 0
  entropy := fun _ => 0
  coeffFile := fun _ => none
  interp := fun _ _ _ => []
  interpAt := fun _ _ _ => 0
  emptyTimes := fun _ => 7
  emptyPositions := fun _ => []
  emptyMomentum := fun _ => []
  emptyDeltaF := fun _ => []
  emptyCounts := fun _ => []

/-- There are streams of independent normal numbers. -/
theorem stream_exists (d : ℕ) : NormalStream (Measure.infinitePi (fun _ : ℕ => standard d)) (fun i (ω : ℕ → Fin d → ℝ) => ω i) where
  measurable := fun i => measurable_pi_apply i
  law := fun i => Measure.infinitePi_map_eval (fun _ : ℕ => standard d) i
  indep := iIndepFun_infinitePi (X := fun (_ : ℕ) (ω : Fin d → ℝ) => ω) (fun _ => measurable_id)

theorem listWorld_draw (g : ℕ → Fin 1 → ℝ) (i : ℕ) : draw ((listWorld g).normal 1) 0 i = g i := by
  have h : ∀ i, drawState ((listWorld g).normal 1) i 0 = i := by
    intro i
    induction i with
    | zero => rfl
    | succ i ih =>
      unfold drawState at ih ⊢
      rw [Function.iterate_succ_apply', ih]
      rfl
  unfold draw
  rw [h]
  funext k
  rw [Subsingleton.elim k 0]
  rfl

def tenPart : Section := demoSection "particles"
  [("number", "10"), ("initial-distribution", "fractions-pos"), ("fractions", "1,1"), ("pos1", "1"), ("pos2", "-1")]

def tenTraj : Section := demoSection "trajectories" [("write-stride", "200")]

def tenHist : Section := demoSection "histogram" [("bins", "10"), ("min", "1"), ("max", "3"), ("stride", "5")]

/-- Bussi-Parinello dynamics in x² without birth-death, with a histogram at positive positions. -/
def tenFile : List Section := [unitsLd "1", unitsPot "-3" "3", tenPart, tenTraj, tenHist]

def tenTrajOpts : Dict (OptVal ℝ) :=
  [("filename", .none), ("stride", .none), ("momentum", .none), ("write-stride", .base (.int 200)), ("fmt", .none)]

def tenHistOpts : Dict (OptVal ℝ) :=
  [("stride", .base (.int 5)), ("reset", .none), ("filename", .none), ("write-stride", .none), ("fmt", .none),
   ("min", .base (.float 1)), ("max", .base (.float 3)), ("bins", .base (.int 10))]

def tenInput : Input ℝ where
  ld := [("type", .base (.str "bussi-parinello")), ("timestep", .base (.float (1 / 200))), ("n_steps", .base (.int 100)),
    ("seed", .base (.int 1)), ("kt", .base (.float 1)), ("friction", .base (.float 10))]
  potential := [("type", .base (.str "polynomial")), ("n_dim", .base (.int 1)),
    ("coeffs", .list ([0, 0, 1].map .float)), ("min", .base (.float (-3))), ("max", .base (.float 3)),
    ("boundary-condition", .base (.str "reflective"))]
  particles := [("number", .base (.int 10)), ("mass", .base (.float 1)), ("seed", .none),
    ("initial-distribution", .base (.str "fractions-pos")), ("pos1", .list [.float 1]), ("pos2", .list [.float (-1)]),
    ("fractions", .list ([1, 1].map .float))]
  trajectories := some tenTrajOpts
  histogram := some tenHistOpts

set_option linter.unusedSimpArgs false in
theorem ten_parse : parseAll 1 realConv (some tenFile) = .ok tenInput := by
  have f1 : findSection tenFile "ld" = some (unitsLd "1") := rfl
  have f2 : findSection tenFile "potential" = some (unitsPot "-3" "3") := rfl
  have f3 : findSection tenFile "particles" = some tenPart := rfl
  have f4 : findSection tenFile "birth-death" = none := rfl
  have f5 : findSection tenFile "trajectories" = some tenTraj := rfl
  have f6 : findSection tenFile "histogram" = some tenHist := rfl
  have f7 : findSection tenFile "fes" = none := rfl
  have f8 : findSection tenFile "delta-f" = none := rfl
  have f9 : findSection tenFile "particle-distribution" = none := rfl
  have s1 : pySplit "0,0,1" = ["0", "0", "1"] := by decide +kernel
  have s2 : pySplit "1,1" = ["1", "1"] := by decide +kernel
  have s3 : pySplit "1" = ["1"] := by decide +kernel
  have s4 : pySplit "-1" = ["-1"] := by decide +kernel
  simp [parseAll, requireSection, parseOptional, f1, f2, f3, f4, f5, f6, f7, f8, f9, isOneDim,
    unitsLd, unitsPot, tenPart, tenTraj, tenHist, demoSection, parseLd, parsePotential, parseParticles, potentialOptions, polyOptions, InputOption.parse, opt,
    optList, Dict.get?, List.lookup, InputOption.convert, ldOptions, parseSection, parseLoop, Dict.set, tf1, tf2, tf3, tf6,
    tf3', tf3'', tfm1, s1, s2, s3, s4, ti3, ti4, ti5, ti6, ti7,
    positive, allPositive, positiveOrZero, gtZero, cmpNum, ok_bind, pure_eq_ok, atMost3dim, atMost3dimInt, pyAnd,
    callType, orValueError, particlesOptions, initialDistributions, oneOf, numberedSection,
    numberedLoop, numKey, List.range, List.range.loop, birthDeathOptions,
    trajectoriesOptions, histogramOptions, fesOptions, repr1, repr2, repr3, tenInput, tenTrajOpts, tenHistOpts]

theorem ten_numbered :
    Numbered tenInput.particles.get? "pos" "" ([[1], [-1]].map (fun p => .list (p.map .float))) := by
  refine ⟨?_, ?_⟩
  · intro i hi
    match i, hi with
    | 0, _ => rfl
    | 1, _ => rfl
  · have e : ("pos" ++ (0 + 1 + 1 + 1).repr ++ "") = "pos3" := by decide +kernel
    rw [List.length_map, List.length_cons, List.length_cons, List.length_nil, e]
    rfl

theorem ten_consistent (formats : List String) (terminal : Bool) : ConsistentLine formats terminal tenInput where
  polynomial := rfl
  oneDim := rfl
  coeffs := by intro h; cases h
  range := by intro lo hi h1 h2; cases h1; cases h2; norm_num
  ldSeed := by intro i hi; cases hi; decide
  particlesSeed := by intro i hi; cases hi
  start := .inr ⟨[[1], [-1]], ten_numbered, by simp, .inr ⟨rfl, fun fractions h => by
    have h' : some (OptVal.list (([1, 1] : List ℝ).map BaseVal.float)) = some (OptVal.list (fractions.map .float)) := h
    have : ([1, 1] : List ℝ).map BaseVal.float = fractions.map .float := by simpa using h'
    obtain rfl := List.map_injective_iff.2 (fun x y e => by cases e; rfl) this
    norm_num⟩⟩
  bdSeed := by intro o ho; cases ho
  bdWalkers := by intro h; cases h
  bdVariant := by intro o ho; cases ho
  needsTrajectories := fun _ => rfl
  bins := by intro o ho lo hi h1 h2; cases ho; cases h1; cases h2; norm_num
  output := by
    rintro (⟨o, ho, h⟩ | ⟨o, ho, h⟩ | ⟨o, ho, h⟩ | ⟨o, ho, h⟩)
    · cases ho
      exact absurd h.1 (by simp [natOption, tenHistOpts, Dict.get?, List.lookup])
    · cases ho
    · cases ho
    · cases ho
  plots := by intro o ho; cases ho
  deltaF := by intro o ho; cases ho
  distribution := by intro o ho; cases ho

theorem ten_shares : Spec.shares [(1 : ℝ), 1] 10 = [5, 5] := by
  have h : ⌊(10 : ℝ) * 1 / (1 + (1 + 0))⌋₊ = 5 := by
    rw [show (10 : ℝ) * 1 / (1 + (1 + 0)) = (5 : ℕ) by norm_num, Nat.floor_natCast]
  simp [Spec.shares] at h ⊢
  norm_num at h ⊢

/-- Five walkers start at 1, five at -1, at rest. -/
def tenStarts : List (Phase 1) := List.replicate 5 (fun _ => 1, fun _ => 0) ++ List.replicate 5 (fun _ => -1, fun _ => 0)

def tenWorld (g : ℕ → Fin 1 → ℝ) : World ℕ := withLinear (listWorld g)

theorem ten_finished (g : ℕ → Fin 1 → ℝ) : ∃ (cfg : SimCfg 1) (sim s0 : Sim 1 ℕ),
    FinishedRun (tenWorld g) (some tenFile) ⟨1, cfg, sim⟩ tenInput 100 s0 ∧
      s0.particles.map (fun p => (p.pos, p.mom)) = tenStarts := by
  have hp : parseAll 1 (tenWorld g).conv (some tenFile) = .ok tenInput := ten_parse
  obtain ⟨⟨d, cfg, sim⟩, ha⟩ := line_progress (tenWorld g) _ _ hp (ten_consistent _ _) countBdOps_lawful
    ⟨fun _ _ _ h => ⟨le_rfl, h⟩, fun _ _ h => h⟩ (withLinear_ok _) (fun o ho => by cases ho)
  obtain ⟨config, n, s0, hr⟩ := main_run _ _ _ ha
  have hp' := hr.parse
  rw [hp] at hp'
  cases hp'
  have hn : n = 100 := by
    have := hr.steps
    cases this
    rfl
  subst hn
  obtain ⟨hd, _⟩ := (main_potential hr).oneDim rfl rfl
  simp only at hd
  subst hd
  refine ⟨cfg, sim, s0, hr, ?_⟩
  obtain ⟨mass, number, m1, m2, _, _, m3⟩ := main_initial hr
  cases m2
  obtain ⟨_, e⟩ := m3 rfl [[1], [-1]] [1, 1] ten_numbered rfl (by simp) (by norm_num)
  rw [e, show ((10 : Int).toNat) = 10 from rfl, ten_shares]
  have c1 : coords 1 [(1 : ℝ)] = fun _ => 1 := by
    funext k
    rw [Subsingleton.elim k 0]
    rfl
  have c2 : coords 1 [(-1 : ℝ)] = fun _ => -1 := by
    funext k
    rw [Subsingleton.elim k 0]
    rfl
  simp [tenStarts, atRest, c1, c2]

/-- The hypotheses of C154 for the example: the generator gives independent normal numbers. -/
theorem ten_random : ∃ (cfg : (ℕ → Fin 1 → ℝ) → SimCfg 1) (sim s0 : (ℕ → Fin 1 → ℝ) → Sim 1 ℕ) (pot : Potential ℝ 1),
    RandomRuns (Measure.infinitePi (fun _ : ℕ => standard 1)) tenWorld (some tenFile) cfg sim s0 tenInput 100 pot 1 tenStarts := by
  choose cfg sim s0 hr hs using ten_finished
  refine ⟨cfg, sim, s0, (cfg fun _ => 0).ld.pot, hr, fun _ => countBdOps_lawful, rfl, rfl, fun ω => ?_, hs, ?_⟩
  · have h1 := (finished_required (hr ω)).1
    have h2 := (finished_required (hr fun _ => 0)).1
    have h3 : setupPotential (tenWorld ω) tenInput.potential = setupPotential (tenWorld fun _ => 0) tenInput.potential := rfl
    rw [h3, h2] at h1
    have h4 := Except.ok.inj h1
    simp only [AnyPotential.mk.injEq, heq_eq_eq, true_and] at h4
    exact h4.symm
  · have e : (fun (i : ℕ) (ω : ℕ → Fin 1 → ℝ) => draw ((tenWorld ω).normal 1) (seededBy (tenWorld ω) .ld tenInput.ld) i) =
        fun i ω => ω i := by
      funext i ω
      exact listWorld_draw ω i
    rw [e]
    exact stream_exists 1

/-- C154 for the example: the distribution of the first walker after a step, independence of the walkers, and the content of
every bin of the histogram, which differs from the mean probability by a half or more only with a probability of at most 1/10. -/
theorem ten_demo : ∃ (cfg : (ℕ → Fin 1 → ℝ) → SimCfg 1) (sim s0 : (ℕ → Fin 1 → ℝ) → Sim 1 ℕ) (pot : Potential ℝ 1)
    (h : RandomRuns (Measure.infinitePi (fun _ : ℕ => standard 1)) tenWorld (some tenFile) cfg sim s0 tenInput 100 pot 1 tenStarts)
    (bins : List (List ℝ)), RequestedBins tenHistOpts 1 bins ∧
    (Measure.infinitePi (fun _ : ℕ => standard 1)).map (h.phase 0 100) =
      (afterStep (dynamicsOf tenInput.ld pot 1))^[100] (Measure.dirac (fun _ => 1, fun _ => 0)) ∧
    IndepFun (h.phase 0 100) (h.phase 9 100) (Measure.infinitePi (fun _ : ℕ => standard 1)) ∧
    ∀ idx, (Measure.infinitePi (fun _ : ℕ => standard 1)) {ω | ∀ H, (sim ω).hist = some H → 1 / 2 ≤
      |(H.data idx : ℝ) / (10 * 20 : ℕ) - meanProbability (dynamicsOf tenInput.ld pot 1) tenStarts (binRegion bins idx)
        (sampledSteps 5 0 100)|} ≤ ENNReal.ofReal (1 / 10) := by
  obtain ⟨cfg, sim, s0, pot, h⟩ := ten_random
  obtain ⟨bins, hb, _⟩ := main_bins (h.run fun _ => 0) tenHistOpts rfl
  replace hb : RequestedBins tenHistOpts 1 bins := hb
  refine ⟨cfg, sim, s0, pot, h, bins, hb, main_walker_law h 0 100 le_rfl _ rfl, ?_, fun idx => ?_⟩
  · exact main_walkers_indep_at h 0 9 100 100 (by simp [tenStarts]) (by simp [tenStarts]) (by decide) le_rfl le_rfl
  have hlen : (sampledSteps 5 0 100).length = 20 := by decide
  have := main_histogram_spread h (by simp [tenStarts]) tenTrajOpts tenHistOpts rfl rfl rfl rfl (show 5 ∣ 200 by decide)
    (show ¬ 200 ∣ 100 by decide) (show 0 < 5 by decide) (show 5 ≤ 100 by decide) bins hb ?_ idx (ε := 1 / 2) (by norm_num)
  · have e : natOption tenHistOpts "stride" 1 = 5 := rfl
    have e2 : tenStarts.length = 10 := by simp [tenStarts]
    rw [e, hlen, e2] at this
    refine this.trans (le_of_eq ?_)
    norm_num
  · intro idx hin
    have hmin : floatsOf tenHistOpts "min" = [1] := rfl
    have hmax : floatsOf tenHistOpts "max" = [3] := rfl
    obtain ⟨h1, _, h2⟩ := (requested_cell hb (fun k hk => by
      obtain rfl : k = 0 := by omega
      rw [hmin, hmax]
      simp) idx _).1 hin
    have := h2 0 1 3 10 (idx[0]'(by omega)) 0 ⟨by rw [hmin]; rfl, by rw [hmax]; rfl, rfl⟩ (List.getElem?_eq_getElem (by omega)) rfl
    have h3 := this.2.1
    have h4 : (0 : ℝ) ≤ (idx[0]'(by omega) : ℕ) := Nat.cast_nonneg _
    norm_num at h3
    linarith

end

end Bdld
