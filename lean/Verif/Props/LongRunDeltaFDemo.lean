import Verif.Props.LongRunDeltaF
import Verif.Props.MainLongRunDemo
import Verif.Props.DeltaFDemo

/-
C156 for concrete inputs: those of C155 with a file for the free energy difference of the two sides of the parabola x².
-/

namespace Bdld

open MeasureTheory ProbabilityTheory Spec

noncomputable section

def diffSection : Section := demoSection "delta-f"
  [("state1-min", "-2.5"), ("state1-max", "0.0"), ("state2-min", "0.0"), ("state2-max", "2.5"), ("filename", "delta_f")]

def diffFile (n N : ℕ) : List Section := [longLd n, longPot, longPart N, tenTraj, longHist, unitsFes "1", diffSection]

def diffOpts : Dict (OptVal ℝ) :=
  [("stride", .none), ("filename", .base (.str "delta_f")), ("write-stride", .none), ("fmt", .none),
   ("state1-min", .list [.float (-5 / 2)]), ("state1-max", .list [.float 0]),
   ("state2-min", .list [.float 0]), ("state2-max", .list [.float (5 / 2)])]

def diffInput (n N : ℕ) : Input ℝ := { longInput n N with deltaF := some diffOpts }

theorem diff_options : stateActionOptions diffSection = .ok exampleStateOptions := rfl

set_option linter.unusedSimpArgs false in
theorem diff_parse {n N : ℕ} (hn : 0 < n) (hN : 0 < N) : parseAll 1 realConv (some (diffFile n N)) = .ok (diffInput n N) := by
  have f1 : findSection (diffFile n N) "ld" = some (longLd n) := rfl
  have f2 : findSection (diffFile n N) "potential" = some longPot := rfl
  have f3 : findSection (diffFile n N) "particles" = some (longPart N) := rfl
  have f4 : findSection (diffFile n N) "birth-death" = none := rfl
  have f5 : findSection (diffFile n N) "trajectories" = some tenTraj := rfl
  have f6 : findSection (diffFile n N) "histogram" = some longHist := rfl
  have f7 : findSection (diffFile n N) "fes" = some (unitsFes "1") := rfl
  have f8 : findSection (diffFile n N) "delta-f" = some diffSection := rfl
  have f9 : findSection (diffFile n N) "particle-distribution" = none := rfl
  have s1 : pySplit "0,0,1" = ["0", "0", "1"] := by decide +kernel
  have s3 : pySplit "1" = ["1"] := by decide +kernel
  have in' := repr_int n
  have iN := repr_int N
  have hd : parseLoop realConv diffSection exampleStateOptions [] = .ok diffOpts := by
    simp [diffSection, diffOpts, exampleStateOptions, demoSection, InputOption.parse, opt, Dict.get?, List.lookup, InputOption.convert,
      parseSection, parseLoop, Dict.set, tf4, tf5, tf13, sp3, sp4, sp5, ok_bind, pure_eq_ok, callType, orValueError]
  simp [parseAll, requireSection, parseOptional, f1, f2, f3, f4, f5, f6, f7, f8, f9, isOneDim, in', iN, hn, hN, diff_options, hd,
    longLd, longPot, longPart, tenTraj, longHist, unitsFes, demoSection, parseLd, parsePotential, parseParticles, potentialOptions, polyOptions, InputOption.parse, opt,
    optList, Dict.get?, List.lookup, InputOption.convert, ldOptions, parseSection, parseLoop, Dict.set, tf1, tf2, tf3, tf6,
    tf3', tf3'', tfm1, s1, s3, ti3, ti4, ti5, ti6, ti7,
    positive, allPositive, positiveOrZero, gtZero, cmpNum, ok_bind, pure_eq_ok, atMost3dim, atMost3dimInt, pyAnd,
    callType, orValueError, particlesOptions, initialDistributions, oneOf, numberedSection,
    numberedLoop, numKey, List.range, List.range.loop, birthDeathOptions,
    trajectoriesOptions, histogramOptions, fesOptions, repr1, repr2, repr3, longInput, diffInput, tenTrajOpts, longHistOpts]

theorem diff_consistent (formats : List String) (terminal : Bool) (n N : ℕ) : ConsistentLine formats terminal (diffInput n N) :=
  { long_consistent formats terminal n N with
    output := by
      rintro (h | h | ⟨o, ho, h⟩ | h)
      · exact (long_consistent formats terminal n N).output (.inl h)
      · exact (long_consistent formats terminal n N).output (.inr (.inl h))
      · cases ho
        exact absurd h.1 (by simp [natOption, diffOpts, Dict.get?])
      · exact (long_consistent formats terminal n N).output (.inr (.inr (.inr h)))
    deltaF := by
      intro o ho
      cases ho
      refine ⟨[-5 / 2, 0], [0, 5 / 2], ⟨?_, rfl⟩, ⟨?_, rfl⟩, le_rfl⟩
      all_goals
        intro i hi
        match i, hi with
        | 0, _ => rfl
        | 1, _ => rfl }

theorem diff_states : stateRanges diffOpts = .ok [[(-5 / 2, 0)], [(0, 5 / 2)]] := example_states

theorem diff_finished {n N : ℕ} (hn : 0 < n) (hN : 0 < N) (g : ℕ → Fin 1 → ℝ) : ∃ (cfg : SimCfg 1) (sim s0 : Sim 1 ℕ),
    FinishedRun (tenWorld g) (some (diffFile n N)) ⟨1, cfg, sim⟩ (diffInput n N) n s0 ∧
      s0.particles.map (fun p => (p.pos, p.mom)) = List.replicate N longStart := by
  have hp : parseAll 1 (tenWorld g).conv (some (diffFile n N)) = .ok (diffInput n N) := diff_parse hn hN
  obtain ⟨⟨d, cfg, sim⟩, ha⟩ := line_progress (tenWorld g) _ _ hp (diff_consistent _ _ n N) countBdOps_lawful
    ⟨fun _ _ _ h => ⟨le_rfl, h⟩, fun _ _ h => h⟩ (withLinear_ok _) (fun o ho => by cases ho)
  obtain ⟨config, n', s0, hr⟩ := main_run _ _ _ ha
  have hp' := hr.parse
  rw [hp] at hp'
  cases hp'
  have hn' : n' = n := by
    have := hr.steps
    cases this
    rfl
  subst hn'
  obtain ⟨hd, _⟩ := (main_potential hr).oneDim rfl rfl
  simp only at hd
  subst hd
  refine ⟨cfg, sim, s0, hr, ?_⟩
  obtain ⟨mass, number, m1, m2, _, _, m3⟩ := main_initial hr
  cases m2
  obtain ⟨_, e⟩ := m3 rfl [[1]] [1] (long_numbered n' N) rfl (by simp) (by norm_num)
  rw [e, show ((N : Int).toNat) = N from Int.toNat_natCast N, long_shares]
  have c1 : coords 1 [(1 : ℝ)] = fun _ => 1 := by
    funext k
    rw [Subsingleton.elim k 0]
    rfl
  simp [longStart, atRest, c1]

/-- The hypotheses of C156 hold for every number of steps and walkers. -/
theorem diff_counting {bins : List (List ℝ)} (hb : RequestedBins longHistOpts 1 bins) {n N : ℕ} (hn : 0 < n) (hN : 0 < N) :
    ∃ (cfg : (ℕ → Fin 1 → ℝ) → SimCfg 1) (sim s0 : (ℕ → Fin 1 → ℝ) → Sim 1 ℕ) (pot : Potential ℝ 1),
    CountingRuns (Measure.infinitePi (fun _ : ℕ => standard 1)) tenWorld (some (diffFile n N)) cfg sim s0 (diffInput n N) n pot 1
      (List.replicate N longStart) (dynamicsOf (diffInput n N).ld pot 1) {longStart} bins false 5 200 := by
  choose cfg sim s0 hr hs using diff_finished hn hN
  refine ⟨cfg, sim, s0, (cfg fun _ => 0).ld.pot, ⟨hr, fun _ => countBdOps_lawful, rfl, rfl, fun ω => ?_, hs, ?_⟩, rfl,
    fun z hz => ?_, ⟨tenTrajOpts, rfl, rfl, rfl⟩, ⟨longHistOpts, rfl, rfl, rfl, hb⟩⟩
  · have h1 := (finished_required (hr ω)).1
    have h2 := (finished_required (hr fun _ => 0)).1
    have h3 : setupPotential (tenWorld ω) (diffInput n N).potential = setupPotential (tenWorld fun _ => 0) (diffInput n N).potential := rfl
    rw [h3, h2] at h1
    have h4 := Except.ok.inj h1
    simp only [AnyPotential.mk.injEq, heq_eq_eq, true_and] at h4
    exact h4.symm
  · have e : (fun (i : ℕ) (ω : ℕ → Fin 1 → ℝ) => draw ((tenWorld ω).normal 1) (seededBy (tenWorld ω) .ld (diffInput n N).ld) i) =
        fun i ω => ω i := by
      funext i ω
      exact listWorld_draw ω i
    rw [e]
    exact stream_exists 1
  · rw [Finset.mem_singleton]
    exact (List.mem_replicate.1 hz).2

/-- The edges of the ten bins. -/
theorem diff_edges {bins : List (List ℝ)} (hb : RequestedBins longHistOpts 1 bins) :
    bins = [(List.range 11).map fun i : Nat => (-3 : ℝ) + i * (3 / 5)] := by
  obtain ⟨edges, rfl⟩ := List.length_eq_one_iff.1 hb.dims
  obtain ⟨lo, hi, n, ho, h1, h2, h3⟩ := hb.edges 0 one_pos
  have e1 : lo = -3 := (Option.some.inj ho.min).symm
  have e2 : hi = 3 := (Option.some.inj ho.max).symm
  have e3 : n = 10 := (Option.some.inj ho.bins).symm
  subst e1 e2 e3
  rw [List.getElem?_cons_zero] at h3
  rw [Option.some.inj h3]
  unfold widened
  norm_num

/-- C156 for the example: with enough steps and walkers the written difference of the free energies of both sides is with a
probability of at least 99 % nearer than 1/100 to that of the normal distribution with variance `1 / (2 (1 - 1/80000))`. -/
theorem diff_demo : ∃ (bins : List (List ℝ)) (n N : ℕ) (cfg : (ℕ → Fin 1 → ℝ) → SimCfg 1) (sim s0 : (ℕ → Fin 1 → ℝ) → Sim 1 ℕ)
    (pot : Potential ℝ 1), RequestedBins longHistOpts 1 bins ∧
    CountingRuns (Measure.infinitePi (fun _ : ℕ => standard 1)) tenWorld (some (diffFile n N)) cfg sim s0 (diffInput n N) n pot 1
      (List.replicate N longStart) (dynamicsOf (diffInput n N).ld pot 1) {longStart} bins false 5 200 ∧
    (Measure.infinitePi (fun _ : ℕ => standard 1)) {ω | ¬ ∃ x, (sim ω).deltaF = some x ∧ LastRowNear x (n * (1 / 200)) 1 (1 / 100)
      (stateShare bins fun idx => (normals (fun _ : Fin 1 => 0) (fun _ => 1 / (2 * (1 - 1 / 80000)))).real (binRegion bins idx))
        [[(-5 / 2, 0)], [(0, 5 / 2)]]} ≤ ENNReal.ofReal (1 / 100) := by
  obtain ⟨bins, hb⟩ := long_bins
  have hedges := diff_edges hb
  obtain ⟨n0, N0, h⟩ := main_bussi_deltaF (S := {longStart}) (oh := longHistOpts) (bins := bins) (file := false) (s := 5) (W := 200)
    (c0 := 0) (c1 := 0) (c2 := 1) (dt := 1 / 200) (friction := 10) (kt := 1) (mass := 1) one_pos (by norm_num) (by norm_num) one_pos
    one_pos (by norm_num) hb (by norm_num) (by norm_num) (.inr (by norm_num)) (states := [[(-5 / 2, 0)], [(0, 5 / 2)]])
    (by simp) (by
      intro z hz
      simp only [List.mem_cons, List.not_mem_nil, or_false] at hz
      rw [hedges]
      rcases hz with rfl | rfl
      · refine ⟨-3 / 10, ?_, ?_⟩
        · simp [binCenters, List.range, List.range.loop]
          norm_num
        · simp [InState]
          norm_num
      · refine ⟨3 / 10, ?_, ?_⟩
        · simp [binCenters, List.range, List.range.loop]
          norm_num
        · simp [InState]
          norm_num) (ε := 1 / 100) (δ := 1 / 100) (by norm_num) (by norm_num)
  obtain ⟨cfg, sim, s0, pot, hc⟩ := diff_counting hb (Nat.succ_pos n0) (Nat.succ_pos N0)
  refine ⟨bins, n0 + 1, N0 + 1, cfg, sim, s0, pot, hb, hc, ?_⟩
  have := h _ _ _ cfg sim s0 _ _ pot _ diffOpts hc ⟨rfl, rfl, rfl, (by intro h; cases h), (by intro h; cases h)⟩ ⟨rfl, rfl, rfl, rfl⟩
    (by intro h; cases h) rfl diff_states rfl rfl (Nat.le_succ n0) (by simp)
  have e : parabolaLaw 0 1 1 (2 * 1 * (1 - 1 * (1 / 200) ^ 2 / (2 * 1))) = normals (fun _ : Fin 1 => 0) (fun _ => 1 / (2 * (1 - 1 / 80000))) := by
    unfold parabolaLaw
    norm_num
  rw [e] at this
  exact this

end

end Bdld
