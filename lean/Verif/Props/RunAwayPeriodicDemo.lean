import Verif.Props.RunAwayPeriodic
import Verif.Props.RunAwayDemo

/-
C161 for concrete inputs: both dynamics in the Müller-Brown potential with periodic boundary condition.
-/

namespace Bdld

open MeasureTheory ProbabilityTheory Spec

noncomputable section

def wrappedPot : Section := demoSection "potential" [("type", "mueller-brown"), ("boundary-condition", "periodic")]

/-- Input file for the thermostat or for overdamped dynamics in the Müller-Brown potential with periodic boundary condition. -/
def wrappedFile (thermostat : Bool) (n N : ℕ) : List Section := [if thermostat then longLd n else boxLd n, wrappedPot, planePart N]

def wrappedInput (thermostat : Bool) (n N : ℕ) : Input ℝ where
  ld := if thermostat then (wildInput n N).ld else (freeInput n N).ld
  potential := [("type", .base (.str "mueller-brown")), ("scaling-factor", .none), ("n_dim", .base (.int 2)), ("boundary-condition", .base (.str "periodic"))]
  particles := [("number", .base (.int N)), ("mass", .base (.float 1)), ("seed", .none),
    ("initial-distribution", .base (.str "fractions-pos")), ("pos1", .list [.float 1, .float 0]),
    ("fractions", .list ([1].map .float))]

set_option linter.unusedSimpArgs false in
theorem wrapped_parse (thermostat : Bool) {n N : ℕ} (hn : 0 < n) (hN : 0 < N) :
    parseAll 1 realConv (some (wrappedFile thermostat n N)) = .ok (wrappedInput thermostat n N) := by
  have f1 : findSection (wrappedFile thermostat n N) "ld" = some (if thermostat then longLd n else boxLd n) := by cases thermostat <;> rfl
  have f2 : findSection (wrappedFile thermostat n N) "potential" = some wrappedPot := by cases thermostat <;> rfl
  have f3 : findSection (wrappedFile thermostat n N) "particles" = some (planePart N) := by cases thermostat <;> rfl
  have f4 : findSection (wrappedFile thermostat n N) "birth-death" = none := by cases thermostat <;> rfl
  have f5 : findSection (wrappedFile thermostat n N) "trajectories" = none := by cases thermostat <;> rfl
  have f6 : findSection (wrappedFile thermostat n N) "histogram" = none := by cases thermostat <;> rfl
  have f7 : findSection (wrappedFile thermostat n N) "fes" = none := by cases thermostat <;> rfl
  have f8 : findSection (wrappedFile thermostat n N) "delta-f" = none := by cases thermostat <;> rfl
  have f9 : findSection (wrappedFile thermostat n N) "particle-distribution" = none := by cases thermostat <;> rfl
  have s1 : pySplit "1,0" = ["1", "0"] := by decide +kernel
  have s3 : pySplit "1" = ["1"] := by decide +kernel
  have in' := repr_int n
  have iN := repr_int N
  cases thermostat <;>
  simp [parseAll, requireSection, parseOptional, f1, f2, f3, f4, f5, f6, f7, f8, f9, isOneDim, in', iN, hn, hN,
    boxLd, longLd, wrappedPot, planePart, demoSection, parseLd, parsePotential, parseParticles, potentialOptions, polyOptions, InputOption.parse, opt,
    optList, Dict.get?, List.lookup, InputOption.convert, ldOptions, parseSection, parseLoop, Dict.set, tf1, tf2, tf3, tf6,
    s1, s3, ti3, ti4, ti5, ti6, ti7,
    positive, allPositive, positiveOrZero, gtZero, cmpNum, ok_bind, pure_eq_ok, atMost3dim, atMost3dimInt, pyAnd,
    callType, orValueError, particlesOptions, initialDistributions, oneOf, numberedSection,
    numberedLoop, numKey, List.range, List.range.loop, repr1, repr2, repr3, wrappedInput, wildInput, freeInput]

theorem wrapped_numbered (thermostat : Bool) (n N : ℕ) :
    Numbered (wrappedInput thermostat n N).particles.get? "pos" "" ([[1, 0]].map (fun p => .list (p.map .float))) := by
  refine ⟨?_, ?_⟩
  · intro i hi
    match i, hi with
    | 0, _ => rfl
  · have e : ("pos" ++ (0 + 1 + 1).repr ++ "") = "pos2" := by decide +kernel
    rw [List.length_map, List.length_cons, List.length_nil, e]
    rfl

theorem wrapped_consistent (thermostat : Bool) (g : ℕ → Fin 2 → ℝ) (n N : ℕ) : ConsistentSpace (planeWorld g) 2 (wrappedInput thermostat n N) where
  potential := .inr ⟨rfl, by intro h; simp [wrappedInput, IntOpt, Dict.get?, List.lookup] at h, rfl⟩
  ldSeed := by cases thermostat <;> (intro i hi; cases hi; decide)
  particlesSeed := by intro i hi; cases hi
  start := .inr ⟨[[1, 0]], wrapped_numbered thermostat n N, by simp, .inr ⟨rfl, fun fractions h => by
    have h' : some (OptVal.list (([1] : List ℝ).map BaseVal.float)) = some (OptVal.list (fractions.map .float)) := h
    have : ([1] : List ℝ).map BaseVal.float = fractions.map .float := by simpa using h'
    obtain rfl := List.map_injective_iff.2 (fun x y e => by cases e; rfl) this
    norm_num⟩⟩
  bdSeed := by intro o ho; cases ho
  bdWalkers := by intro h; cases h
  bdVariant := by intro o ho; cases ho
  bandwidths := by intro o l ho; cases ho
  needsTrajectories := by intro h; cases h
  bins := by intro o l ho; cases ho
  binRange := by intro o ho; cases ho
  output := by
    rintro (⟨o, ho, h⟩ | ⟨o, ho, h⟩ | ⟨o, ho, h⟩ | ⟨o, ho, h⟩) <;> cases ho
  plots := by intro o ho; cases ho
  noDeltaF := rfl
  distribution := by intro o ho; cases ho

theorem wrapped_finished (thermostat : Bool) {n N : ℕ} (hn : 0 < n) (hN : 0 < N) (g : ℕ → Fin 2 → ℝ) : ∃ (cfg : SimCfg 2) (sim s0 : Sim 2 ℕ),
    FinishedRun (planeWorld g) (some (wrappedFile thermostat n N)) ⟨2, cfg, sim⟩ (wrappedInput thermostat n N) n s0 ∧
      s0.particles.map (fun p => (p.pos, p.mom)) = List.replicate N planeStart := by
  have hp : parseAll 1 (planeWorld g).conv (some (wrappedFile thermostat n N)) = .ok (wrappedInput thermostat n N) := wrapped_parse thermostat hn hN
  obtain ⟨⟨d, cfg, sim⟩, ha, hd⟩ := space_progress (planeWorld g) _ _ hp (wrapped_consistent thermostat g n N) countBdOps_lawful
    ⟨fun _ _ _ h => ⟨le_rfl, h⟩, fun _ _ h => h⟩ (fun _ _ xs => List.length_map _) (fun o ho => by cases ho)
  simp only at hd
  subst hd
  obtain ⟨config, n', s0, hr⟩ := main_run _ _ _ ha
  have hp' := hr.parse
  rw [hp] at hp'
  cases hp'
  have hn' : n' = n := by
    have := hr.steps
    cases thermostat <;> (cases this; rfl)
  subst hn'
  refine ⟨cfg, sim, s0, hr, ?_⟩
  obtain ⟨mass, number, m1, m2, _, _, m3⟩ := main_initial hr
  cases m2
  obtain ⟨_, e⟩ := m3 rfl [[1, 0]] [1] (wrapped_numbered thermostat n' N) rfl (by simp) (by norm_num)
  rw [e, show ((N : Int).toNat) = N from Int.toNat_natCast N, long_shares]
  have c1 : coords 2 [(1 : ℝ), 0] = ![1, 0] := by
    funext k
    match k with
    | 0 => rfl
    | 1 => rfl
  simp [planeStart, atRest, c1]

/-- The hypotheses of C161 hold for every number of steps and walkers. -/
theorem wrapped_random (thermostat : Bool) {n N : ℕ} (hn : 0 < n) (hN : 0 < N) :
    ∃ (cfg : (ℕ → Fin 2 → ℝ) → SimCfg 2) (sim s0 : (ℕ → Fin 2 → ℝ) → Sim 2 ℕ) (pot : Potential ℝ 2),
    RandomRuns (Measure.infinitePi (fun _ : ℕ => standard 2)) planeWorld (some (wrappedFile thermostat n N)) cfg sim s0
      (wrappedInput thermostat n N) n pot 1 (List.replicate N planeStart) := by
  choose cfg sim s0 hr hs using wrapped_finished thermostat hn hN
  refine ⟨cfg, sim, s0, (cfg fun _ => 0).ld.pot, hr, fun _ => countBdOps_lawful, rfl, rfl, fun ω => ?_, hs, ?_⟩
  · have h1 := (finished_required (hr ω)).1
    have h2 := (finished_required (hr fun _ => 0)).1
    have h3 : setupPotential (planeWorld ω) (wrappedInput thermostat n N).potential =
      setupPotential (planeWorld fun _ => 0) (wrappedInput thermostat n N).potential := rfl
    rw [h3, h2] at h1
    have h4 := Except.ok.inj h1
    simp only [AnyPotential.mk.injEq, heq_eq_eq, true_and] at h4
    exact h4.symm
  · have e : (fun (i : ℕ) (ω : ℕ → Fin 2 → ℝ) => draw ((planeWorld ω).normal 2) (seededBy (planeWorld ω) .ld (wrappedInput thermostat n N).ld) i) =
        fun i ω => ω i := by
      funext i ω
      have hz : seededBy (planeWorld ω) .ld (wrappedInput thermostat n N).ld = 0 := by cases thermostat <;> rfl
      rw [hz]
      exact planeWorld_draw ω i
    rw [e]
    exact stream_exists 2

theorem wrapped_mueller (thermostat : Bool) (n N : ℕ) : PeriodicMueller (wrappedInput thermostat n N) none where
  type := rfl
  scaling := rfl
  closed := rfl

theorem wrapped_bussi (n N : ℕ) : BussiOptions (wrappedInput true n N) (1 / 200) 10 1 where
  type := rfl
  timestep := rfl
  friction := rfl
  kt := rfl

theorem wrapped_overdamped (n N : ℕ) : OverdampedOptions (wrappedInput false n N) (1 / 200) where
  type := rfl
  timestep := rfl

/-- C161 for the example: walkers that start near the second minimum run away with a probability that does not depend on the number
of steps, with both dynamics. -/
theorem wrapped_demo (thermostat : Bool) : ∃ r c : ℝ, 0 < r ∧ 0 < c ∧ ∀ n N : ℕ, 0 < N →
    ∃ (cfg : (ℕ → Fin 2 → ℝ) → SimCfg 2) (sim s0 : (ℕ → Fin 2 → ℝ) → Sim 2 ℕ) (pot : Potential ℝ 2)
      (h : RandomRuns (Measure.infinitePi (fun _ : ℕ => standard 2)) planeWorld (some (wrappedFile thermostat (n + 1) N)) cfg sim s0
        (wrappedInput thermostat (n + 1) N) (n + 1) pot 1 (List.replicate N planeStart)),
      ∀ k < N, c ≤ (Measure.infinitePi (fun _ : ℕ => standard 2)).real {ω | 2 ^ n * r ≤ ‖(h.phase k (n + 1) ω).1‖} := by
  cases thermostat with
  | true =>
    obtain ⟨r, c, hr, hc, hrun⟩ := main_periodic_bussi none (dt := 1 / 200) (friction := 10) (kt := 1) (mass := 1) (by norm_num) (by norm_num)
      (by norm_num) (by norm_num) planeStart
    refine ⟨r, c, hr, hc, fun n N hN => ?_⟩
    obtain ⟨cfg, sim, s0, pot, h⟩ := wrapped_random true (Nat.succ_pos n) hN
    exact ⟨cfg, sim, s0, pot, h, fun k hk => hrun _ _ _ cfg sim s0 _ _ pot _ h (wrapped_mueller _ _ _) (wrapped_bussi _ _) k
      (by rw [List.getElem?_replicate, if_pos hk]) n le_rfl⟩
  | false =>
    obtain ⟨r, c, hr, hc, hrun⟩ := main_periodic_overdamped none (dt := 1 / 200) (by norm_num) planeStart
    refine ⟨r, c, hr, hc, fun n N hN => ?_⟩
    obtain ⟨cfg, sim, s0, pot, h⟩ := wrapped_random false (Nat.succ_pos n) hN
    exact ⟨cfg, sim, s0, pot, h, fun k hk => hrun _ _ _ cfg sim s0 _ _ pot 1 _ h (wrapped_mueller _ _ _) (wrapped_overdamped _ _) k
      (by rw [List.getElem?_replicate, if_pos hk]) n le_rfl⟩

/-- C161 for the example: no distribution is stationary. -/
theorem wrapped_no_stationary (kind : LdKind) (μ : Measure (Phase 2)) (hμ : IsProbabilityMeasure μ) :
    afterStep (stepMap kind (periodicMueller MB.prefactors) (1 / 200) 10 1 1) μ ≠ μ :=
  periodic_mueller_no_stationary _ (mueller_prefactor none) (by norm_num) kind (fun _ => ⟨by norm_num, by norm_num, by norm_num⟩) μ hμ

end

end Bdld
