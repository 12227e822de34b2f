import Verif.Props.RunAwayMueller
import Verif.Props.EscapeBussiDemo
import Verif.Props.SpaceProgress

/-
C160 for concrete inputs: both dynamics in the Müller-Brown potential without boundary condition.
-/

namespace Bdld

open MeasureTheory ProbabilityTheory Spec

noncomputable section

/-- A world with given normal random vectors in two dimensions. -/
def planeWorld (g : ℕ → Fin 2 → ℝ) : World ℕ :=
  { listWorld (fun _ _ => 0) with
    normal := fun _ r => (fun k => if k.val = 0 then g r 0 else g r 1, r + 1)
    interp := fun _ _ xs => xs.map (fun _ => 0) }

theorem planeWorld_draw (g : ℕ → Fin 2 → ℝ) (i : ℕ) : draw ((planeWorld g).normal 2) 0 i = g i := by
  have h : ∀ i, drawState ((planeWorld g).normal 2) i 0 = i := by
    intro i
    induction i with
    | zero => rfl
    | succ i ih =>
      unfold drawState at ih ⊢
      rw [Function.iterate_succ_apply', ih]
      rfl
  unfold draw
  rw [h]
  funext k
  match k with
  | 0 => rfl
  | 1 => rfl

def planePot : Section := demoSection "potential" [("type", "mueller-brown")]

def planePart (N : ℕ) : Section := demoSection "particles"
  [("number", Nat.repr N), ("initial-distribution", "fractions-pos"), ("fractions", "1"), ("pos1", "1,0")]

/-- Input file for the thermostat or for overdamped dynamics in the Müller-Brown potential. -/
def planeFile (thermostat : Bool) (n N : ℕ) : List Section := [if thermostat then longLd n else boxLd n, planePot, planePart N]

def planeInput (thermostat : Bool) (n N : ℕ) : Input ℝ where
  ld := if thermostat then (wildInput n N).ld else (freeInput n N).ld
  potential := [("type", .base (.str "mueller-brown")), ("scaling-factor", .none), ("n_dim", .base (.int 2)), ("boundary-condition", .none)]
  particles := [("number", .base (.int N)), ("mass", .base (.float 1)), ("seed", .none),
    ("initial-distribution", .base (.str "fractions-pos")), ("pos1", .list [.float 1, .float 0]),
    ("fractions", .list ([1].map .float))]

set_option linter.unusedSimpArgs false in
theorem plane_parse (thermostat : Bool) {n N : ℕ} (hn : 0 < n) (hN : 0 < N) :
    parseAll 1 realConv (some (planeFile thermostat n N)) = .ok (planeInput thermostat n N) := by
  have f1 : findSection (planeFile thermostat n N) "ld" = some (if thermostat then longLd n else boxLd n) := by cases thermostat <;> rfl
  have f2 : findSection (planeFile thermostat n N) "potential" = some planePot := by cases thermostat <;> rfl
  have f3 : findSection (planeFile thermostat n N) "particles" = some (planePart N) := by cases thermostat <;> rfl
  have f4 : findSection (planeFile thermostat n N) "birth-death" = none := by cases thermostat <;> rfl
  have f5 : findSection (planeFile thermostat n N) "trajectories" = none := by cases thermostat <;> rfl
  have f6 : findSection (planeFile thermostat n N) "histogram" = none := by cases thermostat <;> rfl
  have f7 : findSection (planeFile thermostat n N) "fes" = none := by cases thermostat <;> rfl
  have f8 : findSection (planeFile thermostat n N) "delta-f" = none := by cases thermostat <;> rfl
  have f9 : findSection (planeFile thermostat n N) "particle-distribution" = none := by cases thermostat <;> rfl
  have s1 : pySplit "1,0" = ["1", "0"] := by decide +kernel
  have s3 : pySplit "1" = ["1"] := by decide +kernel
  have in' := repr_int n
  have iN := repr_int N
  cases thermostat <;>
  simp [parseAll, requireSection, parseOptional, f1, f2, f3, f4, f5, f6, f7, f8, f9, isOneDim, in', iN, hn, hN,
    boxLd, longLd, planePot, planePart, demoSection, parseLd, parsePotential, parseParticles, potentialOptions, polyOptions, InputOption.parse, opt,
    optList, Dict.get?, List.lookup, InputOption.convert, ldOptions, parseSection, parseLoop, Dict.set, tf1, tf2, tf3, tf6,
    s1, s3, ti3, ti4, ti5, ti6, ti7,
    positive, allPositive, positiveOrZero, gtZero, cmpNum, ok_bind, pure_eq_ok, atMost3dim, atMost3dimInt, pyAnd,
    callType, orValueError, particlesOptions, initialDistributions, oneOf, numberedSection,
    numberedLoop, numKey, List.range, List.range.loop, repr1, repr2, repr3, planeInput, wildInput, freeInput]

theorem plane_numbered (thermostat : Bool) (n N : ℕ) :
    Numbered (planeInput thermostat n N).particles.get? "pos" "" ([[1, 0]].map (fun p => .list (p.map .float))) := by
  refine ⟨?_, ?_⟩
  · intro i hi
    match i, hi with
    | 0, _ => rfl
  · have e : ("pos" ++ (0 + 1 + 1).repr ++ "") = "pos2" := by decide +kernel
    rw [List.length_map, List.length_cons, List.length_nil, e]
    rfl

theorem plane_consistent (thermostat : Bool) (g : ℕ → Fin 2 → ℝ) (n N : ℕ) : ConsistentSpace (planeWorld g) 2 (planeInput thermostat n N) where
  potential := .inr ⟨rfl, by intro h; simp [planeInput, IntOpt, Dict.get?, List.lookup] at h, rfl⟩
  ldSeed := by cases thermostat <;> (intro i hi; cases hi; decide)
  particlesSeed := by intro i hi; cases hi
  start := .inr ⟨[[1, 0]], plane_numbered thermostat n N, by simp, .inr ⟨rfl, fun fractions h => by
    have h' : some (OptVal.list (([1] : List ℝ).map BaseVal.float)) = some (OptVal.list (fractions.map .float)) := h
    have : ([1] : List ℝ).map BaseVal.float = fractions.map .float := by simpa using h'
    obtain rfl := List.map_injective_iff.2 (fun x y e => by cases e; rfl) this
    norm_num⟩⟩
  bdSeed := by intro o ho; cases ho
  bdWalkers := by intro h; cases h
  bdVariant := by intro o ho; cases ho
  bandwidths := by intro o l ho; cases ho
  needsTrajectories := by intro h; cases h
  bins := by intro o l ho; cases ho
  binRange := by intro o ho; cases ho
  output := by
    rintro (⟨o, ho, h⟩ | ⟨o, ho, h⟩ | ⟨o, ho, h⟩ | ⟨o, ho, h⟩) <;> cases ho
  plots := by intro o ho; cases ho
  noDeltaF := rfl
  distribution := by intro o ho; cases ho

/-- All walkers start at (1, 0), at rest. -/
def planeStart : Phase 2 := (![1, 0], fun _ => 0)

theorem plane_finished (thermostat : Bool) {n N : ℕ} (hn : 0 < n) (hN : 0 < N) (g : ℕ → Fin 2 → ℝ) : ∃ (cfg : SimCfg 2) (sim s0 : Sim 2 ℕ),
    FinishedRun (planeWorld g) (some (planeFile thermostat n N)) ⟨2, cfg, sim⟩ (planeInput thermostat n N) n s0 ∧
      s0.particles.map (fun p => (p.pos, p.mom)) = List.replicate N planeStart := by
  have hp : parseAll 1 (planeWorld g).conv (some (planeFile thermostat n N)) = .ok (planeInput thermostat n N) := plane_parse thermostat hn hN
  obtain ⟨⟨d, cfg, sim⟩, ha, hd⟩ := space_progress (planeWorld g) _ _ hp (plane_consistent thermostat g n N) countBdOps_lawful
    ⟨fun _ _ _ h => ⟨le_rfl, h⟩, fun _ _ h => h⟩ (fun _ _ xs => List.length_map _) (fun o ho => by cases ho)
  simp only at hd
  subst hd
  obtain ⟨config, n', s0, hr⟩ := main_run _ _ _ ha
  have hp' := hr.parse
  rw [hp] at hp'
  cases hp'
  have hn' : n' = n := by
    have := hr.steps
    cases thermostat <;> (cases this; rfl)
  subst hn'
  refine ⟨cfg, sim, s0, hr, ?_⟩
  obtain ⟨mass, number, m1, m2, _, _, m3⟩ := main_initial hr
  cases m2
  obtain ⟨_, e⟩ := m3 rfl [[1, 0]] [1] (plane_numbered thermostat n' N) rfl (by simp) (by norm_num)
  rw [e, show ((N : Int).toNat) = N from Int.toNat_natCast N, long_shares]
  have c1 : coords 2 [(1 : ℝ), 0] = ![1, 0] := by
    funext k
    match k with
    | 0 => rfl
    | 1 => rfl
  simp [planeStart, atRest, c1]

/-- The hypotheses of C160 hold for every number of steps and walkers. -/
theorem plane_random (thermostat : Bool) {n N : ℕ} (hn : 0 < n) (hN : 0 < N) :
    ∃ (cfg : (ℕ → Fin 2 → ℝ) → SimCfg 2) (sim s0 : (ℕ → Fin 2 → ℝ) → Sim 2 ℕ) (pot : Potential ℝ 2),
    RandomRuns (Measure.infinitePi (fun _ : ℕ => standard 2)) planeWorld (some (planeFile thermostat n N)) cfg sim s0
      (planeInput thermostat n N) n pot 1 (List.replicate N planeStart) := by
  choose cfg sim s0 hr hs using plane_finished thermostat hn hN
  refine ⟨cfg, sim, s0, (cfg fun _ => 0).ld.pot, hr, fun _ => countBdOps_lawful, rfl, rfl, fun ω => ?_, hs, ?_⟩
  · have h1 := (finished_required (hr ω)).1
    have h2 := (finished_required (hr fun _ => 0)).1
    have h3 : setupPotential (planeWorld ω) (planeInput thermostat n N).potential =
      setupPotential (planeWorld fun _ => 0) (planeInput thermostat n N).potential := rfl
    rw [h3, h2] at h1
    have h4 := Except.ok.inj h1
    simp only [AnyPotential.mk.injEq, heq_eq_eq, true_and] at h4
    exact h4.symm
  · have e : (fun (i : ℕ) (ω : ℕ → Fin 2 → ℝ) => draw ((planeWorld ω).normal 2) (seededBy (planeWorld ω) .ld (planeInput thermostat n N).ld) i) =
        fun i ω => ω i := by
      funext i ω
      have hz : seededBy (planeWorld ω) .ld (planeInput thermostat n N).ld = 0 := by cases thermostat <;> rfl
      rw [hz]
      exact planeWorld_draw ω i
    rw [e]
    exact stream_exists 2

theorem plane_mueller (thermostat : Bool) (n N : ℕ) : FreeMueller (planeInput thermostat n N) none where
  type := rfl
  scaling := rfl
  open' := ⟨(by intro h; cases h), (by intro h; cases h)⟩

theorem plane_bussi (n N : ℕ) : BussiOptions (planeInput true n N) (1 / 200) 10 1 where
  type := rfl
  timestep := rfl
  friction := rfl
  kt := rfl

theorem plane_overdamped (n N : ℕ) : OverdampedOptions (planeInput false n N) (1 / 200) where
  type := rfl
  timestep := rfl

/-- C160 for the example: walkers that start near the second minimum run away with a probability that does not depend on the number
of steps, with both dynamics. -/
theorem plane_demo (thermostat : Bool) : ∃ r c : ℝ, 0 < r ∧ 0 < c ∧ ∀ n N : ℕ, 0 < N →
    ∃ (cfg : (ℕ → Fin 2 → ℝ) → SimCfg 2) (sim s0 : (ℕ → Fin 2 → ℝ) → Sim 2 ℕ) (pot : Potential ℝ 2)
      (h : RandomRuns (Measure.infinitePi (fun _ : ℕ => standard 2)) planeWorld (some (planeFile thermostat (n + 1) N)) cfg sim s0
        (planeInput thermostat (n + 1) N) (n + 1) pot 1 (List.replicate N planeStart)),
      ∀ k < N, c ≤ (Measure.infinitePi (fun _ : ℕ => standard 2)).real {ω | 2 ^ n * r ≤ ‖(h.phase k (n + 1) ω).1‖} := by
  cases thermostat with
  | true =>
    obtain ⟨r, c, hr, hc, hrun⟩ := main_mueller_bussi none (dt := 1 / 200) (friction := 10) (kt := 1) (mass := 1) (by norm_num) (by norm_num)
      (by norm_num) (by norm_num) planeStart
    refine ⟨r, c, hr, hc, fun n N hN => ?_⟩
    obtain ⟨cfg, sim, s0, pot, h⟩ := plane_random true (Nat.succ_pos n) hN
    exact ⟨cfg, sim, s0, pot, h, fun k hk => hrun _ _ _ cfg sim s0 _ _ pot _ h (plane_mueller _ _ _) (plane_bussi _ _) k
      (by rw [List.getElem?_replicate, if_pos hk]) n le_rfl⟩
  | false =>
    obtain ⟨r, c, hr, hc, hrun⟩ := main_mueller_overdamped none (dt := 1 / 200) (by norm_num) planeStart
    refine ⟨r, c, hr, hc, fun n N hN => ?_⟩
    obtain ⟨cfg, sim, s0, pot, h⟩ := plane_random false (Nat.succ_pos n) hN
    exact ⟨cfg, sim, s0, pot, h, fun k hk => hrun _ _ _ cfg sim s0 _ _ pot 1 _ h (plane_mueller _ _ _) (plane_overdamped _ _) k
      (by rw [List.getElem?_replicate, if_pos hk]) n le_rfl⟩

/-- C160 for the example: no distribution is stationary. -/
theorem plane_no_stationary (kind : LdKind) (μ : Measure (Phase 2)) (hμ : IsProbabilityMeasure μ) :
    afterStep (stepMap kind (MB.potential MB.prefactors) (1 / 200) 10 1 1) μ ≠ μ :=
  mueller_no_stationary _ (mueller_prefactor none) (by norm_num) (by norm_num) (by norm_num) (by norm_num) kind μ hμ

end

end Bdld
