import Verif.Props.RunAwaySum
import Verif.Props.RunAwayDemo
import Verif.Props.SpaceExample

/-
C162 for the potential of Wolfe and Quapp of the documentation (`docs/potential.rst`), and concrete inputs with both dynamics.
-/

namespace Bdld

open MeasureTheory ProbabilityTheory Spec

noncomputable section

/-! ### The potential of Wolfe and Quapp -/

/-- The polynomials of the two coordinates. -/
def quappSums : Fin 2 → List ℝ := ![[0, 0.3, -2, 0, 1], [0, 0.1, -4, 0, 1]]

/-- The coupling `x y`. -/
def quappCoupling : Fin 2 → Fin 2 → ℝ := fun j k => if j = 0 ∧ k = 1 then 1 else 0

theorem quapp_sum (x : Fin 2 → ℝ) : sumEnergy quappSums quappCoupling x =
    x 0 ^ 4 + x 1 ^ 4 - 2 * x 0 ^ 2 - 4 * x 1 ^ 2 + x 0 * x 1 + 0.3 * x 0 + 0.1 * x 1 := by
  simp [sumEnergy, quappSums, quappCoupling, poly1, Fin.sum_univ_two, Finset.sum_range_succ]
  ring

theorem quapp_degree (k : Fin 2) : ∃ i, 3 ≤ i ∧ (quappSums k).getD i 0 ≠ 0 := by
  refine ⟨4, by norm_num, ?_⟩
  match k with
  | 0 => simp [quappSums]
  | 1 => simp [quappSums]

/-- **C162.** The energy in runs with the coefficient file of the documentation. -/
theorem run_quapp {R : Type} {w : World R} {inp : Option (List Section)} {cfg : SimCfg 2} {sim s0 : Sim 2 R} {config : Input ℝ} {n : ℕ}
    (hr : FinishedRun w inp ⟨2, cfg, sim⟩ config n s0) (ht : StrOpt config.potential "type" "polynomial")
    (hn : IntOpt config.potential "n_dim" 2) {name : String} (hname : StrOpt config.potential "coeffs-file" name)
    {files : String → Option (List (List Char))} (hw : w.ReadsText files) (hf : files name = some wolfeQuappLines) :
    cfg.ld.pot.energy = sumEnergy quappSums quappCoupling := by
  obtain ⟨_, name', mins, maxs, rows, hname', _, _, hrows, _, _, he⟩ := (main_potential hr).moreDim 2 ht hn (by norm_num)
  have hsame : name' = name := by
    unfold StrOpt at hname hname'
    rw [hname] at hname'
    cases hname'
    rfl
  subst hsame
  have hf' := hw name'
  rw [hf] at hf'
  obtain ⟨rows0, hg, hrows0⟩ := genfromtxt_lines wolfeQuapp_lines
  obtain ⟨table, htab, hto⟩ := hf' rows0 hg
  rw [htab] at hrows
  cases hrows
  have hnd : ((realTerms wolfeQuappTerms).map Prod.fst).Nodup := by
    have h0 : (wolfeQuappTerms.map Prod.fst).Nodup := by decide
    unfold realTerms
    rw [List.map_map]
    exact h0
  have h1 := he (realTerms wolfeQuappTerms) (rowsOf_table hrows0 hto) hnd
  funext x
  rw [quapp_sum, ← wolfeQuapp_energy]
  exact congrFun h1 x

/-! ### Inputs -/

/-- A world with given normal random vectors and the coefficient file of the documentation. -/
def valleyWorld (g : ℕ → Fin 2 → ℝ) : World ℕ := { planeWorld g with coeffFile := (Classical.choose wolfeQuapp_world).coeffFile }

theorem valley_reads (g : ℕ → Fin 2 → ℝ) : ∃ files, (valleyWorld g).ReadsText files ∧ files "wolfe_quapp.coeffs" = some wolfeQuappLines := by
  obtain ⟨files, h1, h2⟩ := Classical.choose_spec wolfeQuapp_world
  exact ⟨files, h1, h2⟩

/-- Input file for the thermostat or for overdamped dynamics in the potential of Wolfe and Quapp. -/
def valleyFile (thermostat : Bool) (n N : ℕ) : List Section := [if thermostat then longLd n else boxLd n, quappPot, planePart N]

def valleyInput (thermostat : Bool) (n N : ℕ) : Input ℝ where
  ld := if thermostat then (wildInput n N).ld else (freeInput n N).ld
  potential := quappPotOpts
  particles := [("number", .base (.int N)), ("mass", .base (.float 1)), ("seed", .none),
    ("initial-distribution", .base (.str "fractions-pos")), ("pos1", .list [.float 1, .float 0]),
    ("fractions", .list ([1].map .float))]

set_option linter.unusedSimpArgs false in
theorem valley_parse (thermostat : Bool) {n N : ℕ} (hn : 0 < n) (hN : 0 < N) :
    parseAll 1 realConv (some (valleyFile thermostat n N)) = .ok (valleyInput thermostat n N) := by
  have f1 : findSection (valleyFile thermostat n N) "ld" = some (if thermostat then longLd n else boxLd n) := by cases thermostat <;> rfl
  have f2 : findSection (valleyFile thermostat n N) "potential" = some quappPot := by cases thermostat <;> rfl
  have f3 : findSection (valleyFile thermostat n N) "particles" = some (planePart N) := by cases thermostat <;> rfl
  have f4 : findSection (valleyFile thermostat n N) "birth-death" = none := by cases thermostat <;> rfl
  have f5 : findSection (valleyFile thermostat n N) "trajectories" = none := by cases thermostat <;> rfl
  have f6 : findSection (valleyFile thermostat n N) "histogram" = none := by cases thermostat <;> rfl
  have f7 : findSection (valleyFile thermostat n N) "fes" = none := by cases thermostat <;> rfl
  have f8 : findSection (valleyFile thermostat n N) "delta-f" = none := by cases thermostat <;> rfl
  have f0 : isOneDim quappPotOpts = false := rfl
  have f9 : findSection (valleyFile thermostat n N) "particle-distribution" = none := by cases thermostat <;> rfl
  have s1 : pySplit "1,0" = ["1", "0"] := by decide +kernel
  have s3 : pySplit "1" = ["1"] := by decide +kernel
  have in' := repr_int n
  have iN := repr_int N
  cases thermostat <;>
  simp [parseAll, requireSection, parseOptional, f1, f2, f3, f4, f5, f6, f7, f8, f9, f0, quapp_parsePot, in', iN, hn, hN,
    boxLd, longLd, planePart, demoSection, parseLd, parseParticles, InputOption.parse, opt,
    optList, Dict.get?, List.lookup, InputOption.convert, ldOptions, parseSection, parseLoop, Dict.set, tf1, tf2, tf3, tf6,
    s1, s3, ti3, ti4, ti5, ti6, ti7,
    positive, allPositive, positiveOrZero, gtZero, cmpNum, ok_bind, pure_eq_ok, atMost3dim, atMost3dimInt, pyAnd,
    callType, orValueError, particlesOptions, initialDistributions, oneOf, numberedSection,
    numberedLoop, numKey, List.range, List.range.loop, repr1, repr2, repr3, valleyInput, wildInput, freeInput]

theorem valley_numbered (thermostat : Bool) (n N : ℕ) :
    Numbered (valleyInput thermostat n N).particles.get? "pos" "" ([[1, 0]].map (fun p => .list (p.map .float))) := by
  refine ⟨?_, ?_⟩
  · intro i hi
    match i, hi with
    | 0, _ => rfl
  · have e : ("pos" ++ (0 + 1 + 1).repr ++ "") = "pos2" := by decide +kernel
    rw [List.length_map, List.length_cons, List.length_nil, e]
    rfl

theorem valley_consistent (thermostat : Bool) (g : ℕ → Fin 2 → ℝ) (n N : ℕ) : ConsistentSpace (valleyWorld g) 2 (valleyInput thermostat n N) where
  potential := by
    obtain ⟨files, hw, hf⟩ := valley_reads g
    exact (quapp_consistent hw hf).potential
  ldSeed := by cases thermostat <;> (intro i hi; cases hi; decide)
  particlesSeed := by intro i hi; cases hi
  start := .inr ⟨[[1, 0]], valley_numbered thermostat n N, by simp, .inr ⟨rfl, fun fractions h => by
    have h' : some (OptVal.list (([1] : List ℝ).map BaseVal.float)) = some (OptVal.list (fractions.map .float)) := h
    have : ([1] : List ℝ).map BaseVal.float = fractions.map .float := by simpa using h'
    obtain rfl := List.map_injective_iff.2 (fun x y e => by cases e; rfl) this
    norm_num⟩⟩
  bdSeed := by intro o ho; cases ho
  bdWalkers := by intro h; cases h
  bdVariant := by intro o ho; cases ho
  bandwidths := by intro o l ho; cases ho
  needsTrajectories := by intro h; cases h
  bins := by intro o l ho; cases ho
  binRange := by intro o ho; cases ho
  output := by
    rintro (⟨o, ho, h⟩ | ⟨o, ho, h⟩ | ⟨o, ho, h⟩ | ⟨o, ho, h⟩) <;> cases ho
  plots := by intro o ho; cases ho
  noDeltaF := rfl
  distribution := by intro o ho; cases ho

theorem valley_finished (thermostat : Bool) {n N : ℕ} (hn : 0 < n) (hN : 0 < N) (g : ℕ → Fin 2 → ℝ) : ∃ (cfg : SimCfg 2) (sim s0 : Sim 2 ℕ),
    FinishedRun (valleyWorld g) (some (valleyFile thermostat n N)) ⟨2, cfg, sim⟩ (valleyInput thermostat n N) n s0 ∧
      s0.particles.map (fun p => (p.pos, p.mom)) = List.replicate N planeStart := by
  have hp : parseAll 1 (valleyWorld g).conv (some (valleyFile thermostat n N)) = .ok (valleyInput thermostat n N) := valley_parse thermostat hn hN
  obtain ⟨⟨d, cfg, sim⟩, ha, hd⟩ := space_progress (valleyWorld g) _ _ hp (valley_consistent thermostat g n N) countBdOps_lawful
    ⟨fun _ _ _ h => ⟨le_rfl, h⟩, fun _ _ h => h⟩ (fun _ _ xs => List.length_map _) (fun o ho => by cases ho)
  simp only at hd
  subst hd
  obtain ⟨config, n', s0, hr⟩ := main_run _ _ _ ha
  have hp' := hr.parse
  rw [hp] at hp'
  cases hp'
  have hn' : n' = n := by
    have := hr.steps
    cases thermostat <;> (cases this; rfl)
  subst hn'
  refine ⟨cfg, sim, s0, hr, ?_⟩
  obtain ⟨mass, number, m1, m2, _, _, m3⟩ := main_initial hr
  cases m2
  obtain ⟨_, e⟩ := m3 rfl [[1, 0]] [1] (valley_numbered thermostat n' N) rfl (by simp) (by norm_num)
  rw [e, show ((N : Int).toNat) = N from Int.toNat_natCast N, long_shares]
  have c1 : coords 2 [(1 : ℝ), 0] = ![1, 0] := by
    funext k
    match k with
    | 0 => rfl
    | 1 => rfl
  simp [planeStart, atRest, c1]

/-- The hypotheses of C162 hold for every number of steps and walkers. -/
theorem valley_random (thermostat : Bool) {n N : ℕ} (hn : 0 < n) (hN : 0 < N) :
    ∃ (cfg : (ℕ → Fin 2 → ℝ) → SimCfg 2) (sim s0 : (ℕ → Fin 2 → ℝ) → Sim 2 ℕ) (pot : Potential ℝ 2),
    RandomRuns (Measure.infinitePi (fun _ : ℕ => standard 2)) valleyWorld (some (valleyFile thermostat n N)) cfg sim s0
      (valleyInput thermostat n N) n pot 1 (List.replicate N planeStart) := by
  choose cfg sim s0 hr hs using valley_finished thermostat hn hN
  refine ⟨cfg, sim, s0, (cfg fun _ => 0).ld.pot, hr, fun _ => countBdOps_lawful, rfl, rfl, fun ω => ?_, hs, ?_⟩
  · have h1 := (finished_required (hr ω)).1
    have h2 := (finished_required (hr fun _ => 0)).1
    have h3 : setupPotential (valleyWorld ω) (valleyInput thermostat n N).potential =
      setupPotential (valleyWorld fun _ => 0) (valleyInput thermostat n N).potential := rfl
    rw [h3, h2] at h1
    have h4 := Except.ok.inj h1
    simp only [AnyPotential.mk.injEq, heq_eq_eq, true_and] at h4
    exact h4.symm
  · have e : (fun (i : ℕ) (ω : ℕ → Fin 2 → ℝ) => draw ((valleyWorld ω).normal 2) (seededBy (valleyWorld ω) .ld (valleyInput thermostat n N).ld) i) =
        fun i ω => ω i := by
      funext i ω
      have hz : seededBy (valleyWorld ω) .ld (valleyInput thermostat n N).ld = 0 := by cases thermostat <;> rfl
      rw [hz]
      exact planeWorld_draw ω i
    rw [e]
    exact stream_exists 2

theorem valley_energy (thermostat : Bool) {n N : ℕ} {g : ℕ → Fin 2 → ℝ} {cfg : SimCfg 2} {sim s0 : Sim 2 ℕ}
    (hr : FinishedRun (valleyWorld g) (some (valleyFile thermostat n N)) ⟨2, cfg, sim⟩ (valleyInput thermostat n N) n s0) :
    cfg.ld.pot.energy = sumEnergy quappSums quappCoupling ∧ cfg.ld.pot.bc ≠ some .reflective := by
  obtain ⟨files, hw, hf⟩ := valley_reads g
  refine ⟨run_quapp hr rfl rfl rfl hw hf, fun h => ?_⟩
  have h1 := (main_potential hr).reflective
  simp only at h1
  exact absurd (h1.1 h) (by intro h; cases h)

theorem valley_bussi (n N : ℕ) : BussiOptions (valleyInput true n N) (1 / 200) 10 1 where
  type := rfl
  timestep := rfl
  friction := rfl
  kt := rfl

theorem valley_overdamped (n N : ℕ) : OverdampedOptions (valleyInput false n N) (1 / 200) where
  type := rfl
  timestep := rfl

theorem valley_same {thermostat : Bool} {n N : ℕ} : setupPotential (valleyWorld fun _ => 0) (valleyInput thermostat n N).potential =
    setupPotential (valleyWorld fun _ => 0) (valleyInput true 1 1).potential := rfl

/-- C162 for the example: walkers in the potential of Wolfe and Quapp run away with a probability that does not depend on the number of
steps, with both dynamics. -/
theorem valley_demo (thermostat : Bool) : ∃ r c : ℝ, 0 < r ∧ 0 < c ∧ ∀ n N : ℕ, 0 < N →
    ∃ (cfg : (ℕ → Fin 2 → ℝ) → SimCfg 2) (sim s0 : (ℕ → Fin 2 → ℝ) → Sim 2 ℕ) (pot : Potential ℝ 2)
      (h : RandomRuns (Measure.infinitePi (fun _ : ℕ => standard 2)) valleyWorld (some (valleyFile thermostat (n + 1) N)) cfg sim s0
        (valleyInput thermostat (n + 1) N) (n + 1) pot 1 (List.replicate N planeStart)),
      ∀ k < N, c ≤ (Measure.infinitePi (fun _ : ℕ => standard 2)).real {ω | 2 ^ n * r ≤ ‖(h.phase k (n + 1) ω).1‖} := by
  obtain ⟨cfg1, sim1, s1, hr1, _⟩ := valley_finished true one_pos one_pos fun _ => 0
  obtain ⟨he, hbc⟩ := valley_energy true hr1
  have hpot : ∀ {n N : ℕ} {cfg : (ℕ → Fin 2 → ℝ) → SimCfg 2} {sim s0 : (ℕ → Fin 2 → ℝ) → Sim 2 ℕ} {pot : Potential ℝ 2},
      RandomRuns (Measure.infinitePi (fun _ : ℕ => standard 2)) valleyWorld (some (valleyFile thermostat (n + 1) N)) cfg sim s0
        (valleyInput thermostat (n + 1) N) (n + 1) pot 1 (List.replicate N planeStart) → pot = cfg1.ld.pot := by
    intro n N cfg sim s0 pot h
    rw [← h.samePot fun _ => 0]
    have h1 := (finished_required (h.run fun _ => 0)).1
    have h2 := (finished_required hr1).1
    rw [valley_same, h2] at h1
    have h4 := Except.ok.inj h1
    simp only [AnyPotential.mk.injEq, heq_eq_eq, true_and] at h4
    exact h4.symm
  cases thermostat with
  | true =>
    obtain ⟨r, c, hr, hc, hrun⟩ := main_sum_bussi quapp_degree he hbc (dt := 1 / 200) (friction := 10) (kt := 1) (mass := 1) (by norm_num)
      (by norm_num) (by norm_num) (by norm_num) planeStart
    refine ⟨r, c, hr, hc, fun n N hN => ?_⟩
    obtain ⟨cfg, sim, s0, pot, h⟩ := valley_random true (Nat.succ_pos n) hN
    obtain rfl := hpot h
    exact ⟨cfg, sim, s0, _, h, fun k hk => hrun _ _ _ cfg sim s0 _ _ _ h (valley_bussi _ _) k
      (by rw [List.getElem?_replicate, if_pos hk]) n le_rfl⟩
  | false =>
    obtain ⟨r, c, hr, hc, hrun⟩ := main_sum_overdamped quapp_degree he hbc (dt := 1 / 200) (by norm_num) planeStart
    refine ⟨r, c, hr, hc, fun n N hN => ?_⟩
    obtain ⟨cfg, sim, s0, pot, h⟩ := valley_random false (Nat.succ_pos n) hN
    obtain rfl := hpot h
    exact ⟨cfg, sim, s0, _, h, fun k hk => hrun _ _ _ cfg sim s0 _ _ 1 _ h (valley_overdamped _ _) k
      (by rw [List.getElem?_replicate, if_pos hk]) n le_rfl⟩

end

end Bdld
