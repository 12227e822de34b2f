import Verif.Props.ConsoleWarnings
import Verif.Props.ExampleInput
import Verif.Props.LogDemo

/-
C136, C137: the printed potential, and examples.
-/

set_option linter.unusedSimpArgs false

namespace Bdld

open Spec

variable {R : Type}

/-! ### The potential -/

/-- The text about the potential shows the coefficients or the factor that its energies are calculated with. -/
theorem potentialText_used (sh : Shows) (w : World R) (o : Dict (OptVal ℝ)) (p : AnyPotential)
    (h : setupPotential w o = .ok p) :
    (StrOpt o "type" "polynomial" → ∃ arr : NdArr p.d, potentialText sh w o = polyText sh arr ∧
      p.pot.energy = polyEnergy arr ∧ p.pot.force = polyForce arr ∧
      (IntOpt o "n_dim" 1 → ∃ cs, FloatsOpt o "coeffs" cs ∧ potentialText sh w o = polyText sh (coeffs1d cs))) ∧
    (StrOpt o "type" "mueller-brown" →
      potentialText sh w o = "Müller-Brown potential with scaling factor " ++ sh.float (scalingOf o)) := by
  unfold setupPotential at h
  obtain ⟨v, g1, h⟩ := bind_ok h
  obtain ⟨q, hq, h⟩ := bind_ok h
  obtain ⟨v2, g2, h⟩ := bind_ok h
  obtain ⟨bc, g3, h⟩ := bind_ok h
  cases h
  have gt := getItem_inv g1
  split at hq
  · refine ⟨fun _ => ?_, fun hm => by rw [StrOpt, gt] at hm; simp at hm⟩
    unfold setupPolynomial at hq
    obtain ⟨vn, gn, hq⟩ := bind_ok hq
    have gn := getItem_inv gn
    split at hq
    · obtain ⟨r, hr, hq⟩ := bind_ok hq
      obtain ⟨vc, gc, hq⟩ := bind_ok hq
      split at hq
      · cases hq
      · obtain ⟨cs, hcs, hq⟩ := bind_ok hq
        obtain ⟨pp, hpp, hq⟩ := bind_ok hq
        cases hq
        obtain ⟨d1, d2, rfl⟩ := newPolynomial_inv hpp
        have ht : potentialText sh w o = polyText sh (coeffs1d cs) := by
          have hc : (o.getItem "coeffs").bind OptVal.asFloats = .ok cs := by
            rw [gc]
            exact hcs
          simp only [potentialText, gt, gn, if_true, hc, Except.toOption, Option.getD_some]
        exact ⟨coeffs1d cs, ht, rfl, rfl, fun _ => ⟨cs, floatsOpt gc hcs, ht⟩⟩
    · rename_i n hn1 _
      obtain ⟨r, hr, hq⟩ := bind_ok hq
      obtain ⟨vc, gc, hq⟩ := bind_ok hq
      obtain ⟨name, hname, hq⟩ := bind_ok hq
      split at hq
      · cases hq
      · rename_i rows hrows
        obtain ⟨rows', h1, hq⟩ := bind_ok hq
        obtain ⟨arr, h2, hq⟩ := bind_ok hq
        obtain ⟨pp, hpp, hq⟩ := bind_ok hq
        cases hq
        obtain ⟨d1, d2, rfl⟩ := newPolynomial_inv hpp
        have hn1' : n ≠ 1 := fun e => hn1 (by rw [e])
        have hc : (o.getItem "coeffs-file").bind OptVal.asOptStr = .ok name := by
          rw [gc]
          exact hname
        have ht : potentialText sh w o = polyText sh arr := by
          simp only [potentialText, gt, gn, if_neg hn1', hc, Except.toOption, Option.getD_some, hrows, h1, h2]
        refine ⟨arr, ht, rfl, rfl, fun h1 => ?_⟩
        rw [IntOpt, gn] at h1
        simp at h1
        exact absurd h1 hn1'
    · cases hq
  · refine ⟨fun hm => by rw [StrOpt, gt] at hm; simp at hm, fun _ => ?_⟩
    obtain ⟨vs, gs, hq⟩ := bind_ok hq
    obtain ⟨sc, hsc, hq⟩ := bind_ok hq
    have hc : (o.getItem "scaling-factor").bind OptVal.asOptFloat = .ok sc := by
      rw [gs]
      exact hsc
    have hs : scalingOf o = rateFactor sc := by
      unfold scalingOf
      rw [getItem_inv gs]
      unfold OptVal.asOptFloat at hsc
      split at hsc <;> cases hsc <;> rfl
    rw [hs]
    unfold potentialText
    rw [gt]
    change muellerText sh (((o.getItem "scaling-factor").bind OptVal.asOptFloat).toOption.getD none) = _
    rw [hc]
    rfl
  · cases hq

/-- **C136.** The same for a run. -/
theorem printed_potential (sh : Shows) {w : World R} {file : Option (List Section)} {a : AnySim R} {config : Input ℝ}
    {n : Nat} {s0 : Sim a.d R} (hr : FinishedRun w file a config n s0) :
    (StrOpt config.potential "type" "polynomial" → ∃ arr : NdArr a.d, potentialText sh w config.potential = polyText sh arr ∧
      a.cfg.ld.pot.energy = polyEnergy arr ∧ a.cfg.ld.pot.force = polyForce arr ∧
      (IntOpt config.potential "n_dim" 1 → ∃ cs, FloatsOpt config.potential "coeffs" cs ∧
        potentialText sh w config.potential = polyText sh (coeffs1d cs))) ∧
    (StrOpt config.potential "type" "mueller-brown" → potentialText sh w config.potential =
      "Müller-Brown potential with scaling factor " ++ sh.float (scalingOf config.potential)) :=
  potentialText_used sh w _ _ (finished_required hr).1

/-! ### The shipped example -/

/-- **C136.** Everything that the shipped example prints. -/
theorem example_output (sh : Shows) {w : World R} {a : AnySim R} (hconv : w.conv = realConv) (hops : w.bdOps.Lawful)
    (h : mainText w (some exampleLines) = .finished a) : ∃ c : BdStats, (mainP sh w (some exampleFile)).out =
    ["Starting bdld code v0.3.2\n\n",
      "Setting up Langevin dynamics with Bussi-Parinello thermostat\nParameters:\n  potential = " ++
        ("polynomial with coefficients " ++ sh.coeffs 1 (coeffs1d [0, 1 / 5, -4, 0, 1])) ++
        "\n  timestep = " ++ sh.float (1 / 200) ++ "\n  friction = " ++ sh.float 10 ++ "\n  kt = " ++ sh.float 1,
      "  seed = 632683", "",
      "Adding 10 particles with mass " ++ sh.float 1 ++ "\n", "Distributed randomly in whole potential range\n", "",
      "Setting up birth/death scheme\nParameters:\n  dt = " ++ sh.float (1 / 2) ++ "\n  bw = " ++ sh.array [3 / 10] ++
        "\n  kt = " ++ sh.float 1 ++ "\n  rate_fac = " ++ sh.float 1,
      "  seed = 633683", "  using the multiplicative approximation", "",
      "Setting up storage of the trajectories", "Saving every 5th position to the files 'traj.{i}'", "",
      "Setting up histogram for the trajectories\nParameters:\n  ranges = [(" ++ sh.float (-5 / 2) ++ ", " ++
        sh.float (5 / 2) ++ ")]\n  n_bins = [200]", "  stride = 1", "",
      "Setting up FES calculation for the histogram\nParameters:", "  kt = " ++ sh.float 1, "  stride = 100",
      "Saving FES every 500 time steps to 'fes_{step}'", "",
      "Setting up delta-f action", "Saving delta-f of every 100th time step to 'delta_f'", "",
      "Setup finished, now running for 10000 steps", "Simulation finished, performing final actions",
      "After 10000 time steps:",
      "Birth events: " ++ Nat.repr c.dupCount ++ "/" ++ Nat.repr c.dupAttempts ++ " (" ++
        sh.digits4 (quotientOrNan (100 * c.dupCount) c.dupAttempts) ++ "%)",
      "Death events: " ++ Nat.repr c.killCount ++ "/" ++ Nat.repr c.killAttempts ++ " (" ++
        sh.digits4 (quotientOrNan (100 * c.killCount) c.killAttempts) ++ "%)",
      "Ratio birth/death: " ++ sh.digits4 (quotientOrNan c.dupCount c.killCount) ++ " (succesful) / " ++
        sh.digits4 (quotientOrNan c.dupAttempts c.killAttempts) ++ " (attemps)", "",
      "Finished without errors"] := by
  obtain ⟨s0, hr⟩ := example_finished hconv h
  refine ⟨hr.counters 10000, ?_⟩
  rw [finished_output sh hr hops]
  obtain ⟨-, -, hk, hdt, hkt, -, -⟩ := example_system hconv hops h
  obtain ⟨cs, hcs, ht⟩ := (printed_potential sh hr).1 rfl |>.choose_spec.2.2.2 rfl
  have hcs : cs = [0, 1 / 5, -4, 0, 1] := by
    have : ([0, 1 / 5, -4, 0, 1] : List ℝ).map BaseVal.float = cs.map .float := by
      have h1' : some (OptVal.list (([0, 1 / 5, -4, 0, 1] : List ℝ).map BaseVal.float)) = some (OptVal.list (cs.map .float)) := hcs
      simpa using h1'
    exact (List.map_injective_iff.2 (fun x y e => by cases e; rfl) this).symm
  rw [ht, hcs]
  have e1 : ldLines sh (polyText sh (coeffs1d [0, 1 / 5, -4, 0, 1])) a.cfg.kind a.cfg.ld exampleLdOpts =
    ["Setting up Langevin dynamics with Bussi-Parinello thermostat\nParameters:\n  potential = " ++
        ("polynomial with coefficients " ++ sh.coeffs 1 (coeffs1d [0, 1 / 5, -4, 0, 1])) ++
        "\n  timestep = " ++ sh.float (1 / 200) ++ "\n  friction = " ++ sh.float 10 ++ "\n  kt = " ++ sh.float 1,
      "  seed = 632683", ""] := by
    unfold ldLines
    rw [hk, hdt, hkt]
    rfl
  have e2 : particleLines sh examplePartOpts = ["Adding 10 particles with mass " ++ sh.float 1 ++ "\n",
      "Distributed randomly in whole potential range\n", ""] := by
    have : strOption examplePartOpts "initial-distribution" = "random-global" := rfl
    unfold particleLines
    rw [if_pos this]
    rfl
  have e3 : birthDeathLines sh a.cfg.ld exampleBdOpts =
      ["Setting up birth/death scheme\nParameters:\n  dt = " ++ sh.float (1 / 2) ++ "\n  bw = " ++ sh.array [3 / 10] ++
        "\n  kt = " ++ sh.float 1 ++ "\n  rate_fac = " ++ sh.float 1,
      "  seed = 633683", "  using the multiplicative approximation", ""] := by
    have h1 : (1 / 200 : ℝ) * (natOption exampleBdOpts "stride" 0 : ℝ) = 1 / 2 := by
      have : natOption exampleBdOpts "stride" 0 = 100 := rfl
      rw [this]
      norm_num
    have h2 : variantOf exampleBdOpts = .mult := rfl
    have h3 : flagOption exampleBdOpts "recalculate-probabilities" = false := rfl
    have h4 : factorOf exampleBdOpts = 1 := rfl
    unfold birthDeathLines
    rw [hdt, hkt, h1, h2, h3, h4]
    rfl
  have e4 : trajectoryLines exampleTrajOpts = ["Setting up storage of the trajectories",
      "Saving every 5th position to the files 'traj.{i}'", ""] := by
    have h1 : hasFilename exampleTrajOpts = true := by simp [hasFilename, exampleTrajOpts, Dict.get?, List.lookup]
    have h2 : natOption exampleTrajOpts "stride" 1 = 5 := rfl
    have h3 : strOption exampleTrajOpts "filename" = "traj" := rfl
    unfold trajectoryLines
    rw [h1, h2, h3]
    decide +kernel
  have e5 : histogramLines sh exampleHistOpts =
      ["Setting up histogram for the trajectories\nParameters:\n  ranges = [(" ++ sh.float (-5 / 2) ++ ", " ++
        sh.float (5 / 2) ++ ")]\n  n_bins = [200]", "  stride = 1", ""] := by
    have h1 : floatsOf exampleHistOpts "min" = [-5 / 2] := rfl
    have h2 : floatsOf exampleHistOpts "max" = [5 / 2] := rfl
    have h3 : natsOf exampleHistOpts "bins" = [200] := rfl
    have h4 : natOption exampleHistOpts "stride" 1 = 1 := rfl
    have h5 : natOption exampleHistOpts "write-stride" 0 = 0 := rfl
    unfold histogramLines
    rw [h1, h2, h3, h4, if_pos h5]
    have h6 : listText ([200].map Nat.repr) = "[200]" := by decide +kernel
    have h7 : ∀ x : String, listText [x] = "[" ++ x ++ "]" := by
      intro x
      unfold listText
      rw [show String.intercalate ", " [x] = x from rfl]
    rw [h6]
    simp only [rangesText, List.zip_cons_cons, List.zip_nil_right, List.map_cons, List.map_nil, h7]
    have h8 : ∀ x y : String, "Setting up histogram for the trajectories\nParameters:\n  ranges = " ++
        ("[" ++ ("(" ++ x ++ ", " ++ y ++ ")") ++ "]") ++ "\n  n_bins = " ++ "[200]" =
      "Setting up histogram for the trajectories\nParameters:\n  ranges = [(" ++ x ++ ", " ++ y ++ ")]\n  n_bins = [200]" := by
      intro x y
      have a1 : "Setting up histogram for the trajectories\nParameters:\n  ranges = [(" =
        "Setting up histogram for the trajectories\nParameters:\n  ranges = " ++ ("[" ++ "(") := by decide +kernel
      have a2 : ")]\n  n_bins = [200]" = ")" ++ ("]" ++ ("\n  n_bins = " ++ "[200]")) := by decide +kernel
      rw [a1, a2]
      simp only [String.append_assoc]
    rw [h8]
    rfl
  have e6 : fesLines sh a.cfg.ld.kt exampleFesOpts =
      ["Setting up FES calculation for the histogram\nParameters:", "  kt = " ++ sh.float 1, "  stride = 100",
      "Saving FES every 500 time steps to 'fes_{step}'", ""] := by
    rw [hkt]
    rfl
  have e7 : deltaFLines exampleFesOpts exampleDfOpts =
      ["Setting up delta-f action", "Saving delta-f of every 100th time step to 'delta_f'", ""] := by
    have h1 : hasFilename exampleDfOpts = true := by simp [hasFilename, exampleDfOpts, Dict.get?, List.lookup]
    have h2 : natOption exampleDfOpts "stride" 0 = 100 := rfl
    have h3 : strOption exampleDfOpts "filename" = "delta_f" := rfl
    have h4 : natOption exampleFesOpts "stride" 0 = 100 := rfl
    unfold deltaFLines seriesLines
    rw [h1, h2, h3, h4]
    decide +kernel
  have e8 : runLines sh 10000 hr.counters exampleBdOpts = [] := rfl
  have e9 : finalLines sh 10000 hr.counters exampleBdOpts = statsLines sh exampleBdOpts 10000 (hr.counters 10000) := rfl
  have e10 : strOption exampleBdOpts "stats-filename" = "" := rfl
  unfold screen setupLines
  simp only [exampleInput, ifGiven, Option.getD_some, e1, e2, e3, e4, e5, e6, e7, e8, e9, statsLines, if_pos e10]
  rfl

/-- Without warnings: the rows of the free energy differences of the shipped example belong to their own steps. -/
example (sh : Shows) {w : World R} {a : AnySim R} (hconv : w.conv = realConv) (hops : w.bdOps.Lawful)
    (h : mainText w (some exampleLines) = .finished a) :
    "Warning: the DeltaF stride is no multiple of the FES stride." ∉ (mainP sh w (some exampleFile)).out ∧
    ∀ t, 0 < t → t ≤ 10000 → 100 ∣ t → fesStep exampleFesOpts t = t := by
  obtain ⟨s0, hr⟩ := example_finished hconv h
  have e1 : natOption exampleDfOpts "stride" 0 = 100 := rfl
  have e2 : natOption exampleFesOpts "stride" 0 = 100 := rfl
  have e3 : ∀ t, 100 ∣ t → fesStep exampleFesOpts t = t := by
    intro t ht
    rw [fesStep_eq, e2, if_neg (by decide)]
    exact Nat.div_mul_cancel ht
  refine ⟨?_, fun t _ _ h3 => e3 t h3⟩
  rw [deltaF_warning_iff sh hr hops exampleDfOpts exampleFesOpts rfl rfl (by rw [e1]; decide), e1]
  rintro ⟨t, -, -, h3, h4⟩
  exact h4 (e3 t h3)

/-! ### A run with a warning -/

noncomputable section

def demoFesWarn : Section := demoSection "fes" [("kt", "1"), ("stride", "2"), ("filename", "fes"), ("write-stride", "1")]

/-- An FES every second step that is written in every step. -/
def demoFileWarn : List Section := [demoLd, demoPot, demoPart, demoTrajLog, demoHistLog, demoFesWarn]

def demoFesWarnOpts : Dict (OptVal ℝ) :=
  [("kt", .base (.float 1)), ("stride", .base (.int 2)), ("filename", .base (.str "fes")), ("write-stride", .base (.int 1)),
   ("fmt", .none), ("plot-stride", .none), ("plot-filename", .none), ("plot-domain", .none), ("plot-title", .none)]

def demoInputWarn : Input ℝ := { demoInputLog with fes := some demoFesWarnOpts }

local macro "parse_demo" : tactic => `(tactic| simp [demoTrajLog, demoHistLog, demoFesWarn, demoSection, InputOption.parse, opt,
  optList, Dict.get?, List.lookup, InputOption.convert, parseSection, parseLoop, Dict.set, demoConv,
  positive, allPositive, allM, positiveOrZero, gtZero, cmpNum, ok_bind, pure_eq_ok, pyAnd,
  pySplit, splitComma, callType, orValueError, oneOf, trajectoriesOptions, histogramOptions, fesOptions])

theorem demo_parse_warn : parseAll 1 demoConv (some demoFileWarn) = .ok demoInputWarn := by
  have g1 : parseSection demoConv demoTrajLog trajectoriesOptions = .ok demoTrajLogOpts := by unfold demoTrajLogOpts; parse_demo
  have g2 : parseSection demoConv demoHistLog (histogramOptions true) = .ok demoHistLogOpts := by unfold demoHistLogOpts; parse_demo
  have g3 : parseSection demoConv demoFesWarn fesOptions = .ok demoFesWarnOpts := by unfold demoFesWarnOpts; parse_demo
  have f1 : findSection demoFileWarn "ld" = some demoLd := rfl
  have f2 : findSection demoFileWarn "potential" = some demoPot := rfl
  have f3 : findSection demoFileWarn "particles" = some demoPart := rfl
  have f4 : findSection demoFileWarn "birth-death" = none := rfl
  have f5 : findSection demoFileWarn "trajectories" = some demoTrajLog := rfl
  have f6 : findSection demoFileWarn "histogram" = some demoHistLog := rfl
  have f7 : findSection demoFileWarn "fes" = some demoFesWarn := rfl
  have f8 : findSection demoFileWarn "delta-f" = none := rfl
  have f9 : findSection demoFileWarn "particle-distribution" = none := rfl
  simp [parseAll, requireSection, parseOptional, f1, f2, f3, f4, f5, f6, f7, f8, f9, ok_bind, pure_eq_ok,
    demo_parseLd, demo_parsePot, demo_parsePart, demo_oneDim, g1, g2, g3, demoInputWarn, demoInputLog]

theorem demo_consistent_warn : ConsistentLine demoWorldLog.figFormats demoWorldLog.terminal demoInputWarn :=
  { demo_consistent_log with
    output := by
      rintro (⟨o, ho, h⟩ | ⟨o, ho, h⟩ | ⟨o, ho, h⟩ | ⟨o, ho, h⟩)
      · cases ho
        exact absurd h.1 (by simp [natOption, demoHistLogOpts, Dict.get?, List.lookup])
      · cases ho
        rcases h with ⟨_, h⟩ | ⟨h, _⟩
        · simp [natOption, hasFilename, demoFesWarnOpts, Dict.get?, List.lookup] at h
        · simp [intOption, demoFesWarnOpts, Dict.get?, List.lookup] at h
      · cases ho
      · cases ho
    plots := by
      intro o ho
      cases ho
      exact .inl rfl }

/-- The warning is printed, and the file of step 1 contains the FES of the beginning. -/
theorem demo_warning (sh : Shows) : (∃ a, mainProgram demoWorldLog (some demoFileWarn) = .finished a) ∧
    "Finished without errors" ∈ (mainP sh demoWorldLog (some demoFileWarn)).out ∧
    "Warning: the write stride is no multiple of the update stride." ∈ (mainP sh demoWorldLog (some demoFileWarn)).out ∧
    fesStep demoFesWarnOpts 1 = 0 := by
  obtain ⟨a, ha⟩ := line_progress demoWorldLog (some demoFileWarn) demoInputWarn demo_parse_warn demo_consistent_warn
    demoBdOps_lawful ⟨fun _ _ _ h => ⟨le_rfl, h⟩, fun _ _ h => h⟩ (withLinear_ok _) (by intro o ho; cases ho)
  refine ⟨⟨a, ha⟩, (finished_message_iff _ _ _).2 ⟨a, ha⟩, ?_⟩
  obtain ⟨config, n, s0, hr⟩ := main_run demoWorldLog _ a ha
  have hp := hr.parse
  rw [show demoWorldLog.conv = demoConv from rfl, demo_parse_warn] at hp
  cases hp
  have hn : n = 1 := by
    have := hr.steps
    simp [demoInputWarn, demoInputLog, demoLdOpts, Dict.get?, List.lookup] at this
    omega
  subst hn
  have hz : fesStep demoFesWarnOpts 1 = 0 := rfl
  refine ⟨(write_warning_iff sh hr demoBdOps_lawful demoFesWarnOpts rfl le_rfl).2 ⟨1, by decide, le_rfl, dvd_rfl, ?_⟩, hz⟩
  rw [hz]
  decide

end

end Bdld
