import Verif.Props.Defaults
import Verif.Props.OutputSettingsDemo
import Verif.Props.ExampleInput
import Verif.Props.MainProgress

/-
C128: the defaults that cannot be written, and examples.
-/

set_option linter.unusedSimpArgs false

namespace Bdld
open Spec

noncomputable section

section
variable {R : Type} (w : World R)

/-- The section `particle-distribution` is the last one that is set up. -/
theorem distribution_fails (inp : Input ℝ) (g : Dict (OptVal ℝ) → Dict (OptVal ℝ)) (o : Dict (OptVal ℝ)) (e : PyErr)
    (ho : inp.particleDistribution = some o) (he : setupDistribution w (g o) = .error e) {d : Nat} (c : SimCfg d) (s : Sim d R)
    (x : SimCfg d × Sim d R) (hx : setupOptional w inp c s = .ok x) :
    setupOptional w (onDistribution g inp) c s = .error e := by
  unfold setupOptional at hx ⊢
  obtain ⟨y1, h1, hx⟩ := bind_ok hx
  obtain ⟨y2, h2, hx⟩ := bind_ok hx
  obtain ⟨y3, h3, hx⟩ := bind_ok hx
  obtain ⟨y4, h4, hx⟩ := bind_ok hx
  obtain ⟨y5, h5, hx⟩ := bind_ok hx
  simp only [onDistribution]
  rw [h1, ok_bind]
  rw [h2, ok_bind]
  rw [h3, ok_bind]
  rw [h4, ok_bind]
  rw [h5, ok_bind]
  simp only [ho, Option.map_some, he]
  rfl

theorem deltaF_fails (inp : Input ℝ) (g : Dict (OptVal ℝ) → Dict (OptVal ℝ)) (o : Dict (OptVal ℝ)) (e : PyErr)
    (ho : inp.deltaF = some o)
    (he : ∀ kt dt h b, setupDeltaFAction w o kt dt h = .ok b → setupDeltaFAction w (g o) kt dt h = .error e) {d : Nat} (c : SimCfg d)
    (s : Sim d R) (x : SimCfg d × Sim d R) (hx : setupOptional w inp c s = .ok x) :
    setupOptional w (onDeltaF g inp) c s = .error e := by
  unfold setupOptional at hx ⊢
  obtain ⟨y1, h1, hx⟩ := bind_ok hx
  obtain ⟨y2, h2, hx⟩ := bind_ok hx
  obtain ⟨y3, h3, hx⟩ := bind_ok hx
  obtain ⟨y4, h4, hx⟩ := bind_ok hx
  obtain ⟨y5, h5, hx⟩ := bind_ok hx
  simp only [ho] at h5
  obtain ⟨f, h6, h5⟩ := bind_ok h5
  obtain ⟨hi, h7, h5⟩ := bind_ok h5
  obtain ⟨b, h8, h5⟩ := bind_ok h5
  simp only [onDeltaF]
  rw [h1, ok_bind]
  rw [h2, ok_bind]
  rw [h3, ok_bind]
  rw [h4, ok_bind]
  simp only [ho, Option.map_some, h6, h7, ok_bind, he _ _ _ _ h8]
  rfl

theorem optional_given {cfg : List Section} {name : String} {s : Section} {f : Section → Except PyErr (Dict (OptVal ℝ))}
    (hs : findSection cfg name = some s) (h : parseOptional cfg name f = .ok none) : False := by
  unfold parseOptional at h
  rw [hs] at h
  obtain ⟨d, -, h⟩ := bind_ok h
  cases h

/-- A stride for writing without a file. -/
theorem series_rejects (k : Nat) (hk : 0 < k) (t : Nat → ℝ) :
    SeriesCfg.new (some k) (some (100 * k)) false t = .error .valueError := by
  have e : ∀ m : Nat, m ≠ 0 → truthyNat (some m) = true := by
    intro m hm
    obtain ⟨j, rfl⟩ := Nat.exists_eq_succ_of_ne_zero hm
    rfl
  unfold SeriesCfg.new
  rw [e k (by omega), e (100 * k) (by omega)]
  rfl

/-- The parsed values of stride, filename and write-stride if only the first is given. -/
theorem series_missing (c : Conv ℝ) (s : Section) (o : Dict (OptVal ℝ)) (h : parseStates c s = .ok o) {t : String} {k : Int} (hk : 0 < k)
    (hs : s.entries.get? "stride" = some (.ok t)) (ht : c.toInt t = some k) (hf : s.entries.get? "filename" = none)
    (hw : s.entries.get? "write-stride" = none) :
    o.get? "stride" = some (.base (.int k)) ∧ o.get? "filename" = some .none ∧ o.get? "write-stride" = some .none := by
  unfold parseStates stateActionOptions at h
  obtain ⟨os, h1, h2⟩ := bind_ok h
  obtain ⟨states, h3, h4⟩ := bind_ok h1
  cases h4
  have hn := series_nodup s states h3
  refine ⟨?_, ?_, ?_⟩
  · refine parsed_get c h2 hn (opt "stride" .int false (some positive)) (by simp) _ ?_
    unfold InputOption.parse
    simp only [opt, hs]
    simp [InputOption.convert, ht, ok_bind, pure_eq_ok, positive, gtZero, cmpNum, hk]
  · exact parsed_get c h2 hn (opt "filename" .str false) (by simp) _ (option_default c _ s ((Dict.get?_none _ _).1 hf) rfl)
  · exact parsed_get c h2 hn (opt "write-stride" .int false (some positive)) (by simp) _
      (option_default c _ s ((Dict.get?_none _ _).1 hw) rfl)

/-- **C128**, where it is false: without filename, a run that ends normally ends with an uncaught exception if the
default of `write-stride` is written. -/
theorem default_written_fails (cfg : List Section) (a : AnySim R) (hfin : mainProgram w (some cfg) = .finished a) (name : String)
    (hname : name = "delta-f" ∨ name = "particle-distribution") (s : Section) (hs : findSection cfg name = some s) {t : String}
    {k : Int} (hk : 0 < k) (h1 : s.entries.get? "stride" = some (.ok t)) (h2 : w.conv.toInt t = some k)
    (h3 : s.entries.get? "filename" = none) (h4 : s.entries.get? "write-stride" = none) (value : String)
    (hv : w.conv.toInt value = some (100 * k)) :
    mainProgram w (some (withOption cfg name "write-stride" value)) = .uncaught .valueError := by
  have only : ∀ s', findSection cfg name = some s' → s' = s := fun s' e => by rw [hs] at e; cases e; rfl
  unfold mainProgram at hfin
  cases hp : parseAll 1 w.conv (some cfg) with
  | error e =>
    rw [hp] at hfin
    simp only [raise] at hfin
    split at hfin <;> cases hfin
  | ok inp =>
    rw [hp] at hfin
    simp only [mainFrom] at hfin
    cases hr : setupRequired w inp with
    | error e => rw [hr] at hfin; cases hfin
    | ok r =>
      rw [hr] at hfin
      simp only at hfin
      cases hx : setupOptional w inp r.cfg r.sim with
      | error e =>
        rw [hx] at hfin
        simp only [raise] at hfin
        split at hfin <;> cases hfin
      | ok x =>
        obtain ⟨_, _, _, _, e, -, -, -, -, -, -, -, -, -, -, hb, hb'⟩ := parseAll_inv (c := w.conv) 1 _ inp hp
        cases e
        rcases hname with rfl | rfl
        · unfold mainProgram
          rw [parseAll_deltaF w.conv cfg _ _ _
            (fun s' e => by rw [only s' e]; exact parse_series w.conv s value (100 * k) h4 (by omega) hv), hp]
          simp only [Except.map, mainFrom]
          rw [show setupRequired w (onDeltaF (Dict.swap "write-stride" .none (.base (.int (100 * k)))) inp) = setupRequired w inp from rfl, hr]
          simp only
          cases ho : inp.deltaF with
          | none =>
            rw [ho] at hb
            exact (optional_given hs hb).elim
          | some o =>
            rw [ho] at hb
            obtain ⟨s', hs', hb⟩ := optional_some hb
            rw [only s' hs'] at hb
            split at hb
            · cases hb
            · obtain ⟨a1, a2, a3⟩ := series_missing w.conv s o hb hk h1 h2 h3 h4
              rw [deltaF_fails w inp _ o .valueError ho ?_ _ _ x hx]
              · rfl
              · intro kt dt h b hok
                unfold setupDeltaFAction at hok ⊢
                obtain ⟨st, e1, hok⟩ := bind_ok hok
                obtain ⟨ms, e2, hok⟩ := bind_ok hok
                rw [states_swap, e1, ok_bind, e2, ok_bind, swap_ne _ _ _ o (show "stride" ≠ "write-stride" by decide),
                  swap_ne _ _ _ o (show "filename" ≠ "write-stride" by decide)]
                simp only [Dict.getItem, swap_get, a1, a2, a3, ok_bind, OptVal.asOptStride, OptVal.asOptStr, Option.map_some, swapVal_eq]
                rw [show (100 * k).toNat = 100 * k.toNat by omega, show truthyStr none = false from rfl, series_rejects _ (by omega)]
                rfl
        · unfold mainProgram
          rw [parseAll_distribution w.conv cfg _ _ _
            (fun s' e => by rw [only s' e]; exact parse_series w.conv s value (100 * k) h4 (by omega) hv), hp]
          simp only [Except.map, mainFrom]
          rw [show setupRequired w (onDistribution (Dict.swap "write-stride" .none (.base (.int (100 * k)))) inp) = setupRequired w inp from rfl, hr]
          simp only
          cases ho : inp.particleDistribution with
          | none =>
            rw [ho] at hb'
            exact (optional_given hs hb').elim
          | some o =>
            rw [ho] at hb'
            obtain ⟨s', hs', hb'⟩ := optional_some hb'
            rw [only s' hs'] at hb'
            obtain ⟨a1, a2, a3⟩ := series_missing w.conv s o hb' hk h1 h2 h3 h4
            have hst : ∃ st, stateRanges o = .ok st := by
              unfold setupOptional at hx
              obtain ⟨y1, -, hx⟩ := bind_ok hx
              obtain ⟨y2, -, hx⟩ := bind_ok hx
              obtain ⟨y3, -, hx⟩ := bind_ok hx
              obtain ⟨y4, -, hx⟩ := bind_ok hx
              obtain ⟨y5, -, hx⟩ := bind_ok hx
              simp only [ho] at hx
              obtain ⟨b, hb, hx⟩ := bind_ok hx
              unfold setupDistribution at hb
              obtain ⟨st, e1, -⟩ := bind_ok hb
              exact ⟨st, e1⟩
            obtain ⟨st, hst⟩ := hst
            rw [distribution_fails w inp _ o .valueError ho ?_ _ _ x hx]
            · rfl
            · unfold setupDistribution
              rw [states_swap, hst, ok_bind, swap_ne _ _ _ o (show "stride" ≠ "write-stride" by decide),
                swap_ne _ _ _ o (show "filename" ≠ "write-stride" by decide)]
              simp only [Dict.getItem, swap_get, a1, a2, a3, ok_bind, OptVal.asOptStride, OptVal.asOptStr, Option.map_some, swapVal_eq]
              rw [show (100 * k).toNat = 100 * k.toNat by omega, show truthyStr none = false from rfl, series_rejects _ (by omega)]
              rfl

end

/-- The name of the option in the documentation (`docs/birth-death.rst:17`) is ignored, whatever its value. -/
theorem misspelled_ignored {R : Type} (w : World R) (cfg : List Section) (value : String) :
    mainProgram w (some (withOption cfg "birth-death" "aproximation-variant" value)) = mainProgram w (some cfg) := by
  refine program_of_parse w cfg _ _ (parseAll_birthDeath w.conv cfg _ _ id fun s b _ => ?_) fun inp _ =>
    mainFrom_birthDeath w inp id fun _ _ _ _ => rfl
  rw [map_same (g := id) _ fun _ => rfl]
  refine section_congr w.conv _ _ _ rfl fun o ho => ?_
  rw [addOption_get, if_neg]
  cases b <;>
  · simp [birthDeathOptions] at ho
    rcases ho with rfl | rfl | rfl | rfl | rfl | rfl | rfl | rfl | rfl <;> simp [opt, optList]

/-! ### A run that is spoilt by writing a default -/

/-- Conversions of the examples, with one more integer. -/
def conv100 : Conv ℝ := ⟨demoConv.toFloat, fun s => if s = "100" then some 100 else demoConv.toInt s⟩

def world100 : World Bool := { demoWorld true with conv := conv100 }

/-- Particles are counted at every step, nothing is written. -/
def countSection : Section := demoSection "particle-distribution"
  [("stride", "1"), ("state1-min", "0"), ("state1-max", "1"), ("state2-min", "1"), ("state2-max", "2")]

def countOpts : Dict (OptVal ℝ) :=
  [("stride", .base (.int 1)), ("filename", .none), ("write-stride", .none), ("fmt", .none),
   ("state1-min", .list [.float 0]), ("state1-max", .list [.float 1]),
   ("state2-min", .list [.float 1]), ("state2-max", .list [.float 2])]

def countFile : List Section := [demoLd, demoPot, demoPart, countSection]

def countInput : Input ℝ :=
  { ld := demoLdOpts, potential := demoPotOpts, particles := demoPartOpts, particleDistribution := some countOpts }

local macro "parse_demo" : tactic => `(tactic| simp [demoLd, demoPot, demoPart, countSection,
  demoSection, parseLd, parsePotential, parseParticles, potentialOptions, polyOptions, InputOption.parse, opt,
  optList, Dict.get?, List.lookup, InputOption.convert, ldOptions, parseSection, parseLoop, Dict.set, demoConv, conv100,
  positive, allPositive, positiveOrZero, gtZero, cmpNum, ok_bind, pure_eq_ok, atMost3dim, atMost3dimInt, pyAnd,
  pySplit, splitComma, callType, orValueError, particlesOptions, initialDistributions, oneOf, numberedSection, demoStateOptions,
  numberedLoop, numKey, List.range, List.range.loop, repr1, repr2, repr3])

theorem count_parse : parseAll 1 conv100 (some countFile) = .ok countInput := by
  have f1 : findSection countFile "ld" = some demoLd := rfl
  have f2 : findSection countFile "potential" = some demoPot := rfl
  have f3 : findSection countFile "particles" = some demoPart := rfl
  have f4 : findSection countFile "birth-death" = none := rfl
  have f5 : findSection countFile "trajectories" = none := rfl
  have f6 : findSection countFile "histogram" = none := rfl
  have f7 : findSection countFile "fes" = none := rfl
  have f8 : findSection countFile "delta-f" = none := rfl
  have f9 : findSection countFile "particle-distribution" = some countSection := rfl
  have p1 : parseLd conv100 demoLd = .ok demoLdOpts := by unfold demoLdOpts; parse_demo
  have p2 : parsePotential conv100 demoPot = .ok demoPotOpts := by unfold demoPotOpts; parse_demo
  have p3 : parseParticles 1 conv100 demoPart = .ok demoPartOpts := by unfold demoPartOpts; parse_demo
  have p4 : stateActionOptions countSection = .ok demoStateOptions := rfl
  have p5 : parseSection conv100 countSection demoStateOptions = .ok countOpts := by unfold countOpts; parse_demo
  simp only [parseAll, requireSection, parseOptional, f1, f2, f3, f4, f5, f6, f7, f8, f9, ok_bind, pure_eq_ok, p1, p2, p3, p4, p5,
    countInput]

theorem count_states : stateRanges countOpts = .ok [[((0:ℝ), 1)], [(1, 2)]] := by
  simp [stateRanges, numberedDict, numberedLoop, numKey, countOpts, Dict.get?, List.lookup, repr1, repr2, repr3,
    ok_bind, pure_eq_ok, Item.ofOptVal, minMaxToRanges, checkAllDims, Item.toList, checkDims, Item.len]

theorem count_runs : ∃ a, mainProgram world100 (some countFile) = .finished a := by
  have hreq : setupRequired world100 countInput = _ := demo_required true countInput rfl rfl rfl
  have hd : ∃ b, setupDistribution world100 countOpts = .ok b := by
    simp only [setupDistribution, count_states, ok_bind]
    simp [countOpts, Dict.getItem, Dict.get?, List.lookup, ok_bind, pure_eq_ok, OptVal.asOptStride, OptVal.asOptStr,
      SeriesCfg.new, truthyNat, truthyStr, pyOrNat]
  obtain ⟨b, hb⟩ := hd
  obtain ⟨x, hx⟩ : ∃ x, setupOptional world100 countInput ({ kind := .overdamped, ld := demoLdCfg } : SimCfg 1)
      ({ particles := [demoWalker 1, demoWalker 2], ldRng := true } : Sim 1 Bool) = .ok x := by
    simp only [setupOptional, countInput, ok_bind, pure_eq_ok, hb]
    exact ⟨_, rfl⟩
  obtain ⟨s, hs⟩ := main_progress_partial world100 (some countFile) countInput _ x count_parse hreq hx demoBdOps_lawful
    (.inl rfl) (fun o ho => by cases ho) (fun _ => by simp) (fun o st ho hst => by
      cases ho
      rw [count_states] at hst
      cases hst
      simp) (fun o ho => by cases ho)
  exact ⟨_, hs⟩

/-- **C128** is false: this run ends normally, but not if the documented default of `write-stride`, one hundred times the
stride, is written. -/
theorem default_written_false : ∃ a, mainProgram world100 (some countFile) = .finished a ∧
    mainProgram world100 (some (withOption countFile "particle-distribution" "write-stride" "100")) = .uncaught .valueError := by
  obtain ⟨a, ha⟩ := count_runs
  refine ⟨a, ha, default_written_fails world100 countFile a ha _ (.inr rfl) countSection rfl (t := "1") (k := 1) one_pos ?_ ?_ ?_ ?_ _ ?_⟩
  · rfl
  · simp [world100, conv100, demoConv]
  · rfl
  · rfl
  · simp [world100, conv100]

/-! ### The file `example_input` -/

/-- `example_input` with defaults written in six sections. -/
def exampleWritten : List Section :=
  withOption (withOption (withOption (withOption (withOption (withOption exampleFile "particles" "mass" "1.0")
    "birth-death" "exponential-factor" "1") "trajectories" "write-stride" "100") "trajectories" "momentum" "no")
    "histogram" "stride" "1") "delta-f" "write-stride" "10000"

theorem find_of {cfg : List Section} {name : String} {s : Section} (h : findSection cfg name = some s) {P : Section → Prop} (hp : P s) :
    ∀ s', findSection cfg name = some s' → P s' := by
  intro s' e
  rw [h] at e
  cases e
  exact hp

/-- The program does the same for both files. -/
example {R : Type} (w : World R) (hw : w.conv = realConv) :
    mainProgram w (some exampleWritten) = mainProgram w (some exampleFile) := by
  have i1 : realConv.toInt "1" = some 1 := by decide +kernel
  have i100 : realConv.toInt "100" = some 100 := by decide +kernel
  have i4 : realConv.toInt "10000" = some (100 * 100) := by decide +kernel
  have f1 : realConv.toFloat "1.0" = some 1 := float_text 1 (by decide +kernel) (by norm_num)
  unfold exampleWritten
  rw [default_written_partial w _ "delta-f" "write-stride" "10000",
    default_written_partial w _ "histogram" "stride" "1", default_written_partial w _ "trajectories" "momentum" "no",
    default_written_partial w _ "trajectories" "write-stride" "100",
    default_written_partial w _ "birth-death" "exponential-factor" "1", default_written_partial w _ "particles" "mass" "1.0"]
  · exact find_of (s := examplePart) rfl ⟨rfl, .mass (by rw [hw]; exact f1)⟩
  · exact find_of (s := exampleBd) rfl ⟨rfl, .factor (by rw [hw]; exact tf1)⟩
  · exact find_of (s := exampleTraj) rfl ⟨rfl, .trajWrite (by rw [hw]; exact i100)⟩
  · exact find_of (s := addOption exampleTraj "write-stride" "100") rfl ⟨rfl, .momentum (by decide +kernel)⟩
  · exact find_of (s := exampleHist) rfl ⟨rfl, .histStride (by rw [hw]; exact i1)⟩
  · exact find_of (s := exampleDf) rfl ⟨rfl, .seriesWrite (t := "100") (f := "delta_f") (k := 100) (.inl rfl) (by norm_num) rfl
      (by rw [hw]; exact i100) rfl (by decide) (by rw [hw]; exact i4)⟩

end

end Bdld
