import Verif.Props.MainBirthDeath
import Verif.Props.Dependencies

/-
C120: number of kernel bandwidths.
-/

set_option linter.unusedSectionVars false

namespace Bdld
open Spec

variable {R : Type}

/-- The number of kernel bandwidths is the number of dimensions. -/
def Spec.OnePerDim (d : Nat) (o : Dict (OptVal ℝ)) : Prop :=
  (d = 1 ∧ ∃ x, FloatOpt o "kernel-bandwidth" x) ∨ (d ≠ 1 ∧ ∃ xs, FloatsOpt o "kernel-bandwidth" xs ∧ xs.length = d)

theorem bandwidth_list (d : Nat) (o : Dict (OptVal ℝ)) (xs : List ℝ) (hd : d ≠ 1) (hx : FloatsOpt o "kernel-bandwidth" xs) :
    bdBandwidth d o = if xs.length = d then .ok xs else .error (.optionError "kernel-bandwidth" "birth-death") := by
  have hx' : o.getItem "kernel-bandwidth" = .ok (.list (xs.map .float)) := by rw [Dict.getItem, show o.get? "kernel-bandwidth" = _ from hx]
  simp only [bdBandwidth, hx', if_neg hd, asFloats_map, ok_bind]
  by_cases h : xs.length = d
  · simp only [h, ne_eq, not_true_eq_false, if_false, if_true]
    rfl
  · simp only [h, ne_eq, not_false_eq_true, if_true, if_false]
    rfl

theorem bandwidth_error_main (w : World R) (file : Option (List Section)) (config : Input ℝ) (r : AnySim R)
    (o : Dict (OptVal ℝ)) (e : PyErr) (hp : parseAll 1 w.conv file = .ok config) (hr : setupRequired w config = .ok r)
    (hb : config.birthDeath = some o) (hbw : bdBandwidth r.d o = .error e) : mainProgram w file = raise caughtSetup e := by
  have hs : setupOptional w config r.cfg r.sim = .error e := by
    simp only [setupOptional, hb, setupBirthDeath, hbw, error_bind]
  simp only [mainProgram, hp, mainFrom, hr, hs]

/-- **C120.** In more than one dimension, a list of the wrong length ends the program with exit code 1. -/
theorem bandwidth_length (w : World R) (file : Option (List Section)) (config : Input ℝ) (r : AnySim R) (o : Dict (OptVal ℝ))
    (hp : parseAll 1 w.conv file = .ok config) (hr : setupRequired w config = .ok r) (hb : config.birthDeath = some o)
    (hd : r.d ≠ 1) (xs : List ℝ) (hx : FloatsOpt o "kernel-bandwidth" xs) (hl : xs.length ≠ r.d) : mainProgram w file = .exit1 := by
  rw [bandwidth_error_main w file config r o _ hp hr hb (by rw [bandwidth_list r.d o xs hd hx, if_neg hl])]
  rfl

/-- **C120.** For a single number in more than one dimension, an exception is raised that is not caught. -/
theorem bandwidth_scalar (w : World R) (file : Option (List Section)) (config : Input ℝ) (r : AnySim R) (o : Dict (OptVal ℝ))
    (hp : parseAll 1 w.conv file = .ok config) (hr : setupRequired w config = .ok r) (hb : config.birthDeath = some o)
    (hd : r.d ≠ 1) (x : ℝ) (hx : FloatOpt o "kernel-bandwidth" x) : mainProgram w file = .uncaught .typeError := by
  have hx' : o.getItem "kernel-bandwidth" = .ok (.base (.float x)) := by rw [Dict.getItem, show o.get? "kernel-bandwidth" = _ from hx]
  rw [bandwidth_error_main w file config r o .typeError hp hr hb (by
    simp only [bdBandwidth, hx', if_neg hd, OptVal.asFloats, ok_bind, error_bind])]
  rfl

theorem required_dim (w : World R) (config : Input ℝ) (r : AnySim R) (hv : ValidPotential config.potential)
    (hr : setupRequired w config = .ok r) : ∃ p, PotentialFacts w config.potential p ∧ p.d = r.d := by
  obtain ⟨p, h1, h⟩ := bind_ok hr
  obtain ⟨l, _, h⟩ := bind_ok h
  obtain ⟨s, _, h⟩ := bind_ok h
  cases h
  exact ⟨p, setupPotential_facts w _ hv p h1, rfl⟩

/-- **C120.** For polynomial potentials: either there is one bandwidth per dimension, or the program ends with exit code 1. Missing:
the Müller-Brown potential with the option `n_dim: 1`, see `bandwidth_false`. -/
theorem bandwidth_partial (w : World R) (file : Option (List Section)) (config : Input ℝ) (r : AnySim R) (o : Dict (OptVal ℝ))
    (hp : parseAll 1 w.conv file = .ok config) (hr : setupRequired w config = .ok r) (hb : config.birthDeath = some o)
    (ht : StrOpt config.potential "type" "polynomial") : OnePerDim r.d o ∨ mainProgram w file = .exit1 := by
  have hv := input_valid 1 one_pos file config hp
  obtain ⟨p, hf, hd⟩ := required_dim w config r hv.potential hr
  have hbd := hv.birthDeath
  rw [hb] at hbd
  have hbw := (hbd o rfl).bandwidth
  by_cases h1 : isOneDim config.potential = true
  · rw [h1] at hbw
    obtain ⟨x, hx, _⟩ := hbw
    have : IntOpt config.potential "n_dim" 1 := by
      unfold isOneDim at h1
      split at h1
      · assumption
      · cases h1
    exact .inl (.inl ⟨hd ▸ (hf.oneDim ht this).1, x, hx⟩)
  · rw [Bool.not_eq_true] at h1
    rw [h1] at hbw
    obtain ⟨xs, hx, _, _⟩ := hbw
    have hd1 : r.d ≠ 1 := by
      obtain ⟨n, hn, hn1⟩ : ∃ n : Int, IntOpt config.potential "n_dim" n ∧ n ≠ 1 := by
        obtain ⟨n, hn, -⟩ := (hv.potential.nDim)
        refine ⟨n, hn, ?_⟩
        rintro rfl
        rw [isOneDim, hn] at h1
        cases h1
      have := (hf.moreDim n ht hn hn1).1
      have := hf.dim
      omega
    by_cases hl : xs.length = r.d
    · exact .inl (.inr ⟨hd1, xs, hx, hl⟩)
    · exact .inr (bandwidth_length w file config r o hp hr hb hd1 xs hx hl)

/-- **C120.** The birth-death step of every finished run has one bandwidth per dimension. -/
theorem bandwidth_finished (w : World R) (file : Option (List Section)) (config : Input ℝ) (a : AnySim R) (o : Dict (OptVal ℝ))
    (hp : parseAll 1 w.conv file = .ok config) (hb : config.birthDeath = some o) (h : mainProgram w file = .finished a) :
    OnePerDim a.d o := by
  obtain ⟨config', r, z, n, s, hp', hr, hz, _, _, rfl⟩ := main_inv w file a h
  obtain rfl := Except.ok.inj (hp.symm.trans hp')
  by_cases hd : r.d = 1
  · simp only [setupOptional, hb] at hz
    obtain ⟨y, hy, _⟩ := bind_ok hz
    obtain ⟨q, hq, _⟩ := bind_ok hy
    obtain ⟨bw, hbw, _⟩ := bind_ok hq
    rw [bdBandwidth, if_pos hd] at hbw
    obtain ⟨l, hl, _⟩ := bind_ok hbw
    obtain ⟨v, g, hl⟩ := bind_ok hl
    obtain ⟨x, f, _⟩ := bind_ok hl
    exact .inl ⟨hd, x, floatOpt g f⟩
  · have hv := (input_valid 1 one_pos file config hp).birthDeath
    rw [hb] at hv
    have hbw := (hv o rfl).bandwidth
    cases h1 : isOneDim config.potential with
    | true =>
      rw [h1] at hbw
      obtain ⟨x, hx, _⟩ := hbw
      rw [bandwidth_scalar w file config r o hp hr hb hd x hx] at h
      cases h
    | false =>
      rw [h1] at hbw
      obtain ⟨xs, hx, _, _⟩ := hbw
      refine .inr ⟨hd, xs, hx, ?_⟩
      by_contra hl
      rw [bandwidth_length w file config r o hp hr hb hd xs hx hl] at h
      cases h

/-! ### Example -/

noncomputable section

/-- The Müller-Brown potential with a number of dimensions, which is not a documented option of this potential. -/
def demoMb (n : String) : Section := demoSection "potential" [("type", "mueller-brown"), ("n_dim", n)]

def demoMbOpts (n : Int) : Dict (OptVal ℝ) :=
  [("type", .base (.str "mueller-brown")), ("scaling-factor", .none), ("n_dim", .base (.int n)), ("boundary-condition", .none)]

def demoMbPart : Section := demoSection "particles"
  [("number", "2"), ("initial-distribution", "fractions-pos"), ("pos1", "1,2"), ("pos2", "2,1"), ("fractions", "1,1"), ("seed", "1")]

def demoMbPartOpts : Dict (OptVal ℝ) :=
  [("number", .base (.int 2)), ("mass", .base (.float 1)), ("seed", .base (.int 1)),
   ("initial-distribution", .base (.str "fractions-pos")), ("pos1", .list [.float 1, .float 2]),
   ("pos2", .list [.float 2, .float 1]), ("fractions", .list [.float 1, .float 1])]

def demoMbBd : Section := demoSection "birth-death" [("stride", "1"), ("kernel-bandwidth", "1"), ("seed", "1")]

def demoMbBdOpts : Dict (OptVal ℝ) :=
  [("stride", .base (.int 1)), ("correction-variant", .none), ("approximation-variant", .none),
   ("exponential-factor", .none), ("recalculate-probabilities", .base (.bool false)), ("stats-stride", .none),
   ("stats-filename", .none), ("seed", .base (.int 1)), ("kernel-bandwidth", .list [.float 1])]

def demoMbFile (n : String) : List Section := [demoLd, demoMb n, demoMbPart, demoMbBd]

local macro "parse_mb" : tactic => `(tactic| simp [demoMb, demoMbPart, demoMbBd,
  demoSection, parsePotential, parseParticles, potentialOptions, InputOption.parse, opt,
  optList, Dict.get?, List.lookup, InputOption.convert, parseSection, parseLoop, Dict.set, demoConv,
  positive, allPositive, allM, positiveOrZero, gtZero, cmpNum, ok_bind, pure_eq_ok,
  pySplit, splitComma, callType, orValueError, particlesOptions, initialDistributions, oneOf, numberedSection,
  numberedLoop, numKey, List.range, List.range.loop, birthDeathOptions, repr1, repr2, repr3])

theorem demoMb_parsePart : parseParticles 1 demoConv demoMbPart = .ok demoMbPartOpts := by unfold demoMbPartOpts; parse_mb

theorem demoMb_parsePot1 : parsePotential demoConv (demoMb "1") = .ok (demoMbOpts 1) := by unfold demoMbOpts; parse_mb

theorem demoMb_parsePot2 : parsePotential demoConv (demoMb "2") = .ok (demoMbOpts 2) := by unfold demoMbOpts; parse_mb

theorem demoMb_parseBd1 : parseSection demoConv demoMbBd (birthDeathOptions true) = .ok (demoBdOpts 1) := by unfold demoBdOpts; parse_mb

theorem demoMb_parseBd2 : parseSection demoConv demoMbBd (birthDeathOptions false) = .ok demoMbBdOpts := by unfold demoMbBdOpts; parse_mb

theorem demoMb_parse (n : String) (k : Int) (o : Dict (OptVal ℝ)) (hn : parsePotential demoConv (demoMb n) = .ok (demoMbOpts k))
    (ho : parseSection demoConv demoMbBd (birthDeathOptions (isOneDim (demoMbOpts k))) = .ok o) :
    parseAll 1 demoConv (some (demoMbFile n)) =
      .ok { ld := demoLdOpts, potential := demoMbOpts k, particles := demoMbPartOpts, birthDeath := some o } := by
  have f1 : findSection (demoMbFile n) "ld" = some demoLd := rfl
  have f2 : findSection (demoMbFile n) "potential" = some (demoMb n) := rfl
  have f3 : findSection (demoMbFile n) "particles" = some demoMbPart := rfl
  have f4 : findSection (demoMbFile n) "birth-death" = some demoMbBd := rfl
  have f5 : findSection (demoMbFile n) "trajectories" = none := rfl
  have f6 : findSection (demoMbFile n) "histogram" = none := rfl
  have f7 : findSection (demoMbFile n) "fes" = none := rfl
  have f8 : findSection (demoMbFile n) "delta-f" = none := rfl
  have f9 : findSection (demoMbFile n) "particle-distribution" = none := rfl
  simp only [parseAll, requireSection, parseOptional, f1, f2, f3, f4, f5, f6, f7, f8, f9, ok_bind, pure_eq_ok,
    demo_parseLd, hn, demoMb_parsePart, ho]

theorem demoMb_required (i : Input ℝ) (k : Int) (h1 : i.ld = demoLdOpts) (h2 : i.potential = demoMbOpts k)
    (h3 : i.particles = demoMbPartOpts) : ∃ r, setupRequired (demoWorld true) i = .ok r ∧ r.d = 2 := by
  have e1 : setupPotential (demoWorld true) (demoMbOpts k) = .ok ⟨2, (MB.potential (MB.create MB.prefactors none)).withBcOption none⟩ := by
    simp [setupPotential, demoMbOpts, Dict.getItem, Dict.get?, List.lookup, ok_bind, pure_eq_ok, OptVal.asOptFloat, OptVal.asOptStr]
  have e2 : ∃ l, setupLd (demoWorld true) demoLdOpts ((MB.potential (MB.create MB.prefactors none)).withBcOption none) = .ok l := by
    simp [setupLd, demoLdOpts, Dict.getItem, Dict.get?, List.lookup, ok_bind, pure_eq_ok, OptVal.asFloat,
      OptVal.asOptInt, World.defaultRng, demoWorld]
  obtain ⟨l, e2⟩ := e2
  have h : fractionCounts pyTrunc [(1:ℝ), 1] 2 = .ok [1, 1] := by
    have : pyTrunc (1:ℝ) = 1 := by simp [pyTrunc]
    norm_num [fractionCounts, this]
    simp
  have e3 : ∃ s, initParticles pyTrunc (demoWorld true).init ((demoWorld true).defaultRng .particles) l.cfg demoMbPartOpts l.state = .ok s := by
    simp [initParticles, demoMbPartOpts, Dict.getItem, Dict.get?, List.lookup, ok_bind, pure_eq_ok, OptVal.asFloat,
      OptVal.asInt, OptVal.asFloats, numberedDict, numberedLoop, numKey, repr1, repr2, repr3,
      initFractions, h, addAllCopies, addCopies, LdState.addParticle]
  obtain ⟨s, e3⟩ := e3
  exact ⟨⟨2, _, _⟩, by simp only [setupRequired, h1, h2, h3, e1, e2, e3, ok_bind, pure_eq_ok]; rfl, rfl⟩

/-- C120 is false for the Müller-Brown potential: with `n_dim: 1` the exception is not caught. -/
theorem bandwidth_false : ¬ ∀ (w : World Bool) (file : Option (List Section)) (config : Input ℝ) (r : AnySim Bool)
    (o : Dict (OptVal ℝ)), parseAll 1 w.conv file = .ok config → setupRequired w config = .ok r → config.birthDeath = some o →
      OnePerDim r.d o ∨ mainProgram w file = .exit1 := by
  intro h
  have hp := demoMb_parse "1" 1 _ demoMb_parsePot1 demoMb_parseBd1
  obtain ⟨r, hr, hd⟩ := demoMb_required { ld := demoLdOpts, potential := demoMbOpts 1, particles := demoMbPartOpts, birthDeath := some (demoBdOpts 1) } 1 rfl rfl rfl
  have hs := bandwidth_scalar (demoWorld true) _ _ r _ hp hr rfl (by rw [hd]; decide) 1 rfl
  rcases h (demoWorld true) _ _ r _ hp hr rfl with h | h
  · rcases h with ⟨h, _⟩ | ⟨_, xs, h, _⟩
    · rw [hd] at h
      cases h
    · cases h
  · rw [hs] at h
    cases h

/-- Non-vacuity: one bandwidth for two dimensions ends with exit code 1. -/
example : mainProgram (demoWorld true) (some (demoMbFile "2")) = .exit1 := by
  have hp := demoMb_parse "2" 2 _ demoMb_parsePot2 demoMb_parseBd2
  obtain ⟨r, hr, hd⟩ := demoMb_required { ld := demoLdOpts, potential := demoMbOpts 2, particles := demoMbPartOpts, birthDeath := some (demoMbBdOpts) } 2 rfl rfl rfl
  exact bandwidth_length (demoWorld true) _ _ r _ hp hr rfl (by rw [hd]; decide) [1] rfl (by rw [hd]; decide)

end

end Bdld
