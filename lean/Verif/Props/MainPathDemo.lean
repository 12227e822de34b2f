import Verif.Props.MainPath
import Verif.Props.MainProgress
import Verif.Props.MainOutput

/-
A concrete run with forces, noise and a reflective boundary, as an example for C89, C90, C91.

Harmonic potential x² on [0, 2], overdamped dynamics with time step 2, two walkers with random initial positions,
two steps. The generator returns its state and counts up.
-/

set_option linter.unusedSimpArgs false

namespace Bdld

open Spec

noncomputable section

/-- Numbers for birth-death; not used in the example. -/
def countBdOps : RngOps Nat ℝ where
  random := fun n r => (List.replicate n 0, r)
  shuffle := fun l r => (l, r)
  integers := fun _ r => (0, r)

theorem countBdOps_lawful : countBdOps.Lawful where
  random_length := fun n r => by simp [countBdOps]
  shuffle_perm := fun l r => List.Perm.refl l
  integers_lt := fun n r h => h

/-- A world whose generators count: the state is the seed at first, every call returns the state and adds 1. A
uniform number is the lower end of the interval in the first call after seed 0, later the upper end. -/
def countWorld : World Nat where
  conv := demoConv
  normal := fun _ r => (fun _ => (r : ℝ), r + 1)
  init := ⟨fun lo hi r => (if r = 0 then lo else hi, r + 1), fun n r => (r % n, r + 1)⟩
  bdOps := countBdOps
  fromSeed := fun s => s
  entropy := fun _ => 7
  coeffFile := fun name => if name = "c" then some [[1, 0, 2], [0, 1, 3]] else none
  interp := fun _ _ _ => []
  interpAt := fun _ _ _ => 0
  emptyTimes := fun _ => 7
  emptyPositions := fun _ => []
  emptyMomentum := fun _ => []
  emptyDeltaF := fun _ => []
  emptyCounts := fun _ => []

def pathLd : Section := demoSection "ld"
  [("type", "overdamped"), ("timestep", "2"), ("n_steps", "2"), ("seed", "1")]

def pathPot : Section := demoSection "potential"
  [("type", "polynomial"), ("n_dim", "1"), ("coeffs", "0,0,1"), ("min", "0"), ("max", "2"),
   ("boundary-condition", "reflective")]

def pathPart : Section := demoSection "particles"
  [("number", "2"), ("initial-distribution", "random-global"), ("seed", "0")]

def pathFile : List Section := [pathLd, pathPot, pathPart]

def pathLdOpts : Dict (OptVal ℝ) :=
  [("type", .base (.str "overdamped")), ("timestep", .base (.float 2)), ("n_steps", .base (.int 2)),
   ("seed", .base (.int 1))]

def pathPotOpts : Dict (OptVal ℝ) :=
  [("type", .base (.str "polynomial")), ("n_dim", .base (.int 1)),
   ("coeffs", .list [.float 0, .float 0, .float 1]),
   ("min", .base (.float 0)), ("max", .base (.float 2)), ("boundary-condition", .base (.str "reflective"))]

def pathPartOpts : Dict (OptVal ℝ) :=
  [("number", .base (.int 2)), ("mass", .base (.float 1)), ("seed", .base (.int 0)),
   ("initial-distribution", .base (.str "random-global"))]

def pathInput : Input ℝ := { ld := pathLdOpts, potential := pathPotOpts, particles := pathPartOpts }

local macro "parse_path" : tactic => `(tactic| simp [pathLd, pathPot, pathPart,
  demoSection, parseLd, parsePotential, parseParticles, potentialOptions, polyOptions, InputOption.parse, opt,
  optList, Dict.get?, List.lookup, InputOption.convert, ldOptions, parseSection, parseLoop, Dict.set, demoConv,
  positive, allPositive, positiveOrZero, gtZero, cmpNum, ok_bind, pure_eq_ok, atMost3dim, atMost3dimInt, pyAnd,
  pySplit, splitComma, callType, orValueError, particlesOptions, initialDistributions, oneOf, numberedSection,
  numberedLoop, numKey, List.range, List.range.loop, repr1, repr2, repr3])

theorem path_parseLd : parseLd demoConv pathLd = .ok pathLdOpts := by unfold pathLdOpts; parse_path

theorem path_parsePot : parsePotential demoConv pathPot = .ok pathPotOpts := by unfold pathPotOpts; parse_path

theorem path_parsePart : parseParticles 1 demoConv pathPart = .ok pathPartOpts := by
  unfold pathPartOpts; parse_path

theorem path_parse : parseAll 1 demoConv (some pathFile) = .ok pathInput := by
  have f1 : findSection pathFile "ld" = some pathLd := rfl
  have f2 : findSection pathFile "potential" = some pathPot := rfl
  have f3 : findSection pathFile "particles" = some pathPart := rfl
  have f4 : findSection pathFile "birth-death" = none := rfl
  have f5 : findSection pathFile "trajectories" = none := rfl
  have f6 : findSection pathFile "histogram" = none := rfl
  have f7 : findSection pathFile "fes" = none := rfl
  have f8 : findSection pathFile "delta-f" = none := rfl
  have f9 : findSection pathFile "particle-distribution" = none := rfl
  simp only [parseAll, requireSection, parseOptional, f1, f2, f3, f4, f5, f6, f7, f8, f9, ok_bind, pure_eq_ok,
    path_parseLd, path_parsePot, path_parsePart, pathInput]

def pathPotential : Potential ℝ 1 :=
  { energy := polyEnergy (coeffs1d [0, 0, 1])
    force := polyForce (coeffs1d [0, 0, 1])
    evaluate := baseEvaluate (polyEnergy (coeffs1d [0, 0, 1])) (polyForce (coeffs1d [0, 0, 1]))
    ranges := [(0, 2)]
    bc := some .reflective }

theorem path_setupPot : setupPotential countWorld pathPotOpts = .ok ⟨1, pathPotential⟩ := by
  simp [setupPotential, setupPolynomial, pathPotOpts, Dict.getItem, Dict.get?, List.lookup, ok_bind, pure_eq_ok,
    singleRange, OptVal.asFloat, OptVal.asFloats, newPolynomial, OptVal.asOptStr, Potential.withBcOption,
    bcOfOption, pathPotential]

theorem path_setupLd : setupLd countWorld pathLdOpts pathPotential =
    .ok ⟨.overdamped, overdampedCfg pathPotential 2, ⟨[], 1⟩⟩ := by
  simp [setupLd, pathLdOpts, Dict.getItem, Dict.get?, List.lookup, ok_bind, pure_eq_ok, OptVal.asFloat,
    OptVal.asOptInt, World.defaultRng, countWorld]

def pathWalker (x : ℝ) : LdParticle ℝ 1 := newParticle (overdampedCfg pathPotential 2) (coords 1 [x]) 1

theorem path_init : initParticles pyTrunc countWorld.init (countWorld.defaultRng .particles)
    (overdampedCfg pathPotential 2) pathPartOpts (⟨[], 1⟩ : LdState ℝ 1 Nat) =
    .ok ⟨[pathWalker 0, pathWalker 2], 1⟩ := by
  have h1 : ∀ (s : LdState ℝ 1 Nat) (x : ℝ), s.addParticle (overdampedCfg pathPotential 2) [x] 1 (-1) false =
      .ok ⟨s.particles ++ [pathWalker x], s.rng⟩ := by
    intro s x
    have := add_particle_append (overdampedCfg pathPotential 2) s (coords 1 [x]) 1
    simpa [pathWalker, coords] using this
  have h2 : (overdampedCfg pathPotential 2).pot.ranges = [(0, 2)] := rfl
  simp [initParticles, pathPartOpts, Dict.getItem, Dict.get?, List.lookup, ok_bind, pure_eq_ok, OptVal.asFloat,
    OptVal.asInt, OptVal.asOptInt, World.defaultRng, countWorld, initGlobal, uniformPos, h1, h2]

/-- Force of the example. -/
theorem path_force (x : Fin 1 → ℝ) (k : Fin 1) : pathPotential.force x k = -2 * x 0 := by
  obtain rfl : k = 0 := Subsingleton.elim _ _
  have h : Function.update (fun _ : Fin 1 => 3) (0 : Fin 1) 2 = fun _ => 2 := by
    funext i; rw [Subsingleton.elim i 0]; rfl
  simp [pathPotential, polyForce, coeffs1d, polyder, polyvalNd, horner, h]
  left
  norm_num

theorem path_run : ∃ s s0, FinishedRun countWorld (some pathFile)
      ⟨1, { kind := .overdamped, ld := overdampedCfg pathPotential 2 }, s⟩ pathInput 2 s0 ∧
    s0.particles = [pathWalker 0, pathWalker 2] := by
  have hreq : setupRequired countWorld pathInput = .ok ⟨1, { kind := .overdamped, ld := overdampedCfg pathPotential 2 },
      { particles := [pathWalker 0, pathWalker 2], ldRng := 1 }⟩ := by
    simp only [setupRequired, pathInput, path_setupPot, path_setupLd, path_init, ok_bind, pure_eq_ok]
  have hopt : setupOptional countWorld pathInput { kind := .overdamped, ld := overdampedCfg pathPotential 2 }
      { particles := [pathWalker 0, pathWalker 2], ldRng := 1 } =
      .ok ({ kind := .overdamped, ld := overdampedCfg pathPotential 2 },
        { particles := [pathWalker 0, pathWalker 2], ldRng := 1 }) := rfl
  obtain ⟨s, hs⟩ := main_progress_partial countWorld (some pathFile) pathInput _ _ path_parse hreq hopt
    countBdOps_lawful (Or.inr (le_refl 1)) (by intro o ho; cases ho) (fun _ => Nat.succ_pos _)
    (by intro o states ho; cases ho) (by intro o ho; cases ho)
  obtain ⟨config, n, s0, hr⟩ := main_run _ _ _ hs
  have hp' := hr.parse
  rw [show parseAll 1 countWorld.conv (some pathFile) = .ok pathInput from path_parse] at hp'
  cases hp'
  have hn : n = 2 := by
    have h1 : pathLdOpts.get? "n_steps" = some (.base (.int 2)) := rfl
    have h3 : (some (.base (.int 2)) : Option (OptVal ℝ)) = some (.base (.int n)) := h1.symm.trans hr.steps
    simp only [Option.some.injEq, OptVal.base.injEq, BaseVal.int.injEq] at h3
    omega
  subst hn
  have h1 := hr.required
  rw [hreq] at h1
  simp only [Except.ok.injEq, AnySim.mk.injEq, heq_eq_eq, true_and, Sim.mk.injEq] at h1
  exact ⟨s, s0, hr, h1.1.symm⟩

/-- C91 for the example. After step 1 the walkers are at 0 + 2·1 = 2 and, reflected, at 0 instead of
2 - 8 + 2·2; after step 2 they are at 2 - 8 + 2·3 = 0 and, reflected, at 2 instead of 0 + 2·4. -/
example : ∃ a, mainProgram countWorld (some pathFile) = .finished a ∧
    a.sim.particles.map (fun p => List.ofFn p.pos) = [[0], [2]] := by
  obtain ⟨s, s0, hr, h0⟩ := path_run
  refine ⟨_, hr.finished, ?_⟩
  obtain ⟨h1, h2⟩ := main_walkers hr countBdOps_lawful
  rw [h0] at h2
  have hm : FloatOpt pathInput.particles "mass" 1 := rfl
  obtain ⟨q0, k1, k2⟩ := main_path hr countBdOps_lawful rfl 1 hm 0 (pathWalker 0) (by rw [h0]; rfl) 2 (le_refl 2)
  obtain ⟨q1, k3, k4⟩ := main_path hr countBdOps_lawful rfl 1 hm 1 (pathWalker 2) (by rw [h0]; rfl) 2 (le_refl 2)
  rw [← h1] at k1 k3
  have hl : s.particles = [q0, q1] := by
    apply List.ext_getElem?
    intro i
    match i with
    | 0 => exact k1
    | 1 => exact k3
    | i + 2 => rw [List.getElem?_eq_none (by simp only at h2; simp [h2])]; rfl
  have hb : ∀ x : Phase 1, boundary (bcOf pathInput.potential) pathPotential.ranges x =
      (fun k => (boundary1 (some .reflective) (0, 2) (x.1 k) (x.2 k)).1,
       fun k => (boundary1 (some .reflective) (0, 2) (x.1 k) (x.2 k)).2) := by
    intro x
    unfold boundary
    have : bcOf pathInput.potential = some .reflective := rfl
    rw [this]
    refine Prod.ext (funext fun k => ?_) (funext fun k => ?_) <;> rw [Subsingleton.elim k 0] <;> rfl
  have hs : ∀ (mass : ℝ) (noise : Nat → Fin 1 → ℝ) (x : Phase 1),
      langevinStep pathInput.ld pathPotential.force (boundary (bcOf pathInput.potential) pathPotential.ranges) mass
        noise x = (fun k => (boundary1 (some .reflective) (0, 2) (x.1 k + -2 * x.1 0 * 2 + 2 * noise 0 k) (x.2 k)).1,
       fun k => (boundary1 (some .reflective) (0, 2) (x.1 k + -2 * x.1 0 * 2 + 2 * noise 0 k) (x.2 k)).2) := by
    intro mass noise x
    have h1 : ¬ pathInput.ld.get? "type" = some (.base (.str "bussi-parinello")) := by
      rw [show pathInput.ld.get? "type" = some (.base (.str "overdamped")) from rfl]; simp
    have h2 : floatOf pathInput.ld "timestep" = 2 := rfl
    have h3 : Real.sqrt (2 * 2) = 2 := by
      rw [Real.sqrt_mul_self]; norm_num
    simp only [langevinStep, if_neg h1, h2, eulerStep, h3, hb, path_force]
  have hn : ∀ i, draw (countWorld.normal 1) (seededBy countWorld .ld pathInput.ld) i = fun _ => ((i + 1 : Nat) : ℝ) := by
    intro i
    have h1 : seededBy countWorld .ld pathInput.ld = 1 := rfl
    have h2 : ∀ i r, drawState (countWorld.normal 1) i r = r + i := by
      intro i
      induction i with
      | zero => intro r; rfl
      | succ i ih =>
        intro r
        have : drawState (countWorld.normal 1) (i + 1) r = drawState (countWorld.normal 1) i (r + 1) := rfl
        rw [this, ih]; omega
    rw [draw, h2, h1]
    simp [countWorld, add_comm]
  have hq : vectorsPerStep pathInput.ld = 1 := rfl
  have k2 := congrArg Prod.fst k2
  have k4 := congrArg Prod.fst k4
  have hpot : (overdampedCfg pathPotential 2).pot = pathPotential := rfl
  simp only [langevinPath, hpot, hs, hn, h0, hq] at k2 k4
  rw [hl]
  simp only [List.map_cons, List.map_nil, k2, k4]
  norm_num [boundary1, pathWalker, newParticle, coords]

/-- C89 for the example: energy x². -/
example : ∃ a, mainProgram countWorld (some pathFile) = .finished a ∧ a.d = 1 ∧
    ∀ (x : Fin a.d → ℝ) k, a.cfg.ld.pot.energy x = x k ^ 2 := by
  obtain ⟨s, s0, hr, h0⟩ := path_run
  refine ⟨_, hr.finished, ?_⟩
  obtain ⟨h1, cs, lo, hi, h2, _, _, _, h3⟩ := (main_potential hr).oneDim rfl rfl
  refine ⟨h1, fun x k => ?_⟩
  have h4 : FloatsOpt pathInput.potential "coeffs" [0, 0, 1] := rfl
  rw [FloatsOpt] at h2 h4
  rw [h4] at h2
  simp only [Option.some.injEq, OptVal.list.injEq] at h2
  have h5 : [0, 0, 1] = cs :=
    List.map_injective_iff.2 (fun x y (h : BaseVal.float x = BaseVal.float y) => by cases h; rfl) h2
  rw [h3 x k, ← h5]
  simp [poly1, Finset.sum_range_succ]

/-- C90 for the example: the initial walkers are at both ends of the range, drawn in turn. -/
example : ∃ a config n s0, FinishedRun countWorld (some pathFile) a config n s0 ∧ s0.particles.length = 2 ∧
    ∀ i p, s0.particles[i]? = some p → ∀ k, p.pos k = if i = 0 then 0 else 2 := by
  obtain ⟨s, s0, hr, h0⟩ := path_run
  obtain ⟨mass, number, _, h1, h2, _⟩ := main_initial hr
  have hn : number = 2 := by
    have : (some (.base (.int 2)) : Option (OptVal ℝ)) = some (.base (.int number)) := h1
    simp only [Option.some.injEq, OptVal.base.injEq, BaseVal.int.injEq] at this
    exact this.symm
  subst hn
  obtain ⟨_, _, h4⟩ := h2 rfl
  refine ⟨_, _, _, _, hr, by rw [h4]; rfl, fun i p hp k => ?_⟩
  have hg : seededBy countWorld .particles pathInput.particles = 0 := rfl
  have hr : (overdampedCfg pathPotential 2).pot.ranges = [(0, 2)] := rfl
  rw [h4, hg] at hp
  simp only [hr] at hp
  obtain rfl : k = 0 := Subsingleton.elim (α := Fin 1) _ _
  match i with
  | 0 =>
    simp [List.range, List.range.loop] at hp
    rw [← hp]
    simp [atRest, uniformNumber, uniformState, countWorld]
  | 1 =>
    simp [List.range, List.range.loop] at hp
    rw [← hp]
    simp [atRest, uniformNumber, uniformState, countWorld]
  | i + 2 => simp [List.range, List.range.loop] at hp

def planePotOpts : Dict (OptVal ℝ) :=
  [("type", .base (.str "polynomial")), ("n_dim", .base (.int 2)), ("coeffs-file", .base (.str "c")),
   ("min", .list [.float 0, .float 1]), ("max", .list [.float 2, .float 2]), ("boundary-condition", .none)]

theorem plane_valid : ValidPotential planePotOpts where
  type := ⟨_, rfl, Or.inl rfl⟩
  bound := Or.inl rfl
  nDim := ⟨2, rfl, trivial⟩
  dimPos := fun _ => ⟨2, rfl, by decide⟩
  oneDim := fun _ h => by
    have : (some (.base (.int 2)) : Option (OptVal ℝ)) = some (.base (.int 1)) := h
    simp at this
  moreDim := fun _ _ => ⟨⟨_, rfl, trivial⟩, ⟨[0, 1], rfl, by simp [anything]⟩,
    ⟨[2, 2], rfl, by simp [anything]⟩⟩
  scaling := fun h => by
    have : (some (.base (.str "polynomial")) : Option (OptVal ℝ)) = some (.base (.str "mueller-brown")) := h
    simp at this

/-- C89 for two dimensions: the coefficient file with the rows `1 0 2` and `0 1 3` stands for 2 x + 3 y. -/
example : ∃ p, setupPotential countWorld planePotOpts = .ok p ∧ p.d = 2 ∧ p.pot.ranges = [(0, 2), (1, 2)] ∧
    ∀ (x : Fin p.d → ℝ) (i j : Fin p.d), i.val = 0 → j.val = 1 → p.pot.energy x = 2 * x i + 3 * x j := by
  let l : List ((Fin 2 → Nat) × ℝ) := [(![1, 0], 2), (![0, 1], 3)]
  have hrows : RowsOf ([[1, 0, 2], [0, 1, 3]] : List (List ℝ)) l :=
    .cons ⟨[], by simp [fileRow]⟩ (.cons ⟨[], by simp [fileRow]⟩ .nil)
  obtain ⟨arr, ha, _⟩ := coeff_file_partial l (by simp [l])
  have ha : coefficientsFromFile [coeffRow (d := 2) (![1, 0], 2), coeffRow (d := 2) (![0, 1], 3)] = .ok arr := ha
  have hm1 : parseCoeffRow 2 [1, 0, 2] = .ok (coeffRow (d := 2) (![1, 0], 2)) := by
    rw [← parseCoeffRow_fileRow _ []]; simp [fileRow]
  have hm2 : parseCoeffRow 2 [0, 1, 3] = .ok (coeffRow (d := 2) (![0, 1], 3)) := by
    rw [← parseCoeffRow_fileRow _ []]; simp [fileRow]
  obtain ⟨p, hp, hd⟩ : ∃ p, setupPotential countWorld planePotOpts = .ok p ∧ p.d = 2 := by
    simp [setupPotential, setupPolynomial, planePotOpts, Dict.getItem, Dict.get?, List.lookup, ok_bind, pure_eq_ok,
      zipRanges, OptVal.asFloats, newPolynomial, OptVal.asOptStr, countWorld, hm1, hm2, ha]
  obtain ⟨_, name, mins, maxs, rows, h1, h2, h3, h4, h5, _, h6⟩ :=
    (setupPotential_facts countWorld planePotOpts plane_valid p hp).moreDim 2 rfl rfl (by decide)
  refine ⟨p, hp, hd, ?_, ?_⟩
  · rw [h5]
    have e1 : FloatsOpt planePotOpts "min" [0, 1] := rfl
    have e2 : FloatsOpt planePotOpts "max" [2, 2] := rfl
    rw [FloatsOpt] at e1 e2 h2 h3
    rw [e1] at h2
    rw [e2] at h3
    simp only [Option.some.injEq, OptVal.list.injEq] at h2 h3
    have hinj : Function.Injective (List.map (BaseVal.float : ℝ → BaseVal ℝ)) :=
      List.map_injective_iff.2 (fun x y h => by cases h; rfl)
    rw [← hinj h2, ← hinj h3]
    rfl
  · have e1 : (some (.base (.str "c")) : Option (OptVal ℝ)) = some (.base (.str name)) := h1
    simp only [Option.some.injEq, OptVal.base.injEq, BaseVal.str.injEq] at e1
    subst e1
    have e2 : RowsOf rows l := by
      have : rows = [[1, 0, 2], [0, 1, 3]] := by simpa [countWorld] using h4.symm
      rw [this]
      exact hrows
    obtain ⟨pd, pp⟩ := p
    simp only at hd
    subst hd
    intro x i j hi hj
    rw [h6 l e2 (by simp [l])]
    obtain rfl : i = 0 := Fin.ext hi
    obtain rfl : j = 1 := Fin.ext hj
    simp [polyOfRows, monomial, l]

end

end Bdld
