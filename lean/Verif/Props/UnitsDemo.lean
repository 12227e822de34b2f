import Verif.Props.UnitsLine
import Verif.Props.UnitsHist
import Verif.Props.ExampleInput

/-
C148 for concrete runs: the harmonic potential in two systems of units. The unit of length of the second file is half as
long, so that energies are larger by a factor of four.
-/

namespace Bdld

open Spec

noncomputable section

def unitsLd (kt : String) : Section := demoSection "ld"
  [("type", "bussi-parinello"), ("timestep", "0.005"), ("friction", "10.0"), ("kt", kt), ("n_steps", "100"), ("seed", "1")]

def unitsPot (lo hi : String) : Section := demoSection "potential"
  [("type", "polynomial"), ("n_dim", "1"), ("coeffs", "0,0,1"), ("min", lo), ("max", hi), ("boundary-condition", "reflective")]

def unitsPart (p q : String) : Section := demoSection "particles"
  [("number", "10"), ("initial-distribution", "random-pos"), ("pos1", p), ("pos2", q), ("seed", "1")]

def unitsBd (bw : String) : Section :=
  demoSection "birth-death" [("stride", "5"), ("kernel-bandwidth", bw), ("seed", "1"), ("approximation-variant", "multiplicative")]

def unitsTraj : Section := demoSection "trajectories" [("stride", "5"), ("filename", "traj")]

def unitsHist (lo hi : String) : Section :=
  demoSection "histogram" [("bins", "10"), ("min", lo), ("max", hi), ("stride", "5"), ("filename", "histo")]

def unitsFes (kt : String) : Section := demoSection "fes" [("kt", kt), ("stride", "10")]

/-- Bussi-Parinello dynamics with birth-death in x², with the multiplicative correction. -/
def unitsFile (kt lo hi p q bw : String) : List Section :=
  [unitsLd kt, unitsPot lo hi, unitsPart p q, unitsBd bw, unitsTraj, unitsHist lo hi, unitsFes kt]

def unitsInput (kt lo hi p q bw : ℝ) : Input ℝ where
  ld := [("type", .base (.str "bussi-parinello")), ("timestep", .base (.float (1 / 200))), ("n_steps", .base (.int 100)),
    ("seed", .base (.int 1)), ("kt", .base (.float kt)), ("friction", .base (.float 10))]
  potential := [("type", .base (.str "polynomial")), ("n_dim", .base (.int 1)),
    ("coeffs", .list ([0, 0, 1].map .float)), ("min", .base (.float lo)), ("max", .base (.float hi)),
    ("boundary-condition", .base (.str "reflective"))]
  particles := [("number", .base (.int 10)), ("mass", .base (.float 1)), ("seed", .base (.int 1)),
    ("initial-distribution", .base (.str "random-pos")), ("pos1", .list [.float p]), ("pos2", .list [.float q])]
  birthDeath := some [("stride", .base (.int 5)), ("correction-variant", .none),
    ("approximation-variant", .base (.str "multiplicative")),
    ("exponential-factor", .none), ("recalculate-probabilities", .base (.bool false)), ("stats-stride", .none),
    ("stats-filename", .none), ("seed", .base (.int 1)), ("kernel-bandwidth", .base (.float bw))]
  trajectories := some [("filename", .base (.str "traj")), ("stride", .base (.int 5)), ("momentum", .none),
    ("write-stride", .none), ("fmt", .none)]
  histogram := some [("stride", .base (.int 5)), ("reset", .none), ("filename", .base (.str "histo")),
    ("write-stride", .none), ("fmt", .none), ("min", .base (.float lo)), ("max", .base (.float hi)), ("bins", .base (.int 10))]
  fes := some [("kt", .base (.float kt)), ("stride", .base (.int 10)), ("filename", .none), ("write-stride", .none),
    ("fmt", .none), ("plot-stride", .none), ("plot-filename", .none), ("plot-domain", .none), ("plot-title", .none)]

set_option linter.unusedSimpArgs false in
theorem units_parse {kt lo hi p q bw : String} {kt' lo' hi' p' q' bw' : ℝ} (h1 : realConv.toFloat kt = some kt')
    (h2 : realConv.toFloat lo = some lo') (h3 : realConv.toFloat hi = some hi') (h4 : realConv.toFloat p = some p')
    (h5 : realConv.toFloat q = some q') (h6 : realConv.toFloat bw = some bw') (hp : pySplit p = [p]) (hq : pySplit q = [q])
    (hk : 0 < kt') (hb : 0 < bw') :
    parseAll 1 realConv (some (unitsFile kt lo hi p q bw)) = .ok (unitsInput kt' lo' hi' p' q' bw') := by
  have f1 : findSection (unitsFile kt lo hi p q bw) "ld" = some (unitsLd kt) := rfl
  have f2 : findSection (unitsFile kt lo hi p q bw) "potential" = some (unitsPot lo hi) := rfl
  have f3 : findSection (unitsFile kt lo hi p q bw) "particles" = some (unitsPart p q) := rfl
  have f4 : findSection (unitsFile kt lo hi p q bw) "birth-death" = some (unitsBd bw) := rfl
  have f5 : findSection (unitsFile kt lo hi p q bw) "trajectories" = some unitsTraj := rfl
  have f6 : findSection (unitsFile kt lo hi p q bw) "histogram" = some (unitsHist lo hi) := rfl
  have f7 : findSection (unitsFile kt lo hi p q bw) "fes" = some (unitsFes kt) := rfl
  have f8 : findSection (unitsFile kt lo hi p q bw) "delta-f" = none := rfl
  have f9 : findSection (unitsFile kt lo hi p q bw) "particle-distribution" = none := rfl
  have s1 : pySplit "0,0,1" = ["0", "0", "1"] := by decide +kernel
  simp [parseAll, requireSection, parseOptional, f1, f2, f3, f4, f5, f6, f7, f8, f9, isOneDim,
    unitsLd, unitsPot, unitsPart, unitsBd, unitsTraj, unitsHist, unitsFes, demoSection, parseLd, parsePotential, parseParticles, potentialOptions, polyOptions, InputOption.parse, opt,
    optList, Dict.get?, List.lookup, InputOption.convert, ldOptions, parseSection, parseLoop, Dict.set, tf1, tf2, tf3, tf6,
    h1, h2, h3, h4, h5, h6, hp, hq, hk, hb, s1, ti3, ti4, ti5, ti6,
    positive, allPositive, positiveOrZero, gtZero, cmpNum, ok_bind, pure_eq_ok, atMost3dim, atMost3dimInt, pyAnd,
    callType, orValueError, particlesOptions, initialDistributions, oneOf, numberedSection,
    numberedLoop, numKey, List.range, List.range.loop, birthDeathOptions,
    trajectoriesOptions, histogramOptions, fesOptions, repr1, repr2, repr3, unitsInput]

theorem units_numbered (kt lo hi p q bw : ℝ) :
    Numbered (unitsInput kt lo hi p q bw).particles.get? "pos" "" ([[p], [q]].map (fun p => .list (p.map .float))) := by
  refine ⟨?_, ?_⟩
  · intro i hi
    match i, hi with
    | 0, _ => rfl
    | 1, _ => rfl
  · have e : ("pos" ++ (0 + 1 + 1 + 1).repr ++ "") = "pos3" := by decide +kernel
    rw [List.length_map, List.length_cons, List.length_cons, List.length_nil, e]
    rfl

/-- All these inputs have no contradictions. -/
theorem units_consistent (formats : List String) (terminal : Bool) (kt lo hi p q bw : ℝ) (h : lo < hi) :
    ConsistentLine formats terminal (unitsInput kt lo hi p q bw) where
  polynomial := rfl
  oneDim := rfl
  coeffs := by intro h; cases h
  range := by intro lo hi h1 h2; cases h1; cases h2; exact h
  ldSeed := by intro i hi; cases hi; decide
  particlesSeed := by intro i hi; cases hi; decide
  start := .inr ⟨[[p], [q]], units_numbered kt lo hi p q bw, by simp, .inl ⟨rfl, by simp⟩⟩
  bdSeed := by intro o ho i hi; cases ho; cases hi; decide
  bdWalkers := by intro _ n hn; cases hn; decide
  bdVariant := by
    intro o ho key hkey s hs
    cases ho
    simp only [List.mem_cons, List.not_mem_nil, or_false] at hkey
    rcases hkey with rfl | rfl
    · cases hs
    · cases hs; rfl
  needsTrajectories := fun _ => rfl
  bins := by intro o ho lo hi h1 h2; cases ho; cases h1; cases h2; exact h.le
  output := by
    rintro (⟨o, ho, h⟩ | ⟨o, ho, h⟩ | ⟨o, ho, h⟩ | ⟨o, ho, h⟩)
    · cases ho
      exact absurd h.1 (by simp [natOption, Dict.get?, List.lookup])
    · cases ho
      rcases h with ⟨h, _⟩ | ⟨h, _⟩
      · simp [natOption, Dict.get?, List.lookup] at h
      · simp [intOption, Dict.get?, List.lookup] at h
    · cases ho
    · cases ho
  plots := by intro o ho; cases ho; exact .inl rfl
  deltaF := by intro o ho; cases ho
  distribution := by intro o ho; cases ho

variable {R : Type}

theorem units_finished (w : World R) (hconv : w.conv = realConv) (hops : w.bdOps.Lawful) (hinit : w.init.Lawful)
    (hlin : LinearGriddata w) {file : List Section} {kt lo hi p q bw : ℝ} (h : lo < hi)
    (hp : parseAll 1 realConv (some file) = .ok (unitsInput kt lo hi p q bw)) :
    ∃ (cfg : SimCfg 1) (sim s0 : Sim 1 R), FinishedRun w (some file) ⟨1, cfg, sim⟩ (unitsInput kt lo hi p q bw) 100 s0 ∧
      cfg.ld.pot.ranges = [(lo, hi)] ∧ ∀ x : Fin 1 → ℝ, cfg.ld.pot.energy x = x 0 ^ 2 := by
  rw [← hconv] at hp
  obtain ⟨⟨d, cfg, sim⟩, ha⟩ := line_progress w _ _ hp (units_consistent _ _ kt lo hi p q bw h) hops hinit hlin
    (fun o ho => .inl (by cases ho; rfl))
  obtain ⟨config, n, s0, hr⟩ := main_run w _ _ ha
  have hp' := hr.parse
  rw [hp] at hp'
  cases hp'
  have hn : n = 100 := by
    have := hr.steps
    cases this
    rfl
  subst hn
  obtain ⟨hd, cs, lo', hi', h1, h2, h3, h4, h5⟩ := (main_potential hr).oneDim rfl rfl
  simp only at hd
  subst hd
  cases h2
  cases h3
  refine ⟨cfg, sim, s0, hr, h4, fun x => ?_⟩
  have hcs : cs = [0, 0, 1] := by
    have h1' : some (OptVal.list (([0, 0, 1] : List ℝ).map BaseVal.float)) = some (OptVal.list (cs.map .float)) := h1
    have : ([0, 0, 1] : List ℝ).map BaseVal.float = cs.map .float := by simpa using h1'
    exact (List.map_injective_iff.2 (fun x y e => by cases e; rfl) this).symm
  have := h5 x 0
  simp only at this
  rw [this, hcs]
  simp [poly1, Finset.sum_range_succ]

/-- Half the unit of length. -/
def halfUnits : Units 1 where
  length := 2
  time := 1
  mass := 1
  origin := 0
  zero := 0
  length_pos := by norm_num
  time_pos := by norm_num
  mass_pos := by norm_num

theorem tf3' : realConv.toFloat "-3" = some (-3) := float_text (-3) (by decide +kernel) (by norm_num)
theorem tf3'' : realConv.toFloat "3" = some 3 := float_text 3 (by decide +kernel) (by norm_num)
theorem tf6' : realConv.toFloat "-6" = some (-6) := float_text (-6) (by decide +kernel) (by norm_num)
theorem tf6'' : realConv.toFloat "6" = some 6 := float_text 6 (by decide +kernel) (by norm_num)
theorem tfm1 : realConv.toFloat "-1" = some (-1) := float_text (-1) (by decide +kernel) (by norm_num)
theorem tfm2 : realConv.toFloat "-2" = some (-2) := float_text (-2) (by decide +kernel) (by norm_num)
theorem tf2' : realConv.toFloat "2" = some 2 := float_text 2 (by decide +kernel) (by norm_num)
theorem tf4' : realConv.toFloat "4" = some 4 := float_text 4 (by decide +kernel) (by norm_num)

/-- C148 for the example: both files run to the end, for every generator of random numbers, and at every step the
positions and momenta of the second run are twice those of the first, its energies four times. The histograms have the
same counts, and the free energies are larger by a factor of four. -/
theorem units_demo (w : World R) (hconv : w.conv = realConv) (hops : w.bdOps.Lawful) (hinit : w.init.Lawful)
    (hlin : LinearGriddata w) : ∃ (cfg cfg' : SimCfg 1) (sim sim' s0 s0' : Sim 1 R)
      (hr : FinishedRun w (some (unitsFile "1" "-3" "3" "1" "-1" "1")) ⟨1, cfg, sim⟩ (unitsInput 1 (-3) 3 1 (-1) 1) 100 s0)
      (hr' : FinishedRun w (some (unitsFile "4" "-6" "6" "2" "-2" "2")) ⟨1, cfg', sim'⟩ (unitsInput 4 (-6) 6 2 (-2) 2) 100 s0'),
      (∀ t ≤ 100, hr'.path t = (hr.path t).map halfUnits.particle) ∧
      (∀ t ≤ 100, (hr'.histAt t).counts = (hr.histAt t).counts) ∧
      ∀ t ≤ 100, s0'.fesAt w cfg' t = (s0.fesAt w cfg t).map (scaleTop 4) := by
  obtain ⟨cfg, sim, s0, hr, h1, h2⟩ := units_finished w hconv hops hinit hlin (by norm_num)
    (units_parse tf1 tf3' tf3'' tf1 tfm1 tf1 (by decide +kernel) (by decide +kernel) one_pos one_pos)
  obtain ⟨cfg', sim', s0', hr', h1', h2'⟩ := units_finished w hconv hops hinit hlin (by norm_num)
    (units_parse tf4' tf6' tf6'' tf2' tfm2 tf2' (by decide +kernel) (by decide +kernel) (by norm_num) (by norm_num))
  refine ⟨cfg, cfg', sim, sim', s0, s0', hr, hr', ?_⟩
  have hε : halfUnits.energyFactor = 4 := by norm_num [Units.energyFactor, halfUnits]
  have hen : ∀ x, cfg'.ld.pot.energy (halfUnits.pos x) = halfUnits.energy (cfg.ld.pot.energy x) := by
    intro x
    rw [h2, h2']
    unfold Units.energy
    rw [hε]
    simp [Units.pos, halfUnits]
    ring
  have hpot : halfUnits.Converts cfg.ld.pot cfg'.ld.pot := by
    refine potential_units halfUnits hr hr' hen (fun i => ?_) rfl
    · rw [Subsingleton.elim i 0, h1, h1']
      norm_num [halfUnits]
  obtain ⟨e1, e2, e3, e4, e5⟩ := main_units_bussi halfUnits hr hr' rfl rfl hpot
    (show (1 / 200 : ℝ) = 1 * (1 / 200) by norm_num) (show (10 : ℝ) = 10 / 1 by norm_num)
    (show (4 : ℝ) = halfUnits.energyFactor * 1 by rw [hε]; norm_num)
  have hw : s0'.particles = s0.particles.map halfUnits.particle := by
    have k1 : halfUnits.coordsList [1] = [2] := by simp [Units.coordsList, Units.pos, coords, halfUnits]
    have k2 : halfUnits.coordsList [-1] = [-2] := by simp [Units.coordsList, Units.pos, coords, halfUnits]
    refine initial_units halfUnits hr hr' e5 (show (1 : ℝ) = 1 * 1 by norm_num) rfl rfl [[1], [-1]]
      (units_numbered 1 (-3) 3 1 (-1) 1) ?_ (.inl ⟨hinit, by decide, rfl, rfl⟩)
    rw [show [[(1 : ℝ)], [-1]].map halfUnits.coordsList = [[2], [-2]] by simp [k1, k2]]
    exact units_numbered 4 (-6) 6 2 (-2) 2
  have hpath : ∀ t ≤ 100, hr'.path t = (hr.path t).map halfUnits.particle := by
   intro t ht
   refine (main_units_line halfUnits hlin hr hr' (-3) 3 h1 ?_ (by norm_num) hen rfl rfl rfl
    (show (1 / 200 : ℝ) = 1 * (1 / 200) by norm_num) (show (10 : ℝ) = 10 / 1 by norm_num)
    (show (4 : ℝ) = halfUnits.energyFactor * 1 by rw [hε]; norm_num) rfl hw (.some ?_) (fun _ _ _ => main_bc hr) t ht ht).1
   · rw [h1']
     norm_num [halfUnits]
   · constructor
     · intro k _
       exact show (2 : ℝ) = 2 * 1 by norm_num
     · exact show (1 : ℝ) = 1 / 1 by norm_num
     all_goals rfl
  have hnum : 0 < s0.particles.length := by
    obtain ⟨m, k, _, hk, _, hp, _⟩ := main_initial hr
    cases hk
    rw [(hp rfl).2 [[1], [-1]] (units_numbered 1 (-3) 3 1 (-1) 1)]
    simp
  have hhist : ∀ t ≤ 100, (hr'.histAt t).counts = (hr.histAt t).counts := by
    intro t ht
    refine (hist_units halfUnits hr hr' hops hpath rfl _ _ _ _ rfl rfl rfl rfl ⟨?_, ?_, rfl, rfl, rfl⟩ rfl (.inl rfl)
      (.inl rfl) hnum t ht).1
    · rintro ⟨k, hk⟩ lo hi m ⟨b1, b2, b3⟩
      obtain rfl : k = 0 := by omega
      cases b1; cases b2; cases b3
      refine ⟨?_, ?_, rfl⟩
      · exact congrArg some (show (-6 : ℝ) = 2 * (-3) + 0 by norm_num)
      · exact congrArg some (show (6 : ℝ) = 2 * 3 + 0 by norm_num)
    · intro k hk h
      obtain rfl : k = 0 := by omega
      have h : some (-3 : ℝ) = some 3 := h
      norm_num at h
  refine ⟨hpath, hhist, fun t ht => ?_⟩
  rw [← hε]
  exact fesAt_units halfUnits hr hr' hhist e3 _ _ rfl rfl _ _ rfl rfl rfl t ht

/-! ### Where units matter -/

/-- C148 fails for the multiplicative correction if walkers leave the range: x² between -1 and 1, a walker at 0 and
another one at 3. The rate of the first one changes with the unit of length. -/
theorem multiplicative_demo (ene : Fin 2 → ℝ) :
    let s : Line := ⟨-1, 1, 1, 1, fun x => x ^ 2⟩
    let t : Line := ⟨-2, 2, 2, 4, fun x => x ^ 2⟩
    let q : Fin 2 → ℝ := ![0, 3]
    calcBetas ⟨fun _ => t.bw, t.kt, .mult, fun p : Fin 1 → ℝ => t.multiplicativeAt (p 0)⟩
        (fun i => halfUnits.pos (fun _ => q i)) (fun i => halfUnits.energy (ene i)) 0
      ≠ calcBetas ⟨fun _ => s.bw, s.kt, .mult, fun p : Fin 1 → ℝ => s.multiplicativeAt (p 0)⟩ (fun i _ => q i) ene 0 := by
  intro s t q
  have hε : halfUnits.energyFactor = 4 := by norm_num [Units.energyFactor, halfUnits]
  have h : s.ConvertedTo halfUnits.length (halfUnits.origin 0) halfUnits.energyFactor halfUnits.zero t := by
    rw [hε]
    refine ⟨?_, ?_, ?_, ?_, fun x => ?_⟩ <;> simp [s, t, halfUnits]
    ring
  rw [multiplicative_units_false halfUnits h (by norm_num [s]) (by norm_num [s]) q (by norm_num [s, q])
    (by norm_num [s, q]) ene, rates_eq _ (fun _ => by norm_num [s])]
  rw [WithBot.map_coe]
  intro hcon
  have h1 := WithBot.coe_injective hcon
  have h2 : Real.log halfUnits.length = 0 := by linarith
  have h3 : 0 < Real.log halfUnits.length := Real.log_pos (by norm_num [halfUnits])
  linarith

/-- Four times the number of time units, the unit of energy unchanged. -/
def quarterTime : Units 1 where
  length := 1
  time := 4
  mass := 16
  origin := 0
  zero := 0
  length_pos := by norm_num
  time_pos := by norm_num
  mass_pos := by norm_num

/-- No forces. -/
def freePotential : Potential ℝ 1 := ⟨fun _ => 0, fun _ _ => 0, fun _ => (0, fun _ => 0), [], none⟩

/-- C148 fails for the overdamped dynamics: the friction constant is not an option but fixed to 1 (as is kT), so that
positions of walkers depend on the unit of time. -/
theorem overdamped_units_false : quarterTime.energyFactor = 1 ∧ quarterTime.Converts freePotential freePotential ∧
    ∃ (noise : Fin 1 → ℝ) (p : LdParticle ℝ 1),
      overdampedStep (overdampedCfg freePotential (quarterTime.time * (1 / 2))) noise (quarterTime.particle p)
        ≠ (overdampedStep (overdampedCfg freePotential (1 / 2)) noise p).map quarterTime.particle := by
  refine ⟨by norm_num [Units.energyFactor, quarterTime], ⟨fun x => ?_, fun i => rfl, rfl⟩, fun _ => 1,
    ⟨0, 0, 1, 0, 0, 0⟩, ?_⟩
  · refine Prod.ext ?_ (funext fun k => ?_) <;> simp [freePotential, Units.energy, Units.forces, quarterTime]
  · intro h
    have h := congrArg (fun x => match x with
      | .ok p => p.pos 0
      | .error _ => 0) h
    have e1 : Real.sqrt 4 = 2 := by rw [show (4 : ℝ) = 2 ^ 2 by norm_num]; exact Real.sqrt_sq (by norm_num)
    have e2 : (2 : ℝ) * (4 * 2⁻¹) = 4 := by norm_num
    simp [overdampedStep, overdampedCfg, freePotential, Potential.applyBc, Units.particle, Units.pos, quarterTime,
      Units.forces, Except.map, ok_bind, pure_eq_ok, e2, e1] at h

/-- C148 fails for the counts of a histogram before the first sample: the program counts one walker at the coordinates
0, wherever the origin is. Two bins on [-1, 1] and, with the origin shifted by 2, on [1, 3]: bins are shifted, counts not
the same. -/
theorem histogram_units_false : ∃ h h' : Histogram ℚ,
    Histogram.new [2] [(-1, 1)] = .ok h ∧ Histogram.new [2] [(-1 + 2, 1 + 2)] = .ok h' ∧
      h'.bins = h.bins.map (List.map (· + 2)) ∧ h'.data ≠ h.data := by
  have h1 : (Histogram.new [2] [((-1 : ℚ), 1)]).map (fun h => (h.bins, h.data [1])) = .ok ([[-1, 0, 1]], 1) := by
    decide +kernel
  have h2 : (Histogram.new [2] [((-1 + 2 : ℚ), 1 + 2)]).map (fun h => (h.bins, h.data [1])) = .ok ([[1, 2, 3]], 0) := by
    decide +kernel
  rcases e1 : Histogram.new [2] [((-1 : ℚ), 1)] with e | h
  · rw [e1] at h1; cases h1
  rcases e2 : Histogram.new [2] [((-1 + 2 : ℚ), 1 + 2)] with e | h'
  · rw [e2] at h2; cases h2
  rw [e1] at h1
  rw [e2] at h2
  simp only [Except.map, Except.ok.injEq, Prod.mk.injEq] at h1 h2
  refine ⟨h, h', rfl, rfl, ?_, fun e => ?_⟩
  · rw [h1.1, h2.1]
    decide +kernel
  · rw [e] at h2
    omega

end

end Bdld
