import Verif.Props.UnitsRun
import Verif.Props.MainSimulation
import Verif.Model.Fes
import Verif.Spec.Fes
import Verif.Props.Fes

/-
C148: change of units for finished runs of the program, and for histograms, free energies and their differences.
-/

namespace Bdld

open Spec

noncomputable section

variable {d : Nat} (U : Units d) {R : Type}

/-- The options of birth-death in the new units: bandwidths are lengths, the factor in the exponent is an inverse time
(rates are multiplied by the time step). -/
structure Spec.Units.ConvertsBd (o o' : Dict (OptVal ℝ)) : Prop where
  bandwidth : ∀ k, k < d → bandwidthOf o' k = U.length * bandwidthOf o k
  factor : factorOf o' = factorOf o / U.time
  stride : natOption o' "stride" 0 = natOption o "stride" 0
  stats : o'.get? "stats-stride" = o.get? "stats-stride"
  recalc : flagOption o' "recalculate-probabilities" = flagOption o "recalculate-probabilities"
  seed : o'.get? "seed" = o.get? "seed"
  variant : variantOf o' = variantOf o

private theorem map_inj_ok {α β : Type} {f : α → β} {x : Except PyErr α} {y : β} (h : x.map f = .ok y) :
    ∃ z, x = .ok z ∧ f z = y := by
  rcases x with e | z
  · cases h
  · exact ⟨z, rfl, Except.ok.inj h⟩

/-- C148: two finished runs whose integrators, initial walkers and options of birth-death are those of the same system
in different units. At every step the walkers of one are those of the other in the new units, and birth-death makes the
same moves. For the variants with a correction the tables have to agree at all positions that walkers have after a step
of the integrator, those of the multiplicative variant up to a constant (see `correction_units_line`). -/
theorem main_units {w : World R} {file file' : Option (List Section)} {cfg cfg' : SimCfg d} {sim sim' : Sim d R}
    {config config' : Input ℝ} {n n' : Nat} {s0 s0' : Sim d R}
    (hr : FinishedRun w file ⟨d, cfg, sim⟩ config n s0) (hr' : FinishedRun w file' ⟨d, cfg', sim'⟩ config' n' s0')
    (hkind : cfg'.kind = cfg.kind) (hstep : StepConverts U cfg.kind cfg.ld cfg'.ld)
    (hkt : cfg'.ld.kt = U.energyFactor * cfg.ld.kt) (hdt : cfg'.ld.dt = U.time * cfg.ld.dt)
    (hseed : config'.ld.get? "seed" = config.ld.get? "seed")
    (hwalk : s0'.particles = s0.particles.map U.particle)
    (hbd : Option.Rel U.ConvertsBd config.birthDeath config'.birthDeath)
    (S : (Fin d → ℝ) → Prop) (hS : StepsInto w cfg.kind cfg.ld S)
    (hcorr : ∀ o o' f f', config.birthDeath = some o → config'.birthDeath = some o' →
      IsCorrection w cfg.ld o f → IsCorrection w cfg'.ld o' f' →
      (variantOf o = .add → ∀ x, S x → f' (U.pos x) = f x) ∧
      (variantOf o = .mult → ∃ a, ∀ x, S x → f' (U.pos x) = f x + a))
    (t : Nat) (ht : t ≤ n) (ht' : t ≤ n') :
    hr'.path t = (hr.path t).map U.particle ∧
    ∃ y y', dynSteps w cfg.kind cfg.ld cfg.bd t s0.dyn = .ok y ∧
      dynSteps w cfg'.kind cfg'.ld cfg'.bd t s0'.dyn = .ok y' ∧ y'.bd = y.bd ∧ y'.ldRng = y.ldRng := by
  have hrng : s0'.ldRng = s0.ldRng := by
    rw [main_generator hr, main_generator hr']
    unfold seededBy
    rw [hseed]
  have hb : Option.Rel (BdConverts U S) cfg.bd cfg'.bd ∧ s0'.bd = s0.bd := by
    rcases ho : config.birthDeath with _ | o
    · rcases ho' : config'.birthDeath with _ | o'
      · have h1 := (finished_bd hr).1 ho
        have h2 := (finished_bd hr').1 ho'
        simp only at h1 h2
        rw [h1.1, h1.2, h2.1, h2.2]
        exact ⟨.none, rfl⟩
      · rw [ho, ho'] at hbd; cases hbd
    · rcases ho' : config'.birthDeath with _ | o'
      · rw [ho, ho'] at hbd; cases hbd
      · rw [ho, ho'] at hbd
        cases hbd with
        | some hc =>
        obtain ⟨b, z, f, hb1, hz, hf⟩ := (finished_bd hr).2 o ho
        obtain ⟨b', z', f', hb1', hz', hf'⟩ := (finished_bd hr').2 o' ho'
        simp only at hb1 hb1' hf hf'
        rw [hb1, hb1', hz, hz']
        refine ⟨.some ⟨?_, ?_, ?_⟩, ?_⟩
        · rw [hf.stride, hf'.stride, hc.stride]
        · rw [hf.statsStride, hf'.statsStride, hc.stats]
        · have hrates : U.ConvertsRates S ⟨fun k => bandwidthOf o k, cfg.ld.kt, variantOf o, f⟩
              ⟨fun k => bandwidthOf o' k, cfg'.ld.kt, variantOf o', f'⟩ :=
            ⟨fun k => hc.bandwidth k k.isLt, hkt, hc.variant,
              (hcorr o o' f f' ho ho' hf.correction hf'.correction).1,
              (hcorr o o' f f' ho ho' hf.correction hf'.correction).2⟩
          have := decisions_units U hrates (fun k => hf.bandwidth k k.isLt)
            (cfg.ld.dt * natOption o "stride" 0) (factorOf o) (flagOption o "recalculate-probabilities")
          rw [hf.cfg, hf'.cfg, hc.stride, hc.recalc, hc.factor, hdt, mul_assoc]
          exact this
        · congr 1
          have e1 : z'.rng = z.rng := by
            rw [hf.rng, hf'.rng]; unfold bdGenerator; rw [hc.seed]
          have e2 : z'.stats = z.stats := by rw [hf.stats, hf'.stats]
          have e3 : z'.log = z.log := by rw [hf.log, hf'.log]
          cases z; cases z'
          simp only at e1 e2 e3
          subst e1 e2 e3
          rfl
  have hdyn : s0'.dyn = dynUnits U s0.dyn := by
    unfold Sim.dyn dynUnits
    rw [hwalk, hrng, hb.2]
  obtain ⟨y, hy, hp⟩ := finished_dynSteps hr t ht
  obtain ⟨y', hy', hp'⟩ := finished_dynSteps hr' t ht'
  simp only at hy hy'
  have h := dynSteps_units U w hstep hS hb.1 s0.dyn t
  have hy2 := hy'
  rw [hkind] at hy2
  rw [← hdyn, hy2, hy] at h
  have h : y' = dynUnits U y := Except.ok.inj h
  refine ⟨?_, y, y', hy, hy', by rw [h]; rfl, by rw [h]; rfl⟩
  rw [hp, hp', h]
  rfl

/-- C148: the integrators of finished runs with the Bussi-Parinello thermostat, from the options. -/
theorem main_units_bussi {w : World R} {file file' : Option (List Section)} {cfg cfg' : SimCfg d} {sim sim' : Sim d R}
    {config config' : Input ℝ} {n n' : Nat} {s0 s0' : Sim d R}
    (hr : FinishedRun w file ⟨d, cfg, sim⟩ config n s0) (hr' : FinishedRun w file' ⟨d, cfg', sim'⟩ config' n' s0')
    (hty : StrOpt config.ld "type" "bussi-parinello") (hty' : StrOpt config'.ld "type" "bussi-parinello")
    (hpot : U.Converts cfg.ld.pot cfg'.ld.pot)
    (hdt : floatOf config'.ld "timestep" = U.time * floatOf config.ld "timestep")
    (hfr : floatOf config'.ld "friction" = floatOf config.ld "friction" / U.time)
    (hkt : floatOf config'.ld "kt" = U.energyFactor * floatOf config.ld "kt") :
    cfg'.kind = cfg.kind ∧ StepConverts U cfg.kind cfg.ld cfg'.ld ∧ cfg'.ld.kt = U.energyFactor * cfg.ld.kt ∧
      cfg'.ld.dt = U.time * cfg.ld.dt ∧
      ∀ x m, newParticle cfg'.ld (U.pos x) (U.mass * m) = U.particle (newParticle cfg.ld x m) := by
  obtain ⟨dt, fr, kt, h1, h2, h3, h4, h5⟩ := (main_constants hr).2.1 hty
  obtain ⟨dt', fr', kt', h1', h2', h3', h4', h5'⟩ := (main_constants hr').2.1 hty'
  simp only at h4 h4' h5 h5'
  have e : ∀ {o : Dict (OptVal ℝ)} {k : String} {x : ℝ}, FloatOpt o k x → floatOf o k = x := by
    intro o k x hx
    unfold floatOf
    rw [show o.get? k = _ from hx]
  rw [e h1, e h1'] at hdt
  rw [e h2, e h2'] at hfr
  rw [e h3, e h3'] at hkt
  subst hdt hfr hkt
  refine ⟨by rw [h4, h4'], ?_, ?_, ?_, ?_⟩
  · rw [h4, h5, h5']; exact stepConverts_bussi U hpot _ _ _
  · rw [h5, h5']; rfl
  · rw [h5, h5']; rfl
  · intro x m
    rw [h5, h5']; exact newParticle_units U hpot _ _ _ _ _

/-- C148: for conservative forces it is enough that the energies are the same in the new units. -/
theorem forces_units {E E' : (Fin d → ℝ) → ℝ} {F F' : (Fin d → ℝ) → Fin d → ℝ} (h : Conservative E F)
    (h' : Conservative E' F') (he : ∀ x, E' (U.pos x) = U.energy (E x)) (x : Fin d → ℝ) :
    F' (U.pos x) = U.forces (F x) := by
  have hp : HasFDerivAt U.pos (U.length • ContinuousLinearMap.id ℝ (Fin d → ℝ)) x := by
    have : U.pos = fun y => U.length • y + U.origin := by
      funext y k; simp [Units.pos]
    rw [this]
    exact ((hasFDerivAt_id x).const_smul U.length).add_const _
  have h1 := (h' (U.pos x)).comp x hp
  have h2 := ((h x).const_mul U.energyFactor).add_const U.zero
  have e : (E' ∘ U.pos) = fun y => U.energyFactor * E y + U.zero := funext he
  rw [e] at h1
  have h3 := h1.unique h2
  funext k
  have h4 := congrArg (fun D => D (Pi.single k 1)) h3
  simp [Pi.single_apply] at h4
  have hl := U.length_pos.ne'
  unfold Units.forces
  field_simp
  linarith

/-- C148: the potential of a finished run is that of another one in the new units if this holds for the energies, the
ranges and the option `boundary-condition`. -/
theorem potential_units {w : World R} {file file' : Option (List Section)} {cfg cfg' : SimCfg d} {sim sim' : Sim d R}
    {config config' : Input ℝ} {n n' : Nat} {s0 s0' : Sim d R}
    (hr : FinishedRun w file ⟨d, cfg, sim⟩ config n s0) (hr' : FinishedRun w file' ⟨d, cfg', sim'⟩ config' n' s0')
    (he : ∀ x, cfg'.ld.pot.energy (U.pos x) = U.energy (cfg.ld.pot.energy x))
    (hb : ∀ i : Fin d, cfg'.ld.pot.ranges[i.val]? = cfg.ld.pot.ranges[i.val]?.map
      (fun r => (U.length * r.1 + U.origin i, U.length * r.2 + U.origin i)))
    (hbc : config'.potential.get? "boundary-condition" = config.potential.get? "boundary-condition") :
    U.Converts cfg.ld.pot cfg'.ld.pot where
  evaluate := fun x => by
    have ev := (main_potential hr).eval
    have ev' := (main_potential hr').eval
    simp only at ev ev'
    rw [ev, ev', he, forces_units U (main_potential hr).conservative (main_potential hr').conservative he]
  ranges := hb
  bc := by
    have h1 := main_bc hr
    have h2 := main_bc hr'
    simp only at h1 h2
    rw [h1, h2]
    unfold bcOf
    simp only [hbc]

/-- A list of coordinates in the new units. -/
def Spec.Units.coordsList (p : List ℝ) : List ℝ := List.ofFn (U.pos (coords d p))

theorem coords_units (p : List ℝ) : coords d (U.coordsList p) = U.pos (coords d p) := by
  funext k
  simp [coords, Units.coordsList]

/-- C148: initial walkers at given positions, in both cases with the same numbers of walkers and seeds. The positions
and the mass are converted. -/
theorem initial_units {w : World R} {file file' : Option (List Section)} {cfg cfg' : SimCfg d} {sim sim' : Sim d R}
    {config config' : Input ℝ} {n n' : Nat} {s0 s0' : Sim d R}
    (hr : FinishedRun w file ⟨d, cfg, sim⟩ config n s0) (hr' : FinishedRun w file' ⟨d, cfg', sim'⟩ config' n' s0')
    (hnew : ∀ x m, newParticle cfg'.ld (U.pos x) (U.mass * m) = U.particle (newParticle cfg.ld x m))
    (hmass : floatOf config'.particles "mass" = U.mass * floatOf config.particles "mass")
    (hnum : config'.particles.get? "number" = config.particles.get? "number")
    (hseed : config'.particles.get? "seed" = config.particles.get? "seed") (choices : List (List ℝ))
    (hc : Numbered config.particles.get? "pos" "" (choices.map (fun p => .list (p.map .float))))
    (hc' : Numbered config'.particles.get? "pos" "" ((choices.map U.coordsList).map (fun p => .list (p.map .float))))
    (hdist : (w.init.Lawful ∧ 0 < choices.length ∧ StrOpt config.particles "initial-distribution" "random-pos" ∧
        StrOpt config'.particles "initial-distribution" "random-pos") ∨
      (StrOpt config.particles "initial-distribution" "fractions-pos" ∧
        StrOpt config'.particles "initial-distribution" "fractions-pos" ∧
        ∃ fractions, FloatsOpt config.particles "fractions" fractions ∧ FloatsOpt config'.particles "fractions" fractions ∧
          (∀ x ∈ fractions, 0 ≤ x) ∧ 0 < fractions.sum)) :
    s0'.particles = s0.particles.map U.particle := by
  obtain ⟨m, num, h1, h2, _, h4, h5⟩ := main_initial hr
  obtain ⟨m', num', h1', h2', _, h4', h5'⟩ := main_initial hr'
  have e : ∀ {o : Dict (OptVal ℝ)} {k : String} {x : ℝ}, FloatOpt o k x → floatOf o k = x := by
    intro o k x hx
    unfold floatOf
    rw [show o.get? k = _ from hx]
  rw [e h1, e h1'] at hmass
  obtain rfl : num' = num := by
    rw [IntOpt, hnum, show config.particles.get? "number" = _ from h2] at h2'
    simpa using h2'.symm
  have hrest : ∀ x, atRest cfg'.ld m' (U.pos x) = U.particle (atRest cfg.ld m x) := by
    intro x
    have ev := (main_potential hr).eval
    have ev' := (main_potential hr').eval
    simp only at ev ev'
    have a1 : atRest cfg.ld m x = newParticle cfg.ld x m := by unfold atRest newParticle; rw [ev]
    have a2 : atRest cfg'.ld m' (U.pos x) = newParticle cfg'.ld (U.pos x) m' := by unfold atRest newParticle; rw [ev']
    rw [a1, a2, hmass, hnew]
  have hsd : seededBy w .particles config'.particles = seededBy w .particles config.particles := by
    unfold seededBy; rw [hseed]
  rcases hdist with ⟨hl, hpos, hd, hd'⟩ | ⟨hd, hd', fr, hf, hf', hf0, hfs⟩
  · rw [(h4 hd).2 choices hc, (h4' hd').2 _ hc', List.map_map, hsd, List.length_map]
    refine List.map_congr_left fun i _ => ?_
    simp only [Function.comp, ← hrest, ← coords_units]
    have hlt : chosen w.init choices.length (seededBy w .particles config.particles) i < choices.length :=
      hl.choice_lt _ _ hpos
    congr 2
    rw [List.getD_eq_getElem?_getD, List.getD_eq_getElem?_getD, List.getElem?_map, List.getElem?_eq_getElem hlt]
    rfl
  · rw [(h5 hd choices fr hc hf hf0 hfs).2, (h5' hd' _ fr hc' hf' hf0 hfs).2, List.map_flatMap, List.zip_map_left,
      List.flatMap_map]
    refine congrArg (fun f => List.flatMap f _) (funext fun x => ?_)
    simp only [List.map_replicate, Prod.map, id, coords_units, hrest]

/-! ### Analysis -/

/-- C148: bins are found by comparisons only, so that an increasing change of the coordinate does not matter. -/
theorem binIndex_increasing (f : ℝ → ℝ) (hf : StrictMono f) (edges : List ℝ) (x : ℝ) :
    binIndex (edges.map f) (f x) = binIndex edges x := by
  have h1 : searchRight (edges.map f) (f x) = searchRight edges x := by
    unfold searchRight
    rw [List.countP_map]
    congr 1
    funext e
    simp [hf.le_iff_le]
  have h2 : ((edges.map f).getLast? = some (f x)) = (edges.getLast? = some x) := by
    rw [List.getLast?_map, eq_iff_iff, Option.map_eq_some_iff]
    constructor
    · rintro ⟨y, hy, hxy⟩; rw [hy, hf.injective hxy]
    · intro h; exact ⟨x, h, rfl⟩
  unfold binIndex
  simp only [h1, h2, List.length_map]

theorem binOf_increasing : ∀ (fs : List (ℝ → ℝ)) (_ : ∀ f ∈ fs, StrictMono f) (edges : List (List ℝ)) (xs : List ℝ)
    (_ : edges.length = fs.length) (_ : xs.length = fs.length),
    binOf (List.zipWith List.map fs edges) (List.zipWith (fun f x => f x) fs xs) = binOf edges xs
  | [], _, [], [], _, _ => rfl
  | f :: fs, hf, e :: es, x :: xs, he, hx => by
    simp only [List.zipWith_cons_cons, binOf]
    rw [binIndex_increasing f (hf f List.mem_cons_self),
      binOf_increasing fs (fun g hg => hf g (List.mem_cons_of_mem _ hg)) es xs (by simpa using he) (by simpa using hx)]

/-- The new coordinates as functions of the old ones. -/
def Spec.Units.axes : List (ℝ → ℝ) := (List.finRange d).map (fun k x => U.length * x + U.origin k)

theorem Spec.Units.axes_mono : ∀ f ∈ U.axes, StrictMono f := by
  intro f hf
  obtain ⟨k, _, rfl⟩ := List.mem_map.1 hf
  intro x y h
  have := mul_lt_mul_of_pos_left h U.length_pos
  simpa using this

/-- C148: with converted edges a walker is counted in the same bin. -/
theorem bin_units (edges : List (List ℝ)) (h : edges.length = d) (x : Fin d → ℝ) :
    binOf (List.zipWith List.map U.axes edges) (List.ofFn (U.pos x)) = binOf edges (List.ofFn x) := by
  have : List.ofFn (U.pos x) = List.zipWith (fun f x => f x) U.axes (List.ofFn x) := by
    apply List.ext_getElem
    · simp [Units.axes]
    · intro i h1 h2
      simp [Units.axes, Units.pos]
  rw [this]
  exact binOf_increasing U.axes U.axes_mono edges _ (by simp [Units.axes, h]) (by simp [Units.axes])

/-- C148: the edges of a converted range are the converted edges. -/
theorem linEdges_units (lo hi a l : ℝ) (n : Nat) :
    linEdges (l * lo + a) (l * hi + a) n = (linEdges lo hi n).map (fun x => l * x + a) := by
  unfold linEdges
  rw [List.map_map]
  refine List.map_congr_left fun i _ => ?_
  simp only [Function.comp]
  ring

/-- A free energy in the new units; infinite ones stay infinite. -/
def scaleTop (ε : ℝ) (x : WithTop ℝ) : WithTop ℝ := x.map (ε * ·)

theorem freeEnergy_scale (ε kt : ℝ) (m n : Nat) : freeEnergy (ε * kt) m n = scaleTop ε (freeEnergy kt m n) := by
  unfold freeEnergy scaleTop
  by_cases h : n = 0
  · rw [if_pos h, if_pos h]; rfl
  · rw [if_neg h, if_neg h]
    show WithTop.some _ = WithTop.some _
    congr 1
    ring

/-- C148: free energies have the unit of energy. -/
theorem fes_units (counts : Nd Nat) (kt : ℝ) (hk : 0 < kt) :
    calculateFes counts (U.energyFactor * kt) true
      = (calculateFes counts kt true).map (fun x => x.map (scaleTop U.energyFactor)) := by
  by_cases h : counts.flat = []
  · rw [fes_no_bins _ _ h, fes_no_bins _ _ h]; rfl
  · rw [fes_spec _ _ (mul_pos U.energyFactor_pos hk) h, fes_spec _ _ hk h]
    show Except.ok _ = Except.ok _
    simp only [Nd.map, List.map_map]
    congr 2
    exact List.map_congr_left fun n _ => freeEnergy_scale _ _ _ _

private theorem boltzmann_scale (ε kt : ℝ) (hε : ε ≠ 0) (x : WithTop ℝ) :
    boltzmann (ε * kt) (scaleTop ε x) = boltzmann kt x := by
  rcases x with _ | x
  · rfl
  · show Real.exp (-(ε * x) / (ε * kt)) = Real.exp (-x / kt)
    rw [← mul_neg, mul_div_mul_left _ _ hε]

/-- C148: so have their differences, for the same states. -/
theorem deltaF_units (fes : Nd (WithTop ℝ)) (kt : ℝ) (masks : List (List Bool)) :
    calculateDeltaF (fes.map (scaleTop U.energyFactor)) (U.energyFactor * kt) masks
      = (calculateDeltaF fes kt masks).map (fun l => l.map (U.energyFactor * ·)) := by
  unfold calculateDeltaF
  have : (fes.map (scaleTop U.energyFactor)).flat.map (boltzmann (U.energyFactor * kt)) = fes.flat.map (boltzmann kt) := by
    simp only [Nd.map, List.map_map]
    exact List.map_congr_left fun x _ => boltzmann_scale _ _ U.energyFactor_pos.ne' x
  simp only [this]
  rcases masks.mapM (maskedSum (fes.flat.map (boltzmann kt))) with e | l
  · rfl
  · show Except.ok _ = Except.ok _
    simp only [List.map_map]
    congr 1
    refine List.map_congr_left fun p _ => ?_
    simp only [Function.comp]
    ring

/-- C148: a state in the new units contains the same walkers. -/
theorem inState_units (x : Fin d → ℝ) (s : Fin d → ℝ × ℝ) :
    InState (List.ofFn (U.pos x)) (List.ofFn (fun k => (U.length * (s k).1 + U.origin k, U.length * (s k).2 + U.origin k)))
      ↔ InState (List.ofFn x) (List.ofFn s) := by
  have key : ∀ a b : ℝ, U.length * a ≤ U.length * b ↔ a ≤ b := fun a b => mul_le_mul_iff_right₀ U.length_pos
  unfold InState
  rw [List.forall₂_iff_get, List.forall₂_iff_get]
  simp [Units.pos, key]

end

end Bdld
