import Verif.Props.UnitsMain
import Verif.Props.MainBins
import Verif.Props.MainPlots

/-
C148: histograms and free energies of runs in different units.
-/

namespace Bdld

open Spec

noncomputable section

variable {d : Nat} (U : Units d) {R : Type}

theorem interval_units (l c : ℝ) (hl : 0 < l) (lo hi : ℝ) (n i : Nat) (x : ℝ) :
    InInterval (l * lo + c) (l * hi + c) n i (l * x + c) ↔ InInterval lo hi n i x := by
  have e : ∀ j : ℝ, l * lo + c + j * ((l * hi + c - (l * lo + c)) / n) = l * (lo + j * ((hi - lo) / n)) + c := by
    intro j
    ring
  unfold InInterval
  rw [e, e, add_le_add_iff_right, mul_le_mul_iff_right₀ hl, add_lt_add_iff_right, mul_lt_mul_iff_right₀ hl,
    add_left_inj, mul_right_inj' hl.ne']

/-- The options of a histogram in the new units. -/
structure Spec.Units.ConvertsHist (o o' : Dict (OptVal ℝ)) : Prop where
  bins : ∀ (k : Fin d) lo hi m, BinOptions o k lo hi m →
    BinOptions o' k (U.length * lo + U.origin k) (U.length * hi + U.origin k) m
  notEmpty : ∀ k < d, (floatsOf o "min")[k]? ≠ (floatsOf o "max")[k]?
  stride : natOption o' "stride" 1 = natOption o "stride" 1
  reset : o.get? "reset" = some .none
  reset' : o'.get? "reset" = some .none

theorem cell_units {o o' : Dict (OptVal ℝ)} {edges : List (List ℝ)} (h : RequestedBins o d edges)
    (hc : U.ConvertsHist o o') (idx : List Nat) (x : Fin d → ℝ) :
    InBins o' d idx (List.ofFn (U.pos x)) ↔ InBins o d idx (List.ofFn x) := by
  have hx : ∀ (k : Nat) (y : Fin d → ℝ) (hk : k < d), (List.ofFn y)[k]? = some (y ⟨k, hk⟩) := by
    intro k y hk
    rw [List.getElem?_eq_getElem (by simpa using hk)]
    simp
  unfold InBins
  simp only [List.length_ofFn]
  refine and_congr_right fun h1 => and_congr_right fun _ => ?_
  constructor
  · intro H k lo hi m i y ho hi' hy
    have hk : k < d := by rw [← h1]; exact (List.getElem?_eq_some_iff.1 hi').1
    rw [hx k x hk] at hy
    cases hy
    exact (interval_units _ _ U.length_pos lo hi m i _).1
      (H k _ _ m i _ (hc.bins ⟨k, hk⟩ lo hi m ho) hi' (hx k _ hk))
  · intro H k lo' hi' m' i y ho' hi hy
    have hk : k < d := by rw [← h1]; exact (List.getElem?_eq_some_iff.1 hi).1
    rw [hx k _ hk] at hy
    cases hy
    obtain ⟨lo, hi2, m, ho, _⟩ := h.edges k hk
    have hb := hc.bins ⟨k, hk⟩ lo hi2 m ho
    have e1 := ho'.min.symm.trans hb.min
    have e2 := ho'.max.symm.trans hb.max
    have e3 := ho'.bins.symm.trans hb.bins
    cases e1; cases e2; cases e3
    exact (interval_units _ _ U.length_pos lo hi2 m' i _).2 (H k lo hi2 m' i _ ho hi (hx k _ hk))

theorem countInBins_map {o o' : Dict (OptVal ℝ)} {f : List ℝ → List ℝ} {idx : List Nat} {d : Nat} (points : List (List ℝ))
    (h : ∀ p ∈ points, InBins o' d idx (f p) ↔ InBins o d idx p) :
    countInBins o' d idx (points.map f) = countInBins o d idx points := by
  unfold countInBins
  rw [List.countP_map]
  refine List.countP_congr fun p hp => ?_
  simp [h p hp]

section Run

variable {w : World R} {file file' : Option (List Section)} {cfg cfg' : SimCfg d} {sim sim' : Sim d R}
  {config config' : Input ℝ} {n : Nat} {s0 s0' : Sim d R}

/-- C148: two finished runs with the same walkers in different units have the same counts in their histograms, if the
units have the same origin. -/
theorem hist_units (hr : FinishedRun w file ⟨d, cfg, sim⟩ config n s0) (hr' : FinishedRun w file' ⟨d, cfg', sim'⟩ config' n s0')
    (hops : w.bdOps.Lawful) (hpath : ∀ t ≤ n, hr'.path t = (hr.path t).map U.particle) (horigin : U.origin = 0)
    (o o' oh oh' : Dict (OptVal ℝ)) (ho : config.trajectories = some o) (ho' : config'.trajectories = some o')
    (hoh : config.histogram = some oh) (hoh' : config'.histogram = some oh') (hc : U.ConvertsHist oh oh')
    (hws : natOption o' "write-stride" 100 = natOption o "write-stride" 100)
    (hd : hasFilename o = true ∨ natOption oh "stride" 1 ∣ natOption o "write-stride" 100)
    (hd' : hasFilename o' = true ∨ natOption oh' "stride" 1 ∣ natOption o' "write-stride" 100)
    (hw : 0 < s0.particles.length) (t : Nat) (ht : t ≤ n) :
    (hr'.histAt t).counts = (hr.histAt t).counts ∧ (hr'.histAt t).data = (hr.histAt t).data := by
  obtain ⟨edges, he, hall, _⟩ := main_bins hr oh hoh
  obtain ⟨edges', he', hall', _⟩ := main_bins hr' oh' hoh'
  simp only at he he'
  have hne' : ∀ k < d, (floatsOf oh' "min")[k]? ≠ (floatsOf oh' "max")[k]? := by
    intro k hk hcon
    obtain ⟨lo, hi, m, hb, _⟩ := he.edges k hk
    have hb' := hc.bins ⟨k, hk⟩ lo hi m hb
    have e1 := hb'.min.symm.trans (hcon.trans hb'.max)
    have e2 : lo = hi := by
      have := Option.some.inj e1
      rwa [add_left_inj, mul_right_inj' U.length_pos.ne'] at this
    exact hc.notEmpty k hk (by rw [hb.min, hb.max, e2])
  have hw' : 0 < s0'.particles.length := by
    have := hpath 0 (Nat.zero_le n)
    have h0 := congrArg List.length this
    rw [List.length_map, hr.path_length hops, hr'.path_length hops] at h0
    rw [h0]; exact hw
  have hdata : (hr'.histAt t).data = (hr.histAt t).data := by
    funext idx
    rw [main_cells hr hops o oh ho hoh hc.notEmpty hc.reset hw hd t ht,
      main_cells hr' hops o' oh' ho' hoh' hne' hc.reset' hw' hd' t ht, hc.stride, hws]
    simp only
    congr 1
    · have e : List.replicate d (0 : ℝ) = List.ofFn (0 : Fin d → ℝ) := by
        rw [← List.ofFn_const]; rfl
      have e' : List.replicate d (0 : ℝ) = List.ofFn (U.pos 0) := by
        rw [← List.ofFn_const]
        congr 1
        funext k
        simp [Units.pos, horigin]
      have := countInBins_map (o := oh) (o' := oh') (f := fun _ => List.ofFn (U.pos 0)) (idx := idx) (d := d)
        [List.ofFn (0 : Fin d → ℝ)] (fun p hp => by
          rw [List.mem_singleton.1 hp]
          exact cell_units U he hc idx 0)
      rw [List.map_singleton, ← e, ← e'] at this
      exact this
    · have hpos : ∀ k ≤ n, (hr'.snaps k).pos = (hr.path k).map (fun p => List.ofFn (U.pos p.pos)) := by
        intro k hk
        unfold FinishedRun.snaps snapshotOf
        rw [hpath k hk, List.map_map]
        rfl
      have hpos0 : ∀ k, (hr.snaps k).pos = (hr.path k).map (fun p => List.ofFn p.pos) := fun k => rfl
      have hle : ∀ k ∈ sampledSteps (natOption oh "stride" 1) 0
          (t / natOption o "write-stride" 100 * natOption o "write-stride" 100), k ≤ n := by
        intro k hk
        have := (mem_sampledSteps.1 hk).2.1
        exact le_trans this (le_trans (Nat.div_mul_le_self _ _) ht)
      generalize sampledSteps (natOption oh "stride" 1) 0
          (t / natOption o "write-stride" 100 * natOption o "write-stride" 100) = steps at hle
      unfold positionsAt
      have e1 : steps.flatMap (fun k => (hr'.snaps k).pos)
          = (steps.flatMap (fun k => hr.path k)).map (fun p => List.ofFn (U.pos p.pos)) := by
        rw [List.map_flatMap]
        exact List.flatMap_congr fun k hk => hpos k (hle k hk)
      have e2 : steps.flatMap (fun k => (hr.snaps k).pos)
          = (steps.flatMap (fun k => hr.path k)).map (fun p => List.ofFn p.pos) := by
        rw [List.map_flatMap]
        exact List.flatMap_congr fun k _ => hpos0 k
      rw [e1, e2]
      unfold countInBins
      rw [List.countP_map, List.countP_map]
      refine List.countP_congr fun p _ => ?_
      simp [cell_units U he hc idx p.pos]
  refine ⟨?_, hdata⟩
  unfold Histogram.counts
  have hs : (hr'.histAt t).shape = (hr.histAt t).shape := by
    unfold Histogram.shape
    rw [hall t ht, hall' t ht]
    apply List.ext_getElem?
    intro k
    rw [List.getElem?_map, List.getElem?_map]
    by_cases hk : k < d
    · obtain ⟨lo, hi, m, hb, _, _, hk1⟩ := he.edges k hk
      obtain ⟨lo', hi', m', hb', _, _, hk2⟩ := he'.edges k hk
      have := hb'.bins.symm.trans (hc.bins ⟨k, hk⟩ lo hi m hb).bins
      cases this
      rw [hk1, hk2]
      simp
    · rw [List.getElem?_eq_none (by rw [he'.dims]; omega), List.getElem?_eq_none (by rw [he.dims]; omega)]
  rw [hs, hdata]

/-- C148: the free energies of the two runs, at all times. -/
theorem fesAt_units (hr : FinishedRun w file ⟨d, cfg, sim⟩ config n s0) (hr' : FinishedRun w file' ⟨d, cfg', sim'⟩ config' n s0')
    (hhist : ∀ t ≤ n, (hr'.histAt t).counts = (hr.histAt t).counts) (hkt : cfg'.ld.kt = U.energyFactor * cfg.ld.kt)
    (oh oh' : Dict (OptVal ℝ)) (hoh : config.histogram = some oh) (hoh' : config'.histogram = some oh')
    (o o' : Dict (OptVal ℝ)) (ho : config.fes = some o) (ho' : config'.fes = some o')
    (hs : natOption o' "stride" 0 = natOption o "stride" 0) (t : Nat) (ht : t ≤ n) :
    s0'.fesAt w cfg' t = (s0.fesAt w cfg t).map (scaleTop U.energyFactor) := by
  obtain ⟨_, _, _, _, _, _, _, h3, _⟩ := setupOptional_parts w config _ _ _ _ rfl rfl hr.optional
  obtain ⟨_, _, _, _, _, _, _, h3', _⟩ := setupOptional_parts w config' _ _ _ _ rfl rfl hr'.optional
  rw [hoh] at h3
  rw [hoh'] at h3'
  obtain ⟨_, b, _, _, _, hb⟩ := h3
  obtain ⟨_, b', _, _, _, hb'⟩ := h3'
  have h1 := (main_fesAt hr o ho _ hb t ht).2
  have h2 := (main_fesAt hr' o' ho' _ hb' t ht).2
  simp only at h1 h2
  have hf : fesStep o' t = fesStep o t := by unfold fesStep; rw [hs]
  have hft : fesStep o t ≤ n := by
    unfold fesStep
    split
    · omega
    · exact le_trans (Nat.div_mul_le_self _ _) ht
  rw [h1, h2, hf, hhist _ hft, hkt]
  simp only [Nd.map, List.map_map]
  congr 1
  exact List.map_congr_left fun c _ => freeEnergy_scale _ _ _ _

end Run

end

end Bdld
