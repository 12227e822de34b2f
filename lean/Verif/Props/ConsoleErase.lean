import Verif.Model.Console
import Verif.Lemmas.Except

/-
Without its output the program of `Model/Console.lean` is that of `Model/Main.lean`.
-/

set_option linter.unusedSimpArgs false

namespace Bdld

section
variable {α β : Type}

@[simp] theorem Prints.pure_res (a : α) : (pure a : Prints α).res = .ok a := rfl

@[simp] theorem Prints.pure_out (a : α) : (pure a : Prints α).out = [] := rfl

theorem Prints.bind_res (x : Prints α) (f : α → Prints β) :
    (x >>= f).res = x.res >>= fun a => (f a).res := by
  obtain ⟨o, r⟩ := x
  cases r <;> rfl

theorem Prints.bind_out_ok (x : Prints α) (f : α → Prints β) (a : α) (h : x.res = .ok a) :
    (x >>= f).out = x.out ++ (f a).out := by
  obtain ⟨o, r⟩ := x
  cases h
  rfl

theorem Prints.bind_out_error (x : Prints α) (f : α → Prints β) (e : PyErr) (h : x.res = .error e) :
    (x >>= f).out = x.out := by
  obtain ⟨o, r⟩ := x
  cases h
  rfl

@[simp] theorem quiet_res (x : Except PyErr α) : (quiet x).res = x := rfl
@[simp] theorem quiet_out (x : Except PyErr α) : (quiet x).out = [] := rfl
@[simp] theorem sayAll_res (l : List String) : (sayAll l).res = .ok () := rfl
@[simp] theorem sayAll_out (l : List String) : (sayAll l).out = l := rfl
@[simp] theorem say_res (s : String) : (say s).res = .ok () := rfl
@[simp] theorem say_out (s : String) : (say s).out = [s] := rfl
@[simp] theorem sayIf_res (b : Bool) (s : String) : (sayIf b s).res = .ok () := rfl
@[simp] theorem sayIf_out (b : Bool) (s : String) : (sayIf b s).out = if b then [s] else [] := rfl

@[simp] theorem saySeed_res (s : Option Int) : (saySeed s).res = .ok () := by
  cases s <;> rfl

theorem foldP_res (f : β → α → Prints β) (g : β → α → Except PyErr β) (h : ∀ b a, (f b a).res = g b a)
    (l : List α) : ∀ b, (foldP f b l).res = l.foldlM g b := by
  induction l with
  | nil => intro b; rfl
  | cons a l ih =>
    intro b
    rw [foldP, Prints.bind_res, List.foldlM_cons, h]
    congr 1
    funext c
    exact ih c

end

variable {R : Type}

/-- Simplification of the results of a sequence of steps. -/
theorem bind_eq_bind {α β : Type} (x : Except PyErr α) (f : α → Except PyErr β) : x.bind f = x >>= f := rfl

theorem setupLdP_res {d : Nat} (sh : Shows) (w : World R) (o : Dict (OptVal ℝ)) (pot : Potential ℝ d)
    (text : String) : (setupLdP sh w o pot text).res = setupLd w o pot := by
  unfold setupLdP setupLd
  rw [Prints.bind_res]
  rcases h : o.getItem "type" with e | v
  · rfl
  · simp only [quiet_res, ok_bind]
    split
    · simp [Prints.bind_res, bind_eq_bind, ok_bind, bind_assoc]
      rfl
    · simp [Prints.bind_res, bind_eq_bind, ok_bind, bind_assoc]
      rfl
    · rename_i h1 h2
      split
      · exact absurd rfl h1
      · exact absurd rfl h2
      · rfl

theorem initParticlesP_res {d : Nat} (sh : Shows) (w : World R) (c : LdCfg ℝ d) (o : Dict (OptVal ℝ))
    (s : LdState ℝ d R) :
    (initParticlesP sh w c o s).res = initParticles pyTrunc w.init (w.defaultRng .particles) c o s := by
  unfold initParticlesP
  simp only [Prints.bind_res, quiet_res, say_res, sayAll_res, Prints.pure_res, ok_bind, bind_eq_bind]
  rcases h1 : o.getItem "mass" with e | v1
  · simp [initParticles, h1, error_bind]
  rcases h2 : v1.asFloat with e | mass
  · simp [initParticles, h1, h2, ok_bind, error_bind]
  rcases h3 : o.getItem "number" with e | v2
  · simp [initParticles, h1, h2, h3, ok_bind, error_bind]
  rcases h4 : v2.asInt with e | number
  · simp [initParticles, h1, h2, h3, h4, ok_bind, error_bind]
  rcases h5 : o.getItem "initial-distribution" with e | v3
  · simp [initParticles, h1, h2, h3, h4, h5, ok_bind, error_bind]
  simp only [ok_bind, h2, h4]
  rcases initParticles pyTrunc w.init (w.defaultRng .particles) c o s with e | x <;> rfl

theorem setupRequiredP_res (sh : Shows) (w : World R) (config : Input ℝ) :
    (setupRequiredP sh w config).res = setupRequired w config := by
  unfold setupRequiredP setupRequired
  simp only [Prints.bind_res, quiet_res, setupLdP_res, initParticlesP_res, Prints.pure_res, pure_eq_ok]

theorem setupBirthDeathP_res {d : Nat} (sh : Shows) (w : World R) (o : Dict (OptVal ℝ)) (c : LdCfg ℝ d) :
    (setupBirthDeathP sh w o c).res = setupBirthDeath w o c := by
  unfold setupBirthDeathP
  simp only [Prints.bind_res, quiet_res, say_res, saySeed_res, sayIf_res, Prints.pure_res, ok_bind, bind_eq_bind]
  rcases h1 : bdBandwidth d o with e | bw
  · simp [setupBirthDeath, h1, error_bind]
  rcases h2 : approxVariantOf o with e | v
  · simp [setupBirthDeath, h1, h2, ok_bind, error_bind]
  rcases h3 : o.getItem "stride" with e | x3
  · simp [setupBirthDeath, h1, h2, h3, ok_bind, error_bind]
  rcases h4 : x3.asOptStride with e | stride
  · simp [setupBirthDeath, h1, h2, h3, h4, ok_bind, error_bind]
  rcases h5 : o.getItem "exponential-factor" with e | x5
  · simp [setupBirthDeath, h1, h2, h3, h4, h5, ok_bind, error_bind]
  rcases h6 : x5.asOptFloat with e | fac
  · simp [setupBirthDeath, h1, h2, h3, h4, h5, h6, ok_bind, error_bind]
  rcases h7 : o.getItem "recalculate-probabilities" with e | x7
  · simp [setupBirthDeath, h1, h2, h3, h4, h5, h6, h7, ok_bind, error_bind]
  rcases h8 : x7.asFlag with e | recalc
  · simp [setupBirthDeath, h1, h2, h3, h4, h5, h6, h7, h8, ok_bind, error_bind]
  rcases h9 : o.getItem "stats-stride" with e | x9
  · simp [setupBirthDeath, h1, h2, h3, h4, h5, h6, h7, h8, h9, ok_bind, error_bind]
  rcases h10 : x9.asOptStride with e | sst
  · simp [setupBirthDeath, h1, h2, h3, h4, h5, h6, h7, h8, h9, h10, ok_bind, error_bind]
  rcases h11 : o.getItem "seed" with e | x11
  · simp [setupBirthDeath, h1, h2, h3, h4, h5, h6, h7, h8, h9, h10, h11, ok_bind, error_bind]
  rcases h12 : x11.asOptInt with e | seed
  · simp [setupBirthDeath, h1, h2, h3, h4, h5, h6, h7, h8, h9, h10, h11, h12, ok_bind, error_bind]
  rcases h13 : w.defaultRng .birthDeath (bdSeed seed) with e | rng
  · simp [setupBirthDeath, h1, h2, h3, h4, h5, h6, h7, h8, h9, h10, h11, h12, h13, ok_bind, error_bind]
  simp only [ok_bind, h4, h6, h8, h10, h12, h13]
  have hlast : ∀ y : Except PyErr (BdAct d × BdRunState R), (y >>= fun x => Except.ok x) = y := by
    intro y; cases y <;> rfl
  by_cases hv : v = .orig
  · simp only [hv, if_true, ok_bind, hlast]
  · simp only [hv, if_false]
    rcases h14 : bdProbDensity (energyOfList c.pot) d c.pot.ranges bw c.kt with e | dens
    · have hg : bdApproxGrid w c bw v = .error e := by
        cases v
        · exact absurd rfl hv
        · simp only [bdApproxGrid, h14, error_bind]
        · simp only [bdApproxGrid, h14, error_bind]
      simp [setupBirthDeath, h1, h2, h3, h4, h5, h6, h7, h8, h9, h10, h11, h12, h13, hg, ok_bind, error_bind]
    · simp only [ok_bind, hlast, pure_eq_ok]

theorem setupTrajectoriesP_res (w : World R) (d : Nat) (o : Dict (OptVal ℝ)) (dt : ℝ) (n : Nat) :
    (setupTrajectoriesP w d o dt n).res = setupTrajectories w d o dt n := by
  unfold setupTrajectoriesP
  simp only [Prints.bind_res, quiet_res, say_res, sayIf_res, Prints.pure_res, ok_bind, bind_eq_bind]
  rcases h1 : o.getItem "stride" with e | x1
  · simp [setupTrajectories, h1, error_bind]
  rcases h2 : x1.asOptStride with e | stride
  · simp [setupTrajectories, h1, h2, ok_bind, error_bind]
  rcases h3 : o.getItem "filename" with e | x3
  · simp [setupTrajectories, h1, h2, h3, ok_bind, error_bind]
  rcases h4 : x3.asOptStr with e | filename
  · simp [setupTrajectories, h1, h2, h3, h4, ok_bind, error_bind]
  rcases h5 : o.getItem "momentum" with e | x5
  · simp [setupTrajectories, h1, h2, h3, h4, h5, ok_bind, error_bind]
  rcases h6 : x5.asFlag with e | mom
  · simp [setupTrajectories, h1, h2, h3, h4, h5, h6, ok_bind, error_bind]
  rcases h7 : o.getItem "write-stride" with e | x7
  · simp [setupTrajectories, h1, h2, h3, h4, h5, h6, h7, ok_bind, error_bind]
  rcases h8 : x7.asOptStride with e | ws
  · simp [setupTrajectories, h1, h2, h3, h4, h5, h6, h7, h8, ok_bind, error_bind]
  simp only [ok_bind, h2, h4, h6, h8]
  rcases setupTrajectories w d o dt n with e | x <;> rfl

theorem except_bind_ok {α : Type} (y : Except PyErr α) : (y >>= fun x => Except.ok x) = y := by
  cases y <;> rfl

theorem setupHistogram_bins (d : Nat) (o : Dict (OptVal ℝ)) (t : TrajCfg ℝ) :
    setupHistogram d o t = (do
      let rb ← histogramBins d o
      let stride ← (← o.getItem "stride").asOptStride
      let reset ← (← o.getItem "reset").asOptNats
      let filename ← (← o.getItem "filename").asOptStr
      let writeStride ← (← o.getItem "write-stride").asOptStride
      let h ← HistCfg.new t d rb.2 rb.1 stride reset (truthyStr filename) writeStride
      checkFields d filename
      return (h.1, ⟨filename, writeStride⟩, h.2)) := rfl

theorem HistCfg_new_error (t : TrajCfg ℝ) (d : Nat) (nBins : List Nat) (ranges : List (ℝ × ℝ)) (stride : Option Nat)
    (reset : Option (List Nat)) (b : Bool) (ws : Option Nat) (e : PyErr)
    (h : HistCfg.new t d nBins ranges stride reset true none = .error e) :
    HistCfg.new t d nBins ranges stride reset b ws = .error e := by
  unfold HistCfg.new at h ⊢
  by_cases h1 : d ≠ nBins.length
  · rw [if_pos h1] at h ⊢
    exact h
  rw [if_neg h1] at h ⊢
  by_cases h2 : d ≠ ranges.length
  · rw [if_pos h2] at h ⊢
    exact h
  rw [if_neg h2] at h ⊢
  rcases h3 : Histogram.new nBins ranges with e' | hh
  · rw [h3] at h
    exact h
  · rw [h3] at h
    simp [truthyNat, ok_bind, pure_eq_ok] at h

theorem setupHistogramP_res (sh : Shows) (d : Nat) (o : Dict (OptVal ℝ)) (t : TrajCfg ℝ) :
    (setupHistogramP sh d o t).res = setupHistogram d o t := by
  unfold setupHistogramP
  simp only [Prints.bind_res, quiet_res, say_res, sayIf_res, Prints.pure_res, ok_bind, bind_eq_bind, except_bind_ok]
  rcases h0 : histogramBins d o with e | rb
  · simp [setupHistogram_bins, h0, error_bind]
  rcases h1 : o.getItem "stride" with e | x1
  · simp [setupHistogram_bins, h0, h1, ok_bind, error_bind]
  rcases h2 : x1.asOptStride with e | y1
  · simp [setupHistogram_bins, h0, h1, h2, ok_bind, error_bind]
  rcases h3 : o.getItem "reset" with e | x3
  · simp [setupHistogram_bins, h0, h1, h2, h3, ok_bind, error_bind]
  rcases h4 : x3.asOptNats with e | y3
  · simp [setupHistogram_bins, h0, h1, h2, h3, h4, ok_bind, error_bind]
  rcases h5 : o.getItem "filename" with e | x5
  · simp [setupHistogram_bins, h0, h1, h2, h3, h4, h5, ok_bind, error_bind]
  rcases h6 : x5.asOptStr with e | y5
  · simp [setupHistogram_bins, h0, h1, h2, h3, h4, h5, h6, ok_bind, error_bind]
  rcases h7 : o.getItem "write-stride" with e | x7
  · simp [setupHistogram_bins, h0, h1, h2, h3, h4, h5, h6, h7, ok_bind, error_bind]
  rcases h8 : x7.asOptStride with e | y7
  · simp [setupHistogram_bins, h0, h1, h2, h3, h4, h5, h6, h7, h8, ok_bind, error_bind]
  simp only [ok_bind, h1, h2, h3, h4, h5, h6, h7, h8]
  rcases h9 : HistCfg.new t d rb.2 rb.1 y1 y3 true none with e | x
  · have := HistCfg_new_error t d rb.2 rb.1 y1 y3 (truthyStr y5) y7 e h9
    simp [setupHistogram_bins, h0, h1, h2, h3, h4, h5, h6, h7, h8, this, ok_bind, error_bind]
  · rfl

theorem fesStrideP_res (what verb : String) (stride : Option Nat) (other : Int) (filename : Option String) :
    (fesStrideP what verb stride other filename).res = checkOutput (decide (other ≠ 0)) stride filename := by
  unfold fesStrideP checkOutput
  by_cases h : other ≠ 0
  · simp only [h, if_true, decide_true, not_false_iff, ne_eq]
    by_cases h1 : truthyNat stride = true
    · simp only [h1, Bool.not_true, Bool.false_eq_true, if_false, Prints.bind_res, sayIf_res, ok_bind]
      by_cases h2 : truthyStr filename = true
      · simp [h2]
      · simp only [Bool.not_eq_true] at h2
        simp [h2]
        rfl
    · simp only [Bool.not_eq_true] at h1
      simp [h1]
      rfl
  · rw [not_not] at h
    simp [h]

theorem truthyNat_getD (o : Option Nat) : truthyNat o = decide (((o.getD 0 : Nat) : Int) ≠ 0) := by
  cases o with
  | none => rfl
  | some n => cases n <;> simp [truthyNat]; omega

theorem setupFesP_res {d : Nat} (sh : Shows) (w : World R) (o : Dict (OptVal ℝ)) (ld : LdCfg ℝ d) (h : Histogram ℝ) :
    (setupFesP sh w o ld h).res = setupFes w o ld h := by
  unfold setupFesP
  simp only [Prints.bind_res, quiet_res, say_res, sayIf_res, Prints.pure_res, ok_bind, bind_eq_bind, except_bind_ok,
    fesStrideP_res]
  rcases h0 : fesReference ld.pot h with e | ref
  · simp [setupFes, h0, error_bind]
  rcases h1 : o.getItem "stride" with e | x1
  · simp [setupFes, h0, h1, ok_bind, error_bind]
  rcases h2 : x1.asOptStride with e | y1
  · simp [setupFes, h0, h1, h2, ok_bind, error_bind]
  rcases h3 : o.getItem "filename" with e | x3
  · simp [setupFes, h0, h1, h2, h3, ok_bind, error_bind]
  rcases h4 : x3.asOptStr with e | y3
  · simp [setupFes, h0, h1, h2, h3, h4, ok_bind, error_bind]
  rcases h5 : o.getItem "write-stride" with e | x5
  · simp [setupFes, h0, h1, h2, h3, h4, h5, ok_bind, error_bind]
  rcases h6 : x5.asOptStride with e | y5
  · simp [setupFes, h0, h1, h2, h3, h4, h5, h6, ok_bind, error_bind]
  rcases h7 : o.getItem "plot-stride" with e | x7
  · simp [setupFes, h0, h1, h2, h3, h4, h5, h6, h7, ok_bind, error_bind]
  rcases h8 : x7.asOptInt with e | y7
  · simp [setupFes, h0, h1, h2, h3, h4, h5, h6, h7, h8, ok_bind, error_bind]
  rcases h9 : o.getItem "plot-filename" with e | x9
  · simp [setupFes, h0, h1, h2, h3, h4, h5, h6, h7, h8, h9, ok_bind, error_bind]
  rcases h10 : x9.asOptStr with e | y9
  · simp [setupFes, h0, h1, h2, h3, h4, h5, h6, h7, h8, h9, h10, ok_bind, error_bind]
  rcases h11 : o.getItem "plot-domain" with e | x11
  · simp [setupFes, h0, h1, h2, h3, h4, h5, h6, h7, h8, h9, h10, h11, ok_bind, error_bind]
  rcases h12 : x11.asOptFloats with e | y11
  · simp [setupFes, h0, h1, h2, h3, h4, h5, h6, h7, h8, h9, h10, h11, h12, ok_bind, error_bind]
  rcases h13 : o.getItem "plot-title" with e | x13
  · simp [setupFes, h0, h1, h2, h3, h4, h5, h6, h7, h8, h9, h10, h11, h12, h13, ok_bind, error_bind]
  rcases h14 : x13.asOptStr with e | y13
  · simp [setupFes, h0, h1, h2, h3, h4, h5, h6, h7, h8, h9, h10, h11, h12, h13, h14, ok_bind, error_bind]
  simp only [ok_bind, h1, h2, h3, h4, h5, h6, h7, h8, h9, h10, h11, h12, h13, h14]
  rcases h15 : calculateFes h.counts ld.kt true with e | fes
  · simp [setupFes, h0, h1, h2, h3, h4, h5, h6, h7, h8, h9, h10, h11, h12, h13, h14, h15, ok_bind, error_bind]
  rcases h16 : checkFields d y3 with e | u
  · simp [setupFes, h0, h1, h2, h3, h4, h5, h6, h7, h8, h9, h10, h11, h12, h13, h14, h15, h16, ok_bind, error_bind]
  simp only [ok_bind, ← truthyNat_getD]
  rcases h17 : checkOutput (truthyNat y5) y1 y3 with e | u
  · simp [setupFes, h0, h1, h2, h3, h4, h5, h6, h7, h8, h9, h10, h11, h12, h13, h14, h15, h16, h17, ok_bind, error_bind]
  simp only [ok_bind]
  rcases h18 : checkOutput (decide (y7.getD 0 ≠ 0)) y1 y9 with e | u
  · simp only [setupFes, h0, h1, h2, h3, h4, h5, h6, h7, h8, h9, h10, h11, h12, h13, h14, h15, h16, h17, h18, ok_bind, error_bind]
  · rfl

theorem setupDeltaFP_res (w : World R) (o : Dict (OptVal ℝ)) (kt dt : ℝ) (fs : Option Nat) (h : Histogram ℝ) :
    (setupDeltaFP w o kt dt fs h).res = setupDeltaFAction w o kt dt h := by
  unfold setupDeltaFP
  simp only [Prints.bind_res, quiet_res, say_res, sayIf_res, Prints.pure_res, ok_bind, bind_eq_bind, except_bind_ok]
  rcases g0 : stateRanges o with e | states
  · simp [setupDeltaFAction, g0, error_bind]
  simp only [ok_bind]
  by_cases g1 : states.length < 2
  · have : setupDeltaF h states = .error .valueError := by
      unfold setupDeltaF
      rw [if_pos g1]
      rfl
    simp [g1, setupDeltaFAction, g0, this, ok_bind, error_bind]
  rw [if_neg g1]
  rcases g2 : pointsOfAxes h.axes with e | points
  · have : setupDeltaF h states = .error e := by
      unfold setupDeltaF
      rw [if_neg g1, g2]
      rfl
    simp [setupDeltaFAction, g0, this, ok_bind, error_bind]
  simp only [ok_bind]
  rcases g3 : posInsideRanges h.axes.length points states with e | masks
  · have : setupDeltaF h states = .error e := by
      unfold setupDeltaF
      rw [if_neg g1, g2]
      simp only [ok_bind, g3, pure_eq_ok]
      rfl
    simp [setupDeltaFAction, g0, this, ok_bind, error_bind]
  simp only [ok_bind, pure_eq_ok]
  rcases g4 : setupDeltaF h states with e | masks
  · simp [setupDeltaFAction, g0, g4, ok_bind, error_bind]
  rcases h1 : o.getItem "stride" with e | x1
  · simp [setupDeltaFAction, g0, g4, h1, ok_bind, error_bind]
  rcases h2 : x1.asOptStride with e | y1
  · simp [setupDeltaFAction, g0, g4, h1, h2, ok_bind, error_bind]
  rcases h3 : o.getItem "filename" with e | x3
  · simp [setupDeltaFAction, g0, g4, h1, h2, h3, ok_bind, error_bind]
  rcases h4 : x3.asOptStr with e | y3
  · simp [setupDeltaFAction, g0, g4, h1, h2, h3, h4, ok_bind, error_bind]
  simp only [ok_bind, h1, h2, h3, h4]

theorem setupDistributionP_res (w : World R) (o : Dict (OptVal ℝ)) :
    (setupDistributionP w o).res = setupDistribution w o := by
  unfold setupDistributionP
  simp only [Prints.bind_res, quiet_res, say_res, sayIf_res, Prints.pure_res, ok_bind, bind_eq_bind, except_bind_ok]
  rcases g0 : stateRanges o with e | states
  · simp [setupDistribution, g0, error_bind]
  rcases h1 : o.getItem "stride" with e | x1
  · simp [setupDistribution, g0, h1, ok_bind, error_bind]
  rcases h2 : x1.asOptStride with e | y1
  · simp [setupDistribution, g0, h1, h2, ok_bind, error_bind]
  rcases h3 : o.getItem "filename" with e | x3
  · simp [setupDistribution, g0, h1, h2, h3, ok_bind, error_bind]
  rcases h4 : x3.asOptStr with e | y3
  · simp [setupDistribution, g0, h1, h2, h3, h4, ok_bind, error_bind]
  simp only [ok_bind, h1, h2, h3, h4]

theorem setupOptionalP_res {d : Nat} (sh : Shows) (w : World R) (config : Input ℝ) (c : SimCfg d) (s : Sim d R) :
    (setupOptionalP sh w config c s).res = setupOptional w config c s := by
  unfold setupOptionalP setupOptional
  rcases config with ⟨pot, ld, parts, bd, traj, hist, fes, df, dist⟩
  cases bd <;> cases traj <;> cases hist <;> cases fes <;> cases df <;> cases dist <;>
    simp only [Prints.bind_res, Prints.pure_res, quiet_res, setupBirthDeathP_res, setupTrajectoriesP_res,
      setupHistogramP_res, setupFesP_res, setupDeltaFP_res, setupDistributionP_res, pure_eq_ok, ok_bind]

theorem runEventP_res {d : Nat} (sh : Shows) (w : World R) (f : Option String) (c : SimCfg d) (step : Nat)
    (s : Sim d R) (a : ActName) : (runEventP sh w f c step s a).res = runEvent w c step s a := by
  unfold runEventP
  simp only [Prints.bind_res, quiet_res, sayAll_res, Prints.pure_res, ok_bind, except_bind_ok]

theorem finalEventP_res {d : Nat} (sh : Shows) (f : Option String) (c : SimCfg d) (step : Nat)
    (s : Sim d R) (a : ActName) : (finalEventP sh f c step s a).res = finalEvent c step s a := by
  unfold finalEventP
  simp only [Prints.bind_res, quiet_res, sayAll_res, Prints.pure_res, ok_bind, except_bind_ok]

theorem runStepsP_res {d : Nat} (sh : Shows) (w : World R) (f : Option String) (c : SimCfg d) (n : Nat) :
    ∀ s : Sim d R, (runStepsP sh w f c n s).res = runSteps w c n s := by
  induction n with
  | zero => intro s; rfl
  | succ n ih =>
    intro s
    rw [runStepsP, Prints.bind_res, ih, runSteps]
    congr 1
    funext s'
    exact foldP_res _ _ (runEventP_res sh w f c (n + 1)) _ _

/-- The result of the program that prints is that of the program without output. -/
theorem mainP_finished (sh : Shows) (w : World R) (file : Option (List Section)) (a : AnySim R) :
    mainProgram w file = .finished a ↔ (mainP sh w file).res = .ok a := by
  unfold mainProgram mainP
  rw [Prints.bind_res, say_res, ok_bind, Prints.bind_res, quiet_res]
  rcases parseAll 1 w.conv file with e | config
  · simp only [raise, error_bind]
    constructor
    · intro h
      split at h <;> cases h
    · intro h
      cases h
  simp only [ok_bind]
  unfold mainFrom mainFromP
  rw [Prints.bind_res, setupRequiredP_res]
  rcases setupRequired w config with e | r
  · simp [error_bind]
  simp only [ok_bind]
  rw [Prints.bind_res, setupOptionalP_res]
  rcases setupOptional w config r.cfg r.sim with e | x
  · simp only [raise, error_bind]
    constructor
    · intro h
      split at h <;> cases h
    · intro h
      cases h
  simp only [ok_bind]
  rw [Prints.bind_res, quiet_res]
  rcases (config.ld.getItem "n_steps").bind OptVal.asInt with e | n
  · simp [error_bind]
  simp only [ok_bind, Prints.bind_res, say_res, runStepsP_res, Prints.pure_res]
  unfold simulate
  rcases runSteps w x.1 n.toNat x.2 with e | s
  · simp [error_bind]
  simp only [ok_bind, foldP_res _ _ (finalEventP_res sh (statsFilename config) x.1 n.toNat)]
  rcases x.1.actions.foldlM (finalEvent x.1 n.toNat) s with e | s'
  · simp [error_bind]
  · simp [ok_bind]

end Bdld
