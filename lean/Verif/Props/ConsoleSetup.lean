import Verif.Spec.Console
import Verif.Props.ConsoleErase
import Verif.Props.MainSetup
import Verif.Props.MainProgress
import Verif.Props.MainBirthDeath
import Verif.Props.Variant

/-
C136: output of the set-up.
-/

set_option linter.unusedSimpArgs false

namespace Bdld

open Spec

section
variable {α β : Type}

theorem Prints.quiet_bind_out (x : Except PyErr α) (a : α) (f : α → Prints β) (h : x = .ok a) :
    (quiet x >>= f).out = (f a).out := by
  rw [Prints.bind_out_ok _ _ a (by rw [quiet_res, h]), quiet_out, List.nil_append]

theorem Prints.say_bind_out (s : String) (f : Unit → Prints β) : (say s >>= f).out = s :: (f ()).out := rfl

theorem Prints.sayAll_bind_out (l : List String) (f : Unit → Prints β) : (sayAll l >>= f).out = l ++ (f ()).out := rfl

theorem Prints.sayIf_bind_out (b : Bool) (s : String) (f : Unit → Prints β) :
    (sayIf b s >>= f).out = (if b then [s] else []) ++ (f ()).out := rfl

theorem saySeed_bind_out (s : Option Int) (f : Unit → Prints β) :
    (saySeed s >>= f).out = seedLines (s.getD 0) ++ (f ()).out := by
  cases s with
  | none => rfl
  | some i =>
    by_cases h : i = 0
    · subst h; rfl
    · simp [saySeed, sayIf, Prints.sayAll_bind_out, seedLines, h]

end

variable {R : Type}

/-- Reading an option in two steps. -/
theorem read_ok {V W : Type} {o : Dict V} {key : String} {f : V → Except PyErr W} {v : V} {y : W}
    (h1 : o.getItem key = .ok v) (h2 : f v = .ok y) : (o.getItem key).bind f = .ok y := by
  rw [h1]
  exact h2

theorem floatOf_eq {o : Dict (OptVal ℝ)} {key : String} {v : OptVal ℝ} {x : ℝ} (h1 : o.getItem key = .ok v)
    (h2 : v.asFloat = .ok x) : floatOf o key = x := by
  have h1 := getItem_inv h1
  have h2 := asFloat_inv h2
  subst h2
  rw [floatOf, h1]

theorem setupLdP_out {d : Nat} (sh : Shows) (w : World R) (o : Dict (OptVal ℝ)) (pot : Potential ℝ d)
    (text : String) (l : LdSetup d R) (h : setupLd w o pot = .ok l) :
    (setupLdP sh w o pot text).out = ldLines sh text l.kind l.cfg o := by
  unfold setupLd at h
  obtain ⟨v, h0, h⟩ := bind_ok h
  unfold setupLdP
  rw [Prints.quiet_bind_out _ v _ h0]
  split at h
  · obtain ⟨v1, g1, h⟩ := bind_ok h
    obtain ⟨dt, f1, h⟩ := bind_ok h
    obtain ⟨v2, g2, h⟩ := bind_ok h
    obtain ⟨fr, f2, h⟩ := bind_ok h
    obtain ⟨v3, g3, h⟩ := bind_ok h
    obtain ⟨kt, f3, h⟩ := bind_ok h
    obtain ⟨v4, g4, h⟩ := bind_ok h
    obtain ⟨seed, f4, h⟩ := bind_ok h
    obtain ⟨rng, f5, h⟩ := bind_ok h
    cases h
    simp only []
    rw [Prints.quiet_bind_out _ _ _ (read_ok g1 f1), Prints.quiet_bind_out _ _ _ (read_ok g2 f2),
      Prints.quiet_bind_out _ _ _ (read_ok g3 f3), Prints.quiet_bind_out _ _ _ (read_ok g4 f4),
      Prints.quiet_bind_out _ _ _ f5, Prints.say_bind_out, saySeed_bind_out, Prints.say_bind_out, Prints.pure_out,
      intOption_eq o "seed" seed (read_ok g4 f4)]
    simp [ldLines, bussiCfg, floatOf_eq g2 f2]
  · obtain ⟨v1, g1, h⟩ := bind_ok h
    obtain ⟨dt, f1, h⟩ := bind_ok h
    obtain ⟨v4, g4, h⟩ := bind_ok h
    obtain ⟨seed, f4, h⟩ := bind_ok h
    obtain ⟨rng, f5, h⟩ := bind_ok h
    cases h
    simp only []
    rw [Prints.quiet_bind_out _ _ _ (read_ok g1 f1), Prints.quiet_bind_out _ _ _ (read_ok g4 f4),
      Prints.quiet_bind_out _ _ _ f5, Prints.say_bind_out, saySeed_bind_out, Prints.say_bind_out, Prints.pure_out,
      intOption_eq o "seed" seed (read_ok g4 f4)]
    simp [ldLines, overdampedCfg]
  · cases h

theorem initParticlesP_out {d : Nat} (sh : Shows) (w : World R) (c : LdCfg ℝ d) (o : Dict (OptVal ℝ))
    (s s' : LdState ℝ d R) (hv : ValidParticles o)
    (h : initParticles pyTrunc w.init (w.defaultRng .particles) c o s = .ok s') :
    (initParticlesP sh w c o s).out = particleLines sh o := by
  obtain ⟨i, hi, -⟩ := hv.number
  obtain ⟨m, hm, -⟩ := hv.mass
  obtain ⟨t, ht, hd⟩ := hv.dist
  have gi : o.getItem "number" = .ok (.base (.int i)) := by rw [Dict.getItem, hi]
  have gm : o.getItem "mass" = .ok (.base (.float m)) := by rw [Dict.getItem, hm]
  have gt : o.getItem "initial-distribution" = .ok (.base (.str t)) := by rw [Dict.getItem, ht]
  unfold initParticlesP
  rw [Prints.quiet_bind_out _ m _ (read_ok gm rfl), Prints.quiet_bind_out _ i _ (read_ok gi rfl), Prints.say_bind_out,
    Prints.quiet_bind_out _ _ _ gt, Prints.sayAll_bind_out, Prints.quiet_bind_out _ _ _ h, Prints.say_bind_out,
    Prints.pure_out]
  have e1 : floatOf o "mass" = m := by rw [floatOf, hm]
  have e2 : intOption o "number" = i := by rw [intOption, hi]
  have e3 : strOption o "initial-distribution" = t := by rw [strOption, ht]
  rw [particleLines, e1, e2, e3]
  rcases hd with rfl | rfl | rfl <;> rfl


/-! ### Optional actions -/

theorem stride_getD {o : Dict (OptVal ℝ)} {key : String} {v : OptVal ℝ} {k : Option Nat}
    (h1 : o.getItem key = .ok v) (h2 : v.asOptStride = .ok k) : k.getD 0 = natOption o key 0 := by
  have h1 := getItem_inv h1
  unfold natOption
  rw [h1]
  unfold OptVal.asOptStride at h2
  split at h2 <;> cases h2 <;> rfl

theorem truthyNat_iff (k : Option Nat) : truthyNat k = true ↔ k.getD 0 ≠ 0 := by
  rcases k with _ | _ | k <;> simp [truthyNat]

theorem str_getD {o : Dict (OptVal ℝ)} {key : String} {v : OptVal ℝ} {f : Option String}
    (h1 : o.getItem key = .ok v) (h2 : v.asOptStr = .ok f) : f.getD "" = strOption o key :=
  strOption_eq o key f (read_ok h1 h2)

theorem truthyStr_iff (f : Option String) : truthyStr f = true ↔ f.getD "" ≠ "" := by
  cases f <;> simp [truthyStr]

theorem floatsOf_float {o : Dict (OptVal ℝ)} {key : String} {x : ℝ} (h : FloatOpt o key x) : floatsOf o key = [x] := by
  rw [FloatOpt] at h
  rw [floatsOf, h]

theorem floatsOf_floats {o : Dict (OptVal ℝ)} {key : String} {l : List ℝ} (h : FloatsOpt o key l) :
    floatsOf o key = l := by
  rw [FloatsOpt] at h
  rw [floatsOf, h]
  simp only
  induction l with
  | nil => rfl
  | cons a l ih => simp

theorem nats_filter : ∀ (vs : List (BaseVal ℝ)) (l : List Nat), (OptVal.list vs).asNats = .ok l →
    vs.filterMap (fun v => match v with
      | .int i => some i.toNat
      | _ => none) = l
  | [], l, h => by cases h; rfl
  | v :: vs, l, h => by
    unfold OptVal.asNats at h
    simp only [List.mapM_cons] at h
    obtain ⟨x, hx, h⟩ := bind_ok h
    obtain ⟨ys, hys, h⟩ := bind_ok h
    cases h
    rw [List.filterMap_cons, nats_filter vs ys hys]
    cases v <;> cases hx
    rfl

theorem natsOf_nats {o : Dict (OptVal ℝ)} {key : String} {v : OptVal ℝ} {l : List Nat} (h1 : o.getItem key = .ok v)
    (h2 : v.asNats = .ok l) : natsOf o key = l := by
  rw [natsOf, getItem_inv h1]
  cases v with
  | none => cases h2
  | base b => cases h2
  | list vs => exact nats_filter vs l h2

theorem bandwidth_floats {d : Nat} {o : Dict (OptVal ℝ)} {bw : List ℝ} (h : bdBandwidth d o = .ok bw) :
    floatsOf o "kernel-bandwidth" = bw := by
  unfold bdBandwidth at h
  obtain ⟨l, hl, h⟩ := bind_ok h
  split at h
  · cases h
  cases h
  split at hl
  · obtain ⟨v, g, hl⟩ := bind_ok hl
    obtain ⟨x, f, hl⟩ := bind_ok hl
    cases hl
    exact floatsOf_float (floatOpt g f)
  · obtain ⟨v, g, hl⟩ := bind_ok hl
    exact floatsOf_floats (floatsOpt g hl)

theorem setupBirthDeathP_out {d : Nat} (sh : Shows) (w : World R) (oneDim : Bool) (o : Dict (OptVal ℝ))
    (c : LdCfg ℝ d) (x : BdAct d × BdRunState R) (hv : ValidBirthDeath oneDim o) (h : setupBirthDeath w o c = .ok x) :
    (setupBirthDeathP sh w o c).out = birthDeathLines sh c o := by
  have h' := h
  unfold setupBirthDeath at h
  obtain ⟨bw, hbw, h⟩ := bind_ok h
  obtain ⟨v, hvar, h⟩ := bind_ok h
  obtain ⟨v1, g1, h⟩ := bind_ok h
  obtain ⟨y1, f1, h⟩ := bind_ok h
  obtain ⟨v2, g2, h⟩ := bind_ok h
  obtain ⟨y2, f2, h⟩ := bind_ok h
  obtain ⟨v3, g3, h⟩ := bind_ok h
  obtain ⟨y3, f3, h⟩ := bind_ok h
  obtain ⟨v4, g4, h⟩ := bind_ok h
  obtain ⟨y4, f4, h⟩ := bind_ok h
  obtain ⟨v5, g5, h⟩ := bind_ok h
  obtain ⟨y5, f5, h⟩ := bind_ok h
  obtain ⟨rng, hrng, h⟩ := bind_ok h
  obtain ⟨grid, hgrid, h⟩ := bind_ok h
  have hdens : (if v = .orig then (.ok () : Except PyErr Unit) else do
      let _ ← bdProbDensity (energyOfList c.pot) d c.pot.ranges bw c.kt
      return ()) = .ok () := by
    cases v with
    | orig => rfl
    | add =>
      obtain ⟨dens, hd, -⟩ := bind_ok hgrid
      simp [hd, ok_bind]
    | mult =>
      obtain ⟨dens, hd, -⟩ := bind_ok hgrid
      simp [hd, ok_bind]
  unfold setupBirthDeathP
  rw [Prints.quiet_bind_out _ _ _ hbw, Prints.quiet_bind_out _ _ _ hvar, Prints.quiet_bind_out _ _ _ (read_ok g1 f1),
    Prints.quiet_bind_out _ _ _ (read_ok g2 f2), Prints.quiet_bind_out _ _ _ (read_ok g3 f3),
    Prints.quiet_bind_out _ _ _ (read_ok g4 f4), Prints.quiet_bind_out _ _ _ (read_ok g5 f5),
    Prints.quiet_bind_out _ _ _ hrng, Prints.quiet_bind_out _ _ _ hdens, Prints.say_bind_out, saySeed_bind_out,
    Prints.sayIf_bind_out, Prints.say_bind_out, Prints.quiet_bind_out _ _ _ h', Prints.say_bind_out, Prints.pure_out]
  have hk : KnownLabels o := by
    by_contra hk
    rw [variant_unknown oneDim o hv hk] at hvar
    cases hvar
  rw [variant_partial oneDim o hv hk] at hvar
  obtain rfl : variantOf o = v := Except.ok.inj hvar
  have hfac : rateFactor y2 = factorOf o := by
    have g2 := getItem_inv g2
    rcases hv.factor with h0 | ⟨x, hx, hx0⟩
    · rw [h0] at g2
      cases g2
      cases f2
      simp [factorOf, h0, rateFactor]
    · rw [hx] at g2
      cases g2
      cases f2
      simp [factorOf, hx, rateFactor, ne_of_gt hx0]
  have hseed : seedLines ((bdSeed y5).getD 0) =
      if intOption o "seed" = 0 then [] else seedLines (intOption o "seed" + 1000) := by
    rw [← intOption_eq o "seed" y5 (read_ok g5 f5)]
    cases y5 with
    | none => rfl
    | some i =>
      by_cases hi : i = 0
      · subst hi; rfl
      · simp [bdSeed, hi]
  rw [birthDeathLines, hfac, hseed, bandwidth_floats hbw, stride_getD g1 f1, flagOption_eq o _ v3 y3 g3 f3]
  cases variantOf o <;> simp [approxText]

theorem setupTrajectoriesP_out (w : World R) (d : Nat) (o : Dict (OptVal ℝ)) (dt : ℝ) (n : Nat)
    (x : TrajCfg ℝ × TrajState ℝ) (hv : ValidOutput o) (h : setupTrajectories w d o dt n = .ok x) :
    (setupTrajectoriesP w d o dt n).out = trajectoryLines o := by
  have h' := h
  unfold setupTrajectories at h
  obtain ⟨v1, g1, h⟩ := bind_ok h
  obtain ⟨y1, f1, h⟩ := bind_ok h
  obtain ⟨v2, g2, h⟩ := bind_ok h
  obtain ⟨y2, f2, h⟩ := bind_ok h
  obtain ⟨v3, g3, h⟩ := bind_ok h
  obtain ⟨y3, f3, h⟩ := bind_ok h
  obtain ⟨v4, g4, h⟩ := bind_ok h
  obtain ⟨y4, f4, h⟩ := bind_ok h
  unfold setupTrajectoriesP
  rw [Prints.quiet_bind_out _ _ _ (read_ok g1 f1), Prints.quiet_bind_out _ _ _ (read_ok g2 f2),
    Prints.quiet_bind_out _ _ _ (read_ok g3 f3), Prints.quiet_bind_out _ _ _ (read_ok g4 f4), Prints.say_bind_out,
    Prints.quiet_bind_out _ _ _ h', Prints.sayIf_bind_out, Prints.say_bind_out, Prints.pure_out,
    filenameOption o v2 y2 g2 f2, str_getD g2 f2, (strideOption o "stride" v1 y1 1 hv.stride g1 f1).1, trajectoryLines]
  simp

theorem histogramBins_inv {d : Nat} {o : Dict (OptVal ℝ)} {rb : List (ℝ × ℝ) × List Nat}
    (h : histogramBins d o = .ok rb) :
    rb = ((floatsOf o "min").zip (floatsOf o "max"), natsOf o "bins") := by
  unfold histogramBins at h
  split at h
  · obtain ⟨r, hr, h⟩ := bind_ok h
    obtain ⟨v, g, h⟩ := bind_ok h
    obtain ⟨n, f, h⟩ := bind_ok h
    cases h
    obtain ⟨lo, hi, h1, h2, rfl⟩ := singleRange_inv hr
    rw [floatsOf_float h1, floatsOf_float h2, natsOf, getItem_inv g, asInt_inv f]
    rfl
  · obtain ⟨r, hr, h⟩ := bind_ok h
    obtain ⟨v, g, h⟩ := bind_ok h
    obtain ⟨n, f, h⟩ := bind_ok h
    cases h
    obtain ⟨lo, hi, h1, h2, rfl⟩ := zipRanges_inv hr
    rw [floatsOf_floats h1, floatsOf_floats h2, natsOf_nats g f]

theorem setupHistogramP_out (sh : Shows) (d : Nat) (o : Dict (OptVal ℝ)) (t : TrajCfg ℝ)
    (x : HistCfg × GridOut × Histogram ℝ) (hv : ValidOutput o) (h : setupHistogram d o t = .ok x) :
    (setupHistogramP sh d o t).out = histogramLines sh o := by
  have h' := h
  rw [setupHistogram_bins] at h
  obtain ⟨rb, hrb, h⟩ := bind_ok h
  obtain ⟨v1, g1, h⟩ := bind_ok h
  obtain ⟨y1, f1, h⟩ := bind_ok h
  obtain ⟨v2, g2, h⟩ := bind_ok h
  obtain ⟨y2, f2, h⟩ := bind_ok h
  obtain ⟨v3, g3, h⟩ := bind_ok h
  obtain ⟨y3, f3, h⟩ := bind_ok h
  obtain ⟨v4, g4, h⟩ := bind_ok h
  obtain ⟨y4, f4, h⟩ := bind_ok h
  obtain ⟨hh, hhh, h⟩ := bind_ok h
  unfold setupHistogramP
  rw [Prints.quiet_bind_out _ _ _ hrb, Prints.quiet_bind_out _ _ _ (read_ok g1 f1),
    Prints.quiet_bind_out _ _ _ (read_ok g2 f2),
    Prints.quiet_bind_out _ _ _ (read_ok g3 f3), Prints.quiet_bind_out _ _ _ (read_ok g4 f4), Prints.say_bind_out]
  rcases hnew : HistCfg.new t d rb.2 rb.1 y1 y2 true none with e | z
  · rw [HistCfg_new_error t d rb.2 rb.1 y1 y2 _ _ e hnew] at hhh
    cases hhh
  rw [Prints.quiet_bind_out (Except.ok z) z _ rfl, Prints.say_bind_out, Prints.quiet_bind_out _ _ _ h', Prints.sayIf_bind_out,
    Prints.say_bind_out, Prints.pure_out, str_getD g3 f3, (strideOption o "stride" v1 y1 1 hv.stride g1 f1).1,
    histogramLines, histogramBins_inv hrb]
  have := truthyNat_iff y4
  rw [stride_getD g4 f4] at this
  rw [stride_getD g4 f4]
  by_cases h0 : natOption o "write-stride" 0 = 0
  · simp [h0] at this
    simp [this, h0]
  · simp [h0] at this
    simp [this, h0]

theorem fesStrideP_out (what verb : String) (stride : Option Nat) (other : Int) (filename : Option String)
    (h : checkOutput (decide (other ≠ 0)) stride filename = .ok ()) :
    (fesStrideP what verb stride other filename).out = if other = 0 then [] else
      (if (stride.getD 0 : Int) ∣ other then [] else ["Warning: the " ++ what ++ " stride is no multiple of the update stride."])
        ++ [verb ++ " every " ++ toString other ++ " time steps to '" ++ filename.getD "" ++ "_{step}'"] := by
  unfold fesStrideP
  by_cases h0 : other = 0
  · simp [h0]
  unfold checkOutput at h
  simp only [h0, ne_eq, not_false_eq_true, decide_true, if_true] at h
  by_cases h1 : truthyNat stride = true
  · by_cases h2 : truthyStr filename = true
    · have hd : (stride.getD 0 : Int) ∣ other ↔ other % (stride.getD 0 : Int) = 0 := Int.dvd_iff_emod_eq_zero
      simp only [h0, h1, h2, hd, ne_eq, not_false_eq_true, if_true, if_false, Bool.not_true, Bool.false_eq_true,
        Prints.sayIf_bind_out, say_out, decide_not, Bool.not_eq_eq_eq_not, decide_eq_false_iff_not, ite_not]
    · simp only [Bool.not_eq_true] at h2
      simp [h1, h2] at h
  · simp only [Bool.not_eq_true] at h1
    simp [h1] at h

theorem fesStrideP_bind_out {β : Type} (what verb : String) (stride : Option Nat) (other : Int) (filename : Option String)
    (f : Unit → Prints β) (h : checkOutput (decide (other ≠ 0)) stride filename = .ok ()) :
    (fesStrideP what verb stride other filename >>= f).out = (if other = 0 then [] else
      (if (stride.getD 0 : Int) ∣ other then [] else ["Warning: the " ++ what ++ " stride is no multiple of the update stride."])
        ++ [verb ++ " every " ++ toString other ++ " time steps to '" ++ filename.getD "" ++ "_{step}'"]) ++ (f ()).out := by
  rw [Prints.bind_out_ok _ _ () (by rw [fesStrideP_res, h]), fesStrideP_out _ _ _ _ _ h]

theorem setupFesP_out {d : Nat} (sh : Shows) (w : World R) (o : Dict (OptVal ℝ)) (ld : LdCfg ℝ d) (hi : Histogram ℝ)
    (x : FesCfg × Nd (WithTop ℝ)) (h : setupFes w o ld hi = .ok x) :
    (setupFesP sh w o ld hi).out = fesLines sh ld.kt o := by
  have h' := h
  unfold setupFes at h
  obtain ⟨ref, hrf, h⟩ := bind_ok h
  obtain ⟨v1, g1, h⟩ := bind_ok h
  obtain ⟨y1, f1, h⟩ := bind_ok h
  obtain ⟨v2, g2, h⟩ := bind_ok h
  obtain ⟨y2, f2, h⟩ := bind_ok h
  obtain ⟨v3, g3, h⟩ := bind_ok h
  obtain ⟨y3, f3, h⟩ := bind_ok h
  obtain ⟨v4, g4, h⟩ := bind_ok h
  obtain ⟨y4, f4, h⟩ := bind_ok h
  obtain ⟨v5, g5, h⟩ := bind_ok h
  obtain ⟨y5, f5, h⟩ := bind_ok h
  obtain ⟨v6, g6, h⟩ := bind_ok h
  obtain ⟨y6, f6, h⟩ := bind_ok h
  obtain ⟨v7, g7, h⟩ := bind_ok h
  obtain ⟨y7, f7, h⟩ := bind_ok h
  obtain ⟨fes, hfes, h⟩ := bind_ok h
  obtain ⟨u, hu, h⟩ := bind_ok h
  obtain ⟨⟨⟩, hc1, h⟩ := bind_ok h
  obtain ⟨⟨⟩, hc2, h⟩ := bind_ok h
  rw [truthyNat_getD] at hc1
  unfold setupFesP
  rw [Prints.quiet_bind_out _ _ _ hrf, Prints.quiet_bind_out _ _ _ (read_ok g1 f1),
    Prints.quiet_bind_out _ _ _ (read_ok g2 f2), Prints.quiet_bind_out _ _ _ (read_ok g3 f3),
    Prints.quiet_bind_out _ _ _ (read_ok g4 f4), Prints.quiet_bind_out _ _ _ (read_ok g5 f5),
    Prints.quiet_bind_out _ _ _ (read_ok g6 f6), Prints.quiet_bind_out _ _ _ (read_ok g7 f7),
    Prints.say_bind_out, Prints.say_bind_out, Prints.quiet_bind_out _ _ _ hfes, Prints.sayIf_bind_out,
    Prints.quiet_bind_out _ _ _ hu, fesStrideP_bind_out _ _ _ _ _ _ hc1, fesStrideP_bind_out _ _ _ _ _ _ hc2,
    Prints.quiet_bind_out _ _ _ h', Prints.say_bind_out, Prints.pure_out, str_getD g2 f2, str_getD g5 f5,
    intOption_eq o "plot-stride" y4 (read_ok g4 f4), stride_getD g1 f1, stride_getD g3 f3]
  have := truthyNat_iff y1
  rw [stride_getD g1 f1] at this
  have hw : ((natOption o "stride" 0 : Nat) : Int) ∣ ((natOption o "write-stride" 0 : Nat) : Int) ↔
      natOption o "stride" 0 ∣ natOption o "write-stride" 0 := Int.natCast_dvd_natCast
  have e1 : "Warning: the " ++ "write" ++ " stride is no multiple of the update stride." =
      "Warning: the write stride is no multiple of the update stride." := by decide +kernel
  have e2 : "Warning: the " ++ "plot" ++ " stride is no multiple of the update stride." =
      "Warning: the plot stride is no multiple of the update stride." := by decide +kernel
  have e3 : "Saving FES" ++ " every " = "Saving FES every " := by decide +kernel
  have e4 : "Plotting" ++ " every " = "Plotting every " := by decide +kernel
  have e5 : toString ((natOption o "write-stride" 0 : Nat) : Int) = Nat.repr (natOption o "write-stride" 0) := rfl
  rw [e1, e2, e3, e4, e5, fesLines]
  simp only [hw, Nat.cast_eq_zero]
  by_cases h0 : natOption o "stride" 0 = 0
  · simp [h0] at this
    simp [this, h0]
  · simp [h0] at this
    simp [this, h0]

theorem seriesMessage_eq (what : String) {o : Dict (OptVal ℝ)} {v1 v2 : OptVal ℝ} {y1 : Option Nat} {y2 : Option String}
    (g1 : o.getItem "stride" = .ok v1) (f1 : v1.asOptStride = .ok y1) (g2 : o.getItem "filename" = .ok v2)
    (f2 : v2.asOptStr = .ok y2) :
    (if truthyStr y2 then [seriesMessage what y1 y2] else []) = seriesLines what o := by
  have := truthyNat_iff y1
  rw [stride_getD g1 f1] at this
  rw [filenameOption o v2 y2 g2 f2, seriesMessage, stride_getD g1 f1, str_getD g2 f2, seriesLines]
  have e1 : " " ++ "to '" = " to '" := by decide +kernel
  have e2 : " " ++ "of every " = " of every " := by decide +kernel
  have e3 : " time step " ++ "to '" = " time step to '" := by decide +kernel
  by_cases h0 : natOption o "stride" 0 = 0
  · simp [h0] at this
    rw [← e1]
    simp [this, h0, String.append_assoc]
  · simp [h0] at this
    rw [if_pos this, if_neg h0]
    have e4 : "Saving " ++ what ++ " " ++ ("of every " ++ makeOrdinal (natOption o "stride" 0 : Nat) ++ " time step ") ++
        "to '" = "Saving " ++ what ++ " of every " ++ makeOrdinal (natOption o "stride" 0 : Nat) ++ " time step to '" := by
      rw [← e2, ← e3]
      simp only [String.append_assoc]
    rw [e4]

theorem setupDeltaFP_out (w : World R) (fes o : Dict (OptVal ℝ)) (kt dt : ℝ) (fs : Option Nat) (hi : Histogram ℝ)
    (x : DeltaFCfg × SeriesState ℝ) (hfs : fs.getD 0 = natOption fes "stride" 0)
    (h : setupDeltaFAction w o kt dt hi = .ok x) :
    (setupDeltaFP w o kt dt fs hi).out = deltaFLines fes o := by
  have h' := h
  unfold setupDeltaFAction at h
  obtain ⟨states, hst, h⟩ := bind_ok h
  obtain ⟨masks, hm, h⟩ := bind_ok h
  obtain ⟨v1, g1, h⟩ := bind_ok h
  obtain ⟨y1, f1, h⟩ := bind_ok h
  obtain ⟨v2, g2, h⟩ := bind_ok h
  obtain ⟨y2, f2, h⟩ := bind_ok h
  have hpre : (if states.length < 2 then (.error .valueError : Except PyErr Unit) else do
      let points ← pointsOfAxes hi.axes
      let _ ← posInsideRanges hi.axes.length points states
      return ()) = .ok () := by
    unfold setupDeltaF at hm
    split at hm
    · cases hm
    rename_i hl
    rw [if_neg hl]
    obtain ⟨pts, hp, hm⟩ := bind_ok hm
    obtain ⟨ms, hms, hm⟩ := bind_ok hm
    simp only [hp, ok_bind, hms, pure_eq_ok]
  unfold setupDeltaFP
  rw [Prints.quiet_bind_out _ _ _ hst, Prints.quiet_bind_out _ _ _ hpre, Prints.say_bind_out,
    Prints.quiet_bind_out _ _ _ hm, Prints.quiet_bind_out _ _ _ (read_ok g1 f1),
    Prints.quiet_bind_out _ _ _ (read_ok g2 f2), Prints.sayIf_bind_out, Prints.quiet_bind_out _ _ _ h',
    Prints.sayIf_bind_out, Prints.say_bind_out, Prints.pure_out, seriesMessage_eq "delta-f" g1 f1 g2 f2, deltaFLines]
  have t1 := truthyNat_iff y1
  have t2 := truthyNat_iff fs
  rw [stride_getD g1 f1] at t1
  rw [hfs] at t2
  rw [stride_getD g1 f1, hfs]
  by_cases h0 : natOption o "stride" 0 = 0
  · simp [h0] at t1
    simp [t1, h0]
  · simp [h0] at t1
    by_cases h2 : natOption fes "stride" 0 = 0
    · simp [h2] at t2
      simp [t1, t2, h0, h2]
    · simp [h2] at t2
      by_cases h3 : natOption fes "stride" 0 ∣ natOption o "stride" 0
      · have := Nat.mod_eq_zero_of_dvd h3
        simp [t1, t2, h0, h2, h3, this]
      · have : natOption o "stride" 0 % natOption fes "stride" 0 ≠ 0 := fun h => h3 (Nat.dvd_of_mod_eq_zero h)
        simp [t1, t2, h0, h2, h3, this]

theorem setupDistributionP_out (w : World R) (o : Dict (OptVal ℝ))
    (x : DistCfg × SeriesState ℝ) (h : setupDistribution w o = .ok x) :
    (setupDistributionP w o).out = distributionLines o := by
  have h' := h
  unfold setupDistribution at h
  obtain ⟨states, hst, h⟩ := bind_ok h
  obtain ⟨v1, g1, h⟩ := bind_ok h
  obtain ⟨y1, f1, h⟩ := bind_ok h
  obtain ⟨v2, g2, h⟩ := bind_ok h
  obtain ⟨y2, f2, h⟩ := bind_ok h
  unfold setupDistributionP
  rw [Prints.quiet_bind_out _ _ _ hst, Prints.quiet_bind_out _ _ _ (read_ok g1 f1),
    Prints.quiet_bind_out _ _ _ (read_ok g2 f2), Prints.say_bind_out, Prints.quiet_bind_out _ _ _ h',
    Prints.sayIf_bind_out, Prints.say_bind_out, Prints.pure_out, seriesMessage_eq "distribution" g1 f1 g2 f2,
    distributionLines]
  simp

end Bdld
