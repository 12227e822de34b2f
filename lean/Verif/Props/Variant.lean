import Verif.Props.MainDemo
import Verif.Spec.Options

/-
Set-up of birth-death: approximation variant (C27) and constants.
-/

set_option linter.unusedSectionVars false

namespace Bdld

open Spec

variable {R : Type} {d : Nat}

/-! ### Variant -/

theorem approxFromStr_spec (s : String) : approxFromStr s =
    match variantNames.lookup s with
    | some v => .ok v
    | none => .error .typeError := by
  unfold approxFromStr variantNames
  by_cases h1 : s = "original"
  · subst h1; rfl
  by_cases h2 : s = "orig"
  · subst h2; rfl
  by_cases h3 : s = "additive"
  · subst h3; rfl
  by_cases h4 : s = "add"
  · subst h4; rfl
  by_cases h5 : s = "multiplicative"
  · subst h5; rfl
  by_cases h6 : s = "mult"
  · subst h6; rfl
  have b : ∀ t : String, s ≠ t → (s == t) = false := fun t h => by simpa using h
  simp [h1, h2, h3, h4, h5, h6, List.lookup, b]

theorem getApproxVariant_spec (o : Dict (OptVal ℝ)) (key : String)
    (h : NoneOr (IsStr anything) (o.get? key)) : getApproxVariant o key =
      match labelOf o key with
      | none => .ok none
      | some s => match variantNames.lookup s with
        | some v => .ok (some v)
        | none => .error .typeError := by
  unfold getApproxVariant labelOf Dict.getItem
  rcases h with h | ⟨s, h, _⟩
  · rw [h]; rfl
  · rw [h]
    simp only [ok_bind, OptVal.asOptStr, truthyStr, Option.getD]
    by_cases hs : s = ""
    · simp [hs, pure_eq_ok]
    · simp only [hs, not_false_eq_true, decide_true, if_true, ne_eq, if_false, approxFromStr_spec]
      cases variantNames.lookup s <;> rfl

/-- C27: if all names that are given are known, the variant is the one named by `approximation-variant`, else
by `correction-variant`, else the original one. -/
theorem variant_partial (oneDim : Bool) (o : Dict (OptVal ℝ)) (h : ValidBirthDeath oneDim o)
    (hk : KnownLabels o) : approxVariantOf o =
      .ok (match chosenLabel o with
        | none => .orig
        | some s => (variantNames.lookup s).getD .orig) := by
  have h1 := getApproxVariant_spec o _ h.correction
  have h2 := getApproxVariant_spec o _ h.approximation
  have k1 := hk "correction-variant" (by simp)
  have k2 := hk "approximation-variant" (by simp)
  simp only [approxVariantOf, List.foldlM, h1, h2, chosenLabel]
  cases hl : labelOf o "correction-variant" with
  | none =>
    cases hm : labelOf o "approximation-variant" with
    | none => rfl
    | some t =>
      obtain ⟨v, hv⟩ := Option.isSome_iff_exists.1 (k2 t hm)
      simp [hv, ok_bind, pure_eq_ok]
  | some s =>
    obtain ⟨u, hu⟩ := Option.isSome_iff_exists.1 (k1 s hl)
    cases hm : labelOf o "approximation-variant" with
    | none => simp [hu, ok_bind, pure_eq_ok]
    | some t =>
      obtain ⟨v, hv⟩ := Option.isSome_iff_exists.1 (k2 t hm)
      simp [hu, hv, ok_bind, pure_eq_ok]

theorem knownLabels_of (o : Dict (OptVal ℝ))
    (h1 : ∀ s, labelOf o "correction-variant" = some s → (variantNames.lookup s).isSome)
    (h2 : ∀ s, labelOf o "approximation-variant" = some s → (variantNames.lookup s).isSome) : KnownLabels o := by
  intro key hkey
  rcases List.mem_cons.1 hkey with rfl | hkey
  · exact h1
  · rw [List.mem_singleton.1 hkey]
    exact h2

/-- An unknown name raises `TypeError`. -/
theorem variant_unknown (oneDim : Bool) (o : Dict (OptVal ℝ)) (h : ValidBirthDeath oneDim o)
    (hk : ¬ KnownLabels o) : approxVariantOf o = .error .typeError := by
  have h1 := getApproxVariant_spec o _ h.correction
  have h2 := getApproxVariant_spec o _ h.approximation
  simp only [approxVariantOf, List.foldlM, h1, h2]
  cases hl : labelOf o "correction-variant" with
  | none =>
    cases hm : labelOf o "approximation-variant" with
    | none => exact absurd (knownLabels_of o (by rw [hl]; intro s hs; cases hs) (by rw [hm]; intro s hs; cases hs)) hk
    | some t =>
      cases hv : variantNames.lookup t with
      | none => simp [hv, ok_bind, pure_eq_ok, error_bind]
      | some v => exact absurd (knownLabels_of o (by rw [hl]; intro s hs; cases hs) (by rw [hm]; intro s hs; cases hs; rw [hv]; rfl)) hk
  | some s =>
    cases hu : variantNames.lookup s with
    | none => simp [hu, error_bind]
    | some u =>
      cases hm : labelOf o "approximation-variant" with
      | none => exact absurd (knownLabels_of o (by rw [hl]; intro s hs; cases hs; rw [hu]; rfl) (by rw [hm]; intro s hs; cases hs)) hk
      | some t =>
        cases hv : variantNames.lookup t with
        | none => simp [hu, hv, ok_bind, pure_eq_ok, error_bind]
        | some v => exact absurd (knownLabels_of o (by rw [hl]; intro s hs; cases hs; rw [hu]; rfl) (by rw [hm]; intro s hs; cases hs; rw [hv]; rfl)) hk

/-! ### The constants of the action -/

/-- The constants of the birth-death action are those given in the input: the bandwidths, the thermal energy of
the Langevin dynamics, the variant with its grid, the time step times the stride, the exponential factor
(1 if not given), bulk or recalculated probabilities. -/
theorem setupBirthDeath_inv (w : World R) (oneDim : Bool) (o : Dict (OptVal ℝ)) (c : LdCfg ℝ d)
    (b : BdAct d) (s : BdRunState R) (hv : ValidBirthDeath oneDim o)
    (h : setupBirthDeath w o c = .ok (b, s)) : ∃ (bw : List ℝ) (grid : Option (Grid ℝ)) (stride : Nat) (recalc : Bool) (fac : ℝ),
      bdBandwidth d o = .ok bw ∧ bw.length = d ∧ KnownLabels o ∧
      bdApproxGrid w c bw (match chosenLabel o with
        | none => .orig
        | some s => (variantNames.lookup s).getD .orig) = .ok grid ∧
      o.get? "stride" = some (.base (.int stride)) ∧ 0 < stride ∧
      o.get? "recalculate-probabilities" = some (.base (.bool recalc)) ∧
      (o.get? "exponential-factor" = some .none ∧ fac = 1 ∨
        o.get? "exponential-factor" = some (.base (.float fac)) ∧ 0 < fac) ∧
      b.cfg = realBdCfg { bw := fun k => bw.getD k 0, kt := c.kt, variant := (match chosenLabel o with
        | none => .orig
        | some s => (variantNames.lookup s).getD .orig), approx := fun p => approxAt w grid (List.ofFn p) }
        (c.dt * stride) fac recalc (fun p => ⟨p.pos, p.energy⟩) ∧
      b.stride = stride ∧ s.stats = ⟨0, 0, 0, 0⟩ ∧ s.log = [] := by
  obtain ⟨bw, hbw, h⟩ := bind_ok h
  obtain ⟨v, hvar, h⟩ := bind_ok h
  have hk : KnownLabels o := by
    by_contra hk
    rw [variant_unknown oneDim o hv hk] at hvar
    cases hvar
  rw [variant_partial oneDim o hv hk] at hvar
  cases hvar
  obtain ⟨i, hi, hpos⟩ := hv.stride
  obtain ⟨rc, hrc⟩ := hv.recalc
  have hlen : bw.length = d := by
    have := hbw
    unfold bdBandwidth at this
    obtain ⟨l, _, this⟩ := bind_ok this
    split at this
    · cases this
    · rename_i hl
      cases this
      simpa using hl
  simp only [Dict.getItem, hi, hrc, ok_bind, OptVal.asOptStride, OptVal.asFlag] at h
  obtain ⟨f, hf, h⟩ := bind_ok h
  obtain ⟨f', hf', h⟩ := bind_ok h
  obtain ⟨ss, hss, h⟩ := bind_ok h
  obtain ⟨ss', hss', h⟩ := bind_ok h
  obtain ⟨sd, hsd, h⟩ := bind_ok h
  obtain ⟨sd', hsd', h⟩ := bind_ok h
  obtain ⟨rng, hrng, h⟩ := bind_ok h
  obtain ⟨grid, hgrid, h⟩ := bind_ok h
  have hcast : ((i.toNat : Nat) : Int) = i := Int.toNat_of_nonneg (le_of_lt hpos)
  refine ⟨bw, grid, i.toNat, rc, rateFactor f', hbw, hlen, hk,
    hgrid, ?_, ?_, hrc, ?_, ?_, ?_, ?_, ?_⟩
  · rw [hi, hcast]
  · omega
  · rcases hv.factor with h0 | ⟨x, hx, hx0⟩
    · rw [h0] at hf
      cases hf
      cases hf'
      exact Or.inl ⟨h0, rfl⟩
    · rw [hx] at hf
      cases hf
      cases hf'
      refine Or.inr ?_
      simp only [rateFactor, ne_of_gt hx0, if_false]
      exact ⟨hx, hx0⟩
  all_goals cases h; rfl

/-! ### The whole program -/

/-- With an unknown name the program ends with an exception that is not caught. -/
theorem variant_unknown_main (w : World R) (file : Option (List Section)) (config : Input ℝ) (r : AnySim R)
    (o : Dict (OptVal ℝ)) (bw : List ℝ) (hp : parseAll 1 w.conv file = .ok config)
    (hr : setupRequired w config = .ok r) (hb : config.birthDeath = some o)
    (hbw : bdBandwidth r.d o = .ok bw) (hk : ¬ KnownLabels o) :
    mainProgram w file = .uncaught .typeError := by
  have hv := (input_valid 1 one_pos file config hp).birthDeath
  rw [hb] at hv
  have hu := variant_unknown _ o (hv o rfl) hk
  have hs : setupOptional w config r.cfg r.sim = .error .typeError := by
    simp only [setupOptional, hb, setupBirthDeath, hbw, hu, ok_bind, error_bind]
  simp only [mainProgram, hp, mainFrom, hr, hs, raise, caughtSetup]
  rfl

/-- The program never finishes with an unknown name. -/
theorem variant_known_main (w : World R) (file : Option (List Section)) (config : Input ℝ) (a : AnySim R)
    (o : Dict (OptVal ℝ)) (hp : parseAll 1 w.conv file = .ok config) (hb : config.birthDeath = some o)
    (h : mainProgram w file = .finished a) : KnownLabels o := by
  obtain ⟨config', r, x, n, s, hp', hr, hx, hn, hs, rfl⟩ := main_inv w file a h
  rw [hp] at hp'
  cases hp'
  have hv := (input_valid 1 one_pos file config hp).birthDeath
  rw [hb] at hv
  simp only [setupOptional, hb] at hx
  obtain ⟨y, hy, hx⟩ := bind_ok hx
  obtain ⟨z, hz, hy⟩ := bind_ok hy
  obtain ⟨_, _, _, _, _, _, _, hk, _⟩ := setupBirthDeath_inv w _ o _ z.1 z.2 (hv o rfl) hz
  exact hk

/-! ### Example -/

noncomputable section

/-- Birth-death with an unknown name of the variant. -/
def demoBdBad : Section := demoSection "birth-death"
  [("stride", "1"), ("kernel-bandwidth", "1"), ("correction-variant", "mult"), ("approximation-variant", "foo")]

def demoBdBadOpts : Dict (OptVal ℝ) :=
  [("stride", .base (.int 1)), ("correction-variant", .base (.str "mult")),
   ("approximation-variant", .base (.str "foo")),
   ("exponential-factor", .none), ("recalculate-probabilities", .base (.bool false)), ("stats-stride", .none),
   ("stats-filename", .none), ("seed", .none), ("kernel-bandwidth", .base (.float 1))]

def demoFileBad : List Section := [demoLd, demoPot, demoPart, demoBdBad]

theorem demo_parse_bad : parseAll 1 demoConv (some demoFileBad) =
    .ok { ld := demoLdOpts, potential := demoPotOpts, particles := demoPartOpts, birthDeath := some demoBdBadOpts } := by
  have h : parseSection demoConv demoBdBad (birthDeathOptions true) = .ok demoBdBadOpts := by
    simp [demoBdBad, demoBdBadOpts, demoSection, birthDeathOptions, InputOption.parse, opt,
      Dict.get?, List.lookup, InputOption.convert, parseSection, parseLoop, Dict.set, demoConv,
      positive, gtZero, cmpNum, ok_bind, pure_eq_ok]
  have f1 : findSection demoFileBad "ld" = some demoLd := rfl
  have f2 : findSection demoFileBad "potential" = some demoPot := rfl
  have f3 : findSection demoFileBad "particles" = some demoPart := rfl
  have f4 : findSection demoFileBad "birth-death" = some demoBdBad := rfl
  have f5 : findSection demoFileBad "trajectories" = none := rfl
  have f6 : findSection demoFileBad "histogram" = none := rfl
  have f7 : findSection demoFileBad "fes" = none := rfl
  have f8 : findSection demoFileBad "delta-f" = none := rfl
  have f9 : findSection demoFileBad "particle-distribution" = none := rfl
  simp only [parseAll, requireSection, parseOptional, f1, f2, f3, f4, f5, f6, f7, f8, f9, ok_bind, pure_eq_ok,
    demo_parseLd, demo_parsePot, demo_parsePart, h, demo_oneDim]

theorem demo_bad : mainProgram (demoWorld true) (some demoFileBad) = .uncaught .typeError := by
  refine variant_unknown_main (demoWorld true) _ _ _ demoBdBadOpts [1] demo_parse_bad
    (demo_required true _ rfl rfl rfl) rfl ?_ ?_
  · simp [bdBandwidth, demoBdBadOpts, Dict.getItem, Dict.get?, List.lookup, ok_bind, pure_eq_ok, OptVal.asFloat]
  · intro hk
    have := hk "approximation-variant" (by simp) "foo" (by simp [labelOf, demoBdBadOpts, Dict.get?, List.lookup])
    revert this
    decide

/-- C27 is false: an unknown name is not reported, and the exit code is not set by the program. -/
theorem variant_false : ¬ ∀ (w : World Bool) (file : Option (List Section)) (config : Input ℝ)
    (o : Dict (OptVal ℝ)), parseAll 1 w.conv file = .ok config → config.birthDeath = some o →
      ¬ KnownLabels o → mainProgram w file = .exit1 := by
  intro h
  have := h (demoWorld true) _ _ demoBdBadOpts demo_parse_bad rfl (by
    intro hk
    have := hk "approximation-variant" (by simp) "foo" (by simp [labelOf, demoBdBadOpts, Dict.get?, List.lookup])
    revert this
    decide)
  rw [demo_bad] at this
  cases this

/-- Non-vacuity of the partial theorem: both names are given. -/
example : ∃ o : Dict (OptVal ℝ), ValidBirthDeath true o ∧ KnownLabels o ∧ chosenLabel o = some "add" := by
  refine ⟨[("stride", .base (.int 1)), ("correction-variant", .base (.str "mult")),
    ("approximation-variant", .base (.str "add")), ("exponential-factor", .none),
    ("recalculate-probabilities", .base (.bool false)), ("stats-stride", .none),
    ("stats-filename", .none), ("seed", .none), ("kernel-bandwidth", .base (.float 1))], ?_, ?_, ?_⟩
  · exact ⟨⟨1, rfl, by decide⟩, .inr ⟨_, rfl, trivial⟩, .inr ⟨_, rfl, trivial⟩, .inl rfl, ⟨false, rfl⟩, .inl rfl,
      .inl rfl, .inl rfl, ⟨1, rfl, one_pos⟩⟩
  · refine knownLabels_of _ ?_ ?_
    · intro s hs
      have : s = "mult" := by
        simpa [labelOf, Dict.get?, List.lookup] using hs.symm
      subst this; decide
    · intro s hs
      have : s = "add" := by
        simpa [labelOf, Dict.get?, List.lookup] using hs.symm
      subst this; decide
  · simp [chosenLabel, labelOf, Dict.get?, List.lookup]

end

end Bdld
