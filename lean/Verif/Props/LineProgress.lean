import Verif.Spec.Consistent
import Verif.Props.MainProgress
import Verif.Props.MainCorrection
import Verif.Props.OutputSettings
import Verif.Props.Variant
import Verif.Props.InitInput

/-
C122: one-dimensional input without contradictions is simulated to the end.
-/

namespace Bdld
open Spec

variable {R : Type}

/-! ### Required parts -/

theorem item_of {o : Dict (OptVal ℝ)} {key : String} {v : OptVal ℝ} (h : o.get? key = some v) : o.getItem key = .ok v :=
  getItem_some o key v h

theorem seed_item {o : Dict (OptVal ℝ)} (h : NoneOr (IsInt anything) (o.get? "seed")) (hs : GoodSeed o) :
    ∃ v i, o.getItem "seed" = .ok v ∧ v.asOptInt = .ok i ∧ ∀ k, i = some k → 0 ≤ k := by
  rcases h with h | ⟨i, h, _⟩
  · exact ⟨_, none, item_of h, rfl, by simp⟩
  · refine ⟨_, some i, item_of h, rfl, fun k hk => ?_⟩
    cases hk
    exact hs i h

theorem defaultRng_ok (w : World R) (u : RngUser) (i : Option Int) (h : ∀ k, i = some k → 0 ≤ k) : ∃ r, w.defaultRng u i = .ok r := by
  cases i with
  | none => exact ⟨_, rfl⟩
  | some k => exact ⟨w.fromSeed k.toNat, by rw [World.defaultRng, if_neg (by have := h k rfl; omega)]⟩

theorem strItem {o : Dict (OptVal ℝ)} {key : String} (hv : NoneOr (IsStr anything) (o.get? key)) :
    ∃ v s, o.getItem key = .ok v ∧ v.asOptStr = .ok s := by
  obtain ⟨v, s, h1, h2, _⟩ := stringItem hv
  exact ⟨v, s, h1, h2⟩

/-- The polynomial in one dimension. -/
theorem setupPotential_line (w : World R) (o : Dict (OptVal ℝ)) (hv : ValidPotential o)
    (ht : o.get? "type" = some (.base (.str "polynomial"))) (hd : o.get? "n_dim" = some (.base (.int 1)))
    (hc : o.get? "coeffs" ≠ some .none) (hr : GoodRange (· < ·) o) :
    ∃ (pot : Potential ℝ 1) (lo hi : ℝ), setupPotential w o = .ok ⟨1, pot⟩ ∧ pot.ranges = [(lo, hi)] ∧ lo < hi := by
  obtain ⟨h1, ⟨lo, h2, _⟩, ⟨hi, h3, _⟩⟩ := hv.oneDim ht hd
  obtain ⟨v, s, b1, b2⟩ := strItem hv.bound
  rcases h1 with h1 | ⟨cs, h1, _⟩
  · exact absurd h1 hc
  · refine ⟨Potential.withBcOption ⟨polyEnergy (coeffs1d cs), polyForce (coeffs1d cs), baseEvaluate (polyEnergy (coeffs1d cs)) (polyForce (coeffs1d cs)),
      [(lo, hi)], none⟩ s, lo, hi, ?_, rfl, hr lo hi h2 h3⟩
    rw [setupPotential, item_of ht]
    simp only [ok_bind, setupPolynomial, item_of hd, item_of h1, singleRange, item_of h2, item_of h3, OptVal.asFloat, asFloats_map,
      newPolynomial, b1, b2, pure_eq_ok]
    rfl

theorem setupLd_line (w : World R) (o : Dict (OptVal ℝ)) (hv : ValidLd o) (hs : GoodSeed o) {d : Nat} (pot : Potential ℝ d) :
    ∃ l, setupLd w o pot = .ok l ∧ l.cfg.pot = pot ∧ l.state.particles = [] := by
  obtain ⟨dt, h1, _⟩ := hv.timestep
  obtain ⟨v, i, s1, s2, s3⟩ := seed_item hv.seed hs
  obtain ⟨r, hr⟩ := defaultRng_ok w .ld i s3
  obtain ⟨t, ht, rfl | rfl⟩ := hv.type
  · refine ⟨⟨.overdamped, overdampedCfg pot dt, ⟨[], r⟩⟩, ?_, rfl, rfl⟩
    rw [setupLd, item_of ht]
    simp only [ok_bind, item_of h1, OptVal.asFloat, s1, s2, hr, pure_eq_ok]
  · obtain ⟨kt, h2, _⟩ := hv.kt ht
    obtain ⟨fr, h3, _⟩ := hv.friction ht
    refine ⟨⟨.bussi, bussiCfg pot dt fr kt, ⟨[], r⟩⟩, ?_, rfl, rfl⟩
    rw [setupLd, item_of ht]
    simp only [ok_bind, item_of h1, item_of h2, item_of h3, OptVal.asFloat, s1, s2, hr, pure_eq_ok]

/-- The walkers. -/
theorem init_line (w : World R) (hw : w.init.Lawful) (conv : Conv ℝ) (sec : Section) (o : Dict (OptVal ℝ))
    (hp : parseParticles 1 conv sec = .ok o) (hs : GoodSeed o) (hg : GoodStart o) (c : LdCfg ℝ 1) {lo hi : ℝ}
    (hr : c.pot.ranges = [(lo, hi)]) (hlt : lo < hi) (s : LdState ℝ 1 R) (he : s.particles = []) :
    ∃ s', initParticles pyTrunc w.init (w.defaultRng .particles) c o s = .ok s' ∧
      o.get? "number" = some (.base (.int s'.particles.length)) := by
  have hv := particles_valid 1 one_pos sec o hp
  have hseed : SeedAccepted (w.defaultRng .particles) o := by
    intro v seed e1 e2
    obtain ⟨v', i, s1, s2, s3⟩ := seed_item hv.seed hs
    rw [s1] at e1
    cases e1
    rw [s2] at e2
    cases e2
    exact defaultRng_ok w _ _ s3
  rcases hg with hg | ⟨choices, h1, h2, ⟨hg, h3⟩ | ⟨hg, h3⟩⟩
  · obtain ⟨n, m, new, e1, _, e2, e3, _⟩ := init_random_global pyTrunc w.init hw (w.defaultRng .particles) c o hv hg hseed
      (by rw [hr]; rfl) (by rw [hr]; intro x hx; rw [List.mem_singleton.1 hx]; exact hlt.le) s
    refine ⟨_, e2, ?_⟩
    rw [e1, he, ← e3]
    rfl
  · obtain ⟨n, m, new, e1, _, e2, e3, _⟩ := init_random_pos pyTrunc w.init hw (w.defaultRng .particles) c 1 one_pos conv sec o hp hg
      choices h1 hseed h3 h2 s
    refine ⟨_, e2, ?_⟩
    rw [e1, he, ← e3]
    rfl
  · obtain ⟨fr, hf, _⟩ := hv.fractions hg
    obtain ⟨f1, f2, f3⟩ := h3 fr hf
    obtain ⟨n, m, e1, _, e2, e3⟩ := init_fractions_partial w.init (w.defaultRng .particles) c o hv hg fr hf choices h1 f1 f2 f3 h2 s
    refine ⟨_, e2, ?_⟩
    rw [e1, he, List.nil_append, e3]

/-! ### Birth-death -/

theorem setupBirthDeath_line (w : World R) (o : Dict (OptVal ℝ)) (hv : ValidBirthDeath true o) (hs : GoodSeed o) (hk : KnownLabels o)
    (c : LdCfg ℝ 1) {lo hi : ℝ} (hr : c.pot.ranges = [(lo, hi)]) (hlt : lo < hi) (hlin : variantOf o ≠ .orig → LinearGriddata w) :
    ∃ b, setupBirthDeath w o c = .ok b := by
  obtain ⟨bw, hbw, hpos⟩ := hv.bandwidth
  obtain ⟨i, hst, _⟩ := hv.stride
  have hst' : (OptVal.base (BaseVal.int i) : OptVal ℝ).asOptStride = .ok (some i.toNat) := rfl
  obtain ⟨rc, hrc⟩ := hv.recalc
  obtain ⟨v4, ss, d1, d2, _⟩ := strideItem hv.statsStride
  obtain ⟨v5, sd, s1, s2, s3⟩ := seed_item hv.seed hs
  obtain ⟨v6, ef, f1, f2⟩ : ∃ v f, o.getItem "exponential-factor" = .ok v ∧ v.asOptFloat = .ok f := by
    rcases hv.factor with h | ⟨x, h, _⟩
    · exact ⟨_, _, item_of h, rfl⟩
    · exact ⟨_, _, item_of h, rfl⟩
  obtain ⟨g, hg⟩ := defaultRng_ok w .birthDeath (bdSeed sd) (by
    intro k hk
    cases sd with
    | none => cases hk
    | some s =>
      have := s3 s rfl
      rw [bdSeed] at hk
      split at hk
      · cases hk
      · cases hk; omega)
  have hbd : bdBandwidth 1 o = .ok [bw] := by
    rw [bdBandwidth, if_pos rfl, item_of hbw]
    rfl
  have hgrid : ∃ x, bdApproxGrid w c [bw] (variantOf o) = .ok x := by
    obtain ⟨y, g1, g2, g3, g4, g5, g6, g7⟩ := density_line ⟨lo, hi, bw, c.kt, fun x => energyOfList c.pot [x]⟩ hlt
      (energyOfList c.pot) (fun _ => rfl)
    cases hvar : variantOf o with
    | orig => exact ⟨_, rfl⟩
    | add =>
      obtain ⟨m, m1, _⟩ := additive_line w (hlin (by rw [hvar]; simp)) _ hlt hpos y g2 g3 g4 g5 g6 g7
      refine ⟨some m, ?_⟩
      unfold bdApproxGrid
      simp only
      rw [hr, show bdProbDensity (energyOfList c.pot) 1 [(lo, hi)] [bw] c.kt = .ok y from g1]
      simp only [ok_bind]
      rw [m1]
      rfl
    | mult =>
      obtain ⟨m, m1, _⟩ := multiplicative_line w (hlin (by rw [hvar]; simp)) _ hlt hpos y g2 g3 g4 g5 g6 g7
      refine ⟨some m, ?_⟩
      unfold bdApproxGrid
      simp only
      rw [hr, show bdProbDensity (energyOfList c.pot) 1 [(lo, hi)] [bw] c.kt = .ok y from g1]
      simp only [ok_bind]
      rw [m1]
      rfl
  obtain ⟨x, hx⟩ := hgrid
  have hvar : approxVariantOf o = .ok (variantOf o) := variant_partial true o hv hk
  unfold setupBirthDeath
  simp only [hbd, hvar, item_of hst, hst', f1, f2, item_of hrc, OptVal.asFlag, d1, d2, s1, s2, hg, hx, ok_bind, pure_eq_ok]
  exact ⟨_, rfl⟩

/-! ### Analysis -/

theorem checkFields_one (f : Option String) : checkFields 1 f = .ok () := by
  unfold checkFields
  split <;> rfl

theorem setupTrajectories_line (w : World R) (o : Dict (OptVal ℝ)) (hv : ValidOutput o) (hm : NoneOr IsBool (o.get? "momentum")) (dt : ℝ)
    (n : Nat) : ∃ t, setupTrajectories w 1 o dt n = .ok t := by
  obtain ⟨v1, s, a1, a2, _⟩ := strideItem hv.stride
  obtain ⟨v2, f, b1, b2⟩ := strItem hv.filename
  obtain ⟨v3, ws, c1, c2, _⟩ := strideItem hv.writeStride
  obtain ⟨v4, m, d1, d2⟩ : ∃ v m, o.getItem "momentum" = .ok v ∧ v.asFlag = .ok m := by
    rcases hm with h | ⟨b, h⟩
    · exact ⟨_, _, item_of h, rfl⟩
    · exact ⟨_, _, item_of h, rfl⟩
  simp only [setupTrajectories, a1, a2, b1, b2, c1, c2, d1, d2, checkFields_one, ok_bind, pure_eq_ok]
  exact ⟨_, rfl⟩

theorem asNats_map (l : List Int) : (OptVal.list (l.map .int) : OptVal ℝ).asNats = .ok (l.map Int.toNat) := by
  unfold OptVal.asNats
  simp only
  induction l with
  | nil => rfl
  | cons a l ih => rw [List.map_cons, List.mapM_cons, ih]; rfl

theorem histogram_line (n : Nat) (hn : 0 < n) (lo hi : ℝ) (h : lo ≤ hi) :
    ∃ edges data, Histogram.new [n] [(lo, hi)] = .ok ⟨[edges], data⟩ ∧ edges.length = n + 1 := by
  obtain ⟨edges, he, hl⟩ : ∃ edges, npEdges n (lo, hi) = .ok edges ∧ edges.length = n + 1 := by
    unfold npEdges
    rw [if_neg (not_lt.2 h)]
    split <;> exact ⟨_, rfl, by simp [linEdges]⟩
  have : ∃ data, Histogram.new [n] [(lo, hi)] = .ok ⟨[edges], data⟩ := by
    unfold Histogram.new
    simp only [List.length_cons, List.length_nil, Nat.lt_irrefl, if_false, List.zip_cons_cons, List.zip_nil_left, List.any_cons,
      List.any_nil, Bool.or_false, List.mapM_cons, List.mapM_nil, he, ok_bind, pure_eq_ok]
    rw [if_neg (by simpa using hn.ne')]
    exact ⟨_, rfl⟩
  obtain ⟨data, h'⟩ := this
  exact ⟨edges, data, h', hl⟩

theorem setupHistogram_line (o : Dict (OptVal ℝ)) (hv : ValidHistogram true o) (hr : GoodRange (· ≤ ·) o) (hb : ¬ BadHistogramOutput o)
    (t : TrajCfg ℝ) : ∃ x edges data, setupHistogram 1 o t = .ok x ∧ x.2.2 = ⟨[edges], data⟩ ∧ 2 ≤ edges.length := by
  obtain ⟨v1, s, a1, a2, _⟩ := strideItem hv.stride
  obtain ⟨v2, f, b1, b2, b3⟩ := stringItem hv.filename
  obtain ⟨v3, ws, c1, c2, _, c4⟩ := strideItem hv.writeStride
  obtain ⟨v4, rs, d1, d2⟩ : ∃ v m, o.getItem "reset" = .ok v ∧ v.asOptNats = .ok m := by
    rcases hv.reset with h | ⟨l, h, _⟩
    · exact ⟨_, _, item_of h, rfl⟩
    · exact ⟨_, some (l.map Int.toNat), item_of h, by simp only [OptVal.asOptNats, asNats_map, ok_bind, pure_eq_ok]⟩
  obtain ⟨k, hk, hkpos⟩ := hv.bins
  obtain ⟨lo, hlo, _⟩ := hv.min
  obtain ⟨hi, hhi, _⟩ := hv.max
  obtain ⟨edges, data, hn, hl⟩ := histogram_line k.toNat (by omega) lo hi (hr lo hi hlo hhi)
  have hno : (truthyNat ws && !truthyStr f) = false := by
    rw [Bool.eq_false_iff]
    intro h
    rw [Bool.and_eq_true, Bool.not_eq_true'] at h
    refine hb ⟨c4.1 h.1, ?_⟩
    rw [Bool.eq_false_iff]
    intro h'
    rw [b3.2 ((hasFilename_iff o).1 h')] at h
    exact absurd h.2 (by simp)
  suffices ∃ x : HistCfg × GridOut × Histogram ℝ, setupHistogram 1 o t = .ok x ∧ x.2.2 = ⟨[edges], data⟩ by
    obtain ⟨x, h1, h2⟩ := this
    exact ⟨x, edges, data, h1, h2, by omega⟩
  · unfold setupHistogram
    simp only [if_true, singleRange, item_of hlo, item_of hhi, OptVal.asFloat, item_of hk, OptVal.asInt, a1, a2, b1, b2, c1, c2, d1, d2, ok_bind,
      pure_eq_ok, HistCfg.new, hn, hno, checkFields_one]
    exact ⟨_, rfl, rfl⟩

theorem npMin_ok {F : Type} [LT F] [DecidableLT F] (l : List F) (h : l ≠ []) : ∃ m, npMin l = .ok m := by
  cases l with
  | nil => exact absurd rfl h
  | cons a l => exact ⟨_, rfl⟩

theorem binCenters_ne {edges : List ℝ} (h : 2 ≤ edges.length) : binCenters edges ≠ [] := by
  match edges, h with
  | a :: b :: l, _ => simp [binCenters]

theorem calculateFes_ok (counts : Nd Nat) (kt : ℝ) (h : counts.flat ≠ []) : ∃ f, calculateFes counts kt true = .ok f := by
  obtain ⟨m, hm⟩ := npMin_ok (counts.map (fesValue kt)).flat (by simpa [Nd.map] using h)
  unfold calculateFes
  simp only [if_true, hm, ok_bind]
  cases m <;> exact ⟨_, rfl⟩

theorem setupFes_line (w : World R) (o : Dict (OptVal ℝ)) (hv : ValidFes o) (hb : ¬ BadFesOutput o) (c : LdCfg ℝ 1) (edges : List ℝ)
    (data : List Nat → Nat) (he : 2 ≤ edges.length) : ∃ f, setupFes w o c ⟨[edges], data⟩ = .ok f := by
  obtain ⟨v1, s, a1, a2, a3, a4⟩ := strideItem hv.stride
  obtain ⟨v2, f, b1, b2, b3⟩ := stringItem hv.filename
  obtain ⟨v3, ws, c1, c2, c3, c4⟩ := strideItem hv.writeStride
  obtain ⟨v4, pf, d1, d2, d3⟩ := stringItem hv.plotFilename
  obtain ⟨v5, pt, e1, e2⟩ := strItem hv.plotTitle
  obtain ⟨v6, ps, f1, f2, f3⟩ : ∃ v m, o.getItem "plot-stride" = .ok v ∧ v.asOptInt = .ok m ∧ m.getD 0 = intOption o "plot-stride" := by
    rcases hv.plotStride with h | ⟨x, h, _⟩
    · exact ⟨_, none, item_of h, rfl, by simp [intOption, h]⟩
    · exact ⟨_, some x, item_of h, rfl, by simp [intOption, h]⟩
  obtain ⟨v7, pd, g1, g2⟩ : ∃ v m, o.getItem "plot-domain" = .ok v ∧ v.asOptFloats = .ok m := by
    rcases hv.plotDomain with h | ⟨l, h, _⟩
    · exact ⟨_, _, item_of h, rfl⟩
    · exact ⟨_, some l, item_of h, by simp only [OptVal.asOptFloats, asFloats_map, ok_bind, pure_eq_ok]⟩
  have href : ∃ r, fesReference c.pot ⟨[edges], data⟩ = .ok r := by
    obtain ⟨m, hm⟩ := npMin_ok ((((binCenters edges).map (fun x => [x])).map (fun q (k : Fin 1) => q.getD k 0)).map c.pot.energy)
      (by simpa using binCenters_ne he)
    unfold fesReference
    rw [show (⟨[edges], data⟩ : Histogram ℝ).axes = [binCenters edges] from rfl, points_1d]
    simp only [ok_bind, calculateReference, if_true, hm]
    exact ⟨_, rfl⟩
  obtain ⟨r, hr⟩ := href
  obtain ⟨fe, hfe⟩ := calculateFes_ok (⟨[edges], data⟩ : Histogram ℝ).counts c.kt (by
    intro h0
    have : (⟨[edges], data⟩ : Histogram ℝ).counts.flat.length = 0 := by rw [h0]; rfl
    simp [Histogram.counts, Nd.ofFn, Histogram.shape, indices] at this
    omega)
  have hchk : ∀ (b : Bool) (fn : Option String), (b = true → truthyNat s = true ∧ truthyStr fn = true) → checkOutput b s fn = .ok () := by
    intro b fn h
    rcases (checkOutput_rejects b s fn).2 with h' | h'
    · exact h'
    · obtain ⟨k1, k2⟩ := (checkOutput_rejects b s fn).1.1 h'
      obtain ⟨l1, l2⟩ := h k1
      rw [l1, l2] at k2
      simp at k2
  rw [BadFesOutput, not_or] at hb
  have h1 := hchk (truthyNat ws) f fun h => by
    by_contra hn
    refine hb.1 ⟨c4.1 h, ?_⟩
    by_cases hs : natOption o "stride" 0 = 0
    · exact .inl hs
    · refine .inr ?_
      rw [Bool.eq_false_iff]
      exact fun h' => hn ⟨a4.2 (by omega), b3.2 ((hasFilename_iff o).1 h')⟩
  have h2 := hchk (decide (ps.getD 0 ≠ 0)) pf fun h => by
    by_contra hn
    rw [decide_eq_true_eq, f3] at h
    refine hb.2 ⟨h, ?_⟩
    by_cases hs : natOption o "stride" 0 = 0
    · exact .inl hs
    · refine .inr ?_
      by_contra h'
      exact hn ⟨a4.2 (by omega), d3.2 h'⟩
  simp only [setupFes, hr, a1, a2, b1, b2, c1, c2, d1, d2, e1, e2, f1, f2, g1, g2, hfe, checkFields_one, h1, h2, ok_bind, pure_eq_ok]
  exact ⟨_, rfl⟩

theorem ofOptVal_singles (l : List ℝ) : (l.map (fun x => (OptVal.list [.float x] : OptVal ℝ))).mapM Item.ofOptVal = .ok (l.map fun x => .lst [x]) := by
  induction l with
  | nil => rfl
  | cons a l ih => rw [List.map_cons, List.mapM_cons, ih]; rfl

theorem checkDims_singles (a b : List ℝ) : checkDims 1 (a.map fun x => Item.lst [x]) (b.map fun x => Item.lst [x]) = .ok () := by
  induction a generalizing b with
  | nil => rfl
  | cons x a ih =>
    cases b with
    | nil => rfl
    | cons y b =>
      rw [List.map_cons, List.map_cons, checkDims]
      simp only [Item.len, ok_bind, List.length_cons, List.length_nil, ne_eq, not_true_eq_false, and_self, if_false]
      exact ih b

/-- States given by single numbers. -/
theorem stateRanges_line {k : Nat} (o : Dict (OptVal ℝ)) (hv : ValidStates o) (h : GoodStates k o) :
    ∃ states, stateRanges o = .ok states ∧ k ≤ states.length ∧ ∀ s ∈ states, s.length = 1 := by
  obtain ⟨mins, maxs, h1, h2, h3⟩ := h
  obtain ⟨mi, ma, k1, k2, k3, k4, _⟩ := hv.states
  obtain rfl := numbered_unique _ _ _ _ _ k1 h1
  obtain rfl := numbered_unique _ _ _ _ _ k2 h2
  rw [List.length_map, List.length_map] at k3
  obtain ⟨v1, e1, f1⟩ := numbered_dict o "state" "-min"
  obtain ⟨v2, e2, f2⟩ := numbered_dict o "state" "-max"
  obtain rfl := numbered_unique _ _ _ _ _ f1 h1
  obtain rfl := numbered_unique _ _ _ _ _ f2 h2
  refine ⟨List.zipWith (fun m x => (Item.toList m).zip (Item.toList x)) (mins.map fun x => .lst [x]) (maxs.map fun x => .lst [x]), ?_, ?_, ?_⟩
  · rw [stateRanges, e1, ok_bind, e2, ok_bind, ofOptVal_singles, ok_bind, ofOptVal_singles, ok_bind, minMaxToRanges,
      if_neg (by simpa using k3)]
    have : checkAllDims (mins.map fun x => Item.lst [x]) (maxs.map fun x => Item.lst [x]) = .ok () := by
      cases mins with
      | nil => exact absurd rfl k4
      | cons a mins => exact checkDims_singles _ _
    rw [this]
  · rw [List.length_zipWith, List.length_map, List.length_map]
    omega
  · intro s hs
    rw [List.zipWith_map, List.mem_iff_getElem] at hs
    obtain ⟨i, hi, rfl⟩ := hs
    simp [Item.toList]

/-! ### The whole program -/

theorem bind_step {ε α β : Type} {a : Except ε α} {f : α → Except ε β} (P : α → Prop) (h1 : ∃ x, a = .ok x ∧ P x)
    (h2 : ∀ x, P x → ∃ y, f x = .ok y) : ∃ y, (a >>= f) = .ok y := by
  obtain ⟨x, rfl, hx⟩ := h1
  exact h2 x hx

theorem isOneDim_line {o : Dict (OptVal ℝ)}
    (hd : o.get? "n_dim" = some (.base (.int 1))) : isOneDim o = true := by
  simp [isOneDim, hd]

theorem setupOptional_line (w : World R) (config : Input ℝ) (hv : ValidInput config)
    (h : ConsistentLine w.figFormats w.terminal config) (hlin : LinearGriddata w) (c : SimCfg 1) (s : Sim 1 R) {lo hi : ℝ}
    (hr : c.ld.pot.ranges = [(lo, hi)]) (hlt : lo < hi) : ∃ x, setupOptional w config c s = .ok x := by
  have hone := isOneDim_line h.oneDim
  unfold setupOptional
  refine bind_step (fun x => x.1.ld = c.ld) ?_ fun ⟨c1, s1⟩ h1 => ?_
  · cases hb : config.birthDeath with
    | none => exact ⟨_, rfl, rfl⟩
    | some o =>
      obtain ⟨b, hb'⟩ := setupBirthDeath_line w o (hone ▸ hv.birthDeath o hb) (h.bdSeed o hb) (h.bdVariant o hb) c.ld hr hlt fun _ => hlin
      simp only [hb', ok_bind]
      exact ⟨_, rfl, rfl⟩
  refine bind_step (fun x => x.1.ld = c.ld ∧ (config.histogram.isSome → ∃ t, x.1.traj = some t)) ?_ fun ⟨c2, s2⟩ ⟨h2, h2'⟩ => ?_
  · cases ht : config.trajectories with
    | none =>
      refine ⟨_, rfl, h1, fun hh => ?_⟩
      have := h.needsTrajectories hh
      rw [ht] at this
      cases this
    | some o =>
      obtain ⟨t, ht'⟩ := setupTrajectories_line w o (hv.trajectories o ht).1 (hv.trajectories o ht).2 c1.ld.dt s1.particles.length
      simp only [ht', ok_bind]
      exact ⟨_, rfl, h1, fun _ => ⟨_, rfl⟩⟩
  refine bind_step (fun x => x.1.ld = c.ld ∧ (config.histogram.isSome → ∃ edges data, x.2.hist = some ⟨[edges], data⟩ ∧ 2 ≤ edges.length))
    ?_ fun ⟨c3, s3⟩ ⟨h3, h3'⟩ => ?_
  · cases ho : config.histogram with
    | none => exact ⟨_, rfl, h2, fun hh => by cases hh⟩
    | some o =>
      obtain ⟨t, ht⟩ := h2' (by rw [ho]; rfl)
      obtain ⟨x, edges, data, hx, hx', hl⟩ := setupHistogram_line o (hone ▸ hv.histogram o ho) (h.bins o ho)
        (fun hbad => h.output (.inl ⟨o, ho, hbad⟩)) t
      dsimp only at ht
      simp only [ht, requireAction, hx, ok_bind]
      exact ⟨_, rfl, h2, fun _ => ⟨edges, data, by rw [hx'], hl⟩⟩
  refine bind_step (fun x => x.1.ld = c.ld ∧ x.2.hist = s3.hist ∧ (config.fes.isSome → ∃ f, x.1.fes = some f))
    ?_ fun ⟨c4, s4⟩ ⟨h4, h4', h4''⟩ => ?_
  · cases ho : config.fes with
    | none => exact ⟨_, rfl, h3, rfl, fun hh => by cases hh⟩
    | some o =>
      obtain ⟨edges, data, he, hl⟩ := h3' (hv.fesNeedsHistogram (by rw [ho]; rfl))
      obtain ⟨f, hf⟩ := setupFes_line w o (hv.fes o ho) (fun hbad => h.output (.inr (.inl ⟨o, ho, hbad⟩))) c3.ld edges data hl
      dsimp only at he
      simp only [he, requireAction, hf, ok_bind]
      exact ⟨_, rfl, h3, rfl, fun _ => ⟨_, rfl⟩⟩
  refine bind_step (fun _ => True) ?_ fun ⟨c5, s5⟩ _ => ?_
  · cases ho : config.deltaF with
    | none => exact ⟨_, rfl, trivial⟩
    | some o =>
      have hfes := hv.deltaFNeedsFes (by rw [ho]; rfl)
      obtain ⟨edges, data, he, hl⟩ := h3' (hv.fesNeedsHistogram hfes)
      obtain ⟨f, hf⟩ := h4'' hfes
      obtain ⟨states, hs, hs2, hs1⟩ := stateRanges_line o (hv.deltaF o ho) (h.deltaF o ho)
      obtain ⟨b, hb⟩ := (setupDeltaF_rejects w o (hv.deltaF o ho).toValidOutput c4.ld.kt c4.ld.dt ⟨[edges], data⟩ states hs _
        (setupDeltaF_1d_partial edges data states hs2 hs1)).2 (fun hbad => h.output (.inr (.inr (.inl ⟨o, ho, hbad⟩))))
      dsimp only at he h4' hf
      rw [he] at h4'
      simp only [hf, h4', requireAction, hb, ok_bind]
      exact ⟨_, rfl, trivial⟩
  cases ho : config.particleDistribution with
  | none => exact ⟨_, rfl⟩
  | some o =>
    obtain ⟨states, hs, -, -⟩ := stateRanges_line o (hv.particleDistribution o ho) (h.distribution o ho)
    obtain ⟨b, hb⟩ := (setupDistribution_rejects w o (hv.particleDistribution o ho).toValidOutput states hs).2
      (fun hbad => h.output (.inr (.inr (.inr ⟨o, ho, hbad⟩))))
    simp only [hb, ok_bind]
    exact ⟨_, rfl⟩

/-- **C122.** One-dimensional input without contradictions is simulated to the end. -/
theorem line_progress (w : World R) (file : Option (List Section)) (config : Input ℝ) (hp : parseAll 1 w.conv file = .ok config)
    (h : ConsistentLine w.figFormats w.terminal config) (hops : w.bdOps.Lawful) (hinit : w.init.Lawful) (hlin : LinearGriddata w)
    (hrec : ∀ o, config.birthDeath = some o → flagOption o "recalculate-probabilities" = false ∨ ∀ n g, ∀ u ∈ (w.bdOps.random n g).1, 0 < u) :
    ∃ a, mainProgram w file = .finished a := by
  have hv := input_valid 1 one_pos file config hp
  obtain ⟨_, _, _, sPart, -, -, -, -, -, -, hpart, -⟩ := parseAll_inv 1 file config hp
  obtain ⟨pot, lo, hi, hpot, hrange, hlt⟩ := setupPotential_line w _ hv.potential h.polynomial h.oneDim h.coeffs h.range
  obtain ⟨l, hl, hl1, hl2⟩ := setupLd_line w _ hv.ld h.ldSeed pot
  obtain ⟨s, hs, hn⟩ := init_line w hinit _ sPart _ hpart h.particlesSeed h.start l.cfg (by rw [hl1]; exact hrange) hlt l.state hl2
  have hreq : setupRequired w config = .ok ⟨1, { kind := l.kind, ld := l.cfg }, { particles := s.particles, ldRng := s.rng }⟩ := by
    simp only [setupRequired, hpot, hl, hs, ok_bind, pure_eq_ok]
  obtain ⟨x, hx⟩ := setupOptional_line w config hv h hlin { kind := l.kind, ld := l.cfg }
    ({ particles := s.particles, ldRng := s.rng } : Sim 1 R) (lo := lo) (hi := hi) (by rw [← hrange, ← hl1]) hlt
  obtain ⟨s', hs'⟩ := main_progress_partial w file config _ x hp hreq hx hops (.inr (by
      change 1 ≤ l.cfg.pot.ranges.length
      rw [hl1, hrange]
      rfl))
    (fun o ho => ⟨by
      have := h.bdWalkers (by rw [ho]; rfl) _ hn
      exact_mod_cast this, hrec o ho⟩)
    (fun _ => by
      obtain ⟨k, hk, hpos⟩ := hv.particles.number
      rw [hn] at hk
      cases hk
      exact_mod_cast hpos)
    (fun o states ho hst st hmem => by
      obtain ⟨states', e, _, h1⟩ := stateRanges_line o (hv.particleDistribution o ho) (h.distribution o ho)
      rw [hst] at e
      cases e
      exact (h1 st hmem).ge)
    h.plots
  exact ⟨_, hs'⟩

end Bdld
