import Verif.Spec.ConsistentSpace
import Verif.Props.LineProgress
import Verif.Props.Approximation
import Verif.Props.CoeffText

/-
C126: input in two or three dimensions without contradictions is simulated to the end.
-/

namespace Bdld
open Spec

variable {R : Type}

/-! ### Required parts -/

theorem zip_range {rel : ℝ → ℝ → Prop} {a b : List ℝ} (h : List.Forall₂ rel a b) : ∀ r ∈ a.zip b, rel r.1 r.2 := by
  induction h with
  | nil => simp
  | cons h _ ih =>
    intro r hr
    rw [List.zip_cons_cons] at hr
    rcases List.mem_cons.1 hr with rfl | hr
    · exact h
    · exact ih r hr

theorem not_oneDim {o : Dict (OptVal ℝ)} (h : ¬ IntOpt o "n_dim" 1) : isOneDim o = false := by
  unfold isOneDim
  split
  · exact absurd (by assumption) h
  · rfl

theorem goodPotential_dim {w : World R} {d : Nat} {o : Dict (OptVal ℝ)} (h : GoodPotential w d o) : (d = 2 ∨ d = 3) ∧ ¬ IntOpt o "n_dim" 1 := by
  rcases h with ⟨_, h1, h2, _⟩ | ⟨_, h1, h2⟩
  · refine ⟨h2, fun h3 => ?_⟩
    rw [IntOpt] at h1 h3
    rw [h1] at h3
    simp only [Option.some.injEq, OptVal.base.injEq, BaseVal.int.injEq] at h3
    omega
  · exact ⟨.inl h2, h1⟩

/-- The potential. -/
theorem setupPotential_space (w : World R) {d : Nat} (o : Dict (OptVal ℝ)) (hv : ValidPotential o) (h : GoodPotential w d o) :
    ∃ pot : Potential ℝ d, setupPotential w o = .ok ⟨d, pot⟩ ∧ pot.ranges.length = d ∧ ∀ r ∈ pot.ranges, r.1 < r.2 := by
  obtain ⟨v, s, b1, b2⟩ := strItem hv.bound
  have hone := (goodPotential_dim h).2
  rcases h with ⟨ht, hn, hd, hf, hb⟩ | ⟨ht, _, rfl⟩
  · obtain ⟨⟨name, hname, _⟩, ⟨mins, m1, _⟩, ⟨maxs, m2, _⟩⟩ := hv.moreDim ht hone
    obtain ⟨rows, hrows, l, hro, hlen⟩ := hf name hname
    obtain ⟨hl, hlt⟩ := hb mins maxs m1 m2
    obtain ⟨a, ha, _⟩ := coeff_file_partial l hlen
    refine ⟨Potential.withBcOption ⟨polyEnergy a, polyForce a, baseEvaluate (polyEnergy a) (polyForce a), mins.zip maxs, none⟩ s, ?_, ?_, ?_⟩
    · have hs : (OptVal.base (.str name) : OptVal ℝ).asOptStr = .ok (some name) := rfl
      rw [setupPotential, item_of ht]
      simp only [ok_bind, setupPolynomial, item_of hn]
      rcases hd with rfl | rfl
      all_goals
        simp only [zipRanges, item_of m1, item_of m2, item_of hname, asFloats_map, ok_bind, pure_eq_ok, hs, Option.getD_some, hrows]
        erw [parseCoeffRow_rows hro]
        simp only [ok_bind]
        erw [ha]
        simp only [ok_bind, newPolynomial, b1, b2]
        rfl
    · change (mins.zip maxs).length = d
      rw [List.length_zip, ← hlt.length_eq, hl, Nat.min_self]
    · exact zip_range hlt
  · obtain ⟨v', sc, s1, s2⟩ : ∃ v sc, o.getItem "scaling-factor" = .ok v ∧ v.asOptFloat = .ok sc := by
      rcases hv.scaling ht with h | ⟨x, h, _⟩
      · exact ⟨_, _, item_of h, rfl⟩
      · exact ⟨_, _, item_of h, rfl⟩
    refine ⟨(MB.potential (MB.create MB.prefactors sc)).withBcOption s, ?_, rfl, ?_⟩
    · rw [setupPotential, item_of ht]
      simp only [ok_bind, s1, s2, b1, b2, pure_eq_ok]
    · change ∀ r ∈ MB.ranges, r.1 < r.2
      unfold MB.ranges
      intro r hr
      rcases List.mem_cons.1 hr with rfl | hr
      · norm_num
      · rw [List.mem_singleton.1 hr]
        norm_num

/-- The walkers. -/
theorem init_space (w : World R) (hw : w.init.Lawful) (conv : Conv ℝ) (sec : Section) (o : Dict (OptVal ℝ))
    (hp : parseParticles 1 conv sec = .ok o) (hs : GoodSeed o) {d : Nat} (hg : GoodStartIn d o) (c : LdCfg ℝ d)
    (hr : c.pot.ranges.length = d) (hlt : ∀ r ∈ c.pot.ranges, r.1 < r.2) (s : LdState ℝ d R) (he : s.particles = []) :
    ∃ s', initParticles pyTrunc w.init (w.defaultRng .particles) c o s = .ok s' ∧
      o.get? "number" = some (.base (.int s'.particles.length)) := by
  have hv := particles_valid 1 one_pos sec o hp
  have hseed : SeedAccepted (w.defaultRng .particles) o := by
    intro v seed e1 e2
    obtain ⟨v', i, s1, s2, s3⟩ := seed_item hv.seed hs
    rw [s1] at e1
    cases e1
    rw [s2] at e2
    cases e2
    exact defaultRng_ok w _ _ s3
  rcases hg with hg | ⟨choices, h1, h2, ⟨hg, h3⟩ | ⟨hg, h3⟩⟩
  · obtain ⟨n, m, new, e1, _, e2, e3, _⟩ := init_random_global pyTrunc w.init hw (w.defaultRng .particles) c o hv hg hseed
      hr (fun x hx => (hlt x hx).le) s
    refine ⟨_, e2, ?_⟩
    rw [e1, he, ← e3]
    rfl
  · obtain ⟨n, m, new, e1, _, e2, e3, _⟩ := init_random_pos pyTrunc w.init hw (w.defaultRng .particles) c 1 one_pos conv sec o hp hg
      choices h1 hseed h3 h2 s
    refine ⟨_, e2, ?_⟩
    rw [e1, he, ← e3]
    rfl
  · obtain ⟨fr, hf, _⟩ := hv.fractions hg
    obtain ⟨f1, f2, f3⟩ := h3 fr hf
    obtain ⟨n, m, e1, _, e2, e3⟩ := init_fractions_partial w.init (w.defaultRng .particles) c o hv hg fr hf choices h1 f1 f2 f3 h2 s
    refine ⟨_, e2, ?_⟩
    rw [e1, he, List.nil_append, e3]

/-! ### Birth-death -/

/-- The grids of the corrections. -/
theorem approxGrid_space (w : World R) (hw : OneValueEach w) {d : Nat} (hd : 1 ≤ d) (c : LdCfg ℝ d) (hr : c.pot.ranges.length = d)
    (hlt : ∀ r ∈ c.pot.ranges, r.1 < r.2) (bw : List ℝ) (hb : bw.length = d) (hpos : ∀ b ∈ bw, 0 < b) (v : ApproxVariant) :
    ∃ x, bdApproxGrid w c bw v = .ok x := by
  have hn : ∀ m ∈ List.zipWith bdGridPoints c.pot.ranges bw, 2 ≤ m := by
    intro m hm
    obtain ⟨i, hi, rfl⟩ := List.getElem_of_mem hm
    rw [List.getElem_zipWith, bdGridPoints]
    split <;> omega
  have hn' : (List.zipWith bdGridPoints c.pot.ranges bw).length = d := by
    rw [List.length_zipWith, hr, hb, Nat.min_self]
  obtain ⟨g, p, g1, g2, g3, g4, g5, g6, g7, g8, g9, g10, g11⟩ :=
    prob_density_partial (energyOfList c.pot) d c.kt c.pot.ranges _ hd hr hn' hlt hn
  have hdens : bdProbDensity (energyOfList c.pot) d c.pot.ranges bw c.kt = .ok g := by
    rw [bdProbDensity, if_neg (by omega), g1]
  have hne : bw ≠ [] := by
    rintro rfl
    simp at hb
    omega
  have hgl : g.nPoints.length = bw.length := by rw [g3, hn', hb]
  have hg1 : ∀ m ∈ g.nPoints, m ≠ 1 := by
    intro m hm
    rw [g3] at hm
    have := hn m hm
    omega
  obtain ⟨conv, c1, c2, c3, c4, c5, c6⟩ := dens_conv_pos g bw g5 hne hgl ((Spaced_length _ _ _ g4).trans hgl) hg1 g10 hpos g9
  have hsp : ∀ k : Grid ℝ, k.Filled → k.ranges = g.ranges → k.nPoints = g.nPoints →
      ∃ s, sparsify w.interp k (List.replicate bw.length 101) = .ok s ∧ s.Filled ∧ ∀ m ∈ s.nPoints, m ≠ 1 := by
    intro k k1 k2 k3
    obtain ⟨s, p, q, s1, s2, s3, s4, s5, s6, s7, s8⟩ := sparsify_spec w.interp hw k k1 (List.replicate bw.length 101)
      (by rw [k2, g2]; intro h; rw [h] at hr; simp at hr; omega) (by rw [List.length_replicate, k3, hgl]) (by rw [k3]; exact hg1)
      (fun m hm => by rw [List.eq_of_mem_replicate hm]; norm_num)
    refine ⟨s, s1, s5, fun m hm => ?_⟩
    rw [s3] at hm
    obtain ⟨i, hi1, rfl⟩ := List.getElem_of_mem hm
    rw [List.length_zipWith] at hi1
    rw [List.getElem_zipWith, List.getElem_replicate]
    have := hg1 (k.nPoints[i]'(by omega)) (by rw [← k3]; exact List.getElem_mem _)
    omega
  cases v with
  | orig => exact ⟨_, rfl⟩
  | add =>
    obtain ⟨conv', corr, d1, d2, d3, d4, d5, d6⟩ := additive_correction w.interp g bw g5 hne hgl g4 hg1 g10 hpos g9
    obtain ⟨s, s1, -, -⟩ := hsp corr d2 d3 d4
    have : ∃ m, calcAdditiveCorrection w.interp g bw = .ok m := by
      rw [d6]
      split
      · exact ⟨_, s1⟩
      · exact ⟨_, rfl⟩
    obtain ⟨m, hm⟩ := this
    refine ⟨some m, ?_⟩
    simp only [bdApproxGrid, hdens, ok_bind, hm, pure_eq_ok]
  | mult =>
    obtain ⟨s, s1, s2, s3⟩ := hsp conv c5 c2 c3
    obtain ⟨l, l1, l2, l3, l4, l5, l6⟩ := math_on_self_partial s s2 s3 Real.log
    obtain ⟨m, m1, _⟩ := math_on_self_partial l l5 (by rw [l3]; exact s3) (fun x => -x)
    refine ⟨some m, ?_⟩
    have hdim : conv.nDim = bw.length := by rw [Grid.nDim, c2, g2, hr, hb]
    simp only [bdApproxGrid, hdens, ok_bind, multiplicativeGrid, c1, hdim, s1, l1, m1, pure_eq_ok]

theorem setupBirthDeath_space (w : World R) (hw : OneValueEach w) (o : Dict (OptVal ℝ)) (hv : ValidBirthDeath false o) (hs : GoodSeed o)
    (hk : KnownLabels o) {d : Nat} (hd : 2 ≤ d) (c : LdCfg ℝ d) (hr : c.pot.ranges.length = d) (hlt : ∀ r ∈ c.pot.ranges, r.1 < r.2)
    (hb : ∀ l, FloatsOpt o "kernel-bandwidth" l → l.length = d) : ∃ b, setupBirthDeath w o c = .ok b := by
  obtain ⟨bw, hbw, _, hpos⟩ := hv.bandwidth
  obtain ⟨i, hst, _⟩ := hv.stride
  have hst' : (OptVal.base (BaseVal.int i) : OptVal ℝ).asOptStride = .ok (some i.toNat) := rfl
  obtain ⟨rc, hrc⟩ := hv.recalc
  obtain ⟨v4, ss, d1, d2, _⟩ := strideItem hv.statsStride
  obtain ⟨v5, sd, s1, s2, s3⟩ := seed_item hv.seed hs
  obtain ⟨v6, ef, f1, f2⟩ : ∃ v f, o.getItem "exponential-factor" = .ok v ∧ v.asOptFloat = .ok f := by
    rcases hv.factor with h | ⟨x, h, _⟩
    · exact ⟨_, _, item_of h, rfl⟩
    · exact ⟨_, _, item_of h, rfl⟩
  obtain ⟨g, hg⟩ := defaultRng_ok w .birthDeath (bdSeed sd) (by
    intro k hk
    cases sd with
    | none => cases hk
    | some s =>
      have := s3 s rfl
      rw [bdSeed] at hk
      split at hk
      · cases hk
      · cases hk; omega)
  have hbd : bdBandwidth d o = .ok bw := by
    rw [bdBandwidth, if_neg (by omega), item_of hbw]
    simp only [ok_bind, asFloats_map]
    rw [if_neg (by simpa using hb bw hbw)]
    rfl
  obtain ⟨x, hx⟩ := approxGrid_space w hw (by omega) c hr hlt bw (hb bw hbw) hpos (variantOf o)
  have hvar : approxVariantOf o = .ok (variantOf o) := variant_partial false o hv hk
  unfold setupBirthDeath
  simp only [hbd, hvar, item_of hst, hst', f1, f2, item_of hrc, OptVal.asFlag, d1, d2, s1, s2, hg, hx, ok_bind, pure_eq_ok]
  exact ⟨_, rfl⟩

/-! ### Analysis -/

theorem checkFields_space {d : Nat} (hd : d = 2 ∨ d = 3) (f : Option String) : checkFields d f = .ok () := by
  unfold checkFields
  rcases hd with rfl | rfl <;> split <;> rfl

theorem setupTrajectories_space (w : World R) {d : Nat} (hd : d = 2 ∨ d = 3) (o : Dict (OptVal ℝ)) (hv : ValidOutput o)
    (hm : NoneOr IsBool (o.get? "momentum")) (dt : ℝ) (n : Nat) : ∃ t, setupTrajectories w d o dt n = .ok t := by
  obtain ⟨v1, s, a1, a2, _⟩ := strideItem hv.stride
  obtain ⟨v2, f, b1, b2⟩ := strItem hv.filename
  obtain ⟨v3, ws, c1, c2, _⟩ := strideItem hv.writeStride
  obtain ⟨v4, m, d1, d2⟩ : ∃ v m, o.getItem "momentum" = .ok v ∧ v.asFlag = .ok m := by
    rcases hm with h | ⟨b, h⟩
    · exact ⟨_, _, item_of h, rfl⟩
    · exact ⟨_, _, item_of h, rfl⟩
  simp only [setupTrajectories, a1, a2, b1, b2, c1, c2, d1, d2, checkFields_space hd, ok_bind, pure_eq_ok]
  exact ⟨_, rfl⟩

theorem npEdges_mapM (l : List (Nat × (ℝ × ℝ))) (h : ∀ x ∈ l, x.2.1 ≤ x.2.2) (hn : ∀ x ∈ l, 0 < x.1) :
    ∃ bins, l.mapM (fun nr => npEdges nr.1 nr.2) = .ok bins ∧ bins.length = l.length ∧ ∀ e ∈ bins, 2 ≤ e.length := by
  induction l with
  | nil => exact ⟨[], rfl, rfl, by simp⟩
  | cons a l ih =>
    obtain ⟨bins, b1, b2, b3⟩ := ih (fun x hx => h x (by simp [hx])) (fun x hx => hn x (by simp [hx]))
    obtain ⟨edges, he, hl⟩ : ∃ edges, npEdges a.1 a.2 = .ok edges ∧ edges.length = a.1 + 1 := by
      unfold npEdges
      rw [if_neg (not_lt.2 (h a (by simp)))]
      split <;> exact ⟨_, rfl, by simp [linEdges]⟩
    refine ⟨edges :: bins, by rw [List.mapM_cons, he, ok_bind, b1]; rfl, by simp [b2], ?_⟩
    intro e hm
    rcases List.mem_cons.1 hm with rfl | hm
    · have := hn a (by simp)
      omega
    · exact b3 e hm

theorem histogram_space (n : List Nat) (hn : ∀ m ∈ n, 0 < m) (ranges : List (ℝ × ℝ)) (hl : n.length = ranges.length)
    (h : ∀ r ∈ ranges, r.1 ≤ r.2) :
    ∃ x, Histogram.new n ranges = .ok x ∧ x.bins.length = n.length ∧ ∀ e ∈ x.bins, 2 ≤ e.length := by
  obtain ⟨bins, b1, b2, b3⟩ := npEdges_mapM (n.zip ranges) (fun x hx => h _ (List.of_mem_zip hx).2) (fun x hx => hn _ (List.of_mem_zip hx).1)
  have hbl : bins.length = n.length := by rw [b2, List.length_zip, hl, Nat.min_self]
  have hdd : ∃ data, histogramdd bins [List.replicate n.length 0] = .ok data := by
    unfold histogramdd
    rw [if_pos (by simp [hbl])]
    exact ⟨_, rfl⟩
  obtain ⟨data, hdata⟩ := hdd
  refine ⟨⟨bins, data⟩, ?_, hbl, b3⟩
  have hz : (n.zip ranges).any (fun nr => nr.1 == 0) = false := by
    rw [List.any_eq_false]
    intro x hx
    have := hn _ (List.of_mem_zip hx).1
    simp
    omega
  unfold Histogram.new
  rw [if_neg (by omega)]
  simp only [hz, Bool.false_eq_true, if_false]
  rw [if_neg (by omega)]
  simp only [b1, ok_bind, hdata, pure_eq_ok]

theorem setupHistogram_space {d : Nat} (hd : d = 2 ∨ d = 3) (o : Dict (OptVal ℝ)) (hv : ValidHistogram false o) (hr : GoodBox d (· ≤ ·) o)
    (hbins : ∀ l, IntsOpt o "bins" l → l.length = d) (hb : ¬ BadHistogramOutput o) (t : TrajCfg ℝ) :
    ∃ x, setupHistogram d o t = .ok x ∧ x.2.2.bins.length = d ∧ ∀ e ∈ x.2.2.bins, 2 ≤ e.length := by
  obtain ⟨v1, s, a1, a2, _⟩ := strideItem hv.stride
  obtain ⟨v2, f, b1, b2, b3⟩ := stringItem hv.filename
  obtain ⟨v3, ws, c1, c2, _, c4⟩ := strideItem hv.writeStride
  obtain ⟨v4, rs, d1, d2⟩ : ∃ v m, o.getItem "reset" = .ok v ∧ v.asOptNats = .ok m := by
    rcases hv.reset with h | ⟨l, h, _⟩
    · exact ⟨_, _, item_of h, rfl⟩
    · exact ⟨_, some (l.map Int.toNat), item_of h, by simp only [OptVal.asOptNats, asNats_map, ok_bind, pure_eq_ok]⟩
  obtain ⟨k, hk, _, hkpos⟩ := hv.bins
  obtain ⟨lo, hlo, _⟩ := hv.min
  obtain ⟨hi, hhi, _⟩ := hv.max
  obtain ⟨hlen, hle⟩ := hr lo hi hlo hhi
  have hkl := hbins k hk
  have hzl : (lo.zip hi).length = d := by rw [List.length_zip, ← hle.length_eq, hlen, Nat.min_self]
  obtain ⟨x, hn, hxl, hx2⟩ := histogram_space (k.map Int.toNat) (by
      intro m hm
      obtain ⟨i, hi', rfl⟩ := List.mem_map.1 hm
      have := hkpos i hi'
      omega) (lo.zip hi) (by rw [List.length_map, hkl, hzl]) (zip_range hle)
  have hno : (truthyNat ws && !truthyStr f) = false := by
    rw [Bool.eq_false_iff]
    intro h
    rw [Bool.and_eq_true, Bool.not_eq_true'] at h
    refine hb ⟨c4.1 h.1, ?_⟩
    rw [Bool.eq_false_iff]
    intro h'
    rw [b3.2 ((hasFilename_iff o).1 h')] at h
    exact absurd h.2 (by simp)
  suffices ∃ y : HistCfg × GridOut × Histogram ℝ, setupHistogram d o t = .ok y ∧ y.2.2 = x by
    obtain ⟨y, h1, h2⟩ := this
    exact ⟨y, h1, by rw [h2, hxl, List.length_map, hkl], by rw [h2]; exact hx2⟩
  · unfold setupHistogram
    rw [if_neg (by omega)]
    simp only [zipRanges, item_of hlo, item_of hhi, asFloats_map, item_of hk, asNats_map, a1, a2, b1, b2, c1, c2, d1, d2, ok_bind,
      pure_eq_ok, HistCfg.new]
    rw [if_neg (by rw [List.length_map, hkl]; simp), if_neg (by rw [hzl]; simp)]
    simp only [hn, hno, ok_bind, checkFields_space hd]
    exact ⟨_, rfl, rfl⟩

theorem prod_pos_of {l : List Nat} (h : ∀ n ∈ l, 0 < n) : 0 < l.prod := by
  induction l with
  | nil => simp
  | cons a l ih =>
    rw [List.prod_cons]
    exact Nat.mul_pos (h a (by simp)) (ih fun n hn => h n (by simp [hn]))

theorem setupFes_space (w : World R) (o : Dict (OptVal ℝ)) (hv : ValidFes o) (hb : ¬ BadFesOutput o) {d : Nat} (hd : d = 2 ∨ d = 3)
    (c : LdCfg ℝ d) (y : Histogram ℝ) (hl : y.bins.length = d) (he : ∀ e ∈ y.bins, 2 ≤ e.length) : ∃ f, setupFes w o c y = .ok f := by
  obtain ⟨v1, s, a1, a2, a3, a4⟩ := strideItem hv.stride
  obtain ⟨v2, f, b1, b2, b3⟩ := stringItem hv.filename
  obtain ⟨v3, ws, c1, c2, c3, c4⟩ := strideItem hv.writeStride
  obtain ⟨v4, pf, d1, d2, d3⟩ := stringItem hv.plotFilename
  obtain ⟨v5, pt, e1, e2⟩ := strItem hv.plotTitle
  obtain ⟨v6, ps, f1, f2, f3⟩ : ∃ v m, o.getItem "plot-stride" = .ok v ∧ v.asOptInt = .ok m ∧ m.getD 0 = intOption o "plot-stride" := by
    rcases hv.plotStride with h | ⟨x, h, _⟩
    · exact ⟨_, none, item_of h, rfl, by simp [intOption, h]⟩
    · exact ⟨_, some x, item_of h, rfl, by simp [intOption, h]⟩
  obtain ⟨v7, pd, g1, g2⟩ : ∃ v m, o.getItem "plot-domain" = .ok v ∧ v.asOptFloats = .ok m := by
    rcases hv.plotDomain with h | ⟨l, h, _⟩
    · exact ⟨_, _, item_of h, rfl⟩
    · exact ⟨_, some l, item_of h, by simp only [OptVal.asOptFloats, asFloats_map, ok_bind, pure_eq_ok]⟩
  have href : ∃ r, fesReference c.pot y = .ok r := by
    have hax : y.axes ≠ [] := by
      intro h
      have := congrArg List.length h
      simp only [Histogram.axes, List.length_map, List.length_nil, hl] at this
      omega
    have hpos : 0 < (y.axes.map List.length).prod := by
      refine prod_pos_of fun n hn => ?_
      obtain ⟨a, ha, rfl⟩ := List.mem_map.1 hn
      obtain ⟨e, he', rfl⟩ := List.mem_map.1 ha
      have := he e he'
      simp only [binCenters, List.length_zipWith, List.length_tail]
      omega
    obtain ⟨p, hp, hpl⟩ : ∃ p, pointsOfAxes y.axes = .ok p ∧ p ≠ [] := by
      refine ⟨_, by rw [pointsOfAxes, if_neg hax], fun h => ?_⟩
      have := congrArg List.length h
      simp only [NdFn.toRows, List.length_map, List.length_range, List.length_nil] at this
      omega
    obtain ⟨m, hm⟩ := npMin_ok ((p.map (fun q (k : Fin d) => q.getD k 0)).map c.pot.energy) (by simpa using hpl)
    unfold fesReference
    rw [hp]
    simp only [ok_bind, calculateReference, if_true, hm]
    exact ⟨_, rfl⟩
  obtain ⟨r, hr⟩ := href
  obtain ⟨fe, hfe⟩ := calculateFes_ok y.counts c.kt (by
    intro h0
    have h1 := congrArg List.length h0
    have hpos : 0 < y.shape.prod := by
      refine prod_pos_of fun n hn => ?_
      obtain ⟨e, he', rfl⟩ := List.mem_map.1 hn
      have := he e he'
      omega
    simp only [Histogram.counts, Nd.ofFn, List.length_map, length_indices, List.length_nil] at h1
    omega)
  have hchk : ∀ (b : Bool) (fn : Option String), (b = true → truthyNat s = true ∧ truthyStr fn = true) → checkOutput b s fn = .ok () := by
    intro b fn h
    rcases (checkOutput_rejects b s fn).2 with h' | h'
    · exact h'
    · obtain ⟨k1, k2⟩ := (checkOutput_rejects b s fn).1.1 h'
      obtain ⟨l1, l2⟩ := h k1
      rw [l1, l2] at k2
      simp at k2
  rw [BadFesOutput, not_or] at hb
  have h1 := hchk (truthyNat ws) f fun h => by
    by_contra hn
    refine hb.1 ⟨c4.1 h, ?_⟩
    by_cases hs : natOption o "stride" 0 = 0
    · exact .inl hs
    · refine .inr ?_
      rw [Bool.eq_false_iff]
      exact fun h' => hn ⟨a4.2 (by omega), b3.2 ((hasFilename_iff o).1 h')⟩
  have h2 := hchk (decide (ps.getD 0 ≠ 0)) pf fun h => by
    by_contra hn
    rw [decide_eq_true_eq, f3] at h
    refine hb.2 ⟨h, ?_⟩
    by_cases hs : natOption o "stride" 0 = 0
    · exact .inl hs
    · refine .inr ?_
      by_contra h'
      exact hn ⟨a4.2 (by omega), d3.2 h'⟩
  simp only [setupFes, hr, a1, a2, b1, b2, c1, c2, d1, d2, e1, e2, f1, f2, g1, g2, hfe, checkFields_space hd, h1, h2, ok_bind, pure_eq_ok]
  exact ⟨_, rfl⟩

theorem ofOptVal_points (l : List (List ℝ)) :
    (l.map (fun p => (OptVal.list (p.map .float) : OptVal ℝ))).mapM Item.ofOptVal = .ok (l.map fun p => .lst p) := by
  have h1 : ∀ p : List ℝ, Item.ofOptVal (OptVal.list (p.map .float) : OptVal ℝ) = .ok (.lst p) := by
    intro p
    have : ∀ (f : BaseVal ℝ → Except PyErr ℝ), (∀ x, f (.float x) = .ok x) → (p.map BaseVal.float).mapM f = .ok p := by
      intro f hf
      induction p with
      | nil => rfl
      | cons a p ih => rw [List.map_cons, List.mapM_cons, ih, hf]; rfl
    rw [Item.ofOptVal]
    erw [this _ fun _ => rfl]
    rfl
  induction l with
  | nil => rfl
  | cons a l ih => rw [List.map_cons, List.mapM_cons, ih, h1]; rfl

theorem checkDims_points (d : Nat) (a b : List (List ℝ)) (ha : ∀ p ∈ a, p.length = d) (hb : ∀ p ∈ b, p.length = d) :
    checkDims d (a.map fun p => Item.lst p) (b.map fun p => Item.lst p) = .ok () := by
  induction a generalizing b with
  | nil => rfl
  | cons x a ih =>
    cases b with
    | nil => rfl
    | cons y b =>
      rw [List.map_cons, List.map_cons, checkDims]
      simp only [Item.len, ok_bind, ha x (by simp), hb y (by simp), ne_eq, not_true_eq_false, and_self, if_false]
      exact ih b (fun p hp => ha p (by simp [hp])) (fun p hp => hb p (by simp [hp]))

/-- States given by lists. -/
theorem stateRanges_space {d : Nat} (o : Dict (OptVal ℝ)) (hv : ValidStates o) (h : GoodStatesIn d o) :
    ∃ states, stateRanges o = .ok states ∧ ∀ s ∈ states, s.length = d := by
  obtain ⟨mins, maxs, h1, h2, h3, h4⟩ := h
  obtain ⟨mi, ma, k1, k2, k3, k4, _⟩ := hv.states
  obtain rfl := numbered_unique _ _ _ _ _ k1 h1
  obtain rfl := numbered_unique _ _ _ _ _ k2 h2
  rw [List.length_map, List.length_map] at k3
  obtain ⟨v1, e1, f1⟩ := numbered_dict o "state" "-min"
  obtain ⟨v2, e2, f2⟩ := numbered_dict o "state" "-max"
  obtain rfl := numbered_unique _ _ _ _ _ f1 h1
  obtain rfl := numbered_unique _ _ _ _ _ f2 h2
  refine ⟨List.zipWith (fun m x => (Item.toList m).zip (Item.toList x)) (mins.map fun p => .lst p) (maxs.map fun p => .lst p), ?_, ?_⟩
  · rw [stateRanges, e1, ok_bind, e2, ok_bind, ofOptVal_points, ok_bind, ofOptVal_points, ok_bind, minMaxToRanges,
      if_neg (by simpa using k3)]
    have : checkAllDims (mins.map fun p => Item.lst p) (maxs.map fun p => Item.lst p) = .ok () := by
      cases mins with
      | nil => exact absurd rfl k4
      | cons a mins =>
        have ha : a.length = d := h3 a (by simp)
        have := checkDims_points d (a :: mins) maxs h3 h4
        rw [List.map_cons] at this ⊢
        rw [checkAllDims]
        simp only [Item.len, ok_bind, ha]
        exact this
    rw [this]
  · intro s hs
    rw [List.zipWith_map, List.mem_iff_getElem] at hs
    obtain ⟨i, hi, rfl⟩ := hs
    rw [List.length_zipWith] at hi
    rw [List.getElem_zipWith]
    simp only [Item.toList, List.length_zip, h3 _ (List.getElem_mem _), h4 _ (List.getElem_mem _), Nat.min_self]

/-! ### The whole program -/

theorem setupOptional_space (w : World R) (config : Input ℝ) (hv : ValidInput config) {d : Nat} (h : ConsistentSpace w d config)
    (hw : OneValueEach w) (c : SimCfg d) (s : Sim d R) (hr : c.ld.pot.ranges.length = d) (hlt : ∀ r ∈ c.ld.pot.ranges, r.1 < r.2) :
    ∃ x, setupOptional w config c s = .ok x := by
  obtain ⟨hd, hone⟩ := goodPotential_dim h.potential
  have hone := not_oneDim hone
  unfold setupOptional
  refine bind_step (fun x => x.1.ld = c.ld) ?_ fun ⟨c1, s1⟩ h1 => ?_
  · cases hb : config.birthDeath with
    | none => exact ⟨_, rfl, rfl⟩
    | some o =>
      obtain ⟨b, hb'⟩ := setupBirthDeath_space w hw o (hone ▸ hv.birthDeath o hb) (h.bdSeed o hb) (h.bdVariant o hb) (by omega) c.ld hr hlt
        (fun l => h.bandwidths o l hb)
      simp only [hb', ok_bind]
      exact ⟨_, rfl, rfl⟩
  refine bind_step (fun x => x.1.ld = c.ld ∧ (config.histogram.isSome → ∃ t, x.1.traj = some t)) ?_ fun ⟨c2, s2⟩ ⟨h2, h2'⟩ => ?_
  · cases ht : config.trajectories with
    | none =>
      refine ⟨_, rfl, h1, fun hh => ?_⟩
      have := h.needsTrajectories hh
      rw [ht] at this
      cases this
    | some o =>
      obtain ⟨t, ht'⟩ := setupTrajectories_space w hd o (hv.trajectories o ht).1 (hv.trajectories o ht).2 c1.ld.dt s1.particles.length
      simp only [ht', ok_bind]
      exact ⟨_, rfl, h1, fun _ => ⟨_, rfl⟩⟩
  refine bind_step (fun x => x.1.ld = c.ld ∧ (config.histogram.isSome → ∃ y, x.2.hist = some y ∧ y.bins.length = d ∧ ∀ e ∈ y.bins, 2 ≤ e.length))
    ?_ fun ⟨c3, s3⟩ ⟨h3, h3'⟩ => ?_
  · cases ho : config.histogram with
    | none => exact ⟨_, rfl, h2, fun hh => by cases hh⟩
    | some o =>
      obtain ⟨t, ht⟩ := h2' (by rw [ho]; rfl)
      obtain ⟨x, hx, hx', hl⟩ := setupHistogram_space hd o (hone ▸ hv.histogram o ho) (h.binRange o ho) (fun l => h.bins o l ho)
        (fun hbad => h.output (.inl ⟨o, ho, hbad⟩)) t
      dsimp only at ht
      simp only [ht, requireAction, hx, ok_bind]
      exact ⟨_, rfl, h2, fun _ => ⟨_, rfl, hx', hl⟩⟩
  refine bind_step (fun _ => True) ?_ fun ⟨c4, s4⟩ _ => ?_
  · cases ho : config.fes with
    | none => exact ⟨_, rfl, trivial⟩
    | some o =>
      obtain ⟨y, he, hy, hl⟩ := h3' (hv.fesNeedsHistogram (by rw [ho]; rfl))
      obtain ⟨f, hf⟩ := setupFes_space w o (hv.fes o ho) (fun hbad => h.output (.inr (.inl ⟨o, ho, hbad⟩))) hd c3.ld y hy hl
      dsimp only at he
      simp only [he, requireAction, hf, ok_bind]
      exact ⟨_, rfl, trivial⟩
  rw [h.noDeltaF]
  simp only [pure_eq_ok, ok_bind]
  cases ho : config.particleDistribution with
  | none => exact ⟨_, rfl⟩
  | some o =>
    obtain ⟨states, hs, -⟩ := stateRanges_space o (hv.particleDistribution o ho) (h.distribution o ho)
    obtain ⟨b, hb⟩ := (setupDistribution_rejects w o (hv.particleDistribution o ho).toValidOutput states hs).2
      (fun hbad => h.output (.inr (.inr (.inr ⟨o, ho, hbad⟩))))
    simp only [hb, ok_bind]
    exact ⟨_, rfl⟩

/-- **C126.** Input in two or three dimensions without contradictions is simulated to the end. -/
theorem space_progress (w : World R) (file : Option (List Section)) (config : Input ℝ) (hp : parseAll 1 w.conv file = .ok config)
    {d : Nat} (h : ConsistentSpace w d config) (hops : w.bdOps.Lawful) (hinit : w.init.Lawful) (hw : OneValueEach w)
    (hrec : ∀ o, config.birthDeath = some o → flagOption o "recalculate-probabilities" = false ∨ ∀ n g, ∀ u ∈ (w.bdOps.random n g).1, 0 < u) :
    ∃ a, mainProgram w file = .finished a ∧ a.d = d := by
  have hv := input_valid 1 one_pos file config hp
  obtain ⟨_, _, _, sPart, -, -, -, -, -, -, hpart, -⟩ := parseAll_inv 1 file config hp
  obtain ⟨pot, hpot, hrange, hlt⟩ := setupPotential_space w _ hv.potential h.potential
  obtain ⟨l, hl, hl1, hl2⟩ := setupLd_line w _ hv.ld h.ldSeed pot
  obtain ⟨s, hs, hn⟩ := init_space w hinit _ sPart _ hpart h.particlesSeed h.start l.cfg (by rw [hl1]; exact hrange) (by rw [hl1]; exact hlt)
    l.state hl2
  have hreq : setupRequired w config = .ok ⟨d, { kind := l.kind, ld := l.cfg }, { particles := s.particles, ldRng := s.rng }⟩ := by
    simp only [setupRequired, hpot, hl, hs, ok_bind, pure_eq_ok]
  obtain ⟨x, hx⟩ := setupOptional_space w config hv h hw { kind := l.kind, ld := l.cfg }
    ({ particles := s.particles, ldRng := s.rng } : Sim d R) (by dsimp only; rw [hl1]; exact hrange) (by dsimp only; rw [hl1]; exact hlt)
  obtain ⟨s', hs'⟩ := main_progress_partial w file config _ x hp hreq hx hops (.inr (by
      change d ≤ l.cfg.pot.ranges.length
      rw [hl1, hrange]))
    (fun o ho => ⟨by
      have := h.bdWalkers (by rw [ho]; rfl) _ hn
      exact_mod_cast this, hrec o ho⟩)
    (fun _ => by
      obtain ⟨k, hk, hpos⟩ := hv.particles.number
      rw [hn] at hk
      cases hk
      exact_mod_cast hpos)
    (fun o states ho hst st hmem => by
      obtain ⟨states', e, h1⟩ := stateRanges_space o (hv.particleDistribution o ho) (h.distribution o ho)
      rw [hst] at e
      cases e
      exact (h1 st hmem).ge)
    h.plots
  exact ⟨_, hs', rfl⟩

end Bdld
