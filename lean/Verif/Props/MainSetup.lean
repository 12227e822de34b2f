import Verif.Spec.Options
import Verif.Props.MainResults
import Verif.Props.MuellerBrown
import Verif.Props.Polynomial
import Verif.Props.InitInput

/-
C89, C90: what the options of the input file mean for the potential and for the dynamics.
-/

namespace Bdld

open Spec

variable {R : Type}

/-! ### Options -/

theorem getItem_inv {V : Type} {o : Dict V} {key : String} {v : V} (h : o.getItem key = .ok v) :
    o.get? key = some v := by
  unfold Dict.getItem at h
  split at h
  · rename_i x hx
    cases h
    exact hx
  · cases h

theorem asFloat_inv {v : OptVal ℝ} {x : ℝ} (h : v.asFloat = .ok x) : v = .base (.float x) := by
  unfold OptVal.asFloat at h
  split at h <;> cases h
  rfl

theorem asInt_inv {v : OptVal ℝ} {x : Int} (h : v.asInt = .ok x) : v = .base (.int x) := by
  unfold OptVal.asInt at h
  split at h <;> cases h
  rfl

theorem floats_inv : ∀ (l : List (BaseVal ℝ)) (xs : List ℝ),
    (OptVal.list l).asFloats = .ok xs → l = xs.map .float
  | [], xs, h => by cases h; rfl
  | v :: l, xs, h => by
    unfold OptVal.asFloats at h
    simp only [List.mapM_cons] at h
    obtain ⟨x, hx, h⟩ := bind_ok h
    obtain ⟨ys, hys, h⟩ := bind_ok h
    cases h
    rw [floats_inv l ys hys, List.map_cons]
    cases v <;> cases hx
    rfl

theorem asFloats_inv {v : OptVal ℝ} {l : List ℝ} (h : v.asFloats = .ok l) : v = .list (l.map .float) := by
  cases v with
  | list vs => rw [floats_inv vs l h]
  | base b => cases h
  | none => cases h

theorem floatOpt {o : Dict (OptVal ℝ)} {key : String} {v : OptVal ℝ} {x : ℝ} (h1 : o.getItem key = .ok v)
    (h2 : v.asFloat = .ok x) : FloatOpt o key x := by
  rw [FloatOpt, getItem_inv h1, asFloat_inv h2]

theorem floatsOpt {o : Dict (OptVal ℝ)} {key : String} {v : OptVal ℝ} {x : List ℝ} (h1 : o.getItem key = .ok v)
    (h2 : v.asFloats = .ok x) : FloatsOpt o key x := by
  rw [FloatsOpt, getItem_inv h1, asFloats_inv h2]

theorem singleRange_inv {o : Dict (OptVal ℝ)} {r : List (ℝ × ℝ)} (h : singleRange o = .ok r) :
    ∃ lo hi, FloatOpt o "min" lo ∧ FloatOpt o "max" hi ∧ r = [(lo, hi)] := by
  unfold singleRange at h
  obtain ⟨v, h1, h⟩ := bind_ok h
  obtain ⟨lo, h2, h⟩ := bind_ok h
  obtain ⟨v', h3, h⟩ := bind_ok h
  obtain ⟨hi, h4, h⟩ := bind_ok h
  cases h
  exact ⟨lo, hi, floatOpt h1 h2, floatOpt h3 h4, rfl⟩

theorem zipRanges_inv {o : Dict (OptVal ℝ)} {r : List (ℝ × ℝ)} (h : zipRanges o = .ok r) :
    ∃ mins maxs, FloatsOpt o "min" mins ∧ FloatsOpt o "max" maxs ∧ r = mins.zip maxs := by
  unfold zipRanges at h
  obtain ⟨v, h1, h⟩ := bind_ok h
  obtain ⟨lo, h2, h⟩ := bind_ok h
  obtain ⟨v', h3, h⟩ := bind_ok h
  obtain ⟨hi, h4, h⟩ := bind_ok h
  cases h
  exact ⟨lo, hi, floatsOpt h1 h2, floatsOpt h3 h4, rfl⟩

/-! ### Polynomials -/

theorem newPolynomial_inv {d : Nat} {arr : NdArr d} {r : List (ℝ × ℝ)} {p : Potential ℝ d}
    (h : newPolynomial arr (some r) = .ok p) : 1 ≤ d ∧ d ≤ 3 ∧
      p = ⟨polyEnergy arr, polyForce arr, baseEvaluate (polyEnergy arr) (polyForce arr), r, none⟩ := by
  unfold newPolynomial at h
  split at h
  · cases h
  · split at h
    · cases h
    · cases h
      exact ⟨by omega, by omega, rfl⟩

theorem npIndex_pos {n : Nat} {i : Int} {j : Nat} (h : npIndex n i = .ok j) : 0 < n := by
  unfold npIndex at h
  split at h
  · omega
  · split at h
    · omega
    · cases h

theorem npIndices_pos : (d : Nat) → (shape : Fin d → Nat) → (i : Fin d → Int) → (j : Fin d → Nat) →
    npIndices d shape i = .ok j → ∀ k, 0 < shape k
  | 0, _, _, _, _, k => k.elim0
  | d + 1, shape, i, j, h, k => by
    unfold npIndices at h
    obtain ⟨j0, h1, h⟩ := bind_ok h
    obtain ⟨js, h2, h⟩ := bind_ok h
    refine Fin.cases (npIndex_pos h1) (fun k => ?_) k
    exact npIndices_pos d (Fin.tail shape) (Fin.tail i) js h2 k

theorem foldlM_setCoeff_shape {d : Nat} (rows : List (CoeffRow d)) : ∀ (arr arr' : NdArr d),
    rows.foldlM setCoeff arr = .ok arr' → arr'.shape = arr.shape := by
  induction rows with
  | nil => intro arr arr' h; cases h; rfl
  | cons row rows ih =>
    intro arr arr' h
    rw [List.foldlM_cons] at h
    obtain ⟨b, h1, h⟩ := bind_ok h
    obtain ⟨idx, _, h1⟩ := bind_ok h1
    cases h1
    have := ih _ _ h
    exact this

/-- Every coefficient array read from a file has at least one entry in every direction. -/
theorem coefficientsFromFile_pos {d : Nat} (rows : List (CoeffRow d)) (arr : NdArr d)
    (h : coefficientsFromFile rows = .ok arr) : ∀ k, 0 < arr.shape k := by
  match rows, h with
  | [], h => cases h
  | [_], h => cases h
  | row :: row' :: rest, h =>
    unfold coefficientsFromFile at h
    simp only at h
    split at h
    · cases h
    · have hs := foldlM_setCoeff_shape _ _ _ h
      rw [List.foldlM_cons] at h
      obtain ⟨b, h1, h⟩ := bind_ok h
      obtain ⟨idx, h1, _⟩ := bind_ok h1
      rw [hs]
      exact npIndices_pos d _ _ _ h1

theorem poly1_eq (cs : List ℝ) (hne : cs ≠ []) (x : Fin 1 → ℝ) :
    polyEnergy (coeffs1d cs) x = poly1 cs (x 0) := by
  rw [poly_energy _ (fun _ => List.length_pos_iff.2 hne)]
  unfold poly1 box coeffs1d
  simp only [Fin.prod_univ_one]
  refine Finset.sum_bij' (fun e _ => e 0) (fun i _ _ => i) ?_ ?_ ?_ ?_ ?_
  · intro e he
    exact Fintype.mem_piFinset.1 he 0
  · intro i hi
    exact Fintype.mem_piFinset.2 (fun _ => hi)
  · intro e _
    funext k
    rw [Subsingleton.elim k 0]
  · intro i _; rfl
  · intro e _; rfl

theorem pyTrunc_nat (n : Nat) : pyTrunc ((n : Nat) : ℝ) = (n : Int) := by
  unfold pyTrunc
  rw [if_pos (Nat.cast_nonneg n), Int.floor_natCast]

theorem parseCoeffRow_fileRow {d : Nat} (p : (Fin d → Nat) × ℝ) (extra : List ℝ) :
    parseCoeffRow d (fileRow p ++ extra) = .ok (coeffRow p) := by
  unfold parseCoeffRow fileRow
  rw [if_pos (by simp), List.append_assoc]
  have h1 : ((List.ofFn fun k => (p.1 k : ℝ)) ++ ([p.2] ++ extra)).getD d 0 = p.2 := by
    rw [List.getD_eq_getElem?_getD, List.getElem?_append_right (by simp)]
    simp
  have h2 : ∀ k : Fin d, ((List.ofFn fun k => (p.1 k : ℝ)) ++ ([p.2] ++ extra)).getD k 0 = (p.1 k : ℝ) := by
    intro k
    rw [List.getD_eq_getElem?_getD, List.getElem?_append_left (by simp)]
    simp
  rw [h1]
  simp only [h2, pyTrunc_nat]
  rfl

theorem parseCoeffRow_rows {d : Nat} {rows : List (List ℝ)} {l : List ((Fin d → Nat) × ℝ)} (h : RowsOf rows l) :
    rows.mapM (parseCoeffRow d) = .ok (l.map coeffRow) := by
  unfold RowsOf at h
  induction h with
  | nil => rfl
  | cons h _ ih =>
    obtain ⟨extra, rfl⟩ := h
    rw [List.mapM_cons, parseCoeffRow_fileRow, ok_bind, ih]
    rfl

/-! ### The potential of the options -/

/-- The boundary condition does not matter for energy, force, and ranges. -/
theorem withBc {d : Nat} (p : Potential ℝ d) (opt : Option String) :
    (p.withBcOption opt).energy = p.energy ∧ (p.withBcOption opt).force = p.force ∧
    (p.withBcOption opt).evaluate = p.evaluate ∧ (p.withBcOption opt).ranges = p.ranges := ⟨rfl, rfl, rfl, rfl⟩

theorem conservative_poly {d : Nat} (arr : NdArr d) (h : ∀ k, 0 < arr.shape k) :
    Conservative (polyEnergy arr) (polyForce arr) := fun x => (poly_force arr h x).2

theorem conservative_mb (A : Fin 4 → ℝ) : Conservative (MB.energy A) (MB.force A) := fun x => (mb_force A x).2

/-- Facts about every potential that is set up for the three kinds of options. -/
structure PotentialFacts (w : World R) (o : Dict (OptVal ℝ)) (p : AnyPotential) : Prop where
  dim : 1 ≤ p.d ∧ p.d ≤ 3
  eval : ∀ x, p.pot.evaluate x = (p.pot.energy x, p.pot.force x)
  conservative : Conservative p.pot.energy p.pot.force
  oneDim : StrOpt o "type" "polynomial" → IntOpt o "n_dim" 1 → p.d = 1 ∧ ∃ cs lo hi,
    FloatsOpt o "coeffs" cs ∧ FloatOpt o "min" lo ∧ FloatOpt o "max" hi ∧
    p.pot.ranges = [(lo, hi)] ∧ ∀ (x : Fin p.d → ℝ) k, p.pot.energy x = poly1 cs (x k)
  moreDim : ∀ n : Int, StrOpt o "type" "polynomial" → IntOpt o "n_dim" n → n ≠ 1 →
    p.d = n.toNat ∧ ∃ name mins maxs rows,
      StrOpt o "coeffs-file" name ∧ FloatsOpt o "min" mins ∧ FloatsOpt o "max" maxs ∧
      w.coeffFile name = some rows ∧ p.pot.ranges = mins.zip maxs ∧ (∀ row ∈ rows, p.d < row.length) ∧
      ∀ l : List ((Fin p.d → Nat) × ℝ), RowsOf rows l → (l.map Prod.fst).Nodup →
        p.pot.energy = polyOfRows l
  mueller : StrOpt o "type" "mueller-brown" → p.d = 2 ∧
    p.pot.ranges = [(-3 / 2, 3 / 2), (-1 / 2, 5 / 2)] ∧
    ∀ (x : Fin p.d → ℝ) (i j : Fin p.d), i.val = 0 → j.val = 1 →
      p.pot.energy x = scalingOf o * (MB.energy MB.prefactors ![x i, x j] - MB.potShift) + MB.potShift
  reflective : p.pot.bc = some .reflective ↔ StrOpt o "boundary-condition" "reflective"
  periodic : p.pot.bc = some .periodic ↔ StrOpt o "boundary-condition" "periodic"

theorem coeffFile_rows {d : Nat} (rows : List (List ℝ)) (rows' : List (CoeffRow d)) (arr : NdArr d)
    (h1 : rows.mapM (parseCoeffRow d) = .ok rows') (h2 : coefficientsFromFile rows' = .ok arr)
    (l : List ((Fin d → Nat) × ℝ)) (hl : RowsOf rows l) (hnd : (l.map Prod.fst).Nodup) :
    polyEnergy arr = polyOfRows l := by
  have h3 : rows' = l.map coeffRow := by
    rw [parseCoeffRow_rows hl] at h1
    cases h1
    rfl
  have hlen : 2 ≤ l.length := by
    rw [h3] at h2
    match l, h2 with
    | [], h2 => cases h2
    | [_], h2 => cases h2
    | _ :: _ :: _, _ => simp
  funext x
  rw [coeff_file_energy_partial l hlen hnd arr (h3 ▸ h2) x]
  rfl

theorem mapM_parseCoeffRow {d : Nat} : ∀ (rows : List (List ℝ)) (rows' : List (CoeffRow d)),
    rows.mapM (parseCoeffRow d) = .ok rows' → ∀ row ∈ rows, d < row.length
  | [], _, _, _, h => by cases h
  | r :: rows, rows', h, row, hr => by
    rw [List.mapM_cons] at h
    obtain ⟨x, hx, h⟩ := bind_ok h
    obtain ⟨xs, hxs, h⟩ := bind_ok h
    rcases List.mem_cons.1 hr with rfl | hr
    · unfold parseCoeffRow at hx
      split at hx
      · assumption
      · cases hx
    · exact mapM_parseCoeffRow rows xs hxs row hr

theorem bcOption_iff (o : Dict (OptVal ℝ)) (v : OptVal ℝ) (bc : Option String)
    (h1 : o.getItem "boundary-condition" = .ok v) (h2 : v.asOptStr = .ok bc) (s : String) :
    bc = some s ↔ StrOpt o "boundary-condition" s := by
  rw [StrOpt, getItem_inv h1]
  unfold OptVal.asOptStr at h2
  split at h2 <;> cases h2 <;> simp

/-- The potential set up from valid options. -/
theorem setupPotential_facts (w : World R) (o : Dict (OptVal ℝ)) (hv : ValidPotential o) (p : AnyPotential)
    (h : setupPotential w o = .ok p) : PotentialFacts w o p := by
  unfold setupPotential at h
  obtain ⟨v, g1, h⟩ := bind_ok h
  obtain ⟨q, hq, h⟩ := bind_ok h
  obtain ⟨v2, g2, h⟩ := bind_ok h
  obtain ⟨bc, g3, h⟩ := bind_ok h
  cases h
  have hbc := bcOption_iff o v2 bc g2 g3
  have hrefl : bcOfOption bc = some .reflective ↔ StrOpt o "boundary-condition" "reflective" := by
    rw [← hbc]; unfold bcOfOption
    split
    · simpa
    · split <;> simp_all
  have hper : bcOfOption bc = some .periodic ↔ StrOpt o "boundary-condition" "periodic" := by
    rw [← hbc]; unfold bcOfOption
    split
    · rename_i e; simp [e]
    · split <;> simp_all
  have gt := getItem_inv g1
  split at hq
  · -- polynomial
    have hmb : ¬ StrOpt o "type" "mueller-brown" := by
      intro hm
      rw [StrOpt, gt] at hm
      simp at hm
    unfold setupPolynomial at hq
    obtain ⟨vn, gn, hq⟩ := bind_ok hq
    have gn := getItem_inv gn
    split at hq
    · obtain ⟨r, hr, hq⟩ := bind_ok hq
      obtain ⟨vc, gc, hq⟩ := bind_ok hq
      obtain ⟨lo, hi, e1, e2, rfl⟩ := singleRange_inv hr
      split at hq
      · cases hq
      · obtain ⟨cs, hcs, hq⟩ := bind_ok hq
        obtain ⟨pp, hpp, hq⟩ := bind_ok hq
        cases hq
        obtain ⟨d1, d2, rfl⟩ := newPolynomial_inv hpp
        have hco := floatsOpt gc hcs
        have hne : cs ≠ [] := by
          rintro rfl
          rcases (hv.oneDim gt gn).1 with h0 | ⟨l, h0, hl, _⟩
          · rw [FloatsOpt, h0] at hco; cases hco
          · rw [FloatsOpt, h0] at hco
            simp at hco
            exact hl hco
        refine ⟨⟨d1, d2⟩, fun _ => rfl, conservative_poly _ (fun _ => List.length_pos_iff.2 hne), ?_, ?_, ?_, hrefl, hper⟩
        · intro _ _
          refine ⟨rfl, cs, lo, hi, hco, e1, e2, rfl, fun x k => ?_⟩
          have : k = (0 : Fin 1) := Subsingleton.elim _ _
          rw [this]
          exact poly1_eq cs hne x
        · intro n _ hn hn1
          rw [IntOpt, gn] at hn
          simp at hn
          exact absurd hn.symm hn1
        · intro hm
          exact absurd hm hmb
    · rename_i n hn1 _
      obtain ⟨r, hr, hq⟩ := bind_ok hq
      obtain ⟨vc, gc, hq⟩ := bind_ok hq
      obtain ⟨name, hname, hq⟩ := bind_ok hq
      obtain ⟨mins, maxs, e1, e2, rfl⟩ := zipRanges_inv hr
      split at hq
      · cases hq
      · rename_i rows hrows
        obtain ⟨rows', hrows', hq⟩ := bind_ok hq
        obtain ⟨arr, harr, hq⟩ := bind_ok hq
        obtain ⟨pp, hpp, hq⟩ := bind_ok hq
        cases hq
        obtain ⟨d1, d2, rfl⟩ := newPolynomial_inv hpp
        have hpos := coefficientsFromFile_pos _ _ harr
        refine ⟨⟨d1, d2⟩, fun _ => rfl, conservative_poly _ hpos, ?_, ?_, ?_, hrefl, hper⟩
        · intro _ h1
          rw [IntOpt, gn] at h1
          simp only [Option.some.injEq, OptVal.base.injEq, BaseVal.int.injEq] at h1
          exact absurd h1 hn1
        · intro m _ hm hm1
          rw [IntOpt, gn] at hm
          simp only [Option.some.injEq, OptVal.base.injEq, BaseVal.int.injEq] at hm
          subst hm
          obtain ⟨s, hs, _⟩ := (hv.moreDim gt (by rw [gn]; simpa using hm1)).1
          have hs' : name = some s := by
            have := getItem_inv gc
            rw [hs] at this
            cases this
            cases hname
            rfl
          subst hs'
          exact ⟨rfl, s, mins, maxs, rows, hs, e1, e2, hrows, rfl, mapM_parseCoeffRow rows rows' hrows',
            fun l hl hnd => coeffFile_rows rows rows' arr hrows' harr l hl hnd⟩
        · intro hm
          exact absurd hm hmb
    · cases hq
  · -- Müller-Brown
    have hpoly : ¬ StrOpt o "type" "polynomial" := by
      intro hm
      rw [StrOpt, gt] at hm
      simp at hm
    obtain ⟨vs, gs, hq⟩ := bind_ok hq
    obtain ⟨sc, hsc, hq⟩ := bind_ok hq
    cases hq
    refine ⟨⟨one_le_two, by norm_num⟩, fun x => mb_evaluate _ x, conservative_mb _, fun hm => absurd hm hpoly,
      fun _ hm => absurd hm hpoly, fun _ => ⟨rfl, rfl, ?_⟩, hrefl, hper⟩
    intro x i j hi hj
    have hij : (![x i, x j] : Fin 2 → ℝ) = x := by
      have h0 : i = (0 : Fin 2) := Fin.ext hi
      have h1 : j = (1 : Fin 2) := Fin.ext hj
      subst h0 h1
      funext k
      fin_cases k <;> rfl
    rw [hij]
    have hs : scalingOf o = mbFactor sc := by
      unfold scalingOf
      rw [getItem_inv gs]
      unfold OptVal.asOptFloat at hsc
      split at hsc <;> cases hsc <;> simp [mbFactor]
    have := (mb_scaling_exact_partial [sc] x).1
    simp only [List.map_cons, List.map_nil, List.prod_cons, List.prod_nil, mul_one] at this
    rw [hs, ← this]
    show MB.energy (MB.create MB.prefactors sc) x = _
    have : mbCreateAll [sc] = MB.create MB.prefactors sc := rfl
    rw [this]
    ring
  · cases hq

/-! ### The initial walkers -/

theorem uniformPos_turn (ops : InitRng R ℝ) (rs : List (ℝ × ℝ)) (r : R) (q : Nat) : ∀ m i, m + i = rs.length →
    uniformPos ops (rs.drop i) (uniformState ops rs r (q * rs.length + i)) =
      ((List.range m).map (fun k => uniformNumber ops rs r (q * rs.length + i + k)),
        uniformState ops rs r (q * rs.length + rs.length)) := by
  intro m
  induction m with
  | zero =>
    intro i hi
    rw [List.drop_eq_nil_of_le (by omega)]
    simp only [uniformPos, List.range_zero, List.map_nil]
    rw [show i = rs.length by omega]
  | succ m ih =>
    intro i hi
    have hlt : i < rs.length := by omega
    rw [List.drop_eq_getElem_cons hlt]
    have hmod : (q * rs.length + i) % rs.length = i := by
      rw [Nat.mul_comm, Nat.mul_add_mod, Nat.mod_eq_of_lt hlt]
    have hget : rs.getD ((q * rs.length + i) % rs.length) (0, 0) = rs[i] := by
      rw [hmod, List.getD_eq_getElem?_getD, List.getElem?_eq_getElem hlt]; rfl
    have hst : (ops.uniform rs[i].1 rs[i].2 (uniformState ops rs r (q * rs.length + i))).2 =
        uniformState ops rs r (q * rs.length + (i + 1)) := by
      rw [show q * rs.length + (i + 1) = (q * rs.length + i) + 1 by omega, uniformState]
      simp only [hget]
    have hnum : (ops.uniform rs[i].1 rs[i].2 (uniformState ops rs r (q * rs.length + i))).1 =
        uniformNumber ops rs r (q * rs.length + i) := by
      unfold uniformNumber
      simp only [hget]
    simp only [uniformPos, hst, hnum]
    rw [ih (i + 1) (by omega)]
    refine Prod.ext ?_ rfl
    simp only [List.range_succ_eq_map, List.map_cons, List.map_map, Nat.add_zero]
    congr 1
    refine List.map_congr_left (fun k _ => ?_)
    simp only [Function.comp_apply]
    congr 1
    omega

theorem newParticle_atRest {d : Nat} (c : LdCfg ℝ d) (hev : ∀ x, c.pot.evaluate x = (c.pot.energy x, c.pot.force x))
    (mass : ℝ) (x : Fin d → ℝ) : newParticle c x mass = atRest c mass x := by
  unfold newParticle atRest
  rw [hev]

section
variable {d : Nat} {S : Type} (ops : InitRng R ℝ) (c : LdCfg ℝ d)
  (hev : ∀ x, c.pot.evaluate x = (c.pot.energy x, c.pot.force x)) (mass : ℝ)
include hev

theorem addParticle_inv {s s' : LdState ℝ d S} {pos : List ℝ} (h : s.addParticle c pos mass (-1) false = .ok s') :
    pos.length = d ∧ s' = ⟨s.particles ++ [atRest c mass (coords d pos)], s.rng⟩ := by
  by_cases hl : pos.length = d
  · rw [addParticle_end c s pos mass hl, newParticle_atRest c hev] at h
    cases h
    exact ⟨hl, rfl⟩
  · rw [addParticle_wrong c s pos mass hl] at h
    cases h

theorem initGlobal_inv (r : R) : ∀ (m j : Nat) (s s' : LdState ℝ d S),
    initGlobal ops c mass m (uniformState ops c.pot.ranges r (j * c.pot.ranges.length)) s = .ok s' →
    (0 < m → c.pot.ranges.length = d) ∧ s'.rng = s.rng ∧
    s'.particles = s.particles ++ (List.range m).map (fun i => atRest c mass
      (fun k : Fin d => uniformNumber ops c.pot.ranges r ((j + i) * d + k))) := by
  intro m
  induction m with
  | zero => intro j s s' h; cases h; simp
  | succ m ih =>
    intro j s s' h
    have hu := uniformPos_turn ops c.pot.ranges r j c.pot.ranges.length 0 rfl
    simp only [List.drop_zero, Nat.add_zero] at hu
    simp only [initGlobal, hu] at h
    obtain ⟨s1, h1, h⟩ := bind_ok h
    obtain ⟨hl, rfl⟩ := addParticle_inv c hev mass h1
    have hd : c.pot.ranges.length = d := by simpa using hl
    rw [show j * c.pot.ranges.length + c.pot.ranges.length = (j + 1) * c.pot.ranges.length by ring] at h
    obtain ⟨-, e2, e3⟩ := ih (j + 1) _ _ h
    refine ⟨fun _ => hd, e2, ?_⟩
    rw [e3, List.append_assoc, List.range_succ_eq_map]
    simp only [List.map_cons, List.map_map, List.singleton_append, Nat.add_zero]
    congr 2
    · congr 1
      funext k
      unfold coords
      rw [List.getD_eq_getElem?_getD, List.getElem?_map, List.getElem?_range (by omega)]
      simp only [Option.map_some, Option.getD_some]
      rw [hd]
    · refine List.map_congr_left (fun i _ => ?_)
      simp only [Function.comp_apply]
      congr 1
      funext k
      rw [show j + 1 + i = j + i.succ by omega]

theorem initChoice_inv (choices : List (List ℝ)) (r : R) : ∀ (m j : Nat) (s s' : LdState ℝ d S),
    initChoice ops c mass choices m ((fun r => (ops.choice choices.length r).2)^[j] r) s = .ok s' →
    s'.rng = s.rng ∧
    s'.particles = s.particles ++ (List.range m).map (fun i => atRest c mass
      (coords d (choices.getD (chosen ops choices.length r (j + i)) []))) ∧
    ∀ i < m, (choices.getD (chosen ops choices.length r (j + i)) []).length = d := by
  intro m
  induction m with
  | zero => intro j s s' h; cases h; simp
  | succ m ih =>
    intro j s s' h
    simp only [initChoice] at h
    obtain ⟨p, hp, h⟩ := bind_ok h
    obtain ⟨s1, h1, h⟩ := bind_ok h
    obtain ⟨hl, rfl⟩ := addParticle_inv c hev mass h1
    unfold chooseRow at hp
    split at hp
    · cases hp
    · cases hp
      simp only at h hl
      have hit : (ops.choice choices.length ((fun r => (ops.choice choices.length r).2)^[j] r)).2 =
          (fun r => (ops.choice choices.length r).2)^[j + 1] r := by
        rw [Function.iterate_succ_apply']
      rw [hit] at h
      obtain ⟨e1, e2, e3⟩ := ih (j + 1) _ _ h
      refine ⟨e1, ?_, ?_⟩
      · rw [e2, List.append_assoc, List.range_succ_eq_map]
        simp only [List.map_cons, List.map_map, List.singleton_append, Nat.add_zero]
        congr 2
        refine List.map_congr_left (fun i _ => ?_)
        simp only [Function.comp_apply]
        rw [show j + 1 + i = j + i.succ by omega]
      · intro i hi
        cases i with
        | zero => exact hl
        | succ i =>
          have := e3 i (by omega)
          rw [show j + 1 + i = j + (i + 1) by omega] at this
          exact this

omit hev in
theorem addCopies_inv (pos : List ℝ) : ∀ (m : Nat) (s s' : LdState ℝ d S), addCopies c mass pos m s = .ok s' →
    s' = ⟨s.particles ++ List.replicate m (newParticle c (coords d pos) mass), s.rng⟩
  | 0, s, s', h => by cases h; simp
  | m + 1, s, s', h => by
    by_cases hl : pos.length = d
    · rw [addCopies_spec c mass pos hl] at h
      cases h
      rfl
    · rw [addCopies, addParticle_wrong c s pos mass hl] at h
      cases h

omit hev in
theorem addAllCopies_inv : ∀ (l : List (List ℝ × Int)) (s s' : LdState ℝ d S), addAllCopies c mass l s = .ok s' →
    s' = ⟨s.particles ++ placed c mass (l.map (fun x => (x.1, x.2.toNat))), s.rng⟩
  | [], s, s', h => by cases h; simp [placed]
  | (pos, m) :: l, s, s', h => by
    rw [addAllCopies] at h
    obtain ⟨s1, h1, h⟩ := bind_ok h
    rw [addCopies_inv c mass pos _ _ _ h1] at h
    rw [addAllCopies_inv l _ _ h]
    simp [placed]

end

/-! ### Dynamics of the options -/

theorem seed_inv (w : World R) (user : RngUser) (o : Dict (OptVal ℝ)) (v : OptVal ℝ) (seed : Option Int) (r : R)
    (h1 : o.getItem "seed" = .ok v) (h2 : v.asOptInt = .ok seed) (h3 : w.defaultRng user seed = .ok r) :
    r = seededBy w user o ∧ SeedOk o := by
  unfold seededBy SeedOk IntOpt
  rw [getItem_inv h1]
  unfold OptVal.asOptInt at h2
  split at h2
  · cases h2; cases h3; exact ⟨rfl, fun i hi => by cases hi⟩
  · cases h2
    unfold World.defaultRng at h3
    simp only at h3
    split at h3
    · cases h3
    · cases h3
      refine ⟨rfl, fun i hi => ?_⟩
      cases hi
      omega
  · cases h2

/-- The Langevin dynamics set up from the options. -/
theorem setupLd_inv {d : Nat} (w : World R) (o : Dict (OptVal ℝ)) (pot : Potential ℝ d) (l : LdSetup d R)
    (h : setupLd w o pot = .ok l) :
    ((StrOpt o "type" "overdamped" ∧ ∃ dt, FloatOpt o "timestep" dt ∧ l.kind = .overdamped ∧
        l.cfg = overdampedCfg pot dt) ∨
      (StrOpt o "type" "bussi-parinello" ∧ ∃ dt friction kt, FloatOpt o "timestep" dt ∧
        FloatOpt o "friction" friction ∧ FloatOpt o "kt" kt ∧ l.kind = .bussi ∧
        l.cfg = bussiCfg pot dt friction kt)) ∧
    l.state = ⟨[], seededBy w .ld o⟩ ∧ SeedOk o := by
  unfold setupLd at h
  obtain ⟨v, g1, h⟩ := bind_ok h
  have gt := getItem_inv g1
  split at h
  · obtain ⟨v1, g1, h⟩ := bind_ok h
    obtain ⟨dt, f1, h⟩ := bind_ok h
    obtain ⟨v2, g2, h⟩ := bind_ok h
    obtain ⟨fr, f2, h⟩ := bind_ok h
    obtain ⟨v3, g3, h⟩ := bind_ok h
    obtain ⟨kt, f3, h⟩ := bind_ok h
    obtain ⟨v4, g4, h⟩ := bind_ok h
    obtain ⟨seed, f4, h⟩ := bind_ok h
    obtain ⟨rng, f5, h⟩ := bind_ok h
    cases h
    obtain ⟨rfl, hs⟩ := seed_inv w .ld o v4 seed rng g4 f4 f5
    exact ⟨Or.inr ⟨gt, dt, fr, kt, floatOpt g1 f1, floatOpt g2 f2, floatOpt g3 f3, rfl, rfl⟩, rfl, hs⟩
  · obtain ⟨v1, g1, h⟩ := bind_ok h
    obtain ⟨dt, f1, h⟩ := bind_ok h
    obtain ⟨v4, g4, h⟩ := bind_ok h
    obtain ⟨seed, f4, h⟩ := bind_ok h
    obtain ⟨rng, f5, h⟩ := bind_ok h
    cases h
    obtain ⟨rfl, hs⟩ := seed_inv w .ld o v4 seed rng g4 f4 f5
    exact ⟨Or.inl ⟨gt, dt, floatOpt g1 f1, rfl, rfl⟩, rfl, hs⟩
  · cases h

/-! ### Theorems about finished runs -/

variable {w : World R} {file : Option (List Section)} {a : AnySim R} {config : Input ℝ} {n : Nat}
  {s0 : Sim a.d R}

theorem finished_required (hr : FinishedRun w file a config n s0) :
    setupPotential w config.potential = .ok ⟨a.d, a.cfg.ld.pot⟩ ∧
    ∃ l s, setupLd w config.ld a.cfg.ld.pot = .ok l ∧ l.kind = a.cfg.kind ∧ l.cfg = a.cfg.ld ∧
      initParticles pyTrunc w.init (w.defaultRng .particles) l.cfg config.particles l.state = .ok s ∧
      s.particles = s0.particles ∧ s.rng = s0.ldRng := by
  obtain ⟨d, cfg, sim⟩ := a
  have h := hr.required
  obtain ⟨p, hp, h⟩ := bind_ok h
  obtain ⟨l, hl, h⟩ := bind_ok h
  obtain ⟨s, hs, h⟩ := bind_ok h
  obtain ⟨pd, pp⟩ := p
  simp only [pure_eq_ok, Except.ok.injEq, AnySim.mk.injEq] at h
  obtain ⟨rfl, h1, h2⟩ := h
  simp only [heq_eq_eq, SimCfg.mk.injEq, Sim.mk.injEq, and_true] at h1 h2
  have hpot : l.cfg.pot = pp := by
    rcases (setupLd_inv w config.ld pp l hl).1 with ⟨_, dt, _, _, e⟩ | ⟨_, dt, fr, kt, _, _, _, _, e⟩ <;> rw [e] <;> rfl
  rw [h1.2] at hpot
  change cfg.ld.pot = pp at hpot
  subst hpot
  exact ⟨hp, l, s, hl, h1.1, h1.2, hs, h2.1, h2.2⟩

/-- C89: the potential of a finished run is the one described by the options: dimension, energy, force (minus
the gradient of the energy), ranges and boundary condition. -/
theorem main_potential (hr : FinishedRun w file a config n s0) :
    PotentialFacts w config.potential ⟨a.d, a.cfg.ld.pot⟩ :=
  setupPotential_facts w _ (input_valid 1 one_pos file config hr.parse).potential _ (finished_required hr).1

/-- C89: the boundary condition is the one asked for. -/
theorem main_bc (hr : FinishedRun w file a config n s0) : a.cfg.ld.pot.bc = bcOf config.potential := by
  obtain ⟨_, _, _, _, _, _, h1, h2⟩ := main_potential hr
  simp only [StrOpt] at h1 h2
  unfold bcOf
  split
  · rename_i e; exact h1.2 e
  · rename_i e; exact h2.2 e
  · rename_i e1 e2
    cases hb : a.cfg.ld.pot.bc with
    | none => rfl
    | some b =>
      cases b with
      | reflective => exact absurd (h1.1 hb) e1
      | periodic => exact absurd (h2.1 hb) e2

/-- C90: integrator, constants and generator of a finished run are those of the options. -/
theorem main_constants (hr : FinishedRun w file a config n s0) :
    (StrOpt config.ld "type" "overdamped" → ∃ dt, FloatOpt config.ld "timestep" dt ∧
      a.cfg.kind = .overdamped ∧ a.cfg.ld = overdampedCfg a.cfg.ld.pot dt) ∧
    (StrOpt config.ld "type" "bussi-parinello" → ∃ dt friction kt, FloatOpt config.ld "timestep" dt ∧
      FloatOpt config.ld "friction" friction ∧ FloatOpt config.ld "kt" kt ∧
      a.cfg.kind = .bussi ∧ a.cfg.ld = bussiCfg a.cfg.ld.pot dt friction kt) ∧
    SeedOk config.ld := by
  obtain ⟨_, l, s, hl, e1, e2, _⟩ := finished_required hr
  obtain ⟨h1, _, h3⟩ := setupLd_inv w config.ld _ l hl
  rw [← e1, ← e2]
  refine ⟨fun ht => ?_, fun ht => ?_, h3⟩
  · rcases h1 with ⟨_, dt, k1, k2, k3⟩ | ⟨ht', _⟩
    · exact ⟨dt, k1, k2, by rw [k3]; rfl⟩
    · rw [StrOpt] at ht ht'
      rw [ht] at ht'
      simp at ht'
  · rcases h1 with ⟨ht', _⟩ | ⟨_, dt, fr, kt, k1, k2, k3, k4, k5⟩
    · rw [StrOpt] at ht ht'
      rw [ht] at ht'
      simp at ht'
    · exact ⟨dt, fr, kt, k1, k2, k3, k4, by rw [k5]; rfl⟩

theorem initParticles_rng {d : Nat} {S : Type} (ops : InitRng R ℝ) (seeded : Option Int → Except PyErr R)
    (c : LdCfg ℝ d) (hev : ∀ x, c.pot.evaluate x = (c.pot.energy x, c.pot.force x)) (o : Dict (OptVal ℝ))
    (s s' : LdState ℝ d S) (h : initParticles pyTrunc ops seeded c o s = .ok s') : s'.rng = s.rng := by
  unfold initParticles at h
  obtain ⟨_, _, h⟩ := bind_ok h
  obtain ⟨mass, _, h⟩ := bind_ok h
  obtain ⟨_, _, h⟩ := bind_ok h
  obtain ⟨number, _, h⟩ := bind_ok h
  obtain ⟨dist, _, h⟩ := bind_ok h
  split at h
  · obtain ⟨_, _, h⟩ := bind_ok h
    obtain ⟨_, _, h⟩ := bind_ok h
    obtain ⟨r, _, h⟩ := bind_ok h
    exact (initGlobal_inv ops c hev mass r number.toNat 0 s s' (by simpa [uniformState] using h)).2.1
  · obtain ⟨_, _, h⟩ := bind_ok h
    obtain ⟨_, _, h⟩ := bind_ok h
    obtain ⟨r, _, h⟩ := bind_ok h
    obtain ⟨choices, _, h⟩ := bind_ok h
    exact (initChoice_inv ops c hev mass choices r number.toNat 0 s s' h).1
  · obtain ⟨_, _, h⟩ := bind_ok h
    obtain ⟨fractions, _, h⟩ := bind_ok h
    obtain ⟨_, _, h⟩ := bind_ok h
    obtain ⟨choices, _, h⟩ := bind_ok h
    unfold initFractions at h
    obtain ⟨counts, _, h⟩ := bind_ok h
    simp only at h
    split at h
    · cases h
    · rw [addAllCopies_inv c mass _ _ _ h]
  · cases h; rfl

/-- C90: the generator of the dynamics is created from the seed option and not used before the first step. -/
theorem main_generator (hr : FinishedRun w file a config n s0) : s0.ldRng = seededBy w .ld config.ld := by
  obtain ⟨_, l, s, hl, e1, e2, hs, _, e4⟩ := finished_required hr
  obtain ⟨_, h2, _⟩ := setupLd_inv w config.ld _ l hl
  have := initParticles_rng w.init _ l.cfg (by rw [e2]; exact (main_potential hr).eval) _ _ _ hs
  rw [← e4, this, h2]

/-- C90: the initial walkers of a finished run. All are at rest with the mass of the options, energy and force
being those of their positions. random-global: the given number, their coordinates are consecutive random
numbers from the ranges of the potential. random-pos: the given number, chosen by consecutive random numbers
among the positions `pos1`, `pos2`, …; fractions-pos: the shares of the given number. -/
theorem main_initial (hr : FinishedRun w file a config n s0) : ∃ mass number,
    FloatOpt config.particles "mass" mass ∧ IntOpt config.particles "number" number ∧
    (StrOpt config.particles "initial-distribution" "random-global" → SeedOk config.particles ∧
      a.cfg.ld.pot.ranges.length = a.d ∧
      s0.particles = (List.range number.toNat).map (fun i => atRest a.cfg.ld mass (fun k : Fin a.d =>
        uniformNumber w.init a.cfg.ld.pot.ranges (seededBy w .particles config.particles) (i * a.d + k)))) ∧
    (StrOpt config.particles "initial-distribution" "random-pos" → SeedOk config.particles ∧
      ∀ choices : List (List ℝ),
        Numbered config.particles.get? "pos" "" (choices.map (fun p => .list (p.map .float))) →
        s0.particles = (List.range number.toNat).map (fun i => atRest a.cfg.ld mass (coords a.d
          (choices.getD (chosen w.init choices.length (seededBy w .particles config.particles) i) [])))) ∧
    (StrOpt config.particles "initial-distribution" "fractions-pos" →
      ∀ (choices : List (List ℝ)) (fractions : List ℝ),
        Numbered config.particles.get? "pos" "" (choices.map (fun p => .list (p.map .float))) →
        FloatsOpt config.particles "fractions" fractions → (∀ x ∈ fractions, 0 ≤ x) → 0 < fractions.sum →
        choices.length = fractions.length ∧
        s0.particles = (choices.zip (shares fractions number.toNat)).flatMap (fun x =>
          List.replicate x.2 (atRest a.cfg.ld mass (coords a.d x.1)))) := by
  obtain ⟨_, l, s, hl, e1, e2, hs, e3, _⟩ := finished_required hr
  obtain ⟨_, h2, _⟩ := setupLd_inv w config.ld _ l hl
  have hev := (main_potential hr).eval
  simp only at hev
  obtain ⟨cfg, sLd, sPot, sPart, _, _, _, _, _, _, hpart, _⟩ := parseAll_inv 1 file config hr.parse
  rw [e2, h2] at hs
  rw [← e3]
  unfold initParticles at hs
  obtain ⟨v1, g1, hs⟩ := bind_ok hs
  obtain ⟨mass, f1, hs⟩ := bind_ok hs
  obtain ⟨v2, g2, hs⟩ := bind_ok hs
  obtain ⟨number, f2, hs⟩ := bind_ok hs
  obtain ⟨dist, g3, hs⟩ := bind_ok hs
  have hpos : 0 < number := by
    obtain ⟨i, hi, hp⟩ := (input_valid 1 one_pos file config hr.parse).particles.number
    rw [getItem_inv g2, asInt_inv f2] at hi
    cases hi
    exact hp
  refine ⟨mass, number, floatOpt g1 f1, by rw [IntOpt, getItem_inv g2, asInt_inv f2], ?_, ?_, ?_⟩
  · intro hd
    have e := getItem_inv g3
    rw [hd] at e
    cases e
    obtain ⟨v4, g4, hs⟩ := bind_ok hs
    obtain ⟨seed, f4, hs⟩ := bind_ok hs
    obtain ⟨r, f5, hs⟩ := bind_ok hs
    obtain ⟨rfl, hseed⟩ := seed_inv w .particles _ v4 seed r g4 f4 f5
    obtain ⟨q1, _, q3⟩ := initGlobal_inv w.init a.cfg.ld hev mass _ number.toNat 0 _ _
      (by simpa [uniformState] using hs)
    refine ⟨hseed, q1 (by omega), ?_⟩
    simpa using q3
  · intro hd
    have e := getItem_inv g3
    rw [hd] at e
    cases e
    obtain ⟨v4, g4, hs⟩ := bind_ok hs
    obtain ⟨seed, f4, hs⟩ := bind_ok hs
    obtain ⟨r, f5, hs⟩ := bind_ok hs
    obtain ⟨choices', hc', hs⟩ := bind_ok hs
    obtain ⟨rfl, hseed⟩ := seed_inv w .particles _ v4 seed r g4 f4 f5
    refine ⟨hseed, fun choices hc => ?_⟩
    rw [posChoices_numbered 1 w.conv sPart _ hpart _ hc, mapM_asFloats _ choices rfl] at hc'
    obtain rfl : choices = choices' := Except.ok.inj hc'
    obtain ⟨_, q2, _⟩ := initChoice_inv w.init a.cfg.ld hev mass choices
      (seededBy w .particles config.particles) number.toNat 0 _ _ hs
    simpa using q2
  · intro hd choices fractions hc hf h0 hsum
    have e := getItem_inv g3
    rw [hd] at e
    cases e
    obtain ⟨v4, g4, hs⟩ := bind_ok hs
    obtain ⟨fractions', f4, hs⟩ := bind_ok hs
    obtain ⟨vals, f5, hs⟩ := bind_ok hs
    obtain ⟨choices', f6, hs⟩ := bind_ok hs
    have e4 := floatsOpt g4 f4
    rw [FloatsOpt] at e4 hf
    rw [hf] at e4
    simp only [Option.some.injEq, OptVal.list.injEq] at e4
    have e4 : fractions = fractions' :=
      List.map_injective_iff.2 (fun x y (h : BaseVal.float x = BaseVal.float y) => by cases h; rfl) e4
    subst e4
    obtain ⟨vals', hnd, hnum⟩ := numbered_dict config.particles "pos" ""
    obtain rfl : vals = vals' := by rw [f5] at hnd; exact Except.ok.inj hnd
    rw [numbered_unique _ "pos" "" vals _ hnum hc, mapM_asFloats _ choices rfl] at f6
    cases f6
    cases fractions with
    | nil => simp at hsum
    | cons f fs =>
      have hcnt := fractionCounts_exact f fs number.toNat h0 hsum
      rw [show ((number.toNat : Nat) : Int) = number by omega] at hcnt
      unfold initFractions at hs
      rw [hcnt, ok_bind] at hs
      simp only at hs
      split at hs
      · cases hs
      · rename_i hlen
        rw [not_not, List.length_map] at hlen
        refine ⟨by rw [hlen]; simp [shares], ?_⟩
        rw [addAllCopies_inv _ mass _ _ _ hs, List.zip_map_right, List.map_map]
        simp only [List.nil_append, placed]
        rw [List.flatMap_map]
        refine List.flatMap_congr (fun x _ => ?_)
        simp [newParticle_atRest _ hev]

end Bdld
