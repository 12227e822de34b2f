import Verif.Props.FaultInput
import Verif.Props.Bandwidth

/-
C134, part 4: exceptions of the set-up of the optional actions that are caught have a cause in the file.
-/

namespace Bdld
open Spec

/-- No exception that is caught around the set-up. -/
def Quiet {α : Type} (x : Except PyErr α) : Prop := ∀ e, x = .error e → caughtSetup e = false

theorem quiet_ok {α : Type} (a : α) : Quiet (.ok a : Except PyErr α) := fun e h => by cases h
theorem quiet_pure {α : Type} (a : α) : Quiet (pure a : Except PyErr α) := fun e h => by cases h

theorem quiet_error {α : Type} {e : PyErr} (h : caughtSetup e = false) : Quiet (.error e : Except PyErr α) := fun e' h' => by
  cases h'; exact h

theorem quiet_throw {α : Type} {e : PyErr} (h : caughtSetup e = false) : Quiet (throw e : Except PyErr α) := quiet_error h

theorem quiet_bind {α β : Type} {x : Except PyErr α} {f : α → Except PyErr β} (hx : Quiet x) (hf : ∀ a, Quiet (f a)) :
    Quiet (x >>= f) := by
  intro e h
  rcases bind_error h with h | ⟨a, _, h⟩
  · exact hx e h
  · exact hf a e h

theorem quiet_mapM {α β : Type} {f : α → Except PyErr β} (l : List α) (h : ∀ a, Quiet (f a)) : Quiet (l.mapM f) := by
  intro e he
  obtain ⟨a, _, ha⟩ := mapM_blame f e l he
  exact h a e ha

theorem quiet_get {V : Type} {d : Dict V} {key : String} (h : ∃ v, d.get? key = some v) : Quiet (d.getItem key) := by
  obtain ⟨v, hv⟩ := h
  rw [Dict.getItem, hv]
  exact quiet_ok _

macro "quiet_base" : tactic => `(tactic| (repeat' first
  | exact quiet_ok _
  | exact quiet_pure _
  | exact quiet_error rfl
  | exact quiet_throw rfl
  | assumption
  | refine quiet_bind ?_ fun _ => ?_
  | split
  | dsimp only))

/-! ### Options -/

section
variable {F : Type}

theorem quiet_asOptStr (v : OptVal F) : Quiet v.asOptStr := by unfold OptVal.asOptStr; quiet_base
theorem quiet_asOptFloat (v : OptVal F) : Quiet v.asOptFloat := by unfold OptVal.asOptFloat; quiet_base
theorem quiet_asOptStride (v : OptVal F) : Quiet v.asOptStride := by unfold OptVal.asOptStride; quiet_base
theorem quiet_asFlag (v : OptVal F) : Quiet v.asFlag := by unfold OptVal.asFlag; quiet_base
theorem quiet_asFloat (v : OptVal F) : Quiet v.asFloat := by unfold OptVal.asFloat; quiet_base
theorem quiet_asInt (v : OptVal F) : Quiet v.asInt := by unfold OptVal.asInt; quiet_base
theorem quiet_asOptInt (v : OptVal F) : Quiet v.asOptInt := by unfold OptVal.asOptInt; quiet_base

theorem quiet_asFloats (v : OptVal F) : Quiet v.asFloats := by
  unfold OptVal.asFloats
  split
  · refine quiet_mapM _ fun a => ?_
    quiet_base
  · quiet_base

theorem quiet_asNats (v : OptVal F) : Quiet v.asNats := by
  unfold OptVal.asNats
  split
  · refine quiet_mapM _ fun a => ?_
    quiet_base
  · quiet_base

theorem quiet_asOptFloats (v : OptVal F) : Quiet v.asOptFloats := by
  have := quiet_asFloats v
  unfold OptVal.asOptFloats
  split
  · quiet_base
  · quiet_base

theorem quiet_asOptNats (v : OptVal F) : Quiet v.asOptNats := by
  have := quiet_asNats v
  unfold OptVal.asOptNats
  split
  · quiet_base
  · quiet_base

theorem quiet_ofOptVal (v : OptVal F) : Quiet (Item.ofOptVal v) := by
  unfold Item.ofOptVal
  split
  · quiet_base
  · refine quiet_bind (quiet_mapM _ fun a => ?_) fun _ => quiet_pure _
    quiet_base
  · quiet_base

theorem quiet_numbered {V : Type} (get : String → Option (Except PyErr V)) (hget : ∀ k e, get k ≠ some (.error e)) (pre suf : String) :
    ∀ (fuel n : Nat) (res : List V), Quiet (numberedLoop get pre suf fuel n res)
  | 0, _, _ => quiet_ok _
  | fuel + 1, n, res => by
    rw [numberedLoop]
    split
    · exact quiet_ok _
    · rename_i e he
      exact absurd he (hget _ _)
    · exact quiet_numbered get hget pre suf fuel _ _

theorem quiet_numberedDict {V : Type} (d : Dict V) (pre suf : String) : Quiet (numberedDict d pre suf) := by
  refine quiet_numbered _ ?_ pre suf _ _ _
  intro k e h
  cases hd : d.get? k <;> simp [hd] at h

theorem quiet_len (i : Item F) : Quiet i.len := by unfold Item.len; quiet_base

theorem quiet_checkDims (n : Nat) : ∀ mins maxs : List (Item F), Quiet (checkDims n mins maxs)
  | [], _ => by rw [checkDims.eq_def]; exact quiet_ok _
  | _ :: _, [] => by rw [checkDims.eq_def]; exact quiet_ok _
  | m :: mins, x :: maxs => by
    have := quiet_checkDims n mins maxs
    have := quiet_len m
    have := quiet_len x
    rw [checkDims]
    quiet_base

theorem quiet_checkAllDims (mins maxs : List (Item F)) : Quiet (checkAllDims mins maxs) := by
  unfold checkAllDims
  split
  · quiet_base
  · exact quiet_bind (quiet_len _) fun n => quiet_checkDims n _ _

theorem quiet_ranges (mins maxs : List (Item F)) : Quiet (minMaxToRanges mins maxs) := by
  have h := quiet_checkAllDims mins maxs
  unfold minMaxToRanges
  split
  · quiet_base
  · split
    · quiet_base
    · quiet_base
    · rename_i e he
      exact quiet_error (h _ he)

theorem quiet_stateRanges (o : Dict (OptVal F)) : Quiet (stateRanges o) := by
  unfold stateRanges
  exact quiet_bind (quiet_numberedDict _ _ _) fun _ => quiet_bind (quiet_numberedDict _ _ _) fun _ =>
    quiet_bind (quiet_mapM _ quiet_ofOptVal) fun _ => quiet_bind (quiet_mapM _ quiet_ofOptVal) fun _ => quiet_ranges _ _

end

/-! ### Grids -/

theorem quiet_reshape {F : Type} (a : Nd F) (s : List Nat) : Quiet (a.reshape s) := by unfold Nd.reshape; quiet_base

theorem quiet_setData {F : Type} (g : Grid F) (a : Nd F) : Quiet (g.setData a) :=
  quiet_bind (quiet_reshape _ _) fun _ => quiet_pure _

theorem quiet_pointsOfAxes {F : Type} [Inhabited F] (axes : List (List F)) : Quiet (pointsOfAxes axes) := by
  unfold pointsOfAxes; quiet_base

section
variable {F : Type} [Field F]

omit [Field F] in
theorem quiet_map2 [Inhabited F] (op : F → F → F) (a b : Nd F) : Quiet (Nd.map2 op a b) := by unfold Nd.map2; quiet_base

theorem quiet_stepsizes : ∀ (r : List (F × F)) (n : List Nat), Quiet (stepsizesFromNpoints r n)
  | [], _ => by rw [stepsizesFromNpoints]; exact quiet_ok _
  | _ :: _, [] => by rw [stepsizesFromNpoints]; exact quiet_error rfl
  | r :: rs, n :: ns => by
    have h := quiet_stepsizes rs ns
    rw [stepsizesFromNpoints]
    split
    · quiet_base
    · split
      · rename_i e he
        exact quiet_error (h _ he)
      · quiet_base

theorem quiet_fromNpoints (r : List (F × F)) (n : List Nat) : Quiet (fromNpoints r n) := by
  have h := quiet_stepsizes r n
  unfold fromNpoints
  split
  · quiet_base
  · split
    · rename_i e he
      exact quiet_error (h _ he)
    · quiet_base

theorem quiet_copyEmpty (g : Grid F) : Quiet g.copyEmpty := quiet_fromNpoints _ _

theorem quiet_math (g : Grid F) (op : F → F) : Quiet (g.mathOnSelf op) :=
  quiet_bind (quiet_copyEmpty g) fun _ => quiet_setData _ _

theorem quiet_fromFunc [Inhabited F] (g : Grid F) (f : List F → F) : Quiet (g.setFromFunc f) :=
  quiet_bind (quiet_pointsOfAxes _) fun _ => quiet_setData _ _

theorem quiet_arith [Inhabited F] [DecidableEq F] (b : Bool) (g : Grid F) (o : Operand F) (op : F → F → F) : Quiet (g.arith b o op) := by
  unfold Grid.arith
  refine quiet_bind (quiet_copyEmpty g) fun n => ?_
  split
  · exact quiet_setData _ _
  · exact quiet_bind (quiet_map2 _ _ _) fun _ => quiet_setData _ _
  · quiet_base
    all_goals first | exact quiet_map2 _ _ _ | exact quiet_reshape _ _
  · quiet_base

theorem quiet_spConvolve (a b : Nd F) (m : ConvMode) : Quiet (spConvolve a b m) := by
  unfold spConvolve
  quiet_base

theorem quiet_convolve [DecidableEq F] (g1 g2 : Grid F) (m : ConvMode) : Quiet (convolve g1 g2 m) := by
  have h1 := quiet_spConvolve g1.data g2.data m
  have h2 := quiet_copyEmpty g1
  unfold convolve
  quiet_base
  all_goals first | exact quiet_reshape _ _ | exact quiet_fromNpoints _ _

theorem quiet_sparsify [Inhabited F] (interp : List (List F) → List F → List (List F) → List F) (g : Grid F) (n : List Nat) :
    Quiet (sparsify interp g n) := by
  unfold sparsify Grid.points
  quiet_base
  all_goals first | exact quiet_reshape _ _ | exact quiet_fromNpoints _ _ | exact quiet_pointsOfAxes _

variable [LinearOrder F] [FloorRing F]

theorem quiet_stepsizeLoop (b : Bool) : ∀ (r : List (F × F)) (n : List F), Quiet (stepsizeLoop b r n)
  | [], _ => by rw [stepsizeLoop]; exact quiet_ok _
  | _ :: _, [] => by rw [stepsizeLoop]; exact quiet_error rfl
  | r :: rs, n :: ns => by
    have h := quiet_stepsizeLoop b rs ns
    rw [stepsizeLoop]
    split
    · quiet_base
    · dsimp only
      split
      · rename_i e he
        exact quiet_error (h _ he)
      · quiet_base

theorem quiet_fromStepsizes (r : List (F × F)) (n : List F) (b : Bool) : Quiet (fromStepsizes r n b) := by
  have h := quiet_stepsizeLoop b r n
  unfold fromStepsizes
  split
  · rename_i e he
    exact quiet_error (h _ he)
  · quiet_base

end

theorem quiet_kernel (g : Grid ℝ) (bw : List ℝ) (m : ConvMode) : Quiet (densKernelConvolution g bw m) :=
  quiet_bind (quiet_fromStepsizes _ _ _) fun _ => quiet_bind (quiet_pointsOfAxes _) fun _ => quiet_bind (quiet_setData _ _) fun _ =>
    quiet_convolve _ _ _

theorem quiet_density (energy : List ℝ → ℝ) (d : Nat) (ranges : List (ℝ × ℝ)) (bw : List ℝ) (kt : ℝ) :
    Quiet (bdProbDensity energy d ranges bw kt) := by
  unfold bdProbDensity
  split
  · quiet_base
  unfold calculateProbabilityDensity
  split
  · quiet_base
  split
  · quiet_base
  exact quiet_bind (quiet_fromNpoints _ _) fun _ => quiet_bind (quiet_fromFunc _ _) fun _ => quiet_bind (quiet_math _ _) fun _ =>
    quiet_bind (quiet_arith _ _ _ _) fun _ => quiet_bind (quiet_math _ _) fun _ => quiet_arith _ _ _ _

theorem quiet_additive (interp : List (List ℝ) → List ℝ → List (List ℝ) → List ℝ) (g : Grid ℝ) (bw : List ℝ) :
    Quiet (calcAdditiveCorrection interp g bw) := by
  unfold calcAdditiveCorrection
  refine quiet_bind (quiet_kernel _ _ _) fun _ => quiet_bind (quiet_arith _ _ _ _) fun _ => quiet_bind (quiet_math _ _) fun _ =>
    quiet_bind (quiet_map2 _ _ _) fun _ => quiet_bind (quiet_math _ _) fun _ => quiet_bind (quiet_arith _ _ _ _) fun _ => ?_
  split
  · exact quiet_sparsify _ _ _
  · exact quiet_pure _

theorem quiet_multiplicative (interp : List (List ℝ) → List ℝ → List (List ℝ) → List ℝ) (g : Grid ℝ) (bw : List ℝ) :
    Quiet (multiplicativeGrid interp g bw) :=
  quiet_bind (quiet_kernel _ _ _) fun _ => quiet_bind (quiet_sparsify _ _ _) fun _ => quiet_bind (quiet_math _ _) fun _ => quiet_math _ _

variable {R : Type} {d : Nat}

theorem quiet_approxGrid (w : World R) (c : LdCfg ℝ d) (bw : List ℝ) (v : ApproxVariant) : Quiet (bdApproxGrid w c bw v) := by
  unfold bdApproxGrid
  split
  · quiet_base
  · exact quiet_bind (quiet_density _ _ _ _ _) fun _ => quiet_bind (quiet_additive _ _ _) fun _ => quiet_pure _
  · exact quiet_bind (quiet_density _ _ _ _ _) fun _ => quiet_bind (quiet_multiplicative _ _ _) fun _ => quiet_pure _

/-! ### Actions -/

theorem key_int {F : Type} {P : Int → Prop} {v : Option (OptVal F)} (h : IsInt P v) : ∃ x, v = some x := by
  obtain ⟨i, rfl, _⟩ := h; exact ⟨_, rfl⟩
theorem key_bool {F : Type} {v : Option (OptVal F)} (h : IsBool v) : ∃ x, v = some x := by
  obtain ⟨i, rfl⟩ := h; exact ⟨_, rfl⟩
theorem key_noneOr {F : Type} {r : Require F} {v : Option (OptVal F)} (h : NoneOr r v) (hr : r v → ∃ x, v = some x) : ∃ x, v = some x := by
  rcases h with rfl | h
  · exact ⟨_, rfl⟩
  · exact hr h
theorem key_str {F : Type} {P : String → Prop} {v : Option (OptVal F)} (h : IsStr P v) : ∃ x, v = some x := by
  obtain ⟨i, rfl, _⟩ := h; exact ⟨_, rfl⟩
theorem key_float {F : Type} {P : F → Prop} {v : Option (OptVal F)} (h : IsFloat P v) : ∃ x, v = some x := by
  obtain ⟨i, rfl, _⟩ := h; exact ⟨_, rfl⟩
theorem key_floats {F : Type} {P : F → Prop} {v : Option (OptVal F)} (h : IsFloats P v) : ∃ x, v = some x := by
  obtain ⟨i, rfl, _⟩ := h; exact ⟨_, rfl⟩
theorem key_ints {F : Type} {P : Int → Prop} {v : Option (OptVal F)} (h : IsInts P v) : ∃ x, v = some x := by
  obtain ⟨i, rfl, _⟩ := h; exact ⟨_, rfl⟩

theorem quiet_rng (w : World R) (u : RngUser) (s : Option Int) : Quiet (w.defaultRng u s) := by
  unfold World.defaultRng; quiet_base

theorem quiet_fields (d : Nat) (f : Option String) : Quiet (checkFields d f) := by
  have h : Quiet (potFields d) := by
    unfold potFields
    quiet_base
  unfold checkFields
  quiet_base

theorem quiet_output (b : Bool) (s : Option Nat) (f : Option String) : Quiet (checkOutput b s f) := by
  unfold checkOutput
  quiet_base

theorem quiet_approx (o : Dict (OptVal ℝ)) (key : String) (h : ∃ v, o.get? key = some v) : Quiet (getApproxVariant o key) := by
  unfold getApproxVariant
  refine quiet_bind (quiet_get h) fun v => quiet_bind (quiet_asOptStr v) fun label => ?_
  split
  · cases hl : approxFromStr (label.getD "") with
    | ok v => exact quiet_pure _
    | error e =>
      have : e = .typeError := by
        unfold approxFromStr at hl
        split at hl
        · cases hl
        · split at hl
          · cases hl
          · split at hl
            · cases hl
            · cases hl; rfl
      subst this
      exact quiet_throw rfl
  · exact quiet_pure _

theorem quiet_variant (o : Dict (OptVal ℝ)) (h1 : ∃ v, o.get? "correction-variant" = some v)
    (h2 : ∃ v, o.get? "approximation-variant" = some v) : Quiet (approxVariantOf o) := by
  unfold approxVariantOf
  simp only [List.foldlM_cons, List.foldlM_nil]
  exact quiet_bind (quiet_bind (quiet_approx o _ h1) fun _ => quiet_pure _) fun _ =>
    quiet_bind (quiet_bind (quiet_approx o _ h2) fun _ => quiet_pure _) fun _ => quiet_pure _

/-- The only exception of the birth-death action that is caught is that for the number of bandwidths. -/
theorem birthDeath_error (w : World R) (o : Dict (OptVal ℝ)) (c : LdCfg ℝ d) {b : Bool} (hv : ValidBirthDeath b o) (e : PyErr)
    (h : setupBirthDeath w o c = .error e) (hc : caughtSetup e = true) :
    e = .optionError "kernel-bandwidth" "birth-death" ∧ d ≠ 1 ∧
      ∃ v l, o.getItem "kernel-bandwidth" = .ok v ∧ v.asFloats = .ok l ∧ l.length ≠ d := by
  have quiet : ∀ {α : Type} {x : Except PyErr α}, Quiet x → x = .error e → False := by
    intro α x hq hx
    rw [hq e hx] at hc
    cases hc
  have hbw : ∃ v, o.get? "kernel-bandwidth" = some v := by
    have := hv.bandwidth
    split at this
    · exact key_float this
    · exact key_floats this
  unfold setupBirthDeath at h
  rcases bind_error h with h | ⟨bw, _, h⟩
  · unfold bdBandwidth at h
    rcases bind_error h with h | ⟨bw, hb, h⟩
    · refine (quiet ?_ h).elim
      split
      · exact quiet_bind (quiet_get hbw) fun _ => quiet_bind (quiet_asFloat _) fun _ => quiet_pure _
      · exact quiet_bind (quiet_get hbw) fun _ => quiet_asFloats _
    · split at h
      · rename_i hne
        cases h
        split at hb
        · rename_i hd
          obtain ⟨v, _, hb⟩ := bind_ok hb
          obtain ⟨x, _, hb⟩ := bind_ok hb
          cases hb
          simp [hd] at hne
        · rename_i hd
          obtain ⟨v, h1, h2⟩ := bind_ok hb
          exact ⟨rfl, hd, v, bw, h1, h2, hne⟩
      · cases h
  · refine (quiet ?_ h).elim
    refine quiet_bind (quiet_variant o (key_noneOr hv.correction key_str) (key_noneOr hv.approximation key_str)) fun _ => ?_
    refine quiet_bind (quiet_get (key_int hv.stride)) fun _ => quiet_bind (quiet_asOptStride _) fun _ => ?_
    refine quiet_bind (quiet_get (key_noneOr hv.factor key_float)) fun _ => quiet_bind (quiet_asOptFloat _) fun _ => ?_
    refine quiet_bind (quiet_get (key_bool hv.recalc)) fun _ => quiet_bind (quiet_asFlag _) fun _ => ?_
    refine quiet_bind (quiet_get (key_noneOr hv.statsStride key_int)) fun _ => quiet_bind (quiet_asOptStride _) fun _ => ?_
    refine quiet_bind (quiet_get (key_noneOr hv.seed key_int)) fun _ => quiet_bind (quiet_asOptInt _) fun _ => ?_
    exact quiet_bind (quiet_rng _ _ _) fun _ => quiet_bind (quiet_approxGrid _ _ _ _) fun _ => quiet_pure _

theorem quiet_trajectories (w : World R) (o : Dict (OptVal ℝ)) (dt : ℝ) (n : Nat) (hv : ValidOutput o)
    (hm : NoneOr IsBool (o.get? "momentum")) : Quiet (setupTrajectories w d o dt n) := by
  unfold setupTrajectories
  refine quiet_bind (quiet_get (key_noneOr hv.stride key_int)) fun _ => quiet_bind (quiet_asOptStride _) fun _ => ?_
  refine quiet_bind (quiet_get (key_noneOr hv.filename key_str)) fun _ => quiet_bind (quiet_asOptStr _) fun _ => ?_
  refine quiet_bind (quiet_get (key_noneOr hm key_bool)) fun _ => quiet_bind (quiet_asFlag _) fun _ => ?_
  refine quiet_bind (quiet_get (key_noneOr hv.writeStride key_int)) fun _ => quiet_bind (quiet_asOptStride _) fun _ => ?_
  exact quiet_bind (quiet_fields _ _) fun _ => quiet_pure _

theorem quiet_histogramdd {F : Type} [LinearOrder F] (bins : List (List F)) (pts : List (List F)) : Quiet (histogramdd bins pts) := by
  unfold histogramdd
  quiet_base

theorem quiet_newHistogram {F : Type} [Field F] [LinearOrder F] (n : List Nat) (r : List (F × F)) : Quiet (Histogram.new n r) := by
  have h1 : Quiet ((n.zip r).mapM (fun nr => npEdges nr.1 nr.2)) := quiet_mapM _ fun a => by
    unfold npEdges
    quiet_base
  have h2 := fun bins : List (List F) => quiet_histogramdd bins [List.replicate n.length 0]
  unfold Histogram.new
  quiet_base
  all_goals exact h2 _

theorem quiet_histCfg {F : Type} [Field F] [LinearOrder F] (c : TrajCfg F) (n : Nat) (b : List Nat) (r : List (F × F)) (s : Option Nat)
    (re : Option (List Nat)) (f : Bool) (ws : Option Nat) : Quiet (HistCfg.new c n b r s re f ws) := by
  have := quiet_newHistogram b r
  unfold HistCfg.new
  quiet_base

theorem quiet_histogram (o : Dict (OptVal ℝ)) (t : TrajCfg ℝ) {b : Bool} (hv : ValidHistogram b o) : Quiet (setupHistogram d o t) := by
  have hmin : ∃ v, o.get? "min" = some v := by
    have := hv.min
    split at this
    · exact key_float this
    · exact key_floats this
  have hmax : ∃ v, o.get? "max" = some v := by
    have := hv.max
    split at this
    · exact key_float this
    · exact key_floats this
  have hbins : ∃ v, o.get? "bins" = some v := by
    have := hv.bins
    split at this
    · exact key_int this
    · exact key_ints this
  unfold setupHistogram
  refine quiet_bind ?_ fun p => ?_
  · split
    · unfold singleRange
      refine quiet_bind (quiet_bind (quiet_get hmin) fun _ => quiet_bind (quiet_asFloat _) fun _ => quiet_bind (quiet_get hmax) fun _ =>
        quiet_bind (quiet_asFloat _) fun _ => quiet_pure _) fun _ => ?_
      exact quiet_bind (quiet_get hbins) fun _ => quiet_bind (quiet_asInt _) fun _ => quiet_pure _
    · unfold zipRanges
      refine quiet_bind (quiet_bind (quiet_get hmin) fun _ => quiet_bind (quiet_asFloats _) fun _ => quiet_bind (quiet_get hmax) fun _ =>
        quiet_bind (quiet_asFloats _) fun _ => quiet_pure _) fun _ => ?_
      exact quiet_bind (quiet_get hbins) fun _ => quiet_bind (quiet_asNats _) fun _ => quiet_pure _
  · refine quiet_bind (quiet_get (key_noneOr hv.stride key_int)) fun _ => quiet_bind (quiet_asOptStride _) fun _ => ?_
    refine quiet_bind (quiet_get (key_noneOr hv.reset key_ints)) fun _ => quiet_bind (quiet_asOptNats _) fun _ => ?_
    refine quiet_bind (quiet_get (key_noneOr hv.filename key_str)) fun _ => quiet_bind (quiet_asOptStr _) fun _ => ?_
    refine quiet_bind (quiet_get (key_noneOr hv.writeStride key_int)) fun _ => quiet_bind (quiet_asOptStride _) fun _ => ?_
    exact quiet_bind (quiet_histCfg _ _ _ _ _ _ _ _) fun _ => quiet_bind (quiet_fields _ _) fun _ => quiet_pure _

theorem quiet_npMin {F : Type} [LT F] [DecidableLT F] (l : List F) : Quiet (npMin l) := by
  cases l
  · exact quiet_error rfl
  · exact quiet_ok _

theorem quiet_calculateFes (counts : Nd Nat) (kt : ℝ) (b : Bool) : Quiet (calculateFes counts kt b) := by
  unfold calculateFes
  dsimp only
  split
  · refine quiet_bind (quiet_npMin _) fun m => ?_
    split <;> exact quiet_pure _
  · exact quiet_pure _

theorem quiet_reference (p : Potential ℝ d) (h : Histogram ℝ) : Quiet (fesReference p h) := by
  unfold fesReference
  refine quiet_bind (quiet_pointsOfAxes _) fun pts => ?_
  unfold calculateReference
  dsimp only
  rw [if_pos rfl]
  exact quiet_bind (quiet_npMin _) fun _ => quiet_pure _

theorem quiet_fes (w : World R) (o : Dict (OptVal ℝ)) (ld : LdCfg ℝ d) (h : Histogram ℝ) (hv : ValidFes o) : Quiet (setupFes w o ld h) := by
  unfold setupFes
  refine quiet_bind (quiet_reference _ _) fun _ => ?_
  refine quiet_bind (quiet_get (key_noneOr hv.stride key_int)) fun _ => quiet_bind (quiet_asOptStride _) fun _ => ?_
  refine quiet_bind (quiet_get (key_noneOr hv.filename key_str)) fun _ => quiet_bind (quiet_asOptStr _) fun _ => ?_
  refine quiet_bind (quiet_get (key_noneOr hv.writeStride key_int)) fun _ => quiet_bind (quiet_asOptStride _) fun _ => ?_
  refine quiet_bind (quiet_get (key_noneOr hv.plotStride key_int)) fun _ => quiet_bind (quiet_asOptInt _) fun _ => ?_
  refine quiet_bind (quiet_get (key_noneOr hv.plotFilename key_str)) fun _ => quiet_bind (quiet_asOptStr _) fun _ => ?_
  refine quiet_bind (quiet_get (key_noneOr hv.plotDomain key_floats)) fun _ => quiet_bind (quiet_asOptFloats _) fun _ => ?_
  refine quiet_bind (quiet_get (key_noneOr hv.plotTitle key_str)) fun _ => quiet_bind (quiet_asOptStr _) fun _ => ?_
  exact quiet_bind (quiet_calculateFes _ _ _) fun _ => quiet_bind (quiet_fields _ _) fun _ => quiet_bind (quiet_output _ _ _) fun _ =>
    quiet_bind (quiet_output _ _ _) fun _ => quiet_pure _

theorem quiet_series {F : Type} (s ws : Option Nat) (f : Bool) (t : Nat → F) : Quiet (SeriesCfg.new s ws f t) := by
  unfold SeriesCfg.new
  quiet_base

theorem quiet_insideLoop {F : Type} [LE F] [DecidableLE F] (pos : List (List F)) (state : List (F × F)) (n : Nat) :
    ∀ (fuel i : Nat) (l : List Bool), Quiet (insideLoop pos state n fuel i l)
  | 0, i, l => quiet_ok _
  | fuel + 1, i, l => by
    rw [insideLoop]
    split
    · split
      · exact quiet_error rfl
      · exact quiet_insideLoop pos state n fuel _ _
    · exact quiet_ok _

theorem quiet_deltaF (w : World R) (o : Dict (OptVal ℝ)) (kt dt : ℝ) (h : Histogram ℝ) (hv : ValidOutput o) :
    Quiet (setupDeltaFAction w o kt dt h) := by
  have hs : ∀ states, Quiet (setupDeltaF h states) := by
    intro states
    have h1 : Quiet (pointsOfAxes h.axes) := quiet_pointsOfAxes _
    have h2 : ∀ points, Quiet (posInsideRanges h.axes.length points states) := fun points =>
      quiet_mapM _ fun a => quiet_insideLoop _ _ _ _ _ _
    have h3 : ∀ masks, Quiet (checkMaskShapes masks h.shape) := fun masks => by
      unfold checkMaskShapes
      quiet_base
    unfold setupDeltaF
    quiet_base
    all_goals first | exact h2 _ | exact h3 _
  unfold setupDeltaFAction
  refine quiet_bind (quiet_stateRanges _) fun _ => quiet_bind (hs _) fun _ => ?_
  refine quiet_bind (quiet_get (key_noneOr hv.stride key_int)) fun _ => quiet_bind (quiet_asOptStride _) fun _ => ?_
  refine quiet_bind (quiet_get (key_noneOr hv.filename key_str)) fun _ => quiet_bind (quiet_asOptStr _) fun _ => ?_
  refine quiet_bind (quiet_get (key_noneOr hv.writeStride key_int)) fun _ => quiet_bind (quiet_asOptStride _) fun _ => ?_
  exact quiet_bind (quiet_series _ _ _ _) fun _ => quiet_pure _

theorem quiet_distribution (w : World R) (o : Dict (OptVal ℝ)) (hv : ValidOutput o) : Quiet (setupDistribution w o) := by
  unfold setupDistribution
  refine quiet_bind (quiet_stateRanges _) fun _ => ?_
  refine quiet_bind (quiet_get (key_noneOr hv.stride key_int)) fun _ => quiet_bind (quiet_asOptStride _) fun _ => ?_
  refine quiet_bind (quiet_get (key_noneOr hv.filename key_str)) fun _ => quiet_bind (quiet_asOptStr _) fun _ => ?_
  refine quiet_bind (quiet_get (key_noneOr hv.writeStride key_int)) fun _ => quiet_bind (quiet_asOptStride _) fun _ => ?_
  exact quiet_bind (quiet_series _ _ _ _) fun _ => quiet_pure _

end Bdld
